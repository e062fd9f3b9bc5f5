import Verif.Validation.SetSpec
import Verif.Validation.History
import Verif.Validation.Accept

/-!
# What is known of the selection sets of valid documents
-/
namespace Verif.Validation.Spec
open Verif.Value Verif.Errors Verif.Ast Verif.Validation

variable {S : Schema} {ov : Int → Int} {fragments : List FragmentDef} {vars : Option VariableTypes}

theorem Checked.mem_inline {stack : List Str} {type : Str} {sel : List Selection} {before after : List (Str × Occurrence)}
    {uses : Uses} (h : Checked S ov fragments vars stack type sel before after uses) {pos : Loc} {t : Option Str}
    {ds : Option (List Directive)} {sub : List Selection} (hm : .inline pos t ds sub ∈ sel) :
    DirectivesOk S vars .inlineFragment ds ∧
    (∀ name, t = some name → name ≠ [] → S.isComposite name = true ∧ S.overlap type name = true) ∧
    ∃ before' after' uses', Checked S ov fragments vars stack (if t.getD [] = [] then type else t.getD []) sub before' after' uses' := by
  induction h with
  | nil => cases hm
  | leaf _ _ _ _ _ ih => exact ih (by simpa using hm)
  | node _ _ _ _ _ _ _ ih => exact ih (by simpa using hm)
  | leafAgain _ _ _ _ ih => exact ih (by simpa using hm)
  | nodeAgain _ _ _ _ ih => exact ih (by simpa using hm)
  | spread _ _ _ _ _ _ _ _ ih => exact ih (by simpa using hm)
  | inline hds htype hsub hrest ih1 ih2 =>
    rcases List.mem_cons.mp hm with e | hm'
    · cases e
      exact ⟨hds, htype, _, _, _, hsub⟩
    · exact ih2 hm'

theorem Checked.mem_spread {stack : List Str} {type : Str} {sel : List Selection} {before after : List (Str × Occurrence)}
    {uses : Uses} (h : Checked S ov fragments vars stack type sel before after uses) {pos : Loc} {name : Str}
    {ds : Option (List Directive)} (hm : .spread pos name ds ∈ sel) :
    DirectivesOk S vars .fragmentSpread ds ∧ name ∉ stack ∧
    ∃ fragment, fragments.find? (fun f => f.name == name) = some fragment ∧
      S.overlap type fragment.typeCondition = true ∧
      ∃ before' after' uses',
        Checked S ov fragments vars (name :: stack) fragment.typeCondition fragment.sub before' after' uses' := by
  induction h with
  | nil => cases hm
  | leaf _ _ _ _ _ ih => exact ih (by simpa using hm)
  | node _ _ _ _ _ _ _ ih => exact ih (by simpa using hm)
  | leafAgain _ _ _ _ ih => exact ih (by simpa using hm)
  | nodeAgain _ _ _ _ ih => exact ih (by simpa using hm)
  | inline _ _ _ _ _ ih => exact ih (by simpa using hm)
  | spread hds hfind hstack hk ho hsub hrest ih1 ih2 =>
    rcases List.mem_cons.mp hm with e | hm'
    · cases e
      exact ⟨hds, hstack, _, hfind, ho, _, _, _, hsub⟩
    · exact ih2 hm'

/-- Checking goes through all the parts of a set. -/
theorem Checked.part {type : Str} {sel : List Selection} {type' : Str} {sel' : List Selection}
    (hp : Part fragments type sel type' sel') {stack : List Str} {before after : List (Str × Occurrence)} {uses : Uses}
    (h : Checked S ov fragments vars stack type sel before after uses) :
    ∃ stack' before' after' uses', stack ⊆ stack' ∧ Checked S ov fragments vars stack' type' sel' before' after' uses' := by
  induction hp generalizing stack before after uses with
  | self => exact ⟨_, _, _, _, List.Subset.refl _, h⟩
  | inline hm _ ih =>
    obtain ⟨_, _, _, _, _, h1⟩ := h.mem_inline hm
    exact ih h1
  | spread hm hf _ ih =>
    obtain ⟨_, _, fragment, hf', _, _, _, _, h1⟩ := h.mem_spread hm
    rw [hf] at hf'
    cases hf'
    obtain ⟨s', b', a', u', hs, hc⟩ := ih h1
    exact ⟨s', b', a', u', fun x hx => hs (List.mem_cons_of_mem _ hx), hc⟩

/-- A field in a checked set. -/
structure FieldFine (S : Schema) (ov : Int → Int) (vars : Option VariableTypes) (fields : List (Str × Occurrence)) (on : Str)
    (f : Field) (def_ : FieldDef) : Prop where
  ok : FieldOk S vars on f def_
  first : ∃ first, (Exec.responseName f, first) ∈ fields ∧ (first = ⟨on, f, def_.type⟩ ∨ Agree S ov first ⟨on, f, def_.type⟩)

theorem Checked.subset {stack : List Str} {type : Str} {sel : List Selection} {before after : List (Str × Occurrence)} {uses : Uses}
    (h : Checked S ov fragments vars stack type sel before after uses) : before ⊆ after := by
  induction h with
  | nil => exact List.Subset.refl _
  | leaf _ _ _ _ _ ih => exact fun x hx => ih (List.mem_append_left _ hx)
  | node _ _ _ _ _ _ _ ih => exact fun x hx => ih (List.mem_append_left _ hx)
  | leafAgain _ _ _ _ ih => exact ih
  | nodeAgain _ _ _ _ ih => exact ih
  | spread _ _ _ _ _ _ _ ih1 ih2 => exact fun x hx => ih2 (ih1 hx)
  | inline _ _ _ _ ih1 ih2 => exact fun x hx => ih2 (ih1 hx)

theorem FieldFine.mono {fields fields' : List (Str × Occurrence)} (hs : fields ⊆ fields') {on : Str} {f : Field} {def_ : FieldDef}
    (h : FieldFine S ov vars fields on f def_) : FieldFine S ov vars fields' on f def_ := by
  obtain ⟨first, hm, h2⟩ := h.first
  exact ⟨h.ok, first, hs hm, h2⟩

theorem Selects.cons_iff {type on : Str} {s : Selection} {rest : List Selection} {f : Field} {sub : Option (List Selection)} :
    Selects fragments type (s :: rest) on f sub ↔
      Selects fragments type [s] on f sub ∨ Selects fragments type rest on f sub := by
  constructor
  · rintro ⟨sel', hp, h⟩
    cases hp with
    | self =>
      rcases h with ⟨e, h⟩ | ⟨pos, below, e, h⟩
      · rcases List.mem_cons.mp h with e' | h
        · exact .inl ⟨_, .self, .inl ⟨e, by simp [e']⟩⟩
        · exact .inr ⟨_, .self, .inl ⟨e, h⟩⟩
      · rcases List.mem_cons.mp h with e' | h
        · exact .inl ⟨_, .self, .inr ⟨pos, below, e, by simp [e']⟩⟩
        · exact .inr ⟨_, .self, .inr ⟨pos, below, e, h⟩⟩
    | inline hm hp =>
      rcases List.mem_cons.mp hm with e' | hm
      · exact .inl ⟨_, .inline (by rw [e']; simp) hp, h⟩
      · exact .inr ⟨_, .inline hm hp, h⟩
    | spread hm hf hp =>
      rcases List.mem_cons.mp hm with e' | hm
      · exact .inl ⟨_, .spread (by rw [e']; simp) hf hp, h⟩
      · exact .inr ⟨_, .spread hm hf hp, h⟩
  · have hmono : ∀ sel sel2 : List Selection, sel ⊆ sel2 → Selects fragments type sel on f sub →
        Selects fragments type sel2 on f sub := by
      rintro sel sel2 hs ⟨sel', hp, h⟩
      cases hp with
      | self =>
        rcases h with ⟨e, h⟩ | ⟨pos, below, e, h⟩
        · exact ⟨_, .self, .inl ⟨e, hs h⟩⟩
        · exact ⟨_, .self, .inr ⟨pos, below, e, hs h⟩⟩
      | inline hm hp => exact ⟨_, .inline (hs hm) hp, h⟩
      | spread hm hf hp => exact ⟨_, .spread (hs hm) hf hp, h⟩
    rintro (h | h)
    · exact hmono _ _ (by simp) h
    · exact hmono _ _ (by simp) h

theorem Selects.nil_iff {type on : Str} {f : Field} {sub : Option (List Selection)} :
    ¬ Selects fragments type [] on f sub := by
  rintro ⟨sel', hp, h⟩
  cases hp with
  | self => simp at h
  | inline hm _ => cases hm
  | spread hm _ _ => cases hm

theorem Selects.leaf_iff {type on : Str} {g f : Field} {sub : Option (List Selection)} :
    Selects fragments type [.leaf g] on f sub ↔ on = type ∧ f = g ∧ sub = none := by
  constructor
  · rintro ⟨sel', hp, h⟩
    cases hp with
    | self => simpa [and_comm] using h
    | inline hm _ => simp at hm
    | spread hm _ _ => simp at hm
  · rintro ⟨rfl, rfl, rfl⟩
    exact ⟨_, .self, .inl ⟨rfl, by simp⟩⟩

theorem Selects.node_iff {type on : Str} {g f : Field} {pos : Loc} {below : List Selection} {sub : Option (List Selection)} :
    Selects fragments type [.node g pos below] on f sub ↔ on = type ∧ f = g ∧ sub = some below := by
  constructor
  · rintro ⟨sel', hp, h⟩
    cases hp with
    | self =>
      refine ⟨rfl, ?_⟩
      rcases h with ⟨_, h⟩ | ⟨_, _, e, h⟩
      · simp at h
      · simp at h; simp [e, h]
    | inline hm _ => simp at hm
    | spread hm _ _ => simp at hm
  · rintro ⟨rfl, rfl, rfl⟩
    exact ⟨_, .self, .inr ⟨pos, _, rfl, by simp⟩⟩

theorem Selects.inline_iff {type on : Str} {f : Field} {pos : Loc} {t : Option Str} {ds : Option (List Directive)}
    {below : List Selection} {sub : Option (List Selection)} :
    Selects fragments type [.inline pos t ds below] on f sub ↔
      Selects fragments (if t.getD [] = [] then type else t.getD []) below on f sub := by
  constructor
  · rintro ⟨sel', hp, h⟩
    cases hp with
    | self => simp at h
    | inline hm hp =>
      simp only [List.mem_singleton, Selection.inline.injEq] at hm
      obtain ⟨_, rfl, _, rfl⟩ := hm
      exact ⟨_, hp, h⟩
    | spread hm _ _ => simp at hm
  · rintro ⟨sel', hp, h⟩
    exact ⟨_, .inline (List.mem_singleton.mpr rfl) hp, h⟩

theorem Selects.spread_iff {type on : Str} {f : Field} {pos : Loc} {name : Str} {ds : Option (List Directive)}
    {fragment : FragmentDef} (hf : fragments.find? (fun f => f.name == name) = some fragment)
    {sub : Option (List Selection)} :
    Selects fragments type [.spread pos name ds] on f sub ↔
      Selects fragments fragment.typeCondition fragment.sub on f sub := by
  constructor
  · rintro ⟨sel', hp, h⟩
    cases hp with
    | self => simp at h
    | inline hm hp => simp at hm
    | spread hm hf' hp =>
      simp only [List.mem_singleton, Selection.spread.injEq] at hm
      obtain ⟨_, rfl, _⟩ := hm
      rw [hf] at hf'
      cases hf'
      exact ⟨_, hp, h⟩
  · rintro ⟨sel', hp, h⟩
    exact ⟨_, .spread (List.mem_singleton.mpr rfl) hf hp, h⟩

/-- What is known of the fields of a set: each one is fine by itself, and agrees with the first one of its response name. -/
theorem Checked.selects {stack : List Str} {type : Str} {sel : List Selection} {before after : List (Str × Occurrence)}
    {uses : Uses} (h : Checked S ov fragments vars stack type sel before after uses) {on : Str} {f : Field}
    {sub : Option (List Selection)} (hs : Selects fragments type sel on f sub) :
    ∃ def_, FieldFine S ov vars after on f def_ := by
  induction h with
  | nil => exact absurd hs Selects.nil_iff
  | leaf hf hnew hargs hleaf hrest ih =>
    rcases Selects.cons_iff.mp hs with h | h
    · obtain ⟨rfl, rfl, rfl⟩ := Selects.leaf_iff.mp h
      exact ⟨_, hf, _, hrest.subset (List.mem_append_right _ (List.mem_singleton.mpr rfl)), .inl rfl⟩
    · exact ih h
  | node hf hnew hargs hsub hsome hrest _ ih =>
    rcases Selects.cons_iff.mp hs with h | h
    · obtain ⟨rfl, rfl, rfl⟩ := Selects.node_iff.mp h
      exact ⟨_, hf, _, hrest.subset (List.mem_append_right _ (List.mem_singleton.mpr rfl)), .inl rfl⟩
    · exact ih h
  | leafAgain hf hmem hagree hrest ih =>
    rcases Selects.cons_iff.mp hs with h | h
    · obtain ⟨rfl, rfl, rfl⟩ := Selects.leaf_iff.mp h
      exact ⟨_, hf, _, hrest.subset hmem, .inr hagree⟩
    · exact ih h
  | nodeAgain hf hmem hagree hrest ih =>
    rcases Selects.cons_iff.mp hs with h | h
    · obtain ⟨rfl, rfl, rfl⟩ := Selects.node_iff.mp h
      exact ⟨_, hf, _, hrest.subset hmem, .inr hagree⟩
    · exact ih h
  | spread hds hfind hstack hk ho hsub hrest ih1 ih2 =>
    rcases Selects.cons_iff.mp hs with h | h
    · obtain ⟨d, hd⟩ := ih1 ((Selects.spread_iff hfind).mp h)
      exact ⟨d, hd.mono hrest.subset⟩
    · exact ih2 h
  | inline hds htype hsub hrest ih1 ih2 =>
    rcases Selects.cons_iff.mp hs with h | h
    · obtain ⟨d, hd⟩ := ih1 (Selects.inline_iff.mp h)
      exact ⟨d, hd.mono hrest.subset⟩
    · exact ih2 h

/-- A selection set which is checked by itself. -/
def Entered (S : Schema) (ov : Int → Int) (fragments : List FragmentDef) (vars : Option VariableTypes) (stack : List Str)
    (type : Str) (sel : List Selection) : Prop :=
  ∃ stack' after uses, stack ⊆ stack' ∧ Checked S ov fragments vars stack' type sel [] after uses

/-- The fields recorded for a set `root`: they come from it, their arguments are fine, and what is below is checked. -/
def Recorded (S : Schema) (ov : Int → Int) (fragments : List FragmentDef) (vars : Option VariableTypes) (stack : List Str)
    (rootType : Str) (root : List Selection) (fields : List (Str × Occurrence)) : Prop :=
  ∀ e ∈ fields, e.1 = Exec.responseName e.2.field ∧ ∃ sub def_, Selects fragments rootType root e.2.parent e.2.field sub ∧
    FieldOk S vars e.2.parent e.2.field def_ ∧ e.2.type = def_.type ∧
    ArgumentsOk S vars def_.arguments (e.2.field.arguments.getD []) ∧
    (sub = none → S.isComposite (baseName def_.type) = false) ∧
    ∀ below, sub = some below → Entered S ov fragments vars stack (baseName def_.type) below

theorem Checked.recorded {stack0 stack : List Str} {rootType : Str} {root : List Selection} {type : Str} {sel : List Selection}
    {before after : List (Str × Occurrence)} {uses : Uses} (h : Checked S ov fragments vars stack type sel before after uses)
    (hstack : stack0 ⊆ stack)
    (hsel : ∀ on f sub, Selects fragments type sel on f sub → Selects fragments rootType root on f sub)
    (hb : Recorded S ov fragments vars stack0 rootType root before) :
    Recorded S ov fragments vars stack0 rootType root after := by
  induction h with
  | nil => exact hb
  | @leaf stack type f def_ rest before after uses hf hnew hargs hleaf hrest ih =>
    refine ih hstack (fun on f sub hs => hsel _ _ _ (Selects.cons_iff.mpr (.inr hs))) ?_
    intro e he
    rcases List.mem_append.mp he with he | he
    · exact hb e he
    · rw [List.mem_singleton] at he
      subst he
      exact ⟨rfl, none, def_, hsel _ _ _ (Selects.cons_iff.mpr (.inl (Selects.leaf_iff.mpr ⟨rfl, rfl, rfl⟩))), hf, rfl, hargs,
        fun _ => hleaf, nofun⟩
  | @node stack type f pos sub def_ rest before inside after uses uses' hf hnew hargs hsub hsome hrest _ ih =>
    refine ih hstack (fun on f sub hs => hsel _ _ _ (Selects.cons_iff.mpr (.inr hs))) ?_
    intro e he
    rcases List.mem_append.mp he with he | he
    · exact hb e he
    · rw [List.mem_singleton] at he
      subst he
      exact ⟨rfl, some sub, def_, hsel _ _ _ (Selects.cons_iff.mpr (.inl (Selects.node_iff.mpr ⟨rfl, rfl, rfl⟩))), hf, rfl, hargs,
        nofun, by rintro _ ⟨⟩; exact ⟨stack, inside, uses', hstack, hsub⟩⟩
  | leafAgain hf hmem hagree hrest ih =>
    exact ih hstack (fun on f sub hs => hsel _ _ _ (Selects.cons_iff.mpr (.inr hs))) hb
  | nodeAgain hf hmem hagree hrest ih =>
    exact ih hstack (fun on f sub hs => hsel _ _ _ (Selects.cons_iff.mpr (.inr hs))) hb
  | spread hds hfind hns hk ho hsub hrest ih1 ih2 =>
    exact ih2 hstack (fun on f sub hs => hsel _ _ _ (Selects.cons_iff.mpr (.inr hs)))
      (ih1 (fun x hx => List.mem_cons_of_mem _ (hstack hx))
        (fun on f sub hs => hsel _ _ _ (Selects.cons_iff.mpr (.inl ((Selects.spread_iff hfind).mpr hs)))) hb)
  | inline hds htype hsub hrest ih1 ih2 =>
    exact ih2 hstack (fun on f sub hs => hsel _ _ _ (Selects.cons_iff.mpr (.inr hs)))
      (ih1 hstack (fun on f sub hs => hsel _ _ _ (Selects.cons_iff.mpr (.inl (Selects.inline_iff.mpr hs)))) hb)

/-- Every set below a checked one is checked. -/
theorem entered_below {stack : List Str} {type : Str} {sel : List Selection} (h : Entered S ov fragments vars stack type sel)
    {type' : Str} {sel' : List Selection} (hb : Below S fragments type sel type' sel') :
    Entered S ov fragments vars stack type' sel' := by
  induction hb with
  | self => exact h
  | @field type' sel' on f sub def_ hb hf ha hd ih =>
    obtain ⟨stack', after, uses, hs, hch⟩ := ih
    obtain ⟨def', hfine⟩ := hch.selects hf
    have hdef : def' = def_ := by
      have := hfine.ok.exists_.found
      rw [hd] at this
      exact (Option.some.inj this).symm
    subst hdef
    obtain ⟨first, hm, hfirst⟩ := hfine.first
    have hr := hch.recorded (rootType := type') (root := sel') hs (fun _ _ _ h => h) (fun e he => by cases he)
    obtain ⟨hn, sub1, def1, hs1, hf1, ht1, ha1, hl1, hb1⟩ := hr _ hm
    have hsame : sub1 = some sub := ha _ _ _ hs1 hn.symm
    have htype : def1.type = def'.type := by
      rw [← ht1]
      rcases hfirst with e | e
      · rw [e]
      · exact e.1
    rw [← htype]
    exact hb1 _ hsame

theorem Part.inline_last {type type1 : Str} {sel sel1 : List Selection} (h : Part fragments type sel type1 sel1) {pos : Loc}
    {t : Option Str} {ds : Option (List Directive)} {sub : List Selection} (hm : .inline pos t ds sub ∈ sel1) :
    Part fragments type sel (if t.getD [] = [] then type1 else t.getD []) sub := by
  induction h with
  | self => exact .inline hm .self
  | inline hm' _ ih => exact .inline hm' (ih hm)
  | spread hm' hf _ ih => exact .spread hm' hf (ih hm)

theorem Part.spread_last {type type1 : Str} {sel sel1 : List Selection} (h : Part fragments type sel type1 sel1) {pos : Loc}
    {name : Str} {ds : Option (List Directive)} {fragment : FragmentDef} (hm : .spread pos name ds ∈ sel1)
    (hf : fragments.find? (fun f => f.name == name) = some fragment) :
    Part fragments type sel fragment.typeCondition fragment.sub := by
  induction h with
  | self => exact .spread hm hf .self
  | inline hm' _ ih => exact .inline hm' (ih hm)
  | spread hm' hf' _ ih => exact .spread hm' hf' (ih hm)

/-- A fragment which is reached is spread in one of the sets below. -/
theorem reaches_spread {stack : List Str} {type0 : Str} {sel0 : List Selection}
    (h0 : Entered S ov fragments vars stack type0 sel0) (hc : Consistent S fragments type0 sel0) {sel : List Selection} {name : Str}
    (hr : Reaches fragments sel name) : ∀ {type1 type : Str} {sel1 : List Selection},
      Below S fragments type0 sel0 type1 sel1 → Part fragments type1 sel1 type sel →
      ∃ type2 sel2 type3 sel3 pos ds, Below S fragments type0 sel0 type2 sel2 ∧ Part fragments type2 sel2 type3 sel3 ∧
        .spread pos name ds ∈ sel3 := by
  induction hr with
  | here hm => exact fun hb hp => ⟨_, _, _, _, _, _, hb, hp, hm⟩
  | @node sel f pos sub name hm h ih =>
    intro type1 type sel1 hb hp
    have hs : Selects fragments type1 sel1 type f (some sub) := ⟨sel, hp, .inr ⟨pos, sub, rfl, hm⟩⟩
    obtain ⟨_, _, _, _, hch⟩ := entered_below h0 hb
    obtain ⟨def_, hfine⟩ := hch.selects hs
    exact ih (.field hb hs (hc _ _ hb _ _ _ hs) hfine.ok.exists_.found) .self
  | inline hm h ih => exact fun hb hp => ih hb (hp.inline_last hm)
  | spread hm hf h ih => exact fun hb hp => ih hb (hp.spread_last hm hf)

/-- None of the fragments we are inside of is reached. -/
theorem not_reaches {stack : List Str} {type : Str} {sel : List Selection} (h : Entered S ov fragments vars stack type sel)
    (hc : Consistent S fragments type sel) {name : Str} (hn : name ∈ stack) : ¬ Reaches fragments sel name := by
  intro hr
  obtain ⟨_, _, _, _, _, _, hb, hp, hm⟩ := reaches_spread h hc hr .self .self
  obtain ⟨stack1, _, _, hs1, hch⟩ := entered_below h hb
  obtain ⟨stack2, _, _, _, hs2, hch2⟩ := hch.part hp
  exact (hch2.mem_spread hm).2.1 (hs2 (hs1 hn))

/-- The fragments used are reached. -/
theorem Checked.uses_reaches {stack : List Str} {type : Str} {sel : List Selection} {before after : List (Str × Occurrence)}
    {uses : Uses} (h : Checked S ov fragments vars stack type sel before after uses) {name : Str} (hn : name ∈ uses.fragments) :
    Reaches fragments sel name ∧ name ∉ stack := by
  have hcons : ∀ (s : Selection) (rest : List Selection), Reaches fragments rest name → Reaches fragments (s :: rest) name := by
    intro s rest h
    cases h with
    | here hm => exact .here (List.mem_cons_of_mem _ hm)
    | node hm h => exact .node (List.mem_cons_of_mem _ hm) h
    | inline hm h => exact .inline (List.mem_cons_of_mem _ hm) h
    | spread hm hf h => exact .spread (List.mem_cons_of_mem _ hm) hf h
  induction h with
  | nil => exact absurd hn (by simp)
  | leaf _ _ _ _ _ ih =>
    have := ih (by simpa [Uses.and] using hn)
    exact ⟨hcons _ _ this.1, this.2⟩
  | node _ _ _ _ _ _ ih1 ih =>
    simp only [Uses.and, Set.empty_union, Set.mem_union] at hn
    rcases hn with hn | hn
    · exact ⟨.node (List.mem_cons_self) (ih1 hn).1, (ih1 hn).2⟩
    · exact ⟨hcons _ _ (ih hn).1, (ih hn).2⟩
  | leafAgain _ _ _ _ ih =>
    have := ih (by simpa [Uses.and] using hn)
    exact ⟨hcons _ _ this.1, this.2⟩
  | nodeAgain _ _ _ _ ih =>
    have := ih (by simpa [Uses.and] using hn)
    exact ⟨hcons _ _ this.1, this.2⟩
  | spread hds hfind hns hk ho hsub hrest ih1 ih2 =>
    simp only [Uses.and, Set.mem_union, Set.mem_singleton_iff] at hn
    rcases hn with (rfl | hn) | hn
    · exact ⟨.here List.mem_cons_self, hns⟩
    · exact ⟨.spread List.mem_cons_self hfind (ih1 hn).1, fun hc => (ih1 hn).2 (List.mem_cons_of_mem _ hc)⟩
    · exact ⟨hcons _ _ (ih2 hn).1, (ih2 hn).2⟩
  | inline hds htype hsub hrest ih1 ih2 =>
    simp only [Uses.and, Set.empty_union, Set.mem_union] at hn
    rcases hn with hn | hn
    · exact ⟨.inline List.mem_cons_self (ih1 hn).1, (ih1 hn).2⟩
    · exact ⟨hcons _ _ (ih2 hn).1, (ih2 hn).2⟩

theorem Mentions.inLit {l : Lit} {t : TypeRef} {v : Str} (h : Mentions S l t v) : InLit l v := by
  induction h with
  | «variable» => exact .variable
  | list _ hx _ ih => exact .list hx ih
  | object _ _ _ he _ _ ih => exact .object he ih

theorem inArguments {defs : List InputValue} {args : Option Args} {v : Str}
    (h : v ∈ argumentVariables S vars defs (args.getD [])) : InArguments args v := by
  obtain ⟨_, e, he, _, _, hm⟩ := h
  exact ⟨e, he, hm.inLit⟩

theorem inDirectives {ds : Option (List Directive)} {v : Str} (h : v ∈ directiveVariables S vars ds) : InDirectives ds v := by
  obtain ⟨d, hd, _, args, _, ha, hv⟩ := h
  refine ⟨d, hd, ?_⟩
  rw [ha]
  exact inArguments (args := some args) hv

/-- The variables used are written there. -/
theorem Checked.uses_variables {stack : List Str} {type : Str} {sel : List Selection} {before after : List (Str × Occurrence)}
    {uses : Uses} (h : Checked S ov fragments vars stack type sel before after uses) {name : Str} (hn : name ∈ uses.vars) :
    InSelections fragments sel name := by
  have hcons : ∀ (s : Selection) (rest : List Selection), InSelections fragments rest name → InSelections fragments (s :: rest) name := by
    intro s rest h
    cases h with
    | leafArguments hm h => exact .leafArguments (List.mem_cons_of_mem _ hm) h
    | leafDirectives hm h => exact .leafDirectives (List.mem_cons_of_mem _ hm) h
    | nodeArguments hm h => exact .nodeArguments (List.mem_cons_of_mem _ hm) h
    | nodeDirectives hm h => exact .nodeDirectives (List.mem_cons_of_mem _ hm) h
    | node hm h => exact .node (List.mem_cons_of_mem _ hm) h
    | inlineDirectives hm h => exact .inlineDirectives (List.mem_cons_of_mem _ hm) h
    | inline hm h => exact .inline (List.mem_cons_of_mem _ hm) h
    | spreadDirectives hm h => exact .spreadDirectives (List.mem_cons_of_mem _ hm) h
    | spread hm hf h => exact .spread (List.mem_cons_of_mem _ hm) hf h
  induction h with
  | nil => exact absurd hn (by simp)
  | leaf _ _ _ _ _ ih =>
    simp only [Uses.and, Set.mem_union] at hn
    rcases hn with (hn | hn) | hn
    · exact .leafDirectives List.mem_cons_self (inDirectives hn)
    · exact .leafArguments List.mem_cons_self (inArguments hn)
    · exact hcons _ _ (ih hn)
  | node _ _ _ _ _ _ ih1 ih =>
    simp only [Uses.and, Set.mem_union] at hn
    rcases hn with ((hn | hn) | hn) | hn
    · exact .nodeDirectives List.mem_cons_self (inDirectives hn)
    · exact .nodeArguments List.mem_cons_self (inArguments hn)
    · exact .node List.mem_cons_self (ih1 hn)
    · exact hcons _ _ (ih hn)
  | leafAgain _ _ _ _ ih =>
    simp only [Uses.and, Set.mem_union] at hn
    rcases hn with hn | hn
    · exact .leafDirectives List.mem_cons_self (inDirectives hn)
    · exact hcons _ _ (ih hn)
  | nodeAgain _ _ _ _ ih =>
    simp only [Uses.and, Set.mem_union] at hn
    rcases hn with hn | hn
    · exact .nodeDirectives List.mem_cons_self (inDirectives hn)
    · exact hcons _ _ (ih hn)
  | spread hds hfind hns hk ho hsub hrest ih1 ih2 =>
    simp only [Uses.and, Set.mem_union] at hn
    rcases hn with (hn | hn) | hn
    · exact .spreadDirectives List.mem_cons_self (inDirectives hn)
    · exact .spread List.mem_cons_self hfind (ih1 hn)
    · exact hcons _ _ (ih2 hn)
  | inline hds htype hsub hrest ih1 ih2 =>
    simp only [Uses.and, Set.mem_union] at hn
    rcases hn with (hn | hn) | hn
    · exact .inlineDirectives List.mem_cons_self (inDirectives hn)
    · exact .inline List.mem_cons_self (ih1 hn)
    · exact hcons _ _ (ih2 hn)

end Verif.Validation.Spec
