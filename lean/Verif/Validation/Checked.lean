import Verif.Validation.Selections
import Mathlib.Data.Set.Insert

/-!
# Visiting selections gives no errors iff they are `Checked`
-/
namespace Verif.Validation
open Verif.Value Verif.Resp Verif.Errors Verif.Ast Spec

variable {S : Schema} {vars : Option VariableTypes} {ov : Int → Int} {fragments : List FragmentDef}

theorem Uses.and_empty (u : Uses) : u.and {} = u := by
  unfold Uses.and; simp

/-- What a visitor does when there are no errors. -/
def Sound (S : Schema) (vars : Option VariableTypes) (ov : Int → Int) (fragments : List FragmentDef)
    (visit : State → State) (ss : List Selection) : Prop :=
  ∀ stack type before st, At S vars stack type before st → (visit st).errors = [] →
    ∃ after uses, Checked S ov fragments vars stack type ss before after uses ∧
      Outcome S vars stack type before after uses st (visit st)

/-- The same for the first of several selections. -/
def SoundOne (S : Schema) (vars : Option VariableTypes) (ov : Int → Int) (fragments : List FragmentDef)
    (visit : State → State) (s : Selection) : Prop :=
  ∀ stack type before st, At S vars stack type before st → (visit st).errors = [] →
    ∃ middle u, Outcome S vars stack type before middle u st (visit st) ∧
      ∀ rest after uses, Checked S ov fragments vars stack type rest middle after uses →
        Checked S ov fragments vars stack type (s :: rest) before after (u.and uses)

theorem not_mem_fields {key : Str} {before : List (Str × Occurrence)} :
    key ∉ before.map (·.1) ↔ ∀ o, (key, o) ∉ before := by
  simp

/-- The state inside of a fragment. -/
theorem At.enter {stack : List Str} {type : Str} {before : List (Str × Occurrence)} {st : State}
    (h : At S vars stack type before st) (name cond : Str) :
    At S vars (name :: stack) cond before { st with fragmentStack := name :: st.fragmentStack, scopedType := cond } :=
  ⟨h.errors, h.cycles, h.vars, by simp [h.stack], rfl, h.fields, h.nodup⟩

/-- The state after a fragment. -/
theorem Outcome.leave {stack : List Str} {type : Str} {before middle : List (Str × Occurrence)} {st st' : State} {uses : Uses}
    {name cond : Str} (h : At S vars stack type before st)
    (ho : Outcome S vars (name :: stack) cond before middle uses
      { st with fragmentStack := name :: st.fragmentStack, scopedType := cond } st') :
    Outcome S vars stack type before middle (Uses.and ⟨{name}, ∅⟩ uses) st { st' with
        scopedType := st.scopedType
        fragmentStack := st'.fragmentStack.erase name
        referencedFragments := st'.referencedFragments.insert name } := by
  refine ⟨⟨ho.at_.errors, ho.at_.cycles, ho.at_.vars, ?_, h.type, ho.at_.fields, ho.at_.nodup⟩, ho.count, ?_, ?_⟩
  · simp [ho.at_.stack]
  · intro v; rw [ho.vars]; simp [Uses.and]
  · intro v
    simp only [List.mem_insert_iff, ho.fragments, Uses.and, Set.mem_union, Set.mem_singleton_iff]
    rw [or_left_comm]

theorem visitSpread_found {enter : List Selection → State → State} {name : Str} {ds : Option (List Directive)} {st : State}
    {fragment : FragmentDef} (hfind : fragments.find? (fun f => f.name == name) = some fragment)
    (hstack : name ∉ st.fragmentStack) (hknown : (S.find fragment.typeCondition).isSome)
    (hoverlap : S.overlap st.scopedType fragment.typeCondition = true) :
    visitSpread S fragments enter name ds st =
      let st1 := visitDirectives S .fragmentSpread ds st
      let inside := enter fragment.sub
        { st1 with fragmentStack := name :: st1.fragmentStack, scopedType := fragment.typeCondition }
      { inside with
        scopedType := st1.scopedType
        fragmentStack := inside.fragmentStack.erase name
        referencedFragments := inside.referencedFragments.insert name } := by
  unfold visitSpread
  have hq := visitDirectives_quiet S .fragmentSpread ds st
  generalize visitDirectives S .fragmentSpread ds st = st1 at hq
  rw [← hq.fragmentStack] at hstack
  rw [← hq.scopedType] at hoverlap
  have hknown' : (S.find fragment.typeCondition).isNone = false := by
    cases h : S.find fragment.typeCondition with
    | none => rw [h] at hknown; simp at hknown
    | some x => rfl
  have hstack' : st1.fragmentStack.contains name = false := by simpa using hstack
  simp only [hfind, hstack', hknown', hoverlap, Bool.not_true, Bool.or_self, Bool.false_eq_true, if_false]

theorem spread_head (hS : SchemaOk S) {stack : List Str} {type : Str} {before : List (Str × Occurrence)} {st : State}
    (h : At S vars stack type before st) (hv : VarsOk S vars) (location : Location) (ds : Option (List Directive)) :
    Step (DirectivesOk S vars location ds) (directiveVariables S vars ds) st (visitDirectives S location ds st) := by
  have h1 := visitDirectives_step hS.empty hS.inputs hS.directives location ds st (by rw [h.vars]; exact hv)
  rw [h.vars] at h1
  exact h1

theorem visitSpread_sound (hS : SchemaOk S) (hv : VarsOk S vars) {enter : List Selection → State → State}
    (hwide : ∀ ss st, Wide st (enter ss st))
    (henter : ∀ ss, Sound S vars ov fragments (enter ss) ss) (pos : Loc) (name : Str) (ds : Option (List Directive)) :
    SoundOne S vars ov fragments (visitSpread S fragments enter name ds) (.spread pos name ds) := by
  intro stack type before st h he
  have hstep := spread_head hS h hv .fragmentSpread ds
  have he1 : (visitDirectives S .fragmentSpread ds st).errors = [] := by
    unfold visitSpread at he
    have : Wide (visitDirectives S .fragmentSpread ds st) (visitSpread S fragments enter name none
        (visitDirectives S .fragmentSpread ds st)) := visitSpread_wide S fragments enter hwide name none _
    exact this.errors_nil he
  have hds := (hstep.errors_nil.mp he1).2
  have h1 := h.step hstep hds
  cases hfind : fragments.find? (fun f => f.name == name) with
  | none => simp [visitSpread, hfind, State.fail] at he
  | some fragment =>
    by_cases hstack : name ∈ stack
    · unfold visitSpread at he
      have hc : (visitDirectives S .fragmentSpread ds st).fragmentStack.contains name = true := by
        rw [h1.at_.stack]; simpa using hstack
      simp only [hfind, hc, if_true, h1.at_.cycles] at he
      simp [State.fail] at he
    · have hstack1 : (visitDirectives S .fragmentSpread ds st).fragmentStack.contains name = false := by
        rw [h1.at_.stack]; simpa using hstack
      by_cases hok : (S.find fragment.typeCondition).isNone = true ∨ S.overlap type fragment.typeCondition = false
      · unfold visitSpread at he
        have hc : ((S.find fragment.typeCondition).isNone ||
            !S.overlap (visitDirectives S .fragmentSpread ds st).scopedType fragment.typeCondition) = true := by
          rw [h1.at_.type]
          rcases hok with h | h
          · rw [h]; rfl
          · rw [h]; simp
        simp only [hfind, hstack1, hc, Bool.false_eq_true, if_false, if_true] at he
        simp [State.fail] at he
      · rw [not_or] at hok
        have hknown : (S.find fragment.typeCondition).isSome := by
          cases hf : S.find fragment.typeCondition with
          | none => simp [hf] at hok
          | some x => rfl
        have hoverlap : S.overlap type fragment.typeCondition = true := by simpa using hok.2
        rw [visitSpread_found hfind (by rw [h.stack]; exact hstack) hknown (by rw [h.type]; exact hoverlap)] at he ⊢
        simp only at he ⊢
        obtain ⟨middle, uses', hchk, hout⟩ := henter fragment.sub _ _ _ _ (h1.at_.enter name fragment.typeCondition) he
        have h2 := h1.trans (hout.leave h1.at_)
        refine ⟨middle, Uses.and ⟨{name}, directiveVariables S vars ds⟩ uses', ?_, ?_⟩
        · have : Uses.and ⟨∅, directiveVariables S vars ds⟩ (Uses.and ⟨{name}, ∅⟩ uses') =
              Uses.and ⟨{name}, directiveVariables S vars ds⟩ uses' := by
            simp [Uses.and]
          rw [← this]; exact h2
        · intro rest after uses hrest
          exact .spread hds hfind hstack hknown hoverlap hchk hrest

/-- The type inside of an inline fragment. -/
def inlineType (t : Option Str) (type : Str) : Str := if t.getD [] = [] then type else t.getD []

theorem visitInline_ok {t : Option Str} {ds : Option (List Directive)} {visit : State → State} {st : State}
    (htype : ∀ name, t = some name → name ≠ [] → S.isComposite name = true ∧ S.overlap st.scopedType name = true) :
    visitInline S t ds visit st =
      let st1 := visitDirectives S .inlineFragment ds st
      { visit { st1 with scopedType := inlineType t st1.scopedType } with scopedType := st1.scopedType } := by
  unfold visitInline
  have hq := visitDirectives_quiet S .inlineFragment ds st
  generalize visitDirectives S .inlineFragment ds st = st1 at hq
  rw [← hq.scopedType] at htype
  simp only
  cases hn : t.getD [] with
  | nil => simp [inlineType, hn]
  | cons a l =>
    have ht : t = some (a :: l) := by
      cases t with
      | none => simp at hn
      | some n => simp at hn; rw [hn]
    obtain ⟨h1, h2⟩ := htype (a :: l) ht (by simp)
    have h3 : (S.find (a :: l)).isNone = false := by
      cases hf : S.find (a :: l) with
      | none => simp [Schema.isComposite, Schema.kind, hf] at h1
      | some x => rfl
    simp [inlineType, hn, h1, h2, h3]

theorem visitInline_sound (hS : SchemaOk S) (hv : VarsOk S vars) (pos : Loc) (t : Option Str) (ds : Option (List Directive))
    (sub : List Selection) {visit : State → State} (hwide : ∀ st, Wide st (visit st))
    (hvisit : Sound S vars ov fragments visit sub) :
    SoundOne S vars ov fragments (visitInline S t ds visit) (.inline pos t ds sub) := by
  intro stack type before st h he
  have hstep := spread_head hS h hv .inlineFragment ds
  have he1 : (visitDirectives S .inlineFragment ds st).errors = [] := by
    unfold visitInline at he
    have : Wide (visitDirectives S .inlineFragment ds st) (visitInline S t none visit
        (visitDirectives S .inlineFragment ds st)) := visitInline_wide S t none visit hwide _
    exact this.errors_nil he
  have hds := (hstep.errors_nil.mp he1).2
  have h1 := h.step hstep hds
  have htype : ∀ name, t = some name → name ≠ [] → S.isComposite name = true ∧ S.overlap type name = true := by
    rintro name rfl hn
    have hn' : name.isEmpty = false := by cases name with | nil => exact absurd rfl hn | cons => rfl
    unfold visitInline at he
    simp only [Option.getD_some, hn', Bool.false_eq_true, if_false, h1.at_.type] at he
    split at he
    · simp [State.fail] at he
    · split at he
      · simp [State.fail] at he
      · rename_i hc
        split at he
        · simp [State.fail] at he
        · rename_i ho
          exact ⟨by simpa using hc, by simpa using ho⟩
  rw [visitInline_ok (by rw [h.type]; exact htype)] at he ⊢
  simp only [h1.at_.type] at he ⊢
  have hat : At S vars stack (inlineType t type) before { visitDirectives S .inlineFragment ds st with
      scopedType := inlineType t type } :=
    ⟨h1.at_.errors, h1.at_.cycles, h1.at_.vars, h1.at_.stack, rfl, h1.at_.fields, h1.at_.nodup⟩
  obtain ⟨middle, uses', hchk, hout⟩ := hvisit _ _ _ _ hat he
  have hleave : Outcome S vars stack type before middle uses' (visitDirectives S .inlineFragment ds st)
      { visit { visitDirectives S .inlineFragment ds st with scopedType := inlineType t type } with scopedType := type } :=
    ⟨⟨hout.at_.errors, hout.at_.cycles, hout.at_.vars, hout.at_.stack, rfl, hout.at_.fields, hout.at_.nodup⟩, hout.count,
      hout.vars, hout.fragments⟩
  exact ⟨middle, _, h1.trans hleave, fun rest after uses hrest => .inline hds htype hchk hrest⟩

mutual
theorem visitOne_sound (hS : SchemaOk S) (hv : VarsOk S vars) {enter : List Selection → State → State}
    (hwide : ∀ ss st, Wide st (enter ss st)) (henter : ∀ ss, Sound S vars ov fragments (enter ss) ss) :
    (s : Selection) → SoundOne S vars ov fragments (visitOne S ov fragments enter s) s
  | .leaf f => by
    intro stack type before st h he
    simp only [visitOne] at he ⊢
    obtain ⟨def_, hf, hcase⟩ := visitField_sound hS hv h none (by simp) (fun _ _ _ => False) (by simp) he
    rcases hcase with ⟨first, hm, ha⟩ | ⟨hnew, hargs, inside, uses', hout, hleaf, rfl⟩
    · exact ⟨before, _, visitField_again hS hv h hf hm ha none, fun rest after uses hrest => .leafAgain hf hm ha hrest⟩
    · rw [Uses.and_empty] at hout
      exact ⟨_, _, hout, fun rest after uses hrest => .leaf hf (not_mem_fields.mp hnew) hargs hleaf hrest⟩
  | .node f pos sub => by
    intro stack type before st h he
    simp only [visitOne] at he ⊢
    have ih := visitAll_sound hS hv hwide henter sub
    obtain ⟨def_, hf, hcase⟩ := visitField_sound hS hv h (some (visitAll S ov fragments enter sub))
      (by rintro g ⟨⟩ st; exact visitAll_wide S ov fragments enter hwide sub st)
      (fun inner inside uses => Checked S ov fragments vars stack inner sub [] inside uses)
      (by rintro g ⟨⟩ inner st hat he; exact ih _ _ _ _ hat he) he
    rcases hcase with ⟨first, hm, ha⟩ | ⟨hnew, hargs, inside, uses', hout, hQ, hsome⟩
    · exact ⟨before, _, visitField_again hS hv h hf hm ha _, fun rest after uses hrest => .nodeAgain hf hm ha hrest⟩
    · exact ⟨_, _, hout, fun rest after uses hrest => .node hf (not_mem_fields.mp hnew) hargs hQ hsome hrest⟩
  | .spread pos name ds => visitSpread_sound hS hv hwide henter pos name ds
  | .inline pos t ds sub =>
    visitInline_sound hS hv pos t ds sub (visitAll_wide S ov fragments enter hwide sub)
      (visitAll_sound hS hv hwide henter sub)
theorem visitAll_sound (hS : SchemaOk S) (hv : VarsOk S vars) {enter : List Selection → State → State}
    (hwide : ∀ ss st, Wide st (enter ss st)) (henter : ∀ ss, Sound S vars ov fragments (enter ss) ss) :
    (ss : List Selection) → Sound S vars ov fragments (visitAll S ov fragments enter ss) ss
  | [] => fun stack type before st h he => ⟨before, {}, .nil, .refl h⟩
  | s :: ss => by
    intro stack type before st h he
    simp only [visitAll] at he ⊢
    have he1 := (visitAll_wide S ov fragments enter hwide ss _).errors_nil he
    obtain ⟨middle, u, hout, hcons⟩ := visitOne_sound hS hv hwide henter s stack type before st h he1
    obtain ⟨after, uses, hchk, hout'⟩ := visitAll_sound hS hv hwide henter ss stack type middle _ hout.at_ he
    exact ⟨after, _, hcons _ _ _ hchk, hout.trans hout'⟩
end

theorem visitSelection_sound (hS : SchemaOk S) (hv : VarsOk S vars) (depth : Nat) (ss : List Selection) :
    Sound S vars ov fragments (visitSelection S ov fragments depth ss) ss := by
  induction depth generalizing ss with
  | zero =>
    refine visitAll_sound hS hv exhaust_wide ?_ ss
    intro ss stack type before st _ he
    simp [State.fail] at he
  | succ depth ih => exact visitAll_sound hS hv (visitSelection_wide S ov fragments depth) ih ss

/-! ## Checked selections give no errors -/

/-- How fragments are entered. -/
def enterAt (S : Schema) (ov : Int → Int) (fragments : List FragmentDef) : Nat → List Selection → State → State
  | 0 => fun _ st => { st.fail [] with exhausted := true }
  | depth + 1 => visitSelection S ov fragments depth

theorem visitSelection_eq (depth : Nat) :
    visitSelection S ov fragments depth = visitAll S ov fragments (enterAt S ov fragments depth) := by
  cases depth <;> rfl

theorem visitSelection_complete (hS : SchemaOk S) (hv : VarsOk S vars) {stack : List Str} {type : Str} {ss : List Selection}
    {before after : List (Str × Occurrence)} {uses : Uses} (h : Checked S ov fragments vars stack type ss before after uses) :
    ∀ depth st, Fuel fragments depth stack → At S vars stack type before st →
      Outcome S vars stack type before after uses st (visitSelection S ov fragments depth ss st) := by
  induction h with
  | nil =>
    intro depth st _ h
    rw [visitSelection_eq]
    exact .refl h
  | leaf hf hnew hargs hleaf _ ih =>
    intro depth st hfuel h
    rw [visitSelection_eq, visitAll, visitOne]
    have h1 := visitField_new (ov := ov) hS hv h hf (not_mem_fields.mpr hnew) hargs none [] {} ⟨hleaf, rfl⟩
    rw [Uses.and_empty] at h1
    have h2 := ih depth _ hfuel h1.at_
    rw [visitSelection_eq] at h2
    exact h1.trans h2
  | node hf hnew hargs _ hsome _ ihsub ih =>
    rename_i sub _ _ _ inside _ _ uses' _ _
    intro depth st hfuel h
    rw [visitSelection_eq, visitAll, visitOne]
    have h1 := visitField_new (ov := ov) hS hv h hf (not_mem_fields.mpr hnew) hargs
      (some (visitAll S ov fragments (enterAt S ov fragments depth) sub)) inside uses'
      ⟨fun st hst => by have := ihsub depth st hfuel hst; rwa [visitSelection_eq] at this, hsome⟩
    have h2 := ih depth _ hfuel h1.at_
    rw [visitSelection_eq] at h2
    exact h1.trans h2
  | leafAgain hf hmem hagree _ ih =>
    intro depth st hfuel h
    rw [visitSelection_eq, visitAll, visitOne]
    have h1 := visitField_again hS hv h hf hmem hagree none
    have h2 := ih depth _ hfuel h1.at_
    rw [visitSelection_eq] at h2
    exact h1.trans h2
  | nodeAgain hf hmem hagree _ ih =>
    rename_i sub _ _ _ _ _ _ _
    intro depth st hfuel h
    rw [visitSelection_eq, visitAll, visitOne]
    have h1 := visitField_again hS hv h hf hmem hagree (some (visitAll S ov fragments (enterAt S ov fragments depth) sub))
    have h2 := ih depth _ hfuel h1.at_
    rw [visitSelection_eq] at h2
    exact h1.trans h2
  | spread hds hfind hstack hknown hoverlap _ _ ihsub ih =>
    rename_i stack type pos name ds fragment rest before middle after uses uses' _ _
    intro depth st hfuel h
    rw [visitSelection_eq, visitAll, visitOne]
    have hm : name ∈ fragments.map (·.name) := by
      have h1 := List.mem_of_find?_eq_some hfind
      have h2 := List.find?_some hfind
      simp only [beq_iff_eq] at h2
      exact List.mem_map.mpr ⟨fragment, h1, h2⟩
    obtain ⟨d, rfl, hfuel'⟩ := hfuel.enter hstack hm
    have h1 := h.step (spread_head hS h hv .fragmentSpread ds) hds
    have h2 := ihsub d _ hfuel' (h1.at_.enter name fragment.typeCondition)
    have h3 := h1.trans (h2.leave h1.at_)
    have hu : Uses.and ⟨∅, directiveVariables S vars ds⟩ (Uses.and ⟨{name}, ∅⟩ uses') =
        Uses.and ⟨{name}, directiveVariables S vars ds⟩ uses' := by simp [Uses.and]
    rw [hu] at h3
    rw [visitSpread_found hfind (by rw [h.stack]; exact hstack) hknown (by rw [h.type]; exact hoverlap)]
    have h4 := ih (d + 1) _ hfuel h3.at_
    exact h3.trans h4
  | inline hds htype _ _ ihsub ih =>
    rename_i stack type pos t ds sub rest before middle after uses uses' _ _
    intro depth st hfuel h
    rw [visitSelection_eq, visitAll, visitOne]
    have h1 := h.step (spread_head hS h hv .inlineFragment ds) hds
    have hat : At S vars stack (inlineType t type) before { visitDirectives S .inlineFragment ds st with
        scopedType := inlineType t type } :=
      ⟨h1.at_.errors, h1.at_.cycles, h1.at_.vars, h1.at_.stack, rfl, h1.at_.fields, h1.at_.nodup⟩
    have hout := ihsub depth _ hfuel hat
    rw [visitSelection_eq] at hout
    have hleave : Outcome S vars stack type before middle uses' (visitDirectives S .inlineFragment ds st)
        { visitAll S ov fragments (enterAt S ov fragments depth) sub
            { visitDirectives S .inlineFragment ds st with scopedType := inlineType t type } with scopedType := type } :=
      ⟨⟨hout.at_.errors, hout.at_.cycles, hout.at_.vars, hout.at_.stack, rfl, hout.at_.fields, hout.at_.nodup⟩, hout.count,
        hout.vars, hout.fragments⟩
    rw [visitInline_ok (by rw [h.type]; exact htype)]
    simp only [h1.at_.type]
    have h3 := h1.trans hleave
    have h4 := ih depth _ hfuel h3.at_
    rw [visitSelection_eq] at h4
    exact h3.trans h4

end Verif.Validation
