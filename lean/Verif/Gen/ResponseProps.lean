import Verif.Gen.ResponseSpec
import Verif.Validation.Meaning
import Verif.Validation.Props
import Mathlib.Data.List.Forall2

/-!
# The visitor makes the members

For selections which the validator has checked.
-/
namespace Verif.Gen.Client
open Verif.Value Verif.Errors Verif.Ast Verif.Modifiers
open Verif.Validation (Schema baseName)
open Verif.Validation.Spec (Checked HasField)

/-- What is assumed of a schema: nothing is defined twice, and the types of fields are written without `!!`. -/
structure Ready (S : Schema) : Prop where
  unique : Validation.Spec.Schema.UniqueNames S
  proper : ∀ e ∈ S.types, ∀ f ∈ e.2.fields, Gen.Proper f.type

variable {S : Schema} {fragments : List FragmentDef}

/-! ## Names -/

theorem mem_firsts {o : Selected} {os : List Selected} (h : o ∈ firsts os) : o ∈ os := by
  induction os with
  | nil => exact h
  | cons p os ih =>
    simp only [firsts, List.mem_cons, List.mem_filter] at h ⊢
    rcases h with h | h
    · exact .inl h
    · exact .inr (ih h.1)

theorem names_firsts {os : List Selected} {n : Str} : (∃ o ∈ firsts os, o.name = n) ↔ ∃ o ∈ os, o.name = n := by
  induction os with
  | nil => simp [firsts]
  | cons p os ih =>
    simp only [firsts, List.mem_cons, List.mem_filter, exists_eq_or_imp, decide_eq_true_eq, ne_eq]
    constructor
    · rintro (h | ⟨o, ⟨h, h'⟩, rfl⟩)
      · exact .inl h
      · exact .inr (ih.mp ⟨o, h, rfl⟩)
    · rintro (h | h)
      · exact .inl h
      · by_cases hp : p.name = n
        · exact .inl hp
        · obtain ⟨o, ho, rfl⟩ := ih.mpr h
          exact .inr ⟨o, ⟨ho, fun h => hp h.symm⟩, rfl⟩

theorem nodup_firsts (os : List Selected) : ((firsts os).map (·.name)).Nodup := by
  induction os with
  | nil => simp [firsts]
  | cons p os ih =>
    simp only [firsts, List.map_cons, List.nodup_cons, List.mem_map, List.mem_filter, decide_eq_true_eq, ne_eq]
    exact ⟨fun ⟨o, ⟨_, h⟩, h'⟩ => h h', ih.sublist (List.Sublist.map _ List.filter_sublist)⟩

theorem firsts_append (os ps : List Selected) :
    firsts (os ++ ps) = firsts os ++ (firsts ps).filter fun p => ∀ o ∈ os, o.name ≠ p.name := by
  induction os with
  | nil => simp [firsts]
  | cons o os ih =>
    simp only [List.cons_append, firsts, ih, List.filter_append, List.filter_filter, List.cons.injEq, true_and,
      List.append_cancel_left_eq]
    refine List.filter_congr fun p _ => ?_
    simp only [List.mem_cons, forall_eq_or_imp, ne_eq, decide_not, Bool.decide_and]
    by_cases h : p.name = o.name
    · simp [h]
    · have h' : ¬ o.name = p.name := fun e => h e.symm
      simp [h, h']

/-! ## Types -/

theorem unwrap_spec {τ : TypeRef} (h : Gen.Proper τ) : (unwrapType false τ).1 = baseName τ ∧
    Gen.ModifiersOf τ (unwrapType false τ).2 := by
  induction h with
  | named => exact ⟨rfl, .named⟩
  | list _ ih => exact ⟨ih.1, .list ih.2⟩
  | nonNullNamed => exact ⟨rfl, .nonNullNamed⟩
  | nonNullList _ ih => exact ⟨ih.1, .nonNullList ih.2⟩

/-- A field which the validator knows has the type which the specification gives it; the validator gives the same one, or
the one with `!`. -/
theorem responseType_spec (hS : Ready S) {type name : Str} {def_ : Validation.FieldDef}
    (h : S.findField type name = some def_) :
    ∃ base ms τ, responseType S type name = some (base, ms) ∧ TypeIs S type name τ ∧ base = baseName τ ∧
      Gen.ModifiersOf τ ms ∧ base = baseName def_.type := by
  unfold responseType
  by_cases hn : name = str "__typename"
  · subst hn
    rw [if_pos rfl]
    refine ⟨_, _, _, rfl, .typename, rfl, .nonNullNamed, ?_⟩
    unfold Schema.findField at h
    split at h
    · cases h
    · cases h
      rfl
  · rw [if_neg hn]
    unfold schemaType
    unfold Schema.findField at h
    split at h
    · cases h
    · rename_i t ht
      rw [if_neg hn] at h
      by_cases h1 : (S.introspection && type == S.query && name == str "__schema") = true
      · rw [if_pos h1]
        simp only [Bool.and_eq_true, beq_iff_eq] at h1
        obtain ⟨⟨hi, hq⟩, rfl⟩ := h1
        refine ⟨_, _, _, rfl, .schema hi hq, rfl, .named, ?_⟩
        simp only [hi, hq, decide_true, beq_self_eq_true, Bool.and_self, if_true] at h
        cases h
        rfl
      · rw [if_neg h1]
        have h1' : ¬ (decide (name = str "__schema") && S.introspection && type == S.query) = true := by
          simpa [Bool.and_eq_true, and_assoc, and_comm, and_left_comm] using h1
        rw [if_neg h1'] at h
        by_cases h2 : (S.introspection && type == S.query && name == str "__type") = true
        · rw [if_pos h2]
          simp only [Bool.and_eq_true, beq_iff_eq] at h2
          obtain ⟨⟨hi, hq⟩, rfl⟩ := h2
          refine ⟨_, _, _, rfl, .type hi hq, rfl, .named, ?_⟩
          simp only [hi, hq, decide_true, beq_self_eq_true, Bool.and_self, if_true] at h
          cases h
          rfl
        · rw [if_neg h2]
          have h2' : ¬ (decide (name = str "__type") && S.introspection && type == S.query) = true := by
            simpa [Bool.and_eq_true, and_assoc, and_comm, and_left_comm] using h2
          rw [if_neg h2'] at h
          have hm : (type, t) ∈ S.types := (Validation.Spec.C48_find_iff hS.unique).mp ht
          have hd : def_ ∈ t.fields := by
            have := List.mem_of_find?_eq_some h
            simpa using this
          have hname : def_.name = name := by
            have := List.find?_some h
            simp only [Bool.and_eq_true, beq_iff_eq] at this
            exact this.1.1
          have hfind : t.fields.find? (fun f => f.name == name) = some def_ := by
            have hnd := hS.unique.fields _ hm
            simp only at hnd
            clear h ht hm
            generalize t.fields = gs at hd hnd
            induction gs with
            | nil => cases hd
            | cons g gs ih =>
              simp only [List.map_cons, List.nodup_cons] at hnd
              rw [List.find?_cons]
              rcases List.mem_cons.mp hd with rfl | hd
              · simp [hname]
              · have : g.name ≠ name := fun hg => hnd.1 (List.mem_map.mpr ⟨def_, hd, by rw [hname, hg]⟩)
                have hb : (g.name == name) = false := by simpa using this
                rw [hb]
                exact ih hd hnd.2
          obtain ⟨hb, hms⟩ := unwrap_spec (hS.proper _ hm _ hd)
          refine ⟨(unwrapType false def_.type).1, (unwrapType false def_.type).2, def_.type, ?_, ?_, hb, hms, hb⟩
          · simp [findField, ht, hfind]
          · rw [← hname]
            refine .field hm hd (by rw [hname]; exact hn) fun hi hq => ?_
            rw [hname]
            simp only [hi, hq, beq_self_eq_true, Bool.and_self, Bool.true_and, beq_iff_eq] at h1 h2
            exact ⟨h1, h2⟩

/-! ## Merging -/

theorem mergeFields_eq {fields : List ResponseField} (hn : (fields.map (·.name)).Nodup) (st : VisitState) :
    (mergeFields st fields).fields = st.fields ++ fields.filter (fun f => f.name ∉ st.names) ∧
    ∀ n, n ∈ (mergeFields st fields).names ↔ n ∈ st.names ∨ n ∈ fields.map (·.name) := by
  induction fields generalizing st with
  | nil => simp [mergeFields]
  | cons f fs ih =>
    simp only [List.map_cons, List.nodup_cons] at hn
    have hstep : mergeFields st (f :: fs) =
        mergeFields (if f.name ∈ st.names then st else (st.enter f.name).push f) fs := rfl
    rw [hstep]
    by_cases hm : f.name ∈ st.names
    · rw [if_pos hm]
      obtain ⟨h1, h2⟩ := ih hn.2 st
      refine ⟨by rw [h1, List.filter_cons_of_neg (by simpa using hm)], fun n => ?_⟩
      rw [h2, List.map_cons, List.mem_cons]
      constructor
      · rintro (h | h)
        · exact .inl h
        · exact .inr (.inr h)
      · rintro (h | rfl | h)
        · exact .inl h
        · exact .inl hm
        · exact .inr h
    · rw [if_neg hm]
      obtain ⟨h1, h2⟩ := ih hn.2 ((st.enter f.name).push f)
      refine ⟨?_, fun n => ?_⟩
      · rw [h1, List.filter_cons_of_pos (by simpa using hm)]
        simp only [VisitState.push, VisitState.enter, List.append_assoc, List.singleton_append,
          List.append_cancel_left_eq, List.cons.injEq, true_and]
        refine List.filter_congr fun g hg => ?_
        have : g.name ≠ f.name := fun h => hn.1 (List.mem_map.mpr ⟨g, hg, h⟩)
        simp [this]
      · rw [h2]
        simp only [VisitState.push, VisitState.enter, List.mem_append, List.map_cons, List.mem_cons, List.not_mem_nil,
          or_false, or_assoc]

theorem forall₂_filter {α β : Type} {R : α → β → Prop} {p : α → Bool} {q : β → Bool} {as : List α} {bs : List β}
    (h : List.Forall₂ R as bs) (hpq : ∀ a b, R a b → p a = q b) : List.Forall₂ R (as.filter p) (bs.filter q) := by
  induction h with
  | nil => exact .nil
  | @cons a b as bs hab _ ih =>
    simp only [List.filter_cons, hpq a b hab]
    split
    · exact .cons hab ih
    · exact ih

/-! ## The visitor -/

/-- The member `f` is for the field `o`; its members are the right ones if `o` is checked, as it is if its name is new. -/
def MemberOf (S : Schema) (fragments : List FragmentDef) (known : Str → Prop) (o : Selected) (f : ResponseField) : Prop :=
  f.name = o.name ∧ f.pos = o.field.pos ∧
  (∃ τ, TypeIs S o.on o.field.name τ ∧ f.type = baseName τ ∧ Gen.ModifiersOf τ f.modifiers) ∧
  (o.sub = none ∨ S.isComposite f.type = false → f.children = []) ∧
  (¬ known o.name → ∀ sub, o.sub = some sub → S.isComposite f.type = true → Members S fragments f.type sub f.children)

/-- The names of the fields. -/
def known (fields : List (Str × Validation.Spec.Occurrence)) (n : Str) : Prop := n ∈ fields.map (·.1)

/-- What the visitor does with checked selections. -/
def Visited (S : Schema) (fragments : List FragmentDef) (type : Str) (sels : List Selection)
    (before after : List (Str × Validation.Spec.Occurrence)) (st st' : VisitState) : Prop :=
  ∃ os, Flat fragments type sels os ∧ (∀ n, known after n ↔ known before n ∨ ∃ o ∈ os, o.name = n) ∧
    (∀ n, n ∈ st'.names ↔ n ∈ st.names ∨ ∃ o ∈ os, o.name = n) ∧
    ∃ news, st'.fields = st.fields ++ news ∧
      List.Forall₂ (MemberOf S fragments (known before)) ((firsts os).filter fun o => o.name ∉ st.names) news

theorem MemberOf.mono {p q : Str → Prop} {o : Selected} {f : ResponseField} (h : MemberOf S fragments p o f)
    (hpq : p o.name → q o.name) : MemberOf S fragments q o f :=
  ⟨h.1, h.2.1, h.2.2.1, h.2.2.2.1, fun hk => h.2.2.2.2 fun hp => hk (hpq hp)⟩

theorem map_name {p : Str → Prop} {os : List Selected} {fs : List ResponseField}
    (h : List.Forall₂ (MemberOf S fragments p) os fs) : fs.map (·.name) = os.map (·.name) := by
  induction h with
  | nil => rfl
  | cons h _ ih => rw [List.map_cons, List.map_cons, ih, h.1]

theorem forall₂_mono {p q : Str → Prop} {os : List Selected} {fs : List ResponseField}
    (h : List.Forall₂ (MemberOf S fragments p) os fs) (hpq : ∀ o ∈ os, p o.name → q o.name) :
    List.Forall₂ (MemberOf S fragments q) os fs := by
  induction h with
  | nil => exact .nil
  | cons h _ ih =>
    exact .cons (h.mono (hpq _ (by simp))) (ih fun o ho => hpq o (by simp [ho]))

/-- From an empty state: the members of the structure. -/
theorem Visited.members {type : Str} {sels : List Selection} {after : List (Str × Validation.Spec.Occurrence)}
    {st : VisitState} (h : Visited S fragments type sels [] after {} st) : Members S fragments type sels st.fields := by
  obtain ⟨os, hflat, _, _, news, hf, h2⟩ := h
  have hall : (firsts os).filter (fun o => decide (o.name ∉ (({} : VisitState)).names)) = firsts os := by
    simp
  rw [hall] at h2
  have hst : st.fields = news := by rw [hf]; rfl
  rw [hst]
  have hz : ∀ (o : Selected) (f : ResponseField), (o, f) ∈ (firsts os).zip news → MemberOf S fragments (known []) o f := by
    intro o f hm
    exact List.forall₂_zip h2 hm
  refine .mk hflat ?_ (fun o f hm => ?_) (fun o f hm => ?_) (fun o f sub hm hs hc => ?_)
  · exact map_name h2
  · exact ⟨(hz o f hm).2.1, (hz o f hm).2.2.1⟩
  · exact (hz o f hm).2.2.2.1
  · exact (hz o f hm).2.2.2.2 (by simp [known]) sub hs hc

/-- A fragment, and what is after it. -/
theorem Visited.fragment {type type' : Str} {sel' rest : List Selection} {s : Selection}
    {before middle after : List (Str × Validation.Spec.Occurrence)} {st inner st' : VisitState}
    (h1 : Visited S fragments type' sel' before middle {} inner)
    (h2 : Visited S fragments type rest middle after (mergeFields st inner.fields) st')
    (hflat : ∀ os os', Flat fragments type' sel' os → Flat fragments type rest os' →
      Flat fragments type (s :: rest) (os ++ os')) :
    Visited S fragments type (s :: rest) before after st st' := by
  obtain ⟨os, hf1, hk1, _, news, hn1, hm1⟩ := h1
  obtain ⟨os', hf2, hk2, hs2, news', hn2, hm2⟩ := h2
  have hall : (firsts os).filter (fun o => decide (o.name ∉ (({} : VisitState)).names)) = firsts os := by
    simp
  rw [hall] at hm1
  have hin : inner.fields = news := by rw [hn1]; rfl
  rw [hin] at hs2 hn2 hm2
  have hnames : news.map (·.name) = (firsts os).map (·.name) := map_name hm1
  obtain ⟨hme, hmn⟩ := mergeFields_eq (fields := news) (by rw [hnames]; exact nodup_firsts os) st
  have hmn' : ∀ n, n ∈ (mergeFields st news).names ↔ n ∈ st.names ∨ ∃ o ∈ os, o.name = n := by
    intro n
    rw [hmn, hnames, List.mem_map, names_firsts]
  refine ⟨os ++ os', hflat _ _ hf1 hf2, fun n => ?_, fun n => ?_,
    news.filter (fun f => f.name ∉ st.names) ++ news', ?_, ?_⟩
  · rw [hk2, hk1]
    simp only [List.mem_append, or_and_right, exists_or, or_assoc]
  · rw [hs2, hmn']
    simp only [List.mem_append, or_and_right, exists_or, or_assoc]
  · rw [hn2, hme, List.append_assoc]
  · rw [firsts_append, List.filter_append]
    refine List.rel_append (forall₂_filter hm1 fun a b h => by rw [h.1]) ?_
    have heq : List.filter (fun o => decide (o.name ∉ st.names))
          (List.filter (fun p => decide (∀ o ∈ os, o.name ≠ p.name)) (firsts os')) =
        (firsts os').filter (fun o => decide (o.name ∉ (mergeFields st news).names)) := by
      rw [List.filter_filter]
      refine List.filter_congr fun o _ => ?_
      rw [← Bool.decide_and, decide_eq_decide, hmn']
      push Not
      exact ⟨fun h => ⟨h.1, fun p hp => h.2 p hp⟩, fun h => ⟨h.1, fun p hp => h.2 p hp⟩⟩
    rw [heq]
    refine forall₂_mono hm2 fun o ho hk => ?_
    simp only [List.mem_filter, decide_eq_true_eq, hmn'] at ho
    rcases (hk1 _).mp hk with h | h
    · exact h
    · exact absurd (.inr h) ho.2

/-- A field with a new response name, for which there is no member in the state yet. -/
theorem Visited.field {type : Str} {rest : List Selection} {s : Selection} {o : Selected} {f : ResponseField}
    {occ : Validation.Spec.Occurrence} {before after : List (Str × Validation.Spec.Occurrence)} {st st' : VisitState}
    (hname : o.name ∉ st.names) (hf : MemberOf S fragments (known before) o f)
    (h : Visited S fragments type rest (before ++ [(o.name, occ)]) after ((st.enter o.name).push f) st')
    (hflat : ∀ os, Flat fragments type rest os → Flat fragments type (s :: rest) (o :: os)) :
    Visited S fragments type (s :: rest) before after st st' := by
  obtain ⟨os, hf1, hk1, hs1, news, hn1, hm1⟩ := h
  refine ⟨o :: os, hflat _ hf1, fun n => ?_, fun n => ?_, f :: news, ?_, ?_⟩
  · rw [hk1]
    simp only [known, List.map_append, List.mem_append, List.map_cons, List.map_nil, List.mem_cons, List.not_mem_nil,
      or_false, exists_eq_or_imp, or_assoc, eq_comm (a := n)]
  · rw [hs1]
    simp only [VisitState.push, VisitState.enter, List.mem_append, List.mem_cons, List.not_mem_nil, or_false,
      exists_eq_or_imp, or_assoc, eq_comm (a := n)]
  · rw [hn1]
    simp [VisitState.push, VisitState.enter]
  · rw [firsts, List.filter_cons_of_pos (by simpa using hname)]
    refine .cons hf ?_
    have heq : List.filter (fun o => decide (o.name ∉ st.names)) (List.filter (fun p => decide (p.name ≠ o.name)) (firsts os)) =
        (firsts os).filter (fun p => decide (p.name ∉ ((st.enter o.name).push f).names)) := by
      rw [List.filter_filter]
      refine List.filter_congr fun p _ => ?_
      rw [← Bool.decide_and, decide_eq_decide]
      simp [VisitState.push, VisitState.enter]
    rw [heq]
    refine forall₂_mono hm1 fun p hp hk => ?_
    simp only [List.mem_filter, decide_eq_true_eq, VisitState.push, VisitState.enter, List.mem_append, List.mem_cons,
      List.not_mem_nil, or_false] at hp
    simp only [known, List.map_append, List.mem_append, List.map_cons, List.map_nil, List.mem_cons, List.not_mem_nil,
      or_false] at hk
    rcases hk with h | h
    · exact h
    · exact absurd (.inr h) hp.2

/-- A field whose member is already there. -/
theorem Visited.again {type : Str} {rest : List Selection} {s : Selection} {o : Selected}
    {before before' after : List (Str × Validation.Spec.Occurrence)} {st st' : VisitState}
    (hname : o.name ∈ st.names) (hk : ∀ n, known before' n ↔ known before n ∨ n = o.name)
    (h : Visited S fragments type rest before' after st st')
    (hflat : ∀ os, Flat fragments type rest os → Flat fragments type (s :: rest) (o :: os)) :
    Visited S fragments type (s :: rest) before after st st' := by
  obtain ⟨os, hf1, hk1, hs1, news, hn1, hm1⟩ := h
  refine ⟨o :: os, hflat _ hf1, fun n => ?_, fun n => ?_, news, hn1, ?_⟩
  · rw [hk1, hk]
    simp only [List.mem_cons, exists_eq_or_imp, or_assoc, eq_comm (a := n)]
  · rw [hs1]
    simp only [List.mem_cons, exists_eq_or_imp]
    constructor
    · rintro (h | h)
      · exact .inl h
      · exact .inr (.inr h)
    · rintro (h | rfl | h)
      · exact .inl h
      · exact .inl hname
      · exact .inr h
  · rw [firsts, List.filter_cons_of_neg (by simpa using hname), List.filter_filter]
    have heq : (firsts os).filter (fun p => decide (p.name ∉ st.names) && decide (p.name ≠ o.name)) =
        (firsts os).filter (fun p => decide (p.name ∉ st.names)) := by
      refine List.filter_congr fun p _ => ?_
      rw [← Bool.decide_and, decide_eq_decide]
      exact ⟨fun h => h.1, fun h => ⟨h, fun e => h (by rw [e]; exact hname)⟩⟩
    rw [heq]
    refine forall₂_mono hm1 fun p hp hk' => ?_
    simp only [List.mem_filter, decide_eq_true_eq] at hp
    rcases (hk _).mp hk' with h | h
    · exact h
    · exact absurd (by rw [h]; exact hname) hp.2

/-- A field whose response name is known, but for which there is no member in the state yet (inside of a fragment). -/
theorem Visited.fresh {type : Str} {rest : List Selection} {s : Selection} {o : Selected} {f : ResponseField}
    {before after : List (Str × Validation.Spec.Occurrence)} {st st' : VisitState}
    (hname : o.name ∉ st.names) (hk : known before o.name) (hf : MemberOf S fragments (known before) o f)
    (h : Visited S fragments type rest before after ((st.enter o.name).push f) st')
    (hflat : ∀ os, Flat fragments type rest os → Flat fragments type (s :: rest) (o :: os)) :
    Visited S fragments type (s :: rest) before after st st' := by
  obtain ⟨occ, hocc, hon⟩ := List.mem_map.mp hk
  refine Visited.field (occ := occ.2) hname hf ?_ hflat
  obtain ⟨os, hf1, hk1, hs1, news, hn1, hm1⟩ := h
  have heq : ∀ n, known (before ++ [(o.name, occ.2)]) n ↔ known before n := by
    intro n
    simp only [known, List.map_append, List.mem_append, List.map_cons, List.map_nil, List.mem_cons, List.not_mem_nil,
      or_false]
    exact ⟨fun h => h.elim id fun h => h ▸ hk, .inl⟩
  exact ⟨os, hf1, fun n => by rw [heq, hk1], hs1, news, hn1, forall₂_mono hm1 fun p _ h => (heq _).mpr h⟩

theorem Visited.nil {type : Str} {before : List (Str × Validation.Spec.Occurrence)} {st : VisitState} :
    Visited S fragments type [] before before st st :=
  ⟨[], .nil, by simp, by simp, [], by simp, .nil⟩

/-- What the visitor makes of selections which the validator has checked. -/
theorem visited (hS : Ready S) (hnames : S.find [] = none) {overflow : Int → Int}
    {vars : Option Validation.VariableTypes} {stack : List Str}
    {type : Str} {sels : List Selection} {before after : List (Str × Validation.Spec.Occurrence)}
    {uses : Validation.Spec.Uses} (hc : Checked S overflow fragments vars stack type sels before after uses)
    {d : Nat} {st st' : VisitState} (h : visitSelections S fragments d type sels st = .ok st') :
    Visited S fragments type sels before after st st' := by
  induction hc generalizing d st st' with
  | nil =>
    simp only [visitSelections, Except.ok.injEq] at h
    subst h
    exact .nil
  | @leaf stack type f def_ rest before after uses hf hnew hargs hleaf hrest ih =>
    obtain ⟨base, ms, τ, hr, hτ, hb, hm, hd⟩ := responseType_spec hS hf.exists_.found
    simp only [visitSelections, hr] at h
    split at h
    · rename_i hin
      exact Visited.again (o := ⟨type, f, none⟩) hin (by simp [known, Selected.name]) (ih h) fun os => .leaf
    · rename_i hin
      exact Visited.field (o := ⟨type, f, none⟩) (f := .mk base ms _ _ _) hin
        ⟨rfl, rfl, ⟨τ, hτ, hb, hm⟩, fun _ => rfl, nofun⟩ (ih h) fun os => .leaf
  | @leafAgain stack type f def_ first rest before after uses hf hmem hagree hrest ih =>
    obtain ⟨base, ms, τ, hr, hτ, hb, hm, hd⟩ := responseType_spec hS hf.exists_.found
    have hk : known before (Exec.responseName f) := List.mem_map.mpr ⟨_, hmem, rfl⟩
    simp only [visitSelections, hr] at h
    split at h
    · rename_i hin
      refine Visited.again (o := ⟨type, f, none⟩) hin (fun n => ?_) (ih h) fun os => .leaf
      exact ⟨.inl, fun h => h.elim id fun h => h ▸ hk⟩
    · rename_i hin
      exact Visited.fresh (o := ⟨type, f, none⟩) (f := .mk base ms _ _ _) hin hk
        ⟨rfl, rfl, ⟨τ, hτ, hb, hm⟩, fun _ => rfl, nofun⟩ (ih h) fun os => .leaf
  | @node stack type f pos sub def_ rest before inside after uses uses' hf hnew hargs hsub hsome hrest ihs ih =>
    obtain ⟨base, ms, τ, hr, hτ, hb, hm, hd⟩ := responseType_spec hS hf.exists_.found
    simp only [visitSelections, hr] at h
    split at h
    · rename_i hin
      exact Visited.again (o := ⟨type, f, some sub⟩) hin (by simp [known, Selected.name]) (ih h) fun os => .node
    · rename_i hin
      split at h
      · rename_i hcomp
        split at h
        · cases h
        · rename_i inner hi
          rw [hd] at hi
          refine Visited.field (o := ⟨type, f, some sub⟩) (f := .mk base ms _ _ _) hin
            ⟨rfl, rfl, ⟨τ, hτ, hb, hm⟩, ?_, ?_⟩ (ih h) fun os => .node
          · rintro (h | h)
            · cases h
            · rw [show ResponseField.type (.mk base ms _ _ _) = base from rfl, hcomp] at h
              cases h
          · intro _ sub' hs _
            cases hs
            have := (ihs hi).members
            rwa [← hd] at this
      · rename_i hcomp
        exact Visited.field (o := ⟨type, f, some sub⟩) (f := .mk base ms _ _ _) hin
            ⟨rfl, rfl, ⟨τ, hτ, hb, hm⟩, fun _ => rfl, fun _ sub' _ h => absurd h hcomp⟩ (ih h) fun os => .node
  | @nodeAgain stack type f pos sub def_ first rest before after uses hf hmem hagree hrest ih =>
    obtain ⟨base, ms, τ, hr, hτ, hb, hm, hd⟩ := responseType_spec hS hf.exists_.found
    have hk : known before (Exec.responseName f) := List.mem_map.mpr ⟨_, hmem, rfl⟩
    simp only [visitSelections, hr] at h
    split at h
    · rename_i hin
      refine Visited.again (o := ⟨type, f, some sub⟩) hin (fun n => ?_) (ih h) fun os => .node
      exact ⟨.inl, fun h => h.elim id fun h => h ▸ hk⟩
    · rename_i hin
      split at h
      · rename_i hcomp
        split at h
        · cases h
        · rename_i inner hi
          refine Visited.fresh (o := ⟨type, f, some sub⟩) (f := .mk base ms _ _ _) hin hk
            ⟨rfl, rfl, ⟨τ, hτ, hb, hm⟩, ?_, fun h => absurd hk h⟩ (ih h) fun os => .node
          rintro (h | h)
          · cases h
          · rw [show ResponseField.type (.mk base ms _ _ _) = base from rfl, hcomp] at h
            cases h
      · rename_i hcomp
        exact Visited.fresh (o := ⟨type, f, some sub⟩) (f := .mk base ms _ _ _) hin hk
            ⟨rfl, rfl, ⟨τ, hτ, hb, hm⟩, fun _ => rfl, fun _ sub' _ h => absurd h hcomp⟩ (ih h) fun os => .node
  | @spread stack type pos name ds fragment rest before middle after uses uses' hds hfind hstack hknown hoverlap hsub hrest ihs ih =>
    unfold visitSelections at h
    simp only [hfind] at h
    split at h
    · cases h
    · split at h
      · cases h
      · split at h
        · cases h
        · rename_i inner hi
          exact (ihs hi).fragment (ih h) fun os os' h1 h2 => .spread hfind h1 h2
  | @inline stack type pos t ds sub rest before middle after uses uses' hds htype hsub hrest ihs ih =>
    cases t with
    | none =>
      simp only [visitSelections] at h
      split at h
      · cases h
      · rename_i inner hi
        exact (ihs hi).fragment (ih h) fun os os' h1 h2 => .inline h1 h2
    | some condition =>
      simp only [visitSelections] at h
      split at h
      · cases h
      · rename_i hfind
        split at h
        · cases h
        · rename_i inner hi
          have hne : condition ≠ [] := by
            rintro rfl
            simp [hnames] at hfind
          have heq : (if (some condition).getD [] = [] then type else (some condition).getD []) = condition := if_neg hne
          rw [heq] at ihs
          exact (ihs hi).fragment (ih h) fun os os' h1 h2 => .inline (by rw [heq]; exact h1) h2

end Verif.Gen.Client
