import Verif.Validation.Types

/-!
# Values (C29): `validateInputValue`
-/
namespace Verif.Validation
open Verif.Value Verif.Resp Verif.Errors Verif.Ast Spec

/-! ## Members of the same name -/

/-- The members have distinct names which are not among `taken`, and their values are fine. -/
def FreshMembers (taken : List Str) (fields : List (Str × Lit)) : Prop :=
  (fields.map (·.1)).Nodup ∧ (∀ e ∈ fields, e.1 ∉ taken) ∧ ∀ e ∈ fields, Unique e.2

theorem FreshMembers.cons {taken : List Str} {name : Str} {x : Lit} {xs : List (Str × Lit)} :
    FreshMembers taken ((name, x) :: xs) ↔ name ∉ taken ∧ Unique x ∧ FreshMembers (taken ++ [name]) xs := by
  unfold FreshMembers
  simp only [List.map_cons, List.nodup_cons, List.mem_cons, forall_eq_or_imp, List.mem_append, List.mem_singleton,
    not_or, List.not_mem_nil, or_false]
  constructor
  · rintro ⟨⟨h1, h2⟩, ⟨h3, h4⟩, h5, h6⟩
    refine ⟨h3, h5, h2, ?_, h6⟩
    intro e he
    refine ⟨h4 e he, ?_⟩
    rintro rfl
    exact h1 (List.mem_map_of_mem he)
  · rintro ⟨h1, h2, h3, h4, h5⟩
    refine ⟨⟨?_, h3⟩, ⟨h1, fun e he => (h4 e he).1⟩, h2, h5⟩
    intro hm
    obtain ⟨e, he, rfl⟩ := List.mem_map.mp hm
    exact (h4 e he).2 rfl

theorem any_name {acc : List (Str × Lit)} {name : Str} : (acc.any fun e => e.1 == name) = true ↔ name ∈ acc.map (·.1) := by
  simp only [List.any_eq_true, beq_iff_eq, List.mem_map]

mutual
theorem visitValue_ok : (l : Lit) → (((visitValue l).1 = [] ↔ Unique l) ∧ ((visitValue l).1 = [] → (visitValue l).2 = l))
  | .list xs => by
    have := visitValues_ok xs
    simp only [visitValue]
    refine ⟨this.1.trans ⟨.list, fun h => by cases h with | list h => exact h⟩, fun h => by rw [this.2 h]⟩
  | .object fields => by
    have := visitMembers_ok fields []
    simp only [visitValue]
    refine ⟨this.1.trans ⟨fun h => .object h.1 h.2.2, fun h => ?_⟩, fun h => by rw [this.2 h]; rfl⟩
    cases h with | object hn h => exact ⟨hn, by simp, h⟩
  | .variable pos name => by simp only [visitValue, true_iff, and_true, forall_const]; exact .variable
  | .int n => by simp only [visitValue, true_iff, and_true, forall_const]; exact .int
  | .float n => by simp only [visitValue, true_iff, and_true, forall_const]; exact .float
  | .string n => by simp only [visitValue, true_iff, and_true, forall_const]; exact .string
  | .boolean n => by simp only [visitValue, true_iff, and_true, forall_const]; exact .boolean
  | .null => by simp only [visitValue, true_iff, and_true, forall_const]; exact .null
  | .enumValue n => by simp only [visitValue, true_iff, and_true, forall_const]; exact .enumValue
theorem visitValues_ok : (xs : List Lit) →
    (((visitValues xs).1 = [] ↔ ∀ x ∈ xs, Unique x) ∧ ((visitValues xs).1 = [] → (visitValues xs).2 = xs))
  | [] => by simp [visitValues]
  | x :: xs => by
    have h1 := visitValue_ok x
    have h2 := visitValues_ok xs
    simp only [visitValues, List.append_eq_nil_iff, List.mem_cons, forall_eq_or_imp]
    exact ⟨and_congr h1.1 h2.1, fun h => by rw [h1.2 h.1, h2.2 h.2]⟩
theorem visitMembers_ok : (xs : List (Str × Lit)) → ∀ acc : List (Str × Lit),
    (((visitMembers xs acc).1 = [] ↔ FreshMembers (acc.map (·.1)) xs) ∧
      ((visitMembers xs acc).1 = [] → (visitMembers xs acc).2 = acc ++ xs))
  | [], acc => by simp [visitMembers, FreshMembers]
  | (name, x) :: xs, acc => by
    rw [FreshMembers.cons]
    simp only [visitMembers]
    by_cases h : (acc.any fun e => e.1 == name) = true
    · rw [if_pos h]
      have := any_name.mp h
      simp [this]
    · rw [if_neg h]
      have hn : name ∉ acc.map (·.1) := fun hc => h (any_name.mpr hc)
      have h1 := visitValue_ok x
      have h2 := visitMembers_ok xs (acc ++ [(name, (visitValue x).2)])
      simp only [List.map_append, List.map_cons, List.map_nil] at h2
      simp only [List.append_eq_nil_iff]
      refine ⟨?_, ?_⟩
      · rw [h1.1, h2.1]; exact ⟨fun h => ⟨hn, h⟩, fun h => h.2⟩
      · intro h; rw [h2.2 h.2, h1.2 h.1]; simp
end

/-! ## Steps which only add errors and references to variables -/

/-- Only errors are added, and the variables used may change. -/
structure Quiet (st st' : State) : Prop where
  frame : st' = { st with errors := st'.errors, referencedVariables := st'.referencedVariables }
  errors : ∃ new, st'.errors = st.errors ++ new
  noVariables : st.operationVariables = none → st'.referencedVariables = st.referencedVariables

theorem Quiet.refl (st : State) : Quiet st st := ⟨rfl, ⟨[], by simp⟩, fun _ => rfl⟩
theorem Quiet.trans {a b c : State} (h : Quiet a b) (h' : Quiet b c) : Quiet a c := by
  obtain ⟨f1, ⟨n1, e1⟩, r1⟩ := h
  obtain ⟨f2, ⟨n2, e2⟩, r2⟩ := h'
  refine ⟨?_, ⟨n1 ++ n2, by rw [e2, e1, List.append_assoc]⟩, fun hn => ?_⟩
  · rw [f2, f1]
  · rw [r2 (by rw [f1]; exact hn), r1 hn]
theorem Quiet.fail (st : State) (m : Str) : Quiet st (st.fail m) := ⟨rfl, ⟨[m], rfl⟩, fun _ => rfl⟩
theorem Quiet.failAll (st : State) (m : List Str) : Quiet st (st.failAll m) := ⟨rfl, ⟨m, rfl⟩, fun _ => rfl⟩
theorem Quiet.refer (st : State) (l : List Str) (h : st.operationVariables.isSome) :
    Quiet st { st with referencedVariables := l } := ⟨rfl, ⟨[], by simp⟩, fun hn => by rw [hn] at h; cases h⟩
theorem Quiet.check (st : State) (m : Option Str) : Quiet st (st.check m).1 := by
  cases m with
  | none => exact .refl _
  | some m => exact .fail _ _
theorem Quiet.operationVariables {a b : State} (h : Quiet a b) : b.operationVariables = a.operationVariables := by
  rw [h.frame]
theorem Quiet.scopedType {a b : State} (h : Quiet a b) : b.scopedType = a.scopedType := by rw [h.frame]
theorem Quiet.selectionFields {a b : State} (h : Quiet a b) : b.selectionFields = a.selectionFields := by rw [h.frame]
theorem Quiet.fragmentStack {a b : State} (h : Quiet a b) : b.fragmentStack = a.fragmentStack := by rw [h.frame]
theorem Quiet.fragmentCycles {a b : State} (h : Quiet a b) : b.fragmentCycles = a.fragmentCycles := by rw [h.frame]
theorem Quiet.fieldCount {a b : State} (h : Quiet a b) : b.fieldCount = a.fieldCount := by rw [h.frame]
theorem Quiet.referencedFragments {a b : State} (h : Quiet a b) : b.referencedFragments = a.referencedFragments := by
  rw [h.frame]
theorem Quiet.variableDefinitions {a b : State} (h : Quiet a b) : b.variableDefinitions = a.variableDefinitions := by
  rw [h.frame]
theorem Quiet.exhausted {a b : State} (h : Quiet a b) : b.exhausted = a.exhausted := by rw [h.frame]

/-- `Step P U st st'`: from `st` to `st'` errors are added unless `P` holds, and then the variables in `U` are used. -/
structure Step (P : Prop) (U : Set Str) (st st' : State) : Prop extends Quiet st st' where
  ok : st.errors = st'.errors ↔ P
  refs : P → ∀ v, v ∈ st'.referencedVariables ↔ v ∈ st.referencedVariables ∨ v ∈ U

theorem Step.congr {P Q : Prop} {U V : Set Str} {a b : State} (h : Step P U a b) (hp : P ↔ Q) (hu : P → U = V) :
    Step Q V a b :=
  ⟨h.toQuiet, h.ok.trans hp, fun q v => by rw [h.refs (hp.mpr q), hu (hp.mpr q)]⟩

theorem Step.refl (st : State) : Step True ∅ st st := ⟨.refl _, by simp, by simp⟩

theorem Step.fail {P : Prop} (U : Set Str) (st : State) (m : Str) (h : ¬ P) : Step P U st (st.fail m) :=
  ⟨.fail _ _, by simp [State.fail, h], fun p => absurd p h⟩

theorem Step.trans {P Q : Prop} {U V : Set Str} {a b c : State} (h : Step P U a b) (h' : Step Q V b c) :
    Step (P ∧ Q) (U ∪ V) a c := by
  refine ⟨h.toQuiet.trans h'.toQuiet, ?_, ?_⟩
  · obtain ⟨n1, e1⟩ := h.errors
    obtain ⟨n2, e2⟩ := h'.errors
    rw [← h.ok, ← h'.ok, e2, e1, List.append_assoc]
    simp
  · rintro ⟨p, q⟩ v
    rw [h'.refs q, h.refs p, Set.mem_union, or_assoc]

/-- What follows an error does not matter. -/
theorem Step.bad {P Q : Prop} {U V : Set Str} {a b c : State} (h : Step P U a b) (hn : ¬ P) (h' : Quiet b c)
    (hq : ¬ Q) : Step Q V a c := by
  refine ⟨h.toQuiet.trans h', ?_, fun q => absurd q hq⟩
  obtain ⟨n1, e1⟩ := h.errors
  obtain ⟨n2, e2⟩ := h'.errors
  constructor
  · intro he
    have : n1 = [] := by
      rw [e2, e1, List.append_assoc] at he
      have := List.append_cancel_left (as := a.errors) (bs := []) (cs := n1 ++ n2) (by simpa using he)
      exact (List.append_eq_nil_iff.mp this.symm).1
    exact absurd (h.ok.mp (by rw [e1, this]; simp)) hn
  · exact fun q => absurd q hq

theorem Step.failAll (st : State) (ms : List Str) : Step (ms = []) ∅ st (st.failAll ms) := by
  refine ⟨.failAll _ _, ?_, by simp [State.failAll]⟩
  simp only [State.failAll]
  constructor
  · intro h; exact (List.append_cancel_left (as := st.errors) (bs := []) (cs := ms) (by simpa using h)).symm
  · rintro rfl; simp

theorem Step.errors_nil {P : Prop} {U : Set Str} {a b : State} (h : Step P U a b) : b.errors = [] ↔ a.errors = [] ∧ P := by
  obtain ⟨n, e⟩ := h.errors
  rw [← h.ok, e]
  constructor
  · intro h'
    obtain ⟨h1, h2⟩ := List.append_eq_nil_iff.mp h'
    exact ⟨h1, by rw [h2]; simp⟩
  · rintro ⟨h1, h2⟩; rw [← h2, h1]

/-! ## `validateInputValue` changes nothing else -/

theorem validateVariable_quiet (S : Schema) (d : Bool) (name : Str) (t : TypeRef) (st : State) :
    Quiet st (validateVariable S d name t st).1 := by
  unfold validateVariable
  split
  · exact .refl _
  · rename_i hv
    split
    · exact .fail _ _
    · split
      · exact .refer _ _ (by rw [hv]; rfl)
      · exact .trans (.refer _ _ (by rw [hv]; rfl)) (.fail _ _)

theorem validateNamed_quiet (S : Schema) (t : TypeRef) (l : Lit) (st : State) : Quiet st (validateNamed S t l st).1 := by
  unfold validateNamed
  split
  · exact .fail _ _
  · exact .fail _ _
  · split
    · exact .fail _ _
    · split
      · split <;> exact .fail _ _
      · exact .check _ _
      · exact .check _ _
      · exact .fail _ _

mutual
theorem validateInputValue_quiet (S : Schema) : (l : Lit) → ∀ (d : Bool) (t : TypeRef) (st : State),
    Quiet st (validateInputValue S d l t st).1
  | .variable pos name, d, t, st => by
    simp only [validateInputValue]; split
    · exact .fail _ _
    · exact validateVariable_quiet _ _ _ _ _
  | .null, d, t, st => by
    simp only [validateInputValue]; split
    · exact .fail _ _
    · split
      · split
        · exact .refl _
        · exact .fail _ _
      · exact .refl _
  | .list values, d, t, st => by
    simp only [validateInputValue]; split
    · exact .fail _ _
    · split
      · exact .fail _ _
      · split
        · exact .fail _ _
        · exact validateList_quiet S values _ _
      · exact validateNamed_quiet _ _ _ _
  | .object values, d, t, st => by
    simp only [validateInputValue]; split
    · exact .fail _ _
    · split
      · exact .fail _ _
      · split
        · exact .fail _ _
        · split
          · split
            · exact .fail _ _
            · split
              · rename_i h
                have := congrArg Prod.fst h
                simp only at this
                rw [← this]; exact validateMembers_quiet S _ _ values st
              · rename_i h
                have := congrArg Prod.fst h
                simp only at this
                rw [← this]; exact .trans (validateMembers_quiet S _ _ values st) (.check _ _)
          · exact validateNamed_quiet _ _ _ _
      · exact validateNamed_quiet _ _ _ _
  | .int n, d, t, st => by
    simp only [validateInputValue]; split
    · exact .fail _ _
    · split
      · exact .fail _ _
      · exact validateNamed_quiet _ _ _ _
  | .float n, d, t, st => by
    simp only [validateInputValue]; split
    · exact .fail _ _
    · split
      · exact .fail _ _
      · exact validateNamed_quiet _ _ _ _
  | .string n, d, t, st => by
    simp only [validateInputValue]; split
    · exact .fail _ _
    · split
      · exact .fail _ _
      · exact validateNamed_quiet _ _ _ _
  | .boolean n, d, t, st => by
    simp only [validateInputValue]; split
    · exact .fail _ _
    · split
      · exact .fail _ _
      · exact validateNamed_quiet _ _ _ _
  | .enumValue n, d, t, st => by
    simp only [validateInputValue]; split
    · exact .fail _ _
    · split
      · exact .fail _ _
      · exact validateNamed_quiet _ _ _ _
theorem validateList_quiet (S : Schema) : (ls : List Lit) → ∀ (t : TypeRef) (st : State),
    Quiet st (validateList S ls t st).1
  | [], t, st => .refl _
  | l :: ls, t, st => by
    simp only [validateList]
    have := validateInputValue_quiet S l false t st
    split
    · rename_i h; rw [h] at this; exact this
    · rename_i h; rw [h] at this; exact .trans this (validateList_quiet S ls t _)
theorem validateMembers_quiet (S : Schema) (type : Str) (fields : List InputValue) : (ms : List (Str × Lit)) →
    ∀ st : State, Quiet st (validateMembers S type fields ms st).1
  | [], st => .refl _
  | (name, l) :: ms, st => by
    simp only [validateMembers]
    split
    · exact .fail _ _
    · rename_i field _
      split
      · have := validateInputValue_quiet S l field.nonNullDefaultValue field.type st
        split
        · rename_i h; rw [h] at this; exact this
        · rename_i h; rw [h] at this; exact .trans this (validateMembers_quiet S type fields ms _)
      · exact validateMembers_quiet S type fields ms _
end

end Verif.Validation
