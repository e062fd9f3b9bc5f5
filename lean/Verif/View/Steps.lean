import Verif.View.Construct

/-!
# The states of the validator
-/
namespace Verif.View
open Verif.Value Verif.Errors Verif.SortedMap Verif.SortedMap.Spec Verif.TypeSystem Verif.TypeSystem.Spec
open Verif.Ast (TypeRef)

/-- What is always true of a validator. -/
structure Good (S : Validation.Schema) (v : Validator) : Prop where
  rep : Represents v.schema S
  sees : Sees v S
  introspection : v.introspection = S.introspection
  operations : Ordered v.operationTypes
  fields : Ordered v.typeFields
  inputs : Ordered v.inputTypeFields
  typeFields : ∀ n m, get v.typeFields n = some m →
    S.isComposite n ∧ ∀ k, Option.Rel (FieldIs v.schema) (get m k) (S.findField n k)
  inputTypeFields : ∀ n m, get v.inputTypeFields n = some m →
    ∃ t, S.find n = some t ∧ t.kind = .inputObject ∧ ArgumentsAre v.schema m t.inputFields

section
variable {S : Validation.Schema} {v : Validator}

theorem Good.construct {s : Schema} (h : Represents s S) : Good S (construct s S.introspection) := by
  obtain ⟨v₀, h1, h2, h3, h4, h5, v, hv, e⟩ := construct_tables h S.introspection
  have e1 : (View.construct s S.introspection).schema = s := by rw [e]; exact (congrArg (·.1) hv.same).trans h1
  have e2 : (View.construct s S.introspection).operationTypes = v₀.operationTypes := by
    rw [e]; exact congrArg (·.2.2.1) hv.same
  have e3 : (View.construct s S.introspection).introspection = S.introspection := by
    rw [e]; exact (congrArg (·.2.1) hv.same).trans h2
  have e4 : (View.construct s S.introspection).typeFields = [] := by
    rw [e]; exact (congrArg (·.2.2.2.2.1) hv.same).trans h3
  have e5 : (View.construct s S.introspection).inputTypeFields = [] := by
    rw [e]; exact (congrArg (·.2.2.2.2.2) hv.same).trans h4
  refine ⟨by rw [e1]; exact h, construct_sees h _, e3, ?_, by rw [e4]; exact ordered_nil, by rw [e5]; exact ordered_nil, ?_, ?_⟩
  · rw [e2, h5]
    exact (addOperationType_get (addOperationType_get (addOperationType_get ordered_nil _ _).1 _ _).1 _ _).1
  · intro n m hm; rw [e4, get_nil] at hm; cases hm
  · intro n m hm; rw [e5, get_nil] at hm; cases hm

/-- More wrappers change nothing. -/
theorem Sees.later (h : Sees v S) (hr : Represents v.schema S) {s : Schema} (hl : Later v.schema s) :
    Sees { v with schema := s } S where
  types n := rel_imp (fun p t ⟨h1, h2⟩ => ⟨hl.refers h1, fun a ha => by
    obtain ⟨b, h3, h4⟩ := h2 a ha
    exact ⟨b, hl.store _ _ h3, h4⟩⟩) (h.types n)
  operationTypes o := rel_imp (fun _ _ h1 => hl.refers h1) (h.operationTypes o)
  directives n := rel_imp (fun _ _ h1 => hl.directiveIs h1) (h.directives n)
  enumValues := h.enumValues
  scalars := h.scalars
  overlap a n m hd := by
    cases hd with
    | named hd =>
    have hd' : v.schema.lookupType n = .ok a := (hl.lookup n).symm.trans hd
    rw [← h.overlap a n m (.named hd')]
    obtain ⟨d, t, _, ht, _⟩ := hr.lookup hd'
    simp only [matchesScopedType, ht, hl.store _ _ ht]

theorem Good.later (h : Good S v) {s : Schema} (hl : Later v.schema s) : Good S { v with schema := s } where
  rep := hl.represents h.rep
  sees := h.sees.later h.rep hl
  introspection := h.introspection
  operations := h.operations
  fields := h.fields
  inputs := h.inputs
  typeFields n m hm := ⟨(h.typeFields n m hm).1, fun k => rel_imp (fun _ _ h1 => hl.fieldIs h1) ((h.typeFields n m hm).2 k)⟩
  inputTypeFields n m hm := by
    obtain ⟨t, h1, h2, h3⟩ := h.inputTypeFields n m hm
    exact ⟨t, h1, h2, hl.arguments h3⟩

theorem wrap_spec {alloc : Schema → Addr} (hf : Fresh alloc) {s : Schema} (h : Represents s S) {τ : TypeRef} {a : Addr}
    (hd : Denotes s τ a) {k : Kind} (hk : k = .list ∨ k = .nonNull) :
    Later s (s.wrapType k a (alloc s)).1 ∧
      (s.wrapType k a (alloc s)).1.store (s.wrapType k a (alloc s)).2 = some (.wrapper k a) := by
  obtain ⟨ops, hb, _⟩ := h.built
  exact ⟨later_wrap ⟨hf ops s hb, h.alive hd, hk⟩, wrapType_wrapper hb.wrapInv k hk a _⟩

theorem wrapNonNull_spec {alloc : Schema → Addr} (hf : Fresh alloc) {s : Schema} (h : Represents s S) {n : Str}
    (hn : (S.find n).isSome) :
    ∃ s' a, wrapNonNull alloc s n = .ok (s', a) ∧ Later s s' ∧ Denotes s' (.nonNull (.named n)) a := by
  obtain ⟨d, hd⟩ := Option.isSome_iff_exists.1 hn
  obtain ⟨a, t, hl, _⟩ := h.find hd
  obtain ⟨h1, h2⟩ := wrap_spec hf h (.named hl) (k := .nonNull) (.inr rfl)
  refine ⟨_, _, by rw [wrapNonNull, hl], h1, .nonNull (h1.denotes (.named hl)) h2⟩

/-- The type which is inside of a type. -/
theorem unwraps_spec {s : Schema} (h : Represents s S) {τ : TypeRef} {a : Addr} (hd : Denotes s τ a) :
    ∃ b, s.lookupType (Validation.baseName τ) = .ok b ∧ ∀ r, Unwraps s (some a) r ↔ r = some b := by
  induction hd with
  | @named n a hl =>
    obtain ⟨ops, hb, ho⟩ := h.built
    obtain ⟨t, ht, _, hn, hne⟩ := Denotes.made hb ho hl
    refine ⟨a, hl, fun r => ⟨fun hu => ?_, ?_⟩⟩
    · cases hu with
      | named => rfl
      | wrapper h1 h2 _ => rw [ht] at h1; cases h1; exact absurd (hn.symm.trans h2) hne
    · rintro rfl; exact .named ht (by rw [hn]; exact hne)
  | @list τ a b hd hb ih =>
    obtain ⟨c, hl, hu⟩ := ih
    refine ⟨c, hl, fun r => ?_⟩
    rw [← hu]
    constructor
    · intro hr
      cases hr with
      | named h1 h2 => rw [hb] at h1; cases h1; exact absurd rfl h2
      | wrapper h1 _ h3 =>
        rw [hb] at h1; cases h1
        have e : ((BaseType.wrapper .list a).ofType.bind (lock s)) = some a := h.lock hd
        rwa [e] at h3
    · intro hr
      refine .wrapper hb rfl ?_
      have e : ((BaseType.wrapper .list a).ofType.bind (lock s)) = some a := h.lock hd
      rwa [e]
  | @nonNull τ a b hd hb ih =>
    obtain ⟨c, hl, hu⟩ := ih
    refine ⟨c, hl, fun r => ?_⟩
    rw [← hu]
    constructor
    · intro hr
      cases hr with
      | named h1 h2 => rw [hb] at h1; cases h1; exact absurd rfl h2
      | wrapper h1 _ h3 =>
        rw [hb] at h1; cases h1
        have e : ((BaseType.wrapper .nonNull a).ofType.bind (lock s)) = some a := h.lock hd
        rwa [e] at h3
    · intro hr
      refine .wrapper hb rfl ?_
      have e : ((BaseType.wrapper .nonNull a).ofType.bind (lock s)) = some a := h.lock hd
      rwa [e]

/-! ## Variables -/

theorem variableType_spec {alloc : Schema → Addr} (hf : Fresh alloc) (τ : TypeRef) (h : Good S v) :
    ∃ s' p, View.variableType alloc v.types v.schema τ = .ok (s', (Validation.variableType S τ).isSome, p) ∧ Later v.schema s' ∧
      ((Validation.variableType S τ).isSome → Refers s' p τ) ∧ ((Validation.variableType S τ) = none → p = none) := by
  have base : ∀ τ τ', Validation.baseName τ = Validation.baseName τ' →
      (Validation.variableType S τ).isSome = (Validation.variableType S τ').isSome := by
    intro τ τ' e
    unfold Validation.variableType
    rw [e]
    split <;> rfl
  have wrap : ∀ (k : Kind) (hk : k = .list ∨ k = .nonNull) (τ : TypeRef) s' p, Later v.schema s' →
      ((Validation.variableType S τ).isSome → Refers s' p τ) → ((Validation.variableType S τ) = none → p = none) →
      Later v.schema (wrapVariable alloc s' k p).1 ∧
      ((Validation.variableType S τ).isSome → ∃ a b, (wrapVariable alloc s' k p).2 = some b ∧
        Denotes (wrapVariable alloc s' k p).1 τ a ∧ (wrapVariable alloc s' k p).1.store b = some (.wrapper k a)) ∧
      ((Validation.variableType S τ) = none → (wrapVariable alloc s' k p).2 = none) := by
    intro k hk τ s' p hl h1 h2
    cases hv : Validation.variableType S τ with
    | none =>
      rw [h2 hv]
      exact ⟨hl, by simp, by simp [wrapVariable]⟩
    | some τ' =>
      obtain ⟨a, rfl, hd⟩ := h1 (by rw [hv]; rfl)
      obtain ⟨h3, h4⟩ := wrap_spec hf (hl.represents h.rep) hd hk
      exact ⟨hl.trans h3, fun _ => ⟨a, _, rfl, h3.denotes hd, h4⟩, by simp⟩
  induction τ with
  | named n =>
    have ht := h.sees.types n
    rw [View.variableType]
    generalize get v.types n = x at ht
    have hvar : Validation.variableType S (.named n) = if ((S.find n).map (·.kind)).any Validation.Kind.isInput then
      some (.named n) else none := rfl
    rw [hvar]
    clear hvar wrap base
    revert ht
    generalize S.find n = y
    intro ht
    cases ht with
    | none => exact ⟨v.schema, none, rfl, Later.refl _, by simp, by simp⟩
    | @some p d hp =>
      obtain ⟨⟨a, rfl, hd⟩, h2⟩ := hp
      obtain ⟨b, hb, hk, _⟩ := h2 a rfl
      cases hd with
      | named hd =>
      simp only [hb, hk]
      cases hkd : d.kind <;>
        simp only [kindOf, hd, Option.map_some, hkd, Option.any_some, Validation.Kind.isInput, Bool.false_eq_true, if_false, if_true]
      all_goals first
        | exact ⟨v.schema, some a, rfl, Later.refl _, fun _ => ⟨a, rfl, .named hd⟩, by simp⟩
        | exact ⟨v.schema, none, rfl, Later.refl _, by simp, by simp⟩
  | list τ ih =>
    obtain ⟨s', p, h1, h2, h3, h4⟩ := ih
    obtain ⟨h5, h6, h7⟩ := wrap .list (.inl rfl) τ s' p h2 h3 h4
    refine ⟨_, _, by simp only [View.variableType, h1]; rw [base (.list τ) τ rfl], h5, fun hs => ?_, fun hs => h7 ?_⟩
    · obtain ⟨a, b, h8, h9, h10⟩ := h6 (by rw [← base (.list τ) τ rfl]; exact hs)
      exact ⟨b, h8, .list h9 h10⟩
    · have := base (.list τ) τ rfl
      rw [hs] at this
      exact Option.isNone_iff_eq_none.1 (by rw [← Option.not_isSome, ← this]; rfl)
  | nonNull τ ih =>
    obtain ⟨s', p, h1, h2, h3, h4⟩ := ih
    obtain ⟨h5, h6, h7⟩ := wrap .nonNull (.inr rfl) τ s' p h2 h3 h4
    refine ⟨_, _, by simp only [View.variableType, h1]; rw [base (.nonNull τ) τ rfl], h5, fun hs => ?_, fun hs => h7 ?_⟩
    · obtain ⟨a, b, h8, h9, h10⟩ := h6 (by rw [← base (.nonNull τ) τ rfl]; exact hs)
      exact ⟨b, h8, .nonNull h9 h10⟩
    · have := base (.nonNull τ) τ rfl
      rw [hs] at this
      exact Option.isNone_iff_eq_none.1 (by rw [← Option.not_isSome, ← this]; rfl)

/-! ## Input fields -/

theorem inputFields_spec (h : Good S v) (n : Str) :
    Good S (getInputTypeFields v n).1 ∧ (getInputTypeFields v n).1.schema = v.schema ∧
      Option.Rel (fun m (t : Validation.TypeDef) => ArgumentsAre v.schema m t.inputFields) (getInputTypeFields v n).2
        ((S.find n).filter fun t => t.kind = .inputObject) := by
  unfold getInputTypeFields
  cases hg : get v.inputTypeFields n with
  | some m =>
    obtain ⟨t, h1, h2, h3⟩ := h.inputTypeFields n m hg
    refine ⟨h, rfl, ?_⟩
    simp only [h1, Option.filter_some, h2, decide_true, if_true]
    exact .some h3
  | none =>
    have ht := h.sees.types n
    simp only []
    generalize hx : get v.types n = x at ht
    generalize hy : S.find n = y at ht
    cases ht with
    | none => exact ⟨h, rfl, .none⟩
    | @some p d hp =>
      obtain ⟨⟨a, rfl, hd⟩, h2⟩ := hp
      obtain ⟨b, hb, hk, hn⟩ := h2 a rfl
      cases hd with
      | named hd =>
      obtain ⟨d', t, hf, ht, hnt⟩ := h.rep.lookup hd
      rw [hy] at hf; cases hf
      rw [hb] at ht; cases ht
      simp only [hb, Option.filter_some]
      by_cases hkd : d.kind = .inputObject
      · have hkb : b.kind = .inputObject := by rw [hk, hkd]; rfl
        rw [if_pos hkb]
        simp only [hkd, decide_true, if_true]
        obtain ⟨h3, h4⟩ := emplace_new h.inputs hg (getArguments v.schema b.inputFields)
        refine ⟨⟨h.rep, ⟨h.sees.types, h.sees.operationTypes, h.sees.directives, h.sees.enumValues, h.sees.scalars, h.sees.overlap⟩,
          h.introspection, h.operations, h.fields, h3, h.typeFields, fun k m hm => ?_⟩, ?_⟩
        · rw [h4] at hm
          split at hm
          · cases hm
            rename_i e
            rw [e]
            exact ⟨d, hy, hkd, (h.rep.arguments hnt.inputFields).2⟩
          · exact h.inputTypeFields k m hm
        · exact ⟨trivial, .some (h.rep.arguments hnt.inputFields).2⟩
      · have hkb : b.kind ≠ .inputObject := by rw [hk]; intro e; apply hkd; revert e; cases d.kind <;> simp [kindOf]
        rw [if_neg hkb]
        simp only [hkd, decide_false, Bool.false_eq_true, if_false]
        exact ⟨h, trivial, .none⟩

end

end Verif.View
