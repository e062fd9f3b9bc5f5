import Verif.Validation.Spec

/-!
# Types of variables (C28)
-/
namespace Verif.Validation
open Verif.Value Verif.Resp Verif.Errors Verif.Ast Spec

theorem valid_isSome {S : Schema} {t : TypeRef} (h : (S.find (baseName t)).isSome) : (S.valid t).isSome := by
  cases t with
  | named n => simp [Schema.valid, baseName] at *; simp [h]
  | list t => rfl
  | nonNull t => rfl

theorem valid_isNone {S : Schema} {t : TypeRef} (h : (S.find (baseName t)).isSome) : (S.valid t).isNone = false := by
  have := valid_isSome h
  cases hv : S.valid t with
  | none => simp [hv] at this
  | some x => rfl

/-- Is it a non-null type? -/
def isRequired : TypeRef → Bool
  | .nonNull _ => true
  | _ => false

theorem unwrapVariable_eq {S : Schema} (nn : Bool) (t : TypeRef) (h : (S.find (baseName t)).isSome) :
    unwrapVariable S nn t = .ok (nn || isRequired t, nullable t) := by
  induction t generalizing nn with
  | named n =>
    simp only [baseName] at h
    cases hf : S.find n with
    | none => simp [hf] at h
    | some d => simp [unwrapVariable, hf, isRequired, nullable]
  | list t _ => simp [unwrapVariable, isRequired, nullable]
  | nonNull t ih =>
    simp only [baseName] at h
    simp only [unwrapVariable, valid_isNone h, Bool.false_eq_true, if_false, ih true h, isRequired, nullable,
      Bool.true_or, Bool.or_true]

theorem nullable_ne (t : TypeRef) : ∀ u, nullable t ≠ .nonNull u := by
  induction t with
  | named n => simp [nullable]
  | list t _ => simp [nullable]
  | nonNull t ih => simpa [nullable] using ih

theorem baseName_nullable (t : TypeRef) : baseName (nullable t) = baseName t := by
  induction t with
  | named n => rfl
  | list t _ => rfl
  | nonNull t ih => simpa [nullable, baseName] using ih

theorem compatible_nonNull {v l : TypeRef} : Compatible v (.nonNull l) ↔ ∃ w, v = .nonNull w ∧ Compatible w l := by
  constructor
  · intro h
    cases h with
    | bothNonNull h => exact ⟨_, rfl, h⟩
    | variableNonNull hl h => exact absurd rfl (hl _)
  · rintro ⟨w, rfl, h⟩; exact .bothNonNull h

theorem compatible_nullable {v l : TypeRef} (hl : ∀ t, l ≠ .nonNull t) : Compatible (nullable v) l ↔ Compatible v l := by
  induction v with
  | named n => rfl
  | list t _ => rfl
  | nonNull t ih =>
    simp only [nullable, ih]
    constructor
    · exact .variableNonNull hl
    · intro h
      cases h with
      | bothNonNull h => exact absurd rfl (hl _)
      | variableNonNull _ h => exact h

theorem sameNamedType_none {S : Schema} {kind : Kind} {expected : Str} {v : TypeRef} {input : Str} (hv : ∀ t, v ≠ .nonNull t)
    (hk : S.kind input = some kind) (he : S.find [] = none) :
    sameNamedType S kind expected v input = none ↔ Compatible v (.named input) := by
  have hin : input ≠ [] := by rintro rfl; simp [Schema.kind, he] at hk
  cases v with
  | nonNull t => exact absurd rfl (hv t)
  | list t =>
    simp only [sameNamedType]
    constructor
    · simp
    · intro h; cases h
  | named n =>
    simp only [sameNamedType]
    constructor
    · intro h
      split at h
      · simp at h
      · split at h
        · simp at h
        · split at h
          · simp at h
          · split at h
            · simp at h
            · rename_i hne
              have : n = input := by simpa using hne
              subst this; exact .named
    · intro h
      cases h
      simp [hk, hin]

/-- What a variable of type `v` may stand for where `l` is expected. -/
theorem variableTypeError_none {S : Schema} (he : S.find [] = none) (nn : Bool) (v l : TypeRef)
    (hv : ∃ k, S.kind (baseName v) = some k ∧ k.isInput = true) (hl : (S.find (baseName l)).isSome) (hwf : WellFormed l) :
    variableTypeError S nn v l = none ↔ Allowed nn v l := by
  have hfind : ∀ v : TypeRef, (∃ k, S.kind (baseName v) = some k ∧ k.isInput = true) → (S.find (baseName v)).isSome := by
    rintro v ⟨k, hk, _⟩
    unfold Schema.kind at hk
    cases hf : S.find (baseName v) with
    | none => simp [hf] at hk
    | some d => rfl
  -- without a default
  have allowed_false : ∀ v l, Allowed false v l ↔ Compatible v l := fun v l =>
    ⟨fun h => by cases h with | compatible h => exact h | default hd => simp at hd, .compatible⟩
  have core : ∀ (l v : TypeRef), (∃ k, S.kind (baseName v) = some k ∧ k.isInput = true) → (S.find (baseName l)).isSome →
      WellFormed l → ∀ nn, variableTypeError S nn v l = none ↔ Allowed nn v l := by
    intro l
    induction l with
    | named input =>
      intro v hv hl _ nn
      have ha : Allowed nn v (.named input) ↔ Compatible v (.named input) :=
        ⟨fun h => by cases h with | compatible h => exact h, .compatible⟩
      rw [ha, ← compatible_nullable (by simp)]
      simp only [variableTypeError, unwrapVariable_eq nn v (hfind v hv)]
      simp only [baseName] at hl
      cases hf : S.find input with
      | none => simp [hf] at hl
      | some d =>
        have hk : S.kind input = some d.kind := by simp [Schema.kind, hf]
        rw [hk]
        cases hd : d.kind with
        | inputObject => exact sameNamedType_none (nullable_ne v) (hk.trans (by rw [hd])) he
        | enum => exact sameNamedType_none (nullable_ne v) (hk.trans (by rw [hd])) he
        | scalar => exact sameNamedType_none (nullable_ne v) (hk.trans (by rw [hd])) he
        | object | interface | union =>
          simp only
          constructor
          · simp
          · intro h
            obtain ⟨k, hvk, hin⟩ := hv
            rw [← baseName_nullable] at hvk
            have : nullable v = .named input := by
              cases hn : nullable v with
              | named n => rw [hn] at h; cases h; rfl
              | list t => rw [hn] at h; cases h
              | nonNull t => exact absurd hn (nullable_ne v t)
            rw [this, baseName, hk, hd] at hvk
            cases hvk
            simp [Kind.isInput] at hin
    | list of ih =>
      intro v hv hl hwf nn
      have ha : Allowed nn v (.list of) ↔ Compatible v (.list of) :=
        ⟨fun h => by cases h with | compatible h => exact h, .compatible⟩
      rw [ha, ← compatible_nullable (by simp)]
      simp only [variableTypeError, unwrapVariable_eq nn v (hfind v hv)]
      have hb := baseName_nullable v
      cases hn : nullable v with
      | named n =>
        simp only
        constructor
        · simp
        · intro h; cases h
      | nonNull t => exact absurd hn (nullable_ne v t)
      | list w =>
        rw [hn, baseName] at hb
        simp only [baseName, WellFormed] at hl hwf
        have hw : ∃ k, S.kind (baseName w) = some k ∧ k.isInput = true := by rw [hb]; exact hv
        simp only [valid_isNone (hfind w hw), valid_isNone hl, Bool.false_eq_true, if_false]
        rw [ih w hw hl hwf false, allowed_false]
        constructor
        · exact .list
        · intro h; cases h with | list h => exact h
    | nonNull of ih =>
      intro v hv hl hwf nn
      simp only [variableTypeError, unwrapVariable_eq nn v (hfind v hv)]
      simp only [baseName] at hl
      have hof : ∀ t, of ≠ .nonNull t := by rintro t rfl; simp [WellFormed] at hwf
      have hwf' : WellFormed of := by
        cases of with
        | nonNull t => exact absurd rfl (hof t)
        | named n => trivial
        | list t => exact hwf
      have hnv : ∃ k, S.kind (baseName (nullable v)) = some k ∧ k.isInput = true := by rw [baseName_nullable]; exact hv
      simp only [valid_isNone hl, Bool.false_eq_true, if_false]
      have hrec := ih (nullable v) hnv hl hwf' false
      rw [allowed_false, compatible_nullable hof] at hrec
      cases hr : isRequired v with
      | true =>
        obtain ⟨w, rfl⟩ : ∃ w, v = .nonNull w := by
          cases v with
          | nonNull w => exact ⟨w, rfl⟩
          | named n => simp [isRequired] at hr
          | list t => simp [isRequired] at hr
        simp only [Bool.or_true, Bool.not_true, Bool.false_eq_true, if_false]
        rw [hrec]
        have hw : Compatible (.nonNull w) of ↔ Compatible w of :=
          ⟨fun h => by cases h with | bothNonNull h => exact absurd rfl (hof _) | variableNonNull _ h => exact h,
           .variableNonNull hof⟩
        rw [hw]
        constructor
        · intro h; exact .compatible (.bothNonNull h)
        · intro h
          cases h with
          | compatible h => obtain ⟨w', hw', h⟩ := compatible_nonNull.mp h; cases hw'; exact h
          | default hd hv h => exact absurd rfl (hv w)
      | false =>
        have hv' : ∀ t, v ≠ .nonNull t := by rintro t rfl; simp [isRequired] at hr
        cases nn with
        | false =>
          simp only [Bool.or_false, Bool.not_false, if_true]
          rw [allowed_false]
          constructor
          · simp
          · intro h; obtain ⟨w, rfl, _⟩ := compatible_nonNull.mp h; exact absurd rfl (hv' w)
        | true =>
          simp only [Bool.or_false, Bool.not_true, Bool.false_eq_true, if_false]
          rw [hrec]
          constructor
          · exact .default rfl hv'
          · intro h
            cases h with
            | compatible h => obtain ⟨w, rfl, _⟩ := compatible_nonNull.mp h; exact absurd rfl (hv' w)
            | default _ _ h => exact h
  exact core l v hv hl hwf nn

end Verif.Validation
