import Verif.Validation.Arguments

/-!
# Comparison of selected fields
-/
namespace Verif.Validation
open Verif.Value Verif.Resp Verif.Errors Verif.Ast Spec

mutual
theorem sameValue_iff (ov : Int → Int) : (a b : Lit) → (sameValue ov a b = true ↔ SameLiteral ov a b)
  | .variable p x, b => by
    cases b with
    | «variable» q y =>
      simp only [sameValue, beq_iff_eq]
      exact ⟨fun h => h ▸ .variable, fun h => by cases h; rfl⟩
    | _ => simp only [sameValue, Bool.false_eq_true, false_iff]; intro h; cases h
  | .int x, b => by
    cases b with
    | int y =>
      simp only [sameValue, beq_iff_eq]
      exact ⟨.int, fun h => by cases h with | int h => exact h⟩
    | _ => simp only [sameValue, Bool.false_eq_true, false_iff]; intro h; cases h
  | .float x, b => by
    cases b with
    | float y =>
      simp only [sameValue]
      exact ⟨.float, fun h => by cases h with | float h => exact h⟩
    | _ => simp only [sameValue, Bool.false_eq_true, false_iff]; intro h; cases h
  | .string x, b => by
    cases b with
    | string y =>
      simp only [sameValue, beq_iff_eq]
      exact ⟨fun h => h ▸ .string, fun h => by cases h; rfl⟩
    | _ => simp only [sameValue, Bool.false_eq_true, false_iff]; intro h; cases h
  | .boolean x, b => by
    cases b with
    | boolean y =>
      simp only [sameValue, beq_iff_eq]
      exact ⟨fun h => h ▸ .boolean, fun h => by cases h; rfl⟩
    | _ => simp only [sameValue, Bool.false_eq_true, false_iff]; intro h; cases h
  | .null, b => by
    cases b with
    | null => simp only [sameValue, true_iff]; exact .null
    | _ => simp only [sameValue, Bool.false_eq_true, false_iff]; intro h; cases h
  | .enumValue x, b => by
    cases b with
    | enumValue y =>
      simp only [sameValue, beq_iff_eq]
      exact ⟨fun h => h ▸ .enumValue, fun h => by cases h; rfl⟩
    | _ => simp only [sameValue, Bool.false_eq_true, false_iff]; intro h; cases h
  | .list xs, b => by
    cases b with
    | list ys =>
      simp only [sameValue]
      rw [sameList_iff ov xs ys]
      exact ⟨fun h => .list h.1 h.2, fun h => by cases h with | list h1 h2 => exact ⟨h1, h2⟩⟩
    | _ => simp only [sameValue, Bool.false_eq_true, false_iff]; intro h; cases h
  | .object xs, b => by
    cases b with
    | object ys =>
      simp only [sameValue, Bool.and_eq_true, beq_iff_eq]
      rw [sameMembers_iff ov xs ys]
      constructor
      · rintro ⟨hl, h⟩
        refine .object hl (fun e he => ?_) (fun e he b hb => ?_)
        · obtain ⟨b, hb, _⟩ := h e he; rw [hb]; rfl
        · obtain ⟨b', hb', hs⟩ := h e he; rw [hb] at hb'; cases hb'; exact hs
      · intro h
        cases h with
        | object hl hs h =>
          refine ⟨hl, fun e he => ?_⟩
          obtain ⟨b, hb⟩ := Option.isSome_iff_exists.mp (hs e he)
          exact ⟨b, hb, h e he b hb⟩
    | _ => simp only [sameValue, Bool.false_eq_true, false_iff]; intro h; cases h
theorem sameList_iff (ov : Int → Int) : (as bs : List Lit) → (sameList ov as bs = true ↔
    as.length = bs.length ∧ ∀ (i : Nat) a b, as[i]? = some a → bs[i]? = some b → SameLiteral ov a b)
  | [], bs => by cases bs <;> simp [sameList]
  | a :: as, bs => by
    cases bs with
    | nil => simp [sameList]
    | cons b bs =>
      simp only [sameList, Bool.and_eq_true, List.length_cons, Nat.add_right_cancel_iff]
      rw [sameValue_iff ov a b, sameList_iff ov as bs]
      constructor
      · rintro ⟨h1, h2, h3⟩
        refine ⟨h2, ?_⟩
        intro i x y hx hy
        cases i with
        | zero => simp at hx hy; subst hx hy; exact h1
        | succ i => simp at hx hy; exact h3 i x y hx hy
      · rintro ⟨h1, h2⟩
        exact ⟨h2 0 a b rfl rfl, h1, fun i x y hx hy => h2 (i + 1) x y (by simpa using hx) (by simpa using hy)⟩
theorem sameMembers_iff (ov : Int → Int) : (as bs : List (Str × Lit)) → (sameMembers ov as bs = true ↔
    ∀ e ∈ as, ∃ b, findValue bs e.1 = some b ∧ SameLiteral ov e.2 b)
  | [], bs => by simp [sameMembers]
  | (n, a) :: as, bs => by
    simp only [sameMembers, Bool.and_eq_true, List.mem_cons, forall_eq_or_imp]
    rw [sameMembers_iff ov as bs]
    refine and_congr_left fun _ => ?_
    cases hf : findValue bs n with
    | none => simp
    | some b => simp only [Option.some.injEq, exists_eq_left']; exact sameValue_iff ov a b
end

/-- What the visitor keeps of a field. -/
def selectedOf (S : Schema) (o : Occurrence) : SelectedField where
  returnType := o.type
  objectType := if S.kind o.parent = some .object then some o.parent else none
  fieldName := o.field.name
  arguments := o.field.arguments.getD []

theorem same_iff (S : Schema) (ov : Int → Int) (a b : Occurrence) :
    (selectedOf S a).same ov (selectedOf S b) = true ↔ Agree S ov a b := by
  unfold SelectedField.same Agree SameArguments
  simp only [selectedOf, Bool.and_eq_true, Bool.or_eq_true, beq_iff_eq, sameArguments, sameMembers_iff]
  refine and_congr_right fun _ => or_congr ?_ Iff.rfl
  by_cases h1 : S.kind a.parent = some .object <;> by_cases h2 : S.kind b.parent = some .object <;> simp [h1, h2]

end Verif.Validation
