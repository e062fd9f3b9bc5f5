import Verif.Resp.Eq
import Verif.Value.Props

/-!
# C45: equality of response values
-/
namespace Verif.Resp
open Verif.Value

/-! ## Specification -/

/-- The number a `double` stands for, a rational or an infinity; a NaN stands for none. -/
def number : Double → Option (Rat ⊕ Bool)
  | .finite q => some (.inl q)
  | .negZero => some (.inl 0)
  | .inf negative => some (.inr negative)
  | .nan => none

mutual
/-- The same value: of the same type, with the same members under the same names in the same order, the same elements,
text, or number. -/
inductive Same : Resp → Resp → Prop where
  | map {a b} (h : SameMembers a b) : Same (.map a) (.map b)
  | list {a b} (h : SameElements a b) : Same (.list a) (.list b)
  | string (s j) : Same (.string s j) (.string s j)
  | null : Same .null .null
  | boolean (b) : Same (.boolean b) (.boolean b)
  | int (i) : Same (.int i) (.int i)
  | float {a b x} (ha : number a = some x) (hb : number b = some x) : Same (.float a) (.float b)
  | enumValue (s) : Same (.enumValue s) (.enumValue s)
  | scalar {a b} (h : Same a b) : Same (.scalar (some a)) (.scalar (some b))
  | noScalar : Same (.scalar none) (.scalar none)
inductive SameMembers : List (Str × Resp) → List (Str × Resp) → Prop where
  | nil : SameMembers [] []
  | cons {n a b as bs} (h : Same a b) (hs : SameMembers as bs) : SameMembers ((n, a) :: as) ((n, b) :: bs)
inductive SameElements : List Resp → List Resp → Prop where
  | nil : SameElements [] []
  | cons {a b as bs} (h : Same a b) (hs : SameElements as bs) : SameElements (a :: as) (b :: bs)
end

/-! ## Proof -/

theorem Double.eq_iff (a b : Double) : a.eq b = true ↔ ∃ x, number a = some x ∧ number b = some x := by
  cases a <;> cases b <;> simp [Double.eq, number]
  all_goals exact eq_comm

mutual
theorem eq_iff : (a b : Resp) → (Resp.eq a b = true ↔ Same a b)
  | .map a, b => by
    cases b with
    | map b =>
      simp only [Resp.eq, eqMembers_iff a b]
      exact ⟨.map, fun h => by cases h with | map h => exact h⟩
    | _ => simp only [Resp.eq, Bool.false_eq_true, false_iff]; intro h; cases h
  | .list a, b => by
    cases b with
    | list b =>
      simp only [Resp.eq, eqList_iff a b]
      exact ⟨.list, fun h => by cases h with | list h => exact h⟩
    | _ => simp only [Resp.eq, Bool.false_eq_true, false_iff]; intro h; cases h
  | .string a j, b => by
    cases b with
    | string b k =>
      simp only [Resp.eq, Bool.and_eq_true, beq_iff_eq]
      exact ⟨fun ⟨h, h'⟩ => by subst h; subst h'; exact .string _ _, fun h => by cases h; exact ⟨rfl, rfl⟩⟩
    | _ => simp only [Resp.eq, Bool.false_eq_true, false_iff]; intro h; cases h
  | .null, b => by
    cases b with
    | null => simp only [Resp.eq, true_iff]; exact .null
    | _ => simp only [Resp.eq, Bool.false_eq_true, false_iff]; intro h; cases h
  | .boolean a, b => by
    cases b with
    | boolean b =>
      simp only [Resp.eq, beq_iff_eq]
      exact ⟨fun h => by subst h; exact .boolean _, fun h => by cases h; rfl⟩
    | _ => simp only [Resp.eq, Bool.false_eq_true, false_iff]; intro h; cases h
  | .int a, b => by
    cases b with
    | int b =>
      simp only [Resp.eq, beq_iff_eq]
      exact ⟨fun h => by subst h; exact .int _, fun h => by cases h; rfl⟩
    | _ => simp only [Resp.eq, Bool.false_eq_true, false_iff]; intro h; cases h
  | .float a, b => by
    cases b with
    | float b =>
      simp only [Resp.eq, Double.eq_iff]
      exact ⟨fun ⟨x, h, h'⟩ => .float h h', fun h => by cases h with | float h h' => exact ⟨_, h, h'⟩⟩
    | _ => simp only [Resp.eq, Bool.false_eq_true, false_iff]; intro h; cases h
  | .enumValue a, b => by
    cases b with
    | enumValue b =>
      simp only [Resp.eq, beq_iff_eq]
      exact ⟨fun h => by subst h; exact .enumValue _, fun h => by cases h; rfl⟩
    | _ => simp only [Resp.eq, Bool.false_eq_true, false_iff]; intro h; cases h
  | .scalar (some a), b => by
    cases b with
    | scalar v =>
      cases v with
      | some b =>
        simp only [Resp.eq, eq_iff a b]
        exact ⟨.scalar, fun h => by cases h with | scalar h => exact h⟩
      | none => simp only [Resp.eq, Bool.false_eq_true, false_iff]; intro h; cases h
    | _ => simp only [Resp.eq, Bool.false_eq_true, false_iff]; intro h; cases h
  | .scalar none, b => by
    cases b with
    | scalar v =>
      cases v with
      | some b => simp only [Resp.eq, Bool.false_eq_true, false_iff]; intro h; cases h
      | none => simp only [Resp.eq, true_iff]; exact .noScalar
    | _ => simp only [Resp.eq, Bool.false_eq_true, false_iff]; intro h; cases h
theorem eqMembers_iff : (a b : List (Str × Resp)) → (Resp.eqMembers a b = true ↔ SameMembers a b)
  | [], [] => by simp only [Resp.eqMembers, true_iff]; exact .nil
  | [], _ :: _ => by simp only [Resp.eqMembers, Bool.false_eq_true, false_iff]; intro h; cases h
  | _ :: _, [] => by simp only [Resp.eqMembers, Bool.false_eq_true, false_iff]; intro h; cases h
  | (n, a) :: as, (m, b) :: bs => by
    simp only [Resp.eqMembers, Bool.and_eq_true, beq_iff_eq, eq_iff a b, eqMembers_iff as bs]
    constructor
    · rintro ⟨⟨rfl, h⟩, h'⟩; exact .cons h h'
    · intro h; cases h with | cons h h' => exact ⟨⟨rfl, h⟩, h'⟩
theorem eqList_iff : (a b : List Resp) → (Resp.eqList a b = true ↔ SameElements a b)
  | [], [] => by simp only [Resp.eqList, true_iff]; exact .nil
  | [], _ :: _ => by simp only [Resp.eqList, Bool.false_eq_true, false_iff]; intro h; cases h
  | _ :: _, [] => by simp only [Resp.eqList, Bool.false_eq_true, false_iff]; intro h; cases h
  | a :: as, b :: bs => by
    simp only [Resp.eqList, Bool.and_eq_true, eq_iff a b, eqList_iff as bs]
    constructor
    · rintro ⟨h, h'⟩; exact .cons h h'
    · intro h; cases h with | cons h h' => exact ⟨h, h'⟩
end

/-- C45: values compare equal iff they are the same: the same type, members under the same names in the same order,
elements, text (and both from JSON or both not), numbers. -/
theorem C45_equal_iff_same (v w : Value) : v.eq w = true ↔ Same (tree v) (tree w) := by
  rw [← eq_tree, eq_iff]

mutual
theorem Same.symm : {a b : Resp} → Same a b → Same b a
  | _, _, .map h => .map h.symm
  | _, _, .list h => .list h.symm
  | _, _, .string _ _ => .string _ _
  | _, _, .null => .null
  | _, _, .boolean _ => .boolean _
  | _, _, .int _ => .int _
  | _, _, .float h h' => .float h' h
  | _, _, .enumValue _ => .enumValue _
  | _, _, .scalar h => .scalar h.symm
  | _, _, .noScalar => .noScalar
theorem SameMembers.symm : {a b : List (Str × Resp)} → SameMembers a b → SameMembers b a
  | _, _, .nil => .nil
  | _, _, .cons h hs => .cons h.symm hs.symm
theorem SameElements.symm : {a b : List Resp} → SameElements a b → SameElements b a
  | _, _, .nil => .nil
  | _, _, .cons h hs => .cons h.symm hs.symm
end

mutual
theorem Same.trans : {a b c : Resp} → Same a b → Same b c → Same a c
  | _, _, _, .map h, .map h' => .map (h.trans h')
  | _, _, _, .list h, .list h' => .list (h.trans h')
  | _, _, _, .string _ _, .string _ _ => .string _ _
  | _, _, _, .null, .null => .null
  | _, _, _, .boolean _, .boolean _ => .boolean _
  | _, _, _, .int _, .int _ => .int _
  | _, _, _, .float h h1, .float h2 h' => .float h (h'.trans (h2.symm.trans h1))
  | _, _, _, .enumValue _, .enumValue _ => .enumValue _
  | _, _, _, .scalar h, .scalar h' => .scalar (h.trans h')
  | _, _, _, .noScalar, .noScalar => .noScalar
theorem SameMembers.trans : {a b c : List (Str × Resp)} → SameMembers a b → SameMembers b c → SameMembers a c
  | _, _, _, .nil, .nil => .nil
  | _, _, _, .cons h hs, .cons h' hs' => .cons (h.trans h') (hs.trans hs')
theorem SameElements.trans : {a b c : List Resp} → SameElements a b → SameElements b c → SameElements a c
  | _, _, _, .nil, .nil => .nil
  | _, _, _, .cons h hs, .cons h' hs' => .cons (h.trans h') (hs.trans hs')
end

/-- C45: comparison is symmetric. -/
theorem C45_symmetric (v w : Value) : v.eq w = w.eq v := by
  rw [Bool.eq_iff_iff, C45_equal_iff_same, C45_equal_iff_same]
  exact ⟨.symm, .symm⟩

/-- C45: comparison is transitive. -/
theorem C45_transitive (u v w : Value) (h : u.eq v = true) (h' : v.eq w = true) : u.eq w = true := by
  rw [C45_equal_iff_same] at *
  exact h.trans h'

/-- C45: a value is equal to itself unless it contains a NaN. -/
theorem C45_reflexive (v : Value) (h : v.NoNaN) : v.eq v = true := eq_refl v h

/-- C45: a NaN is not equal to itself. -/
example : (Value.list [.float .nan]).eq (.list [.float .nan]) = false := rfl
/-- C45: objects with the same members in another order are different. -/
example : (Value.map [(str "a", .null), (str "b", .null)] [0, 1]).eq (.map [(str "b", .null), (str "a", .null)] [1, 0]) =
    false := rfl
example : (Value.float .negZero).eq (.float (.finite 0)) = true := rfl

end Verif.Resp
