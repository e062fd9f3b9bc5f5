import Verif.Grammar.Fallback

/-!
# Examples of parsing

Concrete inputs which meet the hypotheses of the theorems about parsing.
-/
namespace Verif.Peg
open Verif.Value

mutual
/-- Equality of nodes is decidable. -/
def Node.decEq : (a b : Node R) → Decidable (a = b)
  | .mk r l c xs, .mk r' l' c' xs' =>
    match Node.decEqs xs xs' with
    | isTrue h =>
      if h' : r = r' ∧ l = l' ∧ c = c' then isTrue (by rw [h'.1, h'.2.1, h'.2.2, h])
      else isFalse (by intro e; cases e; exact h' ⟨rfl, rfl, rfl⟩)
    | isFalse h => isFalse (by intro e; cases e; exact h rfl)
/-- Equality of lists of nodes is decidable. -/
def Node.decEqs : (a b : List (Node R)) → Decidable (a = b)
  | [], [] => isTrue rfl
  | [], _ :: _ => isFalse nofun
  | _ :: _, [] => isFalse nofun
  | x :: xs, y :: ys =>
    match Node.decEq x y, Node.decEqs xs ys with
    | isTrue h, isTrue h' => isTrue (by rw [h, h'])
    | isFalse h, _ => isFalse (by intro e; cases e; exact h rfl)
    | _, isFalse h => isFalse (by intro e; cases e; exact h rfl)
end

instance : DecidableEq (Node R) := Node.decEq
instance : DecidableEq (Res R)
  | .ok xs s, .ok ys t =>
    if h : xs = ys ∧ s = t then isTrue (by rw [h.1, h.2]) else isFalse (by intro e; cases e; exact h ⟨rfl, rfl⟩)
  | .fail, .fail => isTrue rfl
  | .raise m, .raise n => if h : m = n then isTrue (by rw [h]) else isFalse (by intro e; cases e; exact h rfl)
  | .ok _ _, .fail => isFalse nofun
  | .ok _ _, .raise _ => isFalse nofun
  | .fail, .ok _ _ => isFalse nofun
  | .fail, .raise _ => isFalse nofun
  | .raise _, .ok _ _ => isFalse nofun
  | .raise _, .fail => isFalse nofun

/-- A query is parsed with the grammar of executable documents. -/
example : ParseString (str "{ a }") (.tree [.mk .operation_definition 5 (str "{ a }")
    [.mk .selection_set 5 (str "{ a }") [.mk .field 3 (str "a") [.mk .field_name 3 (str "a") []]]]]) :=
  .first (.tree (fuel := 60) (t := []) (by decide +kernel)) nofun

/-- A document with both kinds of definitions needs the second grammar; a type system definition has no name in the tree
of `parseString`. -/
example : ParseString (str "{a}union U") (.tree [.mk .operation_definition 10 (str "{a}")
    [.mk .selection_set 10 (str "{a}") [.mk .field 9 (str "a") [.mk .field_name 9 (str "a") []]]],
    .mk .union_type_definition 7 (str "union U") []]) :=
  .again (m := message .executable_document_content) (.error (fuel := 60) (by decide +kernel))
    (.tree (fuel := 60) (t := []) (by decide +kernel))

/-- A schema document. -/
example : ParseSchemaString (str "scalar Date") (.tree [.mk .scalar_type_definition 11 (str "scalar Date")
    [.mk .scalar_name 4 (str "Date") []]]) :=
  .first (.tree (fuel := 60) (t := []) (by decide +kernel)) nofun

/-- A text which is rejected. -/
example : ParseString (str "{a") (.error (str "Expected }")) :=
  .again (m := str "Expected }") (.error (fuel := 60) (by decide +kernel)) (.error (fuel := 60) (by decide +kernel))

/-- Finding: two selections without white space between them are rejected, although the specification allows it. -/
theorem no_gap_rejected : ∃ m, ParseString (str "{a{b}c}") (.error m) :=
  ⟨str "Expected }", .again (m := str "Expected }")
    (.error (fuel := 80) (by decide +kernel)) (.error (fuel := 80) (by decide +kernel))⟩

/-- Finding: a document with a float which has both a fraction and an exponent is rejected. -/
theorem float_both_document : ∃ m, ParseString (str "{a(b:1.5e3)}") (.error m) :=
  ⟨str "Expected )", .again (m := str "Expected )")
    (.error (fuel := 120) (by decide +kernel)) (.error (fuel := 120) (by decide +kernel))⟩

end Verif.Peg
