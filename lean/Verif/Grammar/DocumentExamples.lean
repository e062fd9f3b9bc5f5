import Verif.Grammar.Documents
import Verif.Grammar.Examples
import Lean.Elab.Tactic.Basic

/-!
# Examples of documents (C52)
-/
namespace Verif.Peg
open Verif.Value Verif.Text

/-- The text of the example. -/
def exampleText : Str :=
  str "query q($x: [Int!] = [1]) @d {\n  a: f(y: $x, z: {k: \"s\"}) { ... g }\n  ...on T { h } }\nfragment g on T @e(n: -5) { i }"

/-- What the example is the text of; the numbers are lines and columns. -/
def exampleDocument : Ast.Document := ⟨[
  .operation {
    pos := ⟨1, 1⟩
    type := some (str "query")
    name := some (str "q")
    «variables» := [⟨str "x", .list (.nonNull (.named (str "Int"))), some (.list [.int 1])⟩]
    directives := some [⟨str "d", none⟩]
    sub := [
      .node ⟨⟨2, 3⟩, some (str "a"), str "f", some [(str "y", .variable ⟨2, 11⟩ (str "x")),
        (str "z", .object [(str "k", .string (str "s"))])], none⟩ ⟨2, 28⟩ [.spread ⟨2, 33⟩ (str "g") none],
      .inline ⟨3, 6⟩ (some (str "T")) none [.leaf ⟨⟨3, 13⟩, none, str "h", none, none⟩]] },
  .fragment {
    pos := ⟨4, 1⟩
    name := str "g"
    typeCondition := str "T"
    directives := some [⟨str "e", some [(str "n", .int (-5))]⟩]
    sub := [.leaf ⟨⟨4, 29⟩, none, str "i", none, none⟩] }]⟩

/-- The tree of the result. -/
def treeOf : Option (Res R) → List (Node R)
  | some (.ok ns _) => ns
  | _ => []

/-- The tree of the example. -/
def exampleTree : List (Node R) := treeOf (run grammar executableSelector 150 (.ref .executable_document) exampleText)

theorem example_run : run grammar executableSelector 150 (.ref .executable_document) exampleText =
    some (.ok exampleTree []) := by decide +kernel

/-- The visitors read the document from the tree, by computation in the kernel. -/
theorem example_read (atof : Str → Double) (unescapeJ : Str → Str) :
    readDocument atof unescapeJ exampleText exampleTree = some exampleDocument := by
  run_tac do
    let goal ← Lean.Elab.Tactic.getMainGoal
    let some (type, _, right) := (← goal.getType).eq? | throwError "not an equation"
    goal.assign (Lean.mkApp2 (.const ``Eq.refl [1]) type right)

/-- The example is parsed, it has only operations and fragments, it is the text of the document, and the visitors read this
document: the hypotheses of `C52_sound` and `C52_complete` hold. -/
theorem example_parse (atof : Str → Double) (unescapeJ : Str → Str) :
    ParseString exampleText (.tree exampleTree) ∧ (∀ x ∈ exampleTree, Executable x) ∧
      readDocument atof unescapeJ exampleText exampleTree = some exampleDocument ∧
      DocumentText atof exampleText exampleDocument := by
  have h1 : ParseString exampleText (.tree exampleTree) := .first (.tree example_run) nofun
  have h2 : ∀ x ∈ exampleTree, Executable x := by
    have : ∀ x ∈ exampleTree, x.rule = .operation_definition ∨ x.rule = .fragment_definition := by decide +kernel
    exact this
  have h3 : readDocument atof unescapeJ exampleText exampleTree = some exampleDocument := example_read atof unescapeJ
  obtain ⟨d, hd, e⟩ := C52_sound atof unescapeJ h1 h2
  rw [h3] at e
  cases e
  exact ⟨h1, h2, h3, hd⟩

/-- A finding: selections need ignored text between them, so this document of the GraphQL specification is rejected. -/
theorem C52_separator : ∃ m, ParseString (str "{a{b}c}") (.error m) :=
  ⟨str "Expected }", .again (m := str "Expected }") (.error (fuel := 60) (by decide +kernel)) (.error (fuel := 60) (by decide +kernel))⟩

end Verif.Peg
