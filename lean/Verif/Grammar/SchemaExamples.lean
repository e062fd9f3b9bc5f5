import Verif.Grammar.SchemaDocuments
import Verif.Grammar.DocumentExamples
import Verif.Gen.LoaderClaims
import Verif.Gen.Validate

/-!
# What is loaded from a text, and examples (C63)
-/
namespace Verif.Peg
open Verif.Value Verif.Text Verif.Gen

/-! ## Parser and loader together -/

/-- `SchemaLoader::SchemaLoader`, SchemaLoader.cpp:37-171: the text is parsed (`parseSchemaString` for the introspection
schema; `parseSchemaFile` for a file, which is taken to be the same for the content of the file), `visitDefinition` is called
for the children in their order, and then `validateSchema`. -/
def Loads (atof : Str → Double) (unescapeJ : Str → Str) (atoi : Int → Int) (isIntrospection : Bool) (s : Str) (l : Loader) :
    Prop :=
  ∃ ns defs, ParseSchemaString s (.tree ns) ∧ readSchema atof unescapeJ s ns = some defs ∧
    loadSchema atoi isIntrospection defs = .ok l

theorem loaded_no_executable {atoi : Int → Int} {i : Bool} {defs : List TypeDef} {l : Loader}
    (h : loadSchema atoi i defs = .ok l) : TypeDef.executable ∉ defs := by
  intro hm
  obtain ⟨pre, post, e⟩ := List.append_of_mem hm
  obtain ⟨x, hx⟩ := (C53_problems atoi defs).1.2 ⟨pre, _, post, _, e, .executable⟩
  rw [loadSchema, hx] at h
  cases h

/-- C63: `schemagen` loads a text if and only if it is the text of definitions which it loads, and it loads what it loads
from these definitions. -/
theorem C63_loaded (atof : Str → Double) (unescapeJ : Str → Str) (atoi : Int → Int) (i : Bool) {s : Str} {l : Loader} :
    Loads atof unescapeJ atoi i s l ↔ ∃ defs, SchemaText atof unescapeJ s defs ∧ loadSchema atoi i defs = .ok l := by
  constructor
  · rintro ⟨ns, defs, h1, h2, h3⟩
    obtain ⟨defs', h4, h5⟩ := C63_sound atof unescapeJ h1
    rw [h2] at h4
    cases h4
    exact ⟨defs, h5 (loaded_no_executable h3), h3⟩
  · rintro ⟨defs, h1, h2⟩
    obtain ⟨ns, h3, h4⟩ := C63_complete atof unescapeJ h1
    exact ⟨ns, defs, h3, h4, h2⟩

/-! ## Example -/

/-- The text of the example: all kinds of definitions and extensions. -/
def schemaText : Str := str "schema @s { query: Q, mutation: M }
\"a date\" scalar D @specifiedBy(url: \"u\")
type Q implements I & J @key { f(a: Int = 5 \"b's\" b: [D!]): [[U]!]! @deprecated(reason: \"r\")
  id: ID }
interface I { id: ID }
union U = | Q | M
enum E { A B @deprecated }
input P { x: P = {x: null}, y: E = A }
directive @s(n: Float = 1.5) on | SCHEMA | FIELD
type M
extend schema { subscription: Q }
extend type M { \"\"\"later\"\"\" m(p: P!): E }
extend interface I @key
extend union U = D
extend enum E { C }
extend input P { z: Int }
# the end
extend scalar D @s
"

/-- The definitions of the example. -/
def schemaDefs (atof : Str → Double) : List TypeDef := [
  .schema [(str "query", str "Q"), (str "mutation", str "M")],
  .scalar (str "a date") (str "D"),
  .object [] (str "Q") [str "I", str "J"] [
    { name := str "f"
      arguments := [
        { name := str "a", type := .named (str "Int"), default := some ⟨.int 5, str "5"⟩ },
        { description := str "b's", name := str "b", type := .list (.nonNull (.named (str "D"))) }]
      type := .nonNull (.list (.nonNull (.list (.named (str "U")))))
      directives := [⟨str "deprecated", some [(str "reason", .string (str "r"))]⟩] },
    { name := str "id", type := .named (str "ID") }],
  .interface [] (str "I") [{ name := str "id", type := .named (str "ID") }],
  .union [] (str "U") [str "Q", str "M"],
  .enum [] (str "E") [{ value := str "A" }, { value := str "B", directives := [⟨str "deprecated", none⟩] }],
  .input [] (str "P") [
    { name := str "x", type := .named (str "P"), default := some ⟨.object [(str "x", .null)], str "{x: null}"⟩ },
    { name := str "y", type := .named (str "E"), default := some ⟨.enumValue (str "A"), str "A"⟩ }],
  .directive [] (str "s") [{ name := str "n", type := .named (str "Float"), default := some ⟨.float (atof (str "1.5")), str "1.5"⟩ }]
    [str "SCHEMA", str "FIELD"],
  .object [] (str "M") [] [],
  .schemaExtension [(str "subscription", str "Q")],
  .objectExtension (str "M") [] [
    { description := str "later", name := str "m"
      arguments := [{ name := str "p", type := .nonNull (.named (str "P")) }]
      type := .named (str "E") }],
  .interfaceExtension (str "I") [],
  .unionExtension (str "U") [str "D"],
  .enumExtension (str "E") [{ value := str "C" }],
  .inputExtension (str "P") [{ name := str "z", type := .named (str "Int") }],
  .scalarExtension (str "D")]

/-- The tree of the example. -/
def schemaTree : List (Node R) := treeOf (run grammar schemaSelector 250 (.ref .schema_document) schemaText)

theorem schema_run : run grammar schemaSelector 250 (.ref .schema_document) schemaText = some (.ok schemaTree []) := by
  decide +kernel

/-- The visitors read the definitions from the tree, by computation in the kernel. -/
theorem schema_read (atof : Str → Double) (unescapeJ : Str → Str) :
    readSchema atof unescapeJ schemaText schemaTree = some (schemaDefs atof) := by
  run_tac do
    let goal ← Lean.Elab.Tactic.getMainGoal
    let some (type, _, right) := (← goal.getType).eq? | throwError "not an equation"
    goal.assign (Lean.mkApp2 (.const ``Eq.refl [1]) type right)

/-- The example is parsed, it is the text of these definitions, and `schemagen` reads these definitions: the hypotheses of
`C63_sound` and `C63_complete` hold. -/
theorem schema_parse (atof : Str → Double) (unescapeJ : Str → Str) :
    ParseSchemaString schemaText (.tree schemaTree) ∧ readSchema atof unescapeJ schemaText schemaTree = some (schemaDefs atof) ∧
      TypeDef.executable ∉ schemaDefs atof ∧ SchemaText atof unescapeJ schemaText (schemaDefs atof) := by
  have h1 : ParseSchemaString schemaText (.tree schemaTree) := .first (.tree schema_run) nofun
  have h2 := schema_read atof unescapeJ
  have h3 : TypeDef.executable ∉ schemaDefs atof := by simp [schemaDefs]
  obtain ⟨d, e, hd⟩ := C63_sound atof unescapeJ h1
  rw [h2] at e
  cases e
  exact ⟨h1, h2, h3, hd h3⟩

/-! ## Findings -/

/-- The tree of `extend schema @d {query: Q}`. -/
def splitTree : List (Node R) := treeOf (run grammar schemaSelector 100 (.ref .mixed_document) (str "extend schema @d {query: Q}"))

theorem split_read (atof : Str → Double) (unescapeJ : Str → Str) :
    readSchema atof unescapeJ (str "extend schema @d {query: Q}") splitTree = some [.schemaExtension [], .executable] := by
  run_tac do
    let goal ← Lean.Elab.Tactic.getMainGoal
    let some (type, _, right) := (← goal.getType).eq? | throwError "not an equation"
    goal.assign (Lean.mkApp2 (.const ``Eq.refl [1]) type right)

theorem split_parse : ParseSchemaString (str "extend schema @d {query: Q}") (.tree splitTree) :=
  (parseSchemaString_mixed _ _).2 (.tree (fuel := 100) (t := []) (by decide +kernel))

/-- A finding: a space between the directives of a schema extension and its `{` ends the extension, and the rest is taken for
a query. The text is parsed, and `schemagen` then rejects it. -/
theorem C63_finding_split (atof : Str → Double) (unescapeJ : Str → Str) (atoi : Int → Int) (i : Bool) :
    readSchema atof unescapeJ (str "extend schema @d {query: Q}") splitTree = some [.schemaExtension [], .executable] ∧
      ¬ ∃ l, Loads atof unescapeJ atoi i (str "extend schema @d {query: Q}") l := by
  refine ⟨split_read atof unescapeJ, ?_⟩
  rintro ⟨l, ns, defs, h1, h2, h3⟩
  obtain ⟨x, _, hu⟩ := parseWith_total .schema_document .mixed_document schemaSelector (str "extend schema @d {query: Q}")
  have e1 := hu _ split_parse
  have e2 := hu _ h1
  rw [← e2] at e1
  cases e1
  rw [split_read atof unescapeJ] at h2
  cases h2
  exact loaded_no_executable h3 (by simp)

/-- The tree of `"a\nb" scalar D`. -/
def cutTree : List (Node R) := treeOf (run grammar schemaSelector 100 (.ref .schema_document) (str "\"a\\nb\" scalar D"))

theorem cut_read (atof : Str → Double) (unescapeJ : Str → Str) :
    readSchema atof unescapeJ (str "\"a\\nb\" scalar D") cutTree = some [.scalar (str "a") (str "D")] := by
  run_tac do
    let goal ← Lean.Elab.Tactic.getMainGoal
    let some (type, _, right) := (← goal.getType).eq? | throwError "not an equation"
    goal.assign (Lean.mkApp2 (.const ``Eq.refl [1]) type right)

theorem cut_parse : ParseSchemaString (str "\"a\\nb\" scalar D") (.tree cutTree) :=
  (parseSchemaString_mixed _ _).2 (.tree (fuel := 100) (t := []) (by decide +kernel))

/-- A finding: a description ends at its first escape sequence. -/
theorem C63_finding_cut (atof : Str → Double) (unescapeJ : Str → Str) :
    SchemaText atof unescapeJ (str "\"a\\nb\" scalar D") [.scalar (str "a") (str "D")] := by
  obtain ⟨d, e, hd⟩ := C63_sound atof unescapeJ cut_parse
  rw [cut_read atof unescapeJ] at e
  cases e
  exact hd (by simp)

/-- The tree of `enum E {true}`. -/
def trueTree : List (Node R) := treeOf (run grammar schemaSelector 100 (.ref .schema_document) (str "enum E {true}"))

theorem true_read (atof : Str → Double) (unescapeJ : Str → Str) :
    readSchema atof unescapeJ (str "enum E {true}") trueTree = some [.enum [] (str "E") [{ value := str "true" }]] := by
  run_tac do
    let goal ← Lean.Elab.Tactic.getMainGoal
    let some (type, _, right) := (← goal.getType).eq? | throwError "not an equation"
    goal.assign (Lean.mkApp2 (.const ``Eq.refl [1]) type right)

theorem true_parse : ParseSchemaString (str "enum E {true}") (.tree trueTree) :=
  (parseSchemaString_mixed _ _).2 (.tree (fuel := 100) (t := []) (by decide +kernel))

/-- A finding: `true`, `false` and `null` are accepted as enum values. -/
theorem C63_finding_true (atof : Str → Double) (unescapeJ : Str → Str) :
    SchemaText atof unescapeJ (str "enum E {true}") [.enum [] (str "E") [{ value := str "true" }]] := by
  obtain ⟨d, e, hd⟩ := C63_sound atof unescapeJ true_parse
  rw [true_read atof unescapeJ] at e
  cases e
  exact hd (by simp)

/-- A finding: fields need ignored text between them, so this document of the GraphQL specification is rejected. -/
theorem C63_separator : ∃ m, ParseSchemaString (str "type A{a:[Int]b:Int}") (.error m) :=
  ⟨str "Expected }", .again (m := str "Expected }") (.error (fuel := 90) (by decide +kernel)) (.error (fuel := 90) (by decide +kernel))⟩

end Verif.Peg
