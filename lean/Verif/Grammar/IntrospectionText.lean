import Verif.Grammar.SchemaExamples
import Verif.Gen.Build

/-!
# The introspection schema (C63)

The text which `schemagen` reads for the introspection schema, and the types of the introspection schema of the library,
which were written from it.
-/
namespace Verif.Peg
open Verif.Value Verif.Text Verif.Gen

/-- The text of the introspection schema, SchemaLoader.cpp:46-147. -/
def introspectionText : Str :=
    str "\n" ++
    str "\t\t\ttype __Schema {\n" ++
    str "\t\t\t\ttypes: [__Type!]!\n" ++
    str "\t\t\t\tqueryType: __Type!\n" ++
    str "\t\t\t\tmutationType: __Type\n" ++
    str "\t\t\t\tsubscriptionType: __Type\n" ++
    str "\t\t\t\tdirectives: [__Directive!]!\n" ++
    str "\t\t\t}\n" ++
    str "\n" ++
    str "\t\t\ttype __Type {\n" ++
    str "\t\t\t\tkind: __TypeKind!\n" ++
    str "\t\t\t\tname: String\n" ++
    str "\t\t\t\tdescription: String\n" ++
    str "\n" ++
    str "\t\t\t\t# OBJECT and INTERFACE only\n" ++
    str "\t\t\t\tfields(includeDeprecated: Boolean = false): [__Field!]\n" ++
    str "\n" ++
    str "\t\t\t\t# OBJECT only\n" ++
    str "\t\t\t\tinterfaces: [__Type!]\n" ++
    str "\n" ++
    str "\t\t\t\t# INTERFACE and UNION only\n" ++
    str "\t\t\t\tpossibleTypes: [__Type!]\n" ++
    str "\n" ++
    str "\t\t\t\t# ENUM only\n" ++
    str "\t\t\t\tenumValues(includeDeprecated: Boolean = false): [__EnumValue!]\n" ++
    str "\n" ++
    str "\t\t\t\t# INPUT_OBJECT only\n" ++
    str "\t\t\t\tinputFields: [__InputValue!]\n" ++
    str "\n" ++
    str "\t\t\t\t# NON_NULL and LIST only\n" ++
    str "\t\t\t\tofType: __Type\n" ++
    str "\t\t\t}\n" ++
    str "\n" ++
    str "\t\t\ttype __Field {\n" ++
    str "\t\t\t\tname: String!\n" ++
    str "\t\t\t\tdescription: String\n" ++
    str "\t\t\t\targs: [__InputValue!]!\n" ++
    str "\t\t\t\ttype: __Type!\n" ++
    str "\t\t\t\tisDeprecated: Boolean!\n" ++
    str "\t\t\t\tdeprecationReason: String\n" ++
    str "\t\t\t}\n" ++
    str "\n" ++
    str "\t\t\ttype __InputValue {\n" ++
    str "\t\t\t\tname: String!\n" ++
    str "\t\t\t\tdescription: String\n" ++
    str "\t\t\t\ttype: __Type!\n" ++
    str "\t\t\t\tdefaultValue: String\n" ++
    str "\t\t\t}\n" ++
    str "\n" ++
    str "\t\t\ttype __EnumValue {\n" ++
    str "\t\t\t\tname: String!\n" ++
    str "\t\t\t\tdescription: String\n" ++
    str "\t\t\t\tisDeprecated: Boolean!\n" ++
    str "\t\t\t\tdeprecationReason: String\n" ++
    str "\t\t\t}\n" ++
    str "\n" ++
    str "\t\t\tenum __TypeKind {\n" ++
    str "\t\t\t\tSCALAR\n" ++
    str "\t\t\t\tOBJECT\n" ++
    str "\t\t\t\tINTERFACE\n" ++
    str "\t\t\t\tUNION\n" ++
    str "\t\t\t\tENUM\n" ++
    str "\t\t\t\tINPUT_OBJECT\n" ++
    str "\t\t\t\tLIST\n" ++
    str "\t\t\t\tNON_NULL\n" ++
    str "\t\t\t}\n" ++
    str "\n" ++
    str "\t\t\ttype __Directive {\n" ++
    str "\t\t\t\tname: String!\n" ++
    str "\t\t\t\tdescription: String\n" ++
    str "\t\t\t\tlocations: [__DirectiveLocation!]!\n" ++
    str "\t\t\t\targs: [__InputValue!]!\n" ++
    str "\t\t\t}\n" ++
    str "\n" ++
    str "\t\t\tenum __DirectiveLocation {\n" ++
    str "\t\t\t\tQUERY\n" ++
    str "\t\t\t\tMUTATION\n" ++
    str "\t\t\t\tSUBSCRIPTION\n" ++
    str "\t\t\t\tFIELD\n" ++
    str "\t\t\t\tFRAGMENT_DEFINITION\n" ++
    str "\t\t\t\tFRAGMENT_SPREAD\n" ++
    str "\t\t\t\tINLINE_FRAGMENT\n" ++
    str "\t\t\t\tSCHEMA\n" ++
    str "\t\t\t\tSCALAR\n" ++
    str "\t\t\t\tOBJECT\n" ++
    str "\t\t\t\tFIELD_DEFINITION\n" ++
    str "\t\t\t\tARGUMENT_DEFINITION\n" ++
    str "\t\t\t\tINTERFACE\n" ++
    str "\t\t\t\tUNION\n" ++
    str "\t\t\t\tENUM\n" ++
    str "\t\t\t\tENUM_VALUE\n" ++
    str "\t\t\t\tINPUT_OBJECT\n" ++
    str "\t\t\t\tINPUT_FIELD_DEFINITION\n" ++
    str "\t\t\t}\n" ++
    str "\n" ++
    str "\t\t\t# These directives are always defined and should be included in the Introspection schema.\n" ++
    str "\t\t\tdirective @skip(if: Boolean!) on FIELD | FRAGMENT_SPREAD | INLINE_FRAGMENT\n" ++
    str "\t\t\tdirective @include(if: Boolean!) on FIELD | FRAGMENT_SPREAD | INLINE_FRAGMENT\n" ++
    str "\t\t\tdirective @deprecated(\n" ++
    str "\t\t\t\treason: String = \"No longer supported\"\n" ++
    str "\t\t\t) on FIELD_DEFINITION | ENUM_VALUE\n" ++
    str "\t\t"

/-- What is written from a loaded argument: its default value goes in as text, the kind of its type does not. -/
def writtenInput (f : InputField) : InputField := { f with fieldType := .builtin, defaultValue := .null }

/-- What is written from a loaded field: not the kind of its type. -/
def writtenOutput (f : OutputField) : OutputField :=
  { f with fieldType := .builtin, arguments := f.arguments.map writtenInput }

/-- The types of the introspection schema of the library are those of the loaded schema, and the built-in scalars. -/
structure WrittenFrom (l : Loader) (types : Loader) : Prop where
  scalars : l.scalarTypes = [] ∧ types.scalarTypes.map (·.type) = [str "Boolean", str "Float", str "ID", str "Int", str "String"]
  enums : types.enumTypes = l.enumTypes
  inputs : types.inputTypes = [] ∧ l.inputTypes = []
  unions : types.unionTypes = [] ∧ l.unionTypes = []
  interfaces : types.interfaceTypes = [] ∧ l.interfaceTypes = []
  objects : types.objectTypes = l.objectTypes.map fun t => { t with fields := t.fields.map writtenOutput }
  directives : types.directives = l.directives.map fun d => { d with arguments := d.arguments.map writtenInput }
  operations : types.operationTypes = [] ∧ l.operationTypes = []

def introspectionTree : List (Node R) :=
  treeOf (run grammar schemaSelector 450 (.ref .schema_document) introspectionText)

theorem introspection_run :
    run grammar schemaSelector 450 (.ref .schema_document) introspectionText = some (.ok introspectionTree []) := by
  decide +kernel

/-- The definitions which are read. -/
def introspectionDefs (atof : Str → Double) (unescapeJ : Str → Str) : List TypeDef :=
  (readSchema atof unescapeJ introspectionText introspectionTree).getD []

/-- What is compared. -/
def summary (l : Loader) :=
  (l.scalarTypes, l.enumTypes, l.inputTypes, l.unionTypes, l.interfaceTypes,
    l.objectTypes.map fun t => { t with fields := t.fields.map writtenOutput },
    l.directives.map fun d => { d with arguments := d.arguments.map writtenInput }, l.operationTypes)

theorem introspection_load (atof : Str → Double) (unescapeJ : Str → Str) (atoi : Int → Int) :
    (loadSchema atoi true (introspectionDefs atof unescapeJ)).map summary =
      .ok ([], Introspect.types.enumTypes, [], [], [], Introspect.types.objectTypes, Introspect.types.directives, []) := by
  run_tac do
    let goal ← Lean.Elab.Tactic.getMainGoal
    let some (type, _, right) := (← goal.getType).eq? | throwError "not an equation"
    goal.assign (Lean.mkApp2 (.const ``Eq.refl [1]) type right)

/-- C63: `schemagen` loads the introspection schema from its text, and the types which the library has for introspection are
those of this text. -/
theorem C63_introspection (atof : Str → Double) (unescapeJ : Str → Str) (atoi : Int → Int) :
    ∃ l, Loads atof unescapeJ atoi true introspectionText l ∧ WrittenFrom l Introspect.types := by
  have h1 : ParseSchemaString introspectionText (.tree introspectionTree) := .first (.tree introspection_run) nofun
  obtain ⟨defs, h2, _⟩ := C63_sound atof unescapeJ h1
  have h3 := introspection_load atof unescapeJ atoi
  rw [introspectionDefs, h2, Option.getD_some] at h3
  cases h : loadSchema atoi true defs with
  | error e =>
    rw [h] at h3
    cases h3
  | ok l =>
    rw [h] at h3
    simp only [Except.map, Except.ok.injEq, summary, Prod.mk.injEq] at h3
    obtain ⟨e1, e2, e3, e4, e5, e6, e7, e8⟩ := h3
    exact ⟨l, ⟨_, defs, h1, h2, h⟩, ⟨⟨e1, rfl⟩, e2.symm, ⟨rfl, e3⟩, ⟨rfl, e4⟩, ⟨rfl, e5⟩, e6.symm, e7.symm, ⟨rfl, e8⟩⟩⟩

end Verif.Peg
