import Verif.GenClass.Model
import Verif.GenObject.Model

/-!
# The text of stubs and of the class `Operations`

Models the text which `schemagen` writes (`/repo/src/SchemaGenerator.cpp`) for an object with stubs (1365-1567 with 1459-1478;
`Verif.GenObject.Model` has it without them), and for the class `Operations` in the header (326-361) and in the source (795-848).

Simplification, as in `Verif.GenClass.Model`: the lines which open and close namespaces are left out. The functions of objects are in
the namespace `object` of the schema, `Operations` is in that of the schema.
-/
namespace Verif.GenStub
open Verif.Value Verif.Resp Verif.Gen
open Verif.GenText (cpp)
open Verif.GenTypes (typeText)
open Verif.GenObject (capital constructorText resolverText typenameText)
open Verif.GenClass (composite leafText)

/-! ## Stubs -/

/-- SchemaGenerator.cpp:1466-1469 -/
def parameterText (a : InputField) : Str := str ", " ++ getInputCppType (typeText a) a.modifiers ++ str "&&"

/-- A stub, SchemaGenerator.cpp:1461-1477. -/
def stubText (t : ObjectType) (f : OutputField) : Str :=
  str "\nservice::FieldResult<" ++ getResolverCppType (composite f) (leafText f) f.modifiers ++ str "> " ++ cpp t.type ++ str "::" ++
  (f.accessor ++ capital f) ++ str "(service::FieldParams&&" ++ f.arguments.flatMap parameterText ++
  str ") const\n{\n\tthrow std::runtime_error(R\"ex(" ++ (cpp t.type ++ str "::" ++ (f.accessor ++ capital f)) ++
  str " is not implemented)ex\");\n}\n"

/-- `Generator::outputObjectImplementation`, SchemaGenerator.cpp:1365-1567; `stubs` is
`!_loader.isIntrospection() && !_options.noStubs`. -/
def objectText (print : Double → Str) (ns : Str) (introspection stubs : Bool) (t : ObjectType) : Str :=
  constructorText introspection t ++
  t.fields.flatMap (fun f => (if stubs then stubText t f else []) ++ resolverText print ns t f) ++
  typenameText t

/-! ## `Operations` -/

/-- Elements of which all but the first are written after `sep`: the loops with `firstOperation`, SchemaGenerator.cpp:335-346. -/
def separated {α : Type} (sep : Str) (text : α → Str) : List α → Str
  | [] => []
  | o :: os => text o ++ os.flatMap fun o => sep ++ text o

/-- SchemaGenerator.cpp:343-344 and 809-810 -/
def parameter (o : OperationType) : Str := str "std::shared_ptr<object::" ++ cpp o.type ++ str "> " ++ o.operation

/-- The declaration of `Operations`, SchemaGenerator.cpp:326-361. -/
def declText (os : List OperationType) : Str :=
  str "class Operations\n\t: public service::Request\n{\npublic:\n\texplicit Operations(" ++ separated (str ", ") parameter os ++
  str ");\n\nprivate:\n" ++
  os.flatMap (fun o => str "\tstd::shared_ptr<object::" ++ cpp o.type ++ str "> _" ++ o.operation ++ str ";\n") ++
  str "};\n\n"

/-- SchemaGenerator.cpp:829-830 -/
def pairText (o : OperationType) : Str := str "\t\t{ \"" ++ o.operation ++ str "\", " ++ o.operation ++ str " }"

/-- The constructor of `Operations`, SchemaGenerator.cpp:795-848. -/
def defText (os : List OperationType) : Str :=
  str "\nOperations::Operations(" ++ separated (str ", ") parameter os ++ str ")\n\t: service::Request({\n" ++
  separated (str ",\n") pairText os ++ str "\n\t}, GetSchema())\n" ++
  os.flatMap (fun o => str "\t, _" ++ o.operation ++ str "(std::move(" ++ o.operation ++ str "))\n") ++
  str "{\n}\n\n"

end Verif.GenStub
