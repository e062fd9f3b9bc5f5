import Verif.GenCode.Model
import Verif.Schema.Types

/-!
# The text of the class of an object

Models the text which `schemagen` writes for an object type (`/repo/src/SchemaGenerator.cpp`): `outputObjectImplementation`
(1365-1567) and `getResultAccessType` (1917-1943).

Elsewhere: the accessors which are written without `--no-stubs` (1459-1478; they are in `Verif.GenStub`) and the text of
`resolve_schema` and `resolve_type` (1569-1596; `Verif.GenHidden`).
-/
namespace Verif.GenObject
open Verif.Value Verif.Resp Verif.Gen
open Verif.GenText (cpp gql commas)
open Verif.GenCode (argumentsText builtinType)
open Verif.TypeSystem (nameCmp)

/-! ## `std::map<std::string_view, T, internal::shorter_or_less>` -/

/-- `std::inserter`, SchemaGenerator.cpp:1395-1397: an element with the same key stays. -/
def insert {α : Type} (k : Str) (v : α) : List (Str × α) → List (Str × α)
  | [] => [(k, v)]
  | (l, w) :: m => if nameCmp k l then (k, v) :: (l, w) :: m else if nameCmp l k then (l, w) :: insert k v m else (l, w) :: m

/-- `resolvers[k] = v`, SchemaGenerator.cpp:1413-1421 -/
def assign {α : Type} (k : Str) (v : α) : List (Str × α) → List (Str × α)
  | [] => [(k, v)]
  | (l, w) :: m => if nameCmp k l then (k, v) :: (l, w) :: m else if nameCmp l k then (l, w) :: assign k v m else (l, v) :: m

/-- The elements which `resolvers` has at the end, SchemaGenerator.cpp:1393-1422; `e` makes one of the name of a field and the name
of its method. -/
def resolvers {α : Type} (e : Str → Str → α) (method : OutputField → Str) (introspection : Bool) (fs : List OutputField) :
    List (Str × α) :=
  let m := fs.foldl (fun m f => insert f.name (e f.name (method f)) m) []
  let m := assign (str "__typename") (e (str "__typename") (str "resolve_typename")) m
  if introspection then
    assign (str "__type") (e (str "__type") (str "resolve_type"))
      (assign (str "__schema") (e (str "__schema") (str "resolve_schema")) m)
  else m

/-! ## Names -/

/-- `fieldName[0] = std::toupper(fieldName[0])` on `cppName`, SchemaGenerator.cpp:1399-1402, 1456-1458. -/
def capital (f : OutputField) : Str :=
  match cpp f.name with
  | [] => []
  | c :: s => toUpper c :: s

/-- `resolveX`, SchemaGenerator.cpp:1406-1407, 1480-1482 -/
def resolver (f : OutputField) : Str := str "resolve" ++ capital f

/-- `Generator::getResultAccessType`, SchemaGenerator.cpp:1917-1943, the type between the brackets. (An enum or an object is not a
built-in or scalar type, so that `getCppType` is `getSafeCppName`.) -/
def resultText (f : OutputField) : Str :=
  match f.fieldType with
  | .builtin => builtinType f.type
  | .enum => cpp f.type
  | .object => cpp f.type
  | .scalar => str "response::Value"
  | .union => str "service::Object"
  | .interface => str "service::Object"

/-! ## The constructor -/

/-- SchemaGenerator.cpp:1406-1408, 1413-1421 -/
def entryText (name method : Str) : Str :=
  str "\t\t{ " ++ gql name ++ str ", [this](service::ResolverParams&& params) { return " ++ method ++
  str "(std::move(params)); } }"

/-- SchemaGenerator.cpp:1373-1450; `introspection` is `!_options.noIntrospection && isQueryType`. -/
def constructorText (introspection : Bool) (t : ObjectType) : Str :=
  cpp t.type ++ str "::" ++ cpp t.type ++ str "()\n\t: service::Object({\n" ++
  t.interfaces.flatMap (fun i => str "\t\t\"" ++ i ++ str "\",\n") ++
  t.unions.flatMap (fun u => str "\t\t\"" ++ u ++ str "\",\n") ++
  str "\t\t\"" ++ t.type ++ str "\"\n\t}, {\n" ++
  commas ((resolvers entryText resolver introspection t.fields).map (·.2)) ++
  str "\n\t})" ++ (if introspection then str "\n\t, _schema(GetSchema())" else []) ++ str "\n{\n}\n"

/-! ## The resolvers -/

/-- SchemaGenerator.cpp:1480-1557 -/
def resolverText (print : Double → Str) (ns : Str) (t : ObjectType) (f : OutputField) : Str :=
  str "\nstd::future<service::ResolverResult> " ++ cpp t.type ++ str "::" ++ resolver f ++
  str "(service::ResolverParams&& params)\n{\n" ++
  argumentsText print ns f.arguments ++
  str "\tstd::unique_lock resolverLock(_resolverMutex);\n\tauto directives = std::move(params.fieldDirectives);\n\tauto result = " ++
  f.accessor ++ capital f ++ str "(service::FieldParams(std::move(params), std::move(directives))" ++
  f.arguments.flatMap (fun a => str ", std::move(arg" ++ GenCode.capital a ++ str ")") ++
  str ");\n\tresolverLock.unlock();\n\n\treturn service::ModifiedResult<" ++ resultText f ++ str ">::convert" ++
  getTypeModifiers (str "service::") f.modifiers ++ str "(std::move(result), std::move(params));\n}\n"

/-- SchemaGenerator.cpp:1560-1567 -/
def typenameText (t : ObjectType) : Str :=
  str "\nstd::future<service::ResolverResult> " ++ cpp t.type ++ str "::" ++
  str "resolve_typename(service::ResolverParams&& params)\n{\n\treturn service::ModifiedResult<response::StringType>::convert(response::StringType{ R\"gql(" ++
  t.type ++ str ")gql\" }, std::move(params));\n}\n"

/-- `Generator::outputObjectImplementation`, SchemaGenerator.cpp:1365-1567. -/
def objectText (print : Double → Str) (ns : Str) (introspection : Bool) (t : ObjectType) : Str :=
  constructorText introspection t ++ t.fields.flatMap (resolverText print ns t) ++ typenameText t

end Verif.GenObject
