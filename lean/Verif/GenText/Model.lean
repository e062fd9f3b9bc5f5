import Verif.Gen.Build
import Verif.Gen.Names

/-!
# The text of `AddTypesToSchema`

Models the text which `schemagen` writes for the schema itself (`/repo/src/SchemaGenerator.cpp`): the enums of the header
(202-230), the names of their values (601-627), the function `AddTypesToSchema` with the functions for separate files
(854-1337, 1599-1716, 2165-2173), and `GetSchema` (1339-1361).

`Verif.Gen.Build` models the calls which this code is meant to make; here is the code itself.

Simplification: `std::ofstream` keeps all the bytes (files are opened as text, which changes line ends on Windows).
-/
namespace Verif.GenText
open Verif.Value Verif.Gen

/-- The options which matter here: `GeneratorOptions`, SchemaGenerator.h, and `SchemaLoader::isIntrospection`,
`getSchemaNamespace`. -/
structure Options where
  noIntrospection : Bool := false
  separateFiles : Bool := false
  isIntrospection : Bool := false
  schemaNamespace : Str

/-- `cppType`, `cppValue`: the C++ name of a name. (The static cache of `getSafeCppName` makes no difference,
`C43_function`.) -/
def cpp (name : Str) : Str := (getSafeCppName (fun _ => none) name).1

/-- `R"gql(...)gql"sv` -/
def gql (s : Str) : Str := str "R\"gql(" ++ s ++ str ")gql\"sv"

/-- `R"md(...)md"sv` -/
def md (s : Str) : Str := str "R\"md(" ++ s ++ str ")md\"sv"

/-- `R"md(...)md"` -/
def mdPlain (s : Str) : Str := str "R\"md(" ++ s ++ str ")md\""

/-- The loops with a flag `firstValue`, `firstArgument` and so on: a comma and a line end before all but the first. -/
def commas : List Str → Str
  | [] => []
  | [x] => x
  | x :: xs => x ++ str ",\n" ++ commas xs

/-- `if (!_options.noIntrospection) sourceFile << description` -/
def described (o : Options) (description : Str) : Str := if o.noIntrospection then [] else description

/-! ## Enums -/

/-- The declaration of an enum in the header, SchemaGenerator.cpp:208-228. -/
def enumClass (t : EnumType) : Str :=
  str "enum class " ++ cpp t.type ++ str "\n{\n" ++ commas (t.values.map fun v => str "\t" ++ v.value) ++ str "\n};\n\n"

/-- SchemaGenerator.cpp:202-230 -/
def enumClasses (l : Loader) : Str := l.enumTypes.flatMap enumClass

/-- The names of the values of an enum, SchemaGenerator.cpp:609-629. -/
def namesArray (t : EnumType) : Str :=
  str "static const std::array<std::string_view, " ++ str (toString t.values.length) ++ str "> s_names" ++ cpp t.type ++
  str " = {\n" ++ commas (t.values.map fun v => str "\t\"" ++ v.value ++ str "\"sv") ++ str "\n};\n"

/-! ## Statements of `AddTypesToSchema` -/

/-- SchemaGenerator.cpp:863-873, 881-891; `description` is not left out for built-in types only. -/
def scalarText (o : Options) (t : ScalarType) : Str :=
  str "\tschema->AddType(" ++ gql t.type ++ str ", schema::ScalarType::Make(" ++ gql t.type ++ str ", " ++
  mdPlain (described o t.description) ++ str "));\n"

/-- SchemaGenerator.cpp:858-875: the description of the built-in types. -/
def builtinText (o : Options) (name : Str) : Str := scalarText o { type := name, description := str "Built-in type" }

/-- `SchemaLoader::getBuiltinTypes`, SchemaLoader.cpp:19-25, in the order of `std::map`. -/
def builtinNames : List Str := [str "Boolean", str "Float", str "ID", str "Int", str "String"]

/-- The class of a kind of types. -/
def className : Verif.Schema.Wrap.Kind → Str
  | .scalar => str "ScalarType"
  | .object => str "ObjectType"
  | .interface => str "InterfaceType"
  | .union => str "UnionType"
  | .enum => str "EnumType"
  | .inputObject => str "InputObjectType"
  | .list => str "List"
  | .nonNull => str "NonNull"

/-- SchemaGenerator.cpp:899-911, 919-932, 940-953, 961-974, 982-995 (where there is no `sv`) -/
def declareText (o : Options) (k : Verif.Schema.Wrap.Kind) (t : Str × Str) : Str :=
  str "\tauto type" ++ cpp t.1 ++ str " = schema::" ++ className k ++ str "::Make(" ++ gql t.1 ++ str ", " ++
  (if k = .object then mdPlain (described o t.2) else md (described o t.2)) ++
  str ");\n\tschema->AddType(" ++ gql t.1 ++ str ", type" ++ cpp t.1 ++ str ");\n"

/-- SchemaGenerator.cpp:1033-1041, 1162-1170, 1662-1670 -/
def deprecationText : Option Str → Str
  | some reason => str "std::make_optional(" ++ md reason ++ str ")"
  | none => str "std::nullopt"

/-- SchemaGenerator.cpp:1021-1043 -/
def enumValueText (o : Options) (t : EnumType) (v : EnumValueType) : Str :=
  str "\t\t{ service::s_names" ++ cpp t.type ++ str "[static_cast<size_t>(" ++ o.schemaNamespace ++ str "::" ++ cpp t.type ++
  str "::" ++ cpp v.value ++ str ")], " ++ md (described o v.description) ++ str ", " ++ deprecationText v.deprecationReason ++
  str " }"

/-- SchemaGenerator.cpp:1004-1050 -/
def enumDetailsText (o : Options) (t : EnumType) : Str :=
  if t.values.isEmpty then []
  else str "\ttype" ++ cpp t.type ++ str "->AddEnumValues({\n" ++ commas (t.values.map (enumValueText o t)) ++ str "\n\t});\n"

/-- An argument or a field of an input type, SchemaGenerator.cpp:1075-1086, 1192-1203, 1297-1308, 1691-1702; the code differs
in the indentation. -/
def inputValueText (o : Options) (indent : Str) (f : InputField) : Str :=
  indent ++ str "schema::InputValue::Make(" ++ gql f.name ++ str ", " ++ md (described o f.description) ++ str ", " ++
  getIntrospectionType f.type f.modifiers ++ str ", " ++ gql f.defaultValueString ++ str ")"

/-- SchemaGenerator.cpp:1058-1093 -/
def inputDetailsText (o : Options) (t : InputType) : Str :=
  if t.fields.isEmpty then []
  else str "\ttype" ++ cpp t.type ++ str "->AddInputValues({\n" ++ commas (t.fields.map (inputValueText o (str "\t\t"))) ++
    str "\n\t});\n"

/-- SchemaGenerator.cpp:1101-1127 -/
def unionDetailsText (t : UnionType) : Str :=
  if t.options.isEmpty then []
  else str "\ttype" ++ cpp t.type ++ str "->AddPossibleTypes({\n" ++
    commas (t.options.map fun n => str "\t\tschema->LookupType(" ++ gql n ++ str ")") ++ str "\n\t});\n"

/-- A field, SchemaGenerator.cpp:1152-1210, 1652-1709. -/
def fieldText (o : Options) (f : OutputField) : Str :=
  str "\t\tschema::Field::Make(" ++ gql f.name ++ str ", " ++ md (described o f.description) ++ str ", " ++
  deprecationText f.deprecationReason ++ str ", " ++ getIntrospectionType f.type f.modifiers ++
  (if f.arguments.isEmpty then []
   else str ", {\n" ++ commas (f.arguments.map (inputValueText o (str "\t\t\t"))) ++ str "\n\t\t}") ++ str ")"

/-- SchemaGenerator.cpp:1135-1217, 1636-1715 -/
def fieldsText (o : Options) (name : Str) (fields : List OutputField) : Str :=
  if fields.isEmpty then []
  else str "\ttype" ++ cpp name ++ str "->AddFields({\n" ++ commas (fields.map (fieldText o)) ++ str "\n\t});\n"

/-- SchemaGenerator.cpp:1619-1629 -/
def interfaceText (o : Options) (n : Str) : Str :=
  if o.separateFiles then
    str "\t\tstd::static_pointer_cast<const schema::InterfaceType>(schema->LookupType(" ++ gql n ++ str "))"
  else str "\t\ttype" ++ cpp n

/-- SchemaGenerator.cpp:1602-1634 -/
def interfacesText (o : Options) (t : ObjectType) : Str :=
  if t.interfaces.isEmpty then []
  else str "\ttype" ++ cpp t.type ++ str "->AddInterfaces({\n" ++ commas (t.interfaces.map (interfaceText o)) ++ str "\n\t});\n"

/-- `Generator::outputObjectIntrospection`, SchemaGenerator.cpp:1599-1716 -/
def objectIntrospection (o : Options) (t : ObjectType) : Str := interfacesText o t ++ fieldsText o t.type t.fields

/-- SchemaGenerator.cpp:1225-1236 -/
def objectDetailsText (o : Options) (t : ObjectType) : Str :=
  if o.separateFiles then str "\tAdd" ++ cpp t.type ++ str "Details(type" ++ cpp t.type ++ str ", schema);\n"
  else objectIntrospection o t

/-- SchemaGenerator.cpp:1244-1316; `getIntrospectionNamespace()` is `introspection`, SchemaLoader.cpp:17, 1226-1229. -/
def directiveText (o : Options) (d : DirectiveType) : Str :=
  str "\tschema->AddDirective(schema::Directive::Make(" ++ gql d.name ++ str ", " ++ md (described o d.description) ++
  str ", {" ++
  (if d.locations.isEmpty then []
   else str "\n" ++ commas (d.locations.map fun n => str "\t\tintrospection::DirectiveLocation::" ++ n) ++ str "\n\t") ++
  str "}" ++
  (if d.arguments.isEmpty then []
   else str ", {\n" ++ commas (d.arguments.map (inputValueText o (str "\t\t"))) ++ str "\n\t}") ++ str "));\n"

/-- `operation[0] = std::toupper(operation[0])`. Simplification: an empty name of an operation stays as it is (C++ writes a
zero byte before the end of the string). -/
def capitalised : Str → Str
  | [] => []
  | c :: s => toUpper c :: s

/-- SchemaGenerator.cpp:1324-1332 -/
def operationText (o : OperationType) : Str :=
  str "\tschema->Add" ++ capitalised o.operation ++ str "Type(type" ++ cpp o.type ++ str ");\n"

/-- A blank line and the text, if there are any. -/
def section' (none : Bool) (text : Str) : Str := if none then [] else str "\n" ++ text

/-- The body of `AddTypesToSchema`, SchemaGenerator.cpp:858-1333. -/
def bodyText (o : Options) (l : Loader) : Str :=
  (if o.isIntrospection then builtinNames.flatMap (builtinText o) else []) ++
  l.scalarTypes.flatMap (scalarText o) ++
  l.enumTypes.flatMap (fun t => declareText o .enum (t.type, t.description)) ++
  l.inputTypes.flatMap (fun t => declareText o .inputObject (t.type, t.description)) ++
  l.unionTypes.flatMap (fun t => declareText o .union (t.type, t.description)) ++
  l.interfaceTypes.flatMap (fun t => declareText o .interface (t.type, t.description)) ++
  l.objectTypes.flatMap (fun t => declareText o .object (t.type, t.description)) ++
  section' l.enumTypes.isEmpty (l.enumTypes.flatMap (enumDetailsText o)) ++
  section' l.inputTypes.isEmpty (l.inputTypes.flatMap (inputDetailsText o)) ++
  section' l.unionTypes.isEmpty (l.unionTypes.flatMap unionDetailsText) ++
  section' l.interfaceTypes.isEmpty (l.interfaceTypes.flatMap fun t => fieldsText o t.type t.fields) ++
  section' l.objectTypes.isEmpty (l.objectTypes.flatMap (objectDetailsText o)) ++
  section' l.directives.isEmpty (l.directives.flatMap (directiveText o)) ++
  section' o.isIntrospection (l.operationTypes.flatMap operationText)

/-- SchemaGenerator.cpp:854-856, 1335-1337 -/
def functionText (o : Options) (l : Loader) : Str :=
  str "void AddTypesToSchema(const std::shared_ptr<schema::Schema>& schema)\n{\n" ++ bodyText o l ++ str "}\n\n"

/-- The function for an object in a separate file, SchemaGenerator.cpp:2165-2173. -/
def objectFunctionText (o : Options) (t : ObjectType) : Str :=
  str "void Add" ++ cpp t.type ++ str "Details(std::shared_ptr<schema::ObjectType> type" ++ cpp t.type ++
  str ", const std::shared_ptr<schema::Schema>& schema)\n{\n" ++ objectIntrospection o t ++ str "}\n\n"

/-- All the names, SchemaGenerator.cpp:607-629. Simplification: in the file the converters of an enum (628-677, C75) are behind its
names. -/
def namesArrays (l : Loader) : Str := l.enumTypes.flatMap namesArray

/-- The functions for objects: only in separate files, where there is one file for each object, SchemaGenerator.cpp:2097-2175. -/
def objectFunctions (o : Options) (l : Loader) : Str :=
  if o.separateFiles then l.objectTypes.flatMap (objectFunctionText o) else []

/-- SchemaGenerator.cpp:1339-1361 -/
def getSchemaText (o : Options) : Str :=
  str "std::shared_ptr<schema::Schema> GetSchema()\n{\n\tstatic std::weak_ptr<schema::Schema> s_wpSchema;\n\tauto schema = s_wpSchema.lock();\n\n\tif (!schema)\n\t{\n\t\tschema = std::make_shared<schema::Schema>(" ++
  str (if o.noIntrospection then "true" else "false") ++
  str ");\n\t\tintrospection::AddTypesToSchema(schema);\n\t\tAddTypesToSchema(schema);\n\t\ts_wpSchema = schema;\n\t}\n\n\treturn schema;\n}\n\n"

end Verif.GenText
