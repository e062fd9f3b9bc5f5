import Verif.GenCode.Model
import Verif.GenText.Model
import Verif.Gen.Input

/-!
# The text of the types, and of the conversions of enums

Models the text which `schemagen` writes (`/repo/src/SchemaGenerator.cpp`) for the enums and the input objects: the declarations in
the header (202-253) and the conversions in the source (599-724).
-/
namespace Verif.GenTypes
open Verif.Value Verif.Resp Verif.Gen
open Verif.GenText (cpp enumClass namesArray)
open Verif.GenCode (builtinType inputText)
open Verif.Gen.Service (Types)

/-! ## The header -/

/-- `SchemaLoader::getCppType` of the type of a field, SchemaLoader.cpp:1331-1353. (The kind of a field is that of its type: an enum or
an input object is not a built-in or scalar type, so that `getCppType` is `getSafeCppName`.) -/
def typeText (f : InputField) : Str :=
  match f.fieldType with
  | .builtin => builtinType f.type
  | .enum => cpp f.type
  | .input => cpp f.type
  | .scalar => str "response::Value"

/-- `Generator::getFieldDeclaration` of an input field, SchemaGenerator.cpp:512-519, in a line of its own, 242-246. -/
def memberText (f : InputField) : Str :=
  str "\t" ++ (getInputCppType (typeText f) f.modifiers ++ str " " ++ cpp f.name) ++ str ";\n"

/-- SchemaGenerator.cpp:239-250 -/
def structText (t : InputType) : Str :=
  str "struct " ++ cpp t.type ++ str "\n{\n" ++ t.fields.flatMap memberText ++ str "};\n\n"

/-- The enums and the input objects in the header, SchemaGenerator.cpp:204-252. -/
def headerText (T : Types) : Str := T.enums.flatMap enumClass ++ T.inputs.flatMap structText

/-! ## The source -/

/-- `ns::X` -/
def qualified (ns : Str) (t : EnumType) : Str := ns ++ str "::" ++ cpp t.type

/-- `ModifiedArgument<X>::convert` of an enum, SchemaGenerator.cpp:628-656. -/
def argumentText (ns : Str) (t : EnumType) : Str :=
  str "\ntemplate <>\n" ++ qualified ns t ++ str " ModifiedArgument<" ++ qualified ns t ++
  str ">::convert(const response::Value& value)\n{\n\tif (!value.maybe_enum())\n\t{\n\t\tthrow service::schema_exception { { \"not a valid " ++
  t.type ++ str " value\" } };\n\t}\n\n\tconst auto itr = std::find(s_names" ++ cpp t.type ++ str ".cbegin(), s_names" ++ cpp t.type ++
  str ".cend(), value.get<response::StringType>());\n\n\tif (itr == s_names" ++ cpp t.type ++
  str ".cend())\n\t{\n\t\tthrow service::schema_exception { { \"not a valid " ++ t.type ++
  str " value\" } };\n\t}\n\n\treturn static_cast<" ++ qualified ns t ++ str ">(itr - s_names" ++ cpp t.type ++ str ".cbegin());\n}\n"

/-- `ModifiedResult<X>::convert` of an enum, SchemaGenerator.cpp:657-677. -/
def resultText (ns : Str) (t : EnumType) : Str :=
  str "\ntemplate <>\nstd::future<service::ResolverResult> ModifiedResult<" ++ qualified ns t ++
  str ">::convert(service::FieldResult<" ++ qualified ns t ++
  str ">&& result, ResolverParams&& params)\n{\n\treturn resolve(std::move(result), std::move(params),\n\t\t[](" ++ qualified ns t ++
  str " value, const ResolverParams&)\n\t\t{\n\t\t\tresponse::Value result(response::Type::EnumValue);\n\n\t\t\tresult.set<response::StringType>(response::StringType { s_names" ++
  cpp t.type ++ str "[static_cast<size_t>(value)] });\n\n\t\t\treturn result;\n\t\t});\n}\n\n"

/-- The names of the values of an enum, and its conversions, SchemaGenerator.cpp:605-679. -/
def enumText (ns : Str) (t : EnumType) : Str := namesArray t ++ argumentText ns t ++ resultText ns t

/-- The conversions of the enums and of the input objects, SchemaGenerator.cpp:605-724. -/
def serviceText (print : Double → Str) (ns : Str) (T : Types) : Str :=
  T.enums.flatMap (enumText ns) ++ T.inputs.flatMap (inputText print ns)

end Verif.GenTypes
