import Verif.Gen.Types
import Verif.GenText.Model

/-!
# The text of the code for default values, arguments and input objects

Models the text which `schemagen` writes (`/repo/src/SchemaGenerator.cpp`): `getArgumentDefaultValue` (1718-1852),
`getArgumentDeclaration` (1854-1887), `getArgumentAccessType` (1889-1915), the conversion of input objects (681-755), and
the first part of a resolver, which reads the arguments (1487-1530).

`Verif.Gen.Input` models what this code is meant to do; here is the code itself.

Simplifications: how `operator<<` writes a `double` is a parameter (`print`); `std::ofstream` keeps all the bytes.
-/
namespace Verif.GenCode
open Verif.Value Verif.Resp Verif.Gen
open Verif.GenText (cpp)

/-- `const std::string padding(level, '\t')` -/
def padding (level : Nat) : Str := List.replicate level 0x09

mutual
/-- `Generator::getArgumentDefaultValue`, SchemaGenerator.cpp:1718-1852. (A scalar without a value would have to be a value
which was moved from; `get` throws.) -/
def defaultText (print : Double → Str) (level : Nat) : Resp → Str
  | .map members =>
    padding level ++ str "\t\tentry = []()\n" ++ padding level ++ str "\t\t{\n" ++
    padding level ++ str "\t\t\tresponse::Value members(response::Type::Map);\n" ++
    padding level ++ str "\t\t\tresponse::Value entry;\n\n" ++
    membersText print level members ++
    padding level ++ str "\t\t\treturn members;\n" ++ padding level ++ str "\t\t}();\n"
  | .list elements =>
    padding level ++ str "\t\tentry = []()\n" ++ padding level ++ str "\t\t{\n" ++
    padding level ++ str "\t\t\tresponse::Value elements(response::Type::List);\n" ++
    padding level ++ str "\t\t\tresponse::Value entry;\n\n" ++
    elementsText print level elements ++
    padding level ++ str "\t\t\treturn elements;\n" ++ padding level ++ str "\t\t}();\n"
  | .string s _ => padding level ++ str "\t\tentry = response::Value(std::string(R\"gql(" ++ s ++ str ")gql\"));\n"
  | .null => padding level ++ str "\t\tentry = {};\n"
  | .boolean b =>
    padding level ++ str "\t\tentry = response::Value(" ++ (if b then str "true" else str "false") ++ str ");\n"
  | .int i =>
    padding level ++ str "\t\tentry = response::Value(static_cast<response::IntType>(" ++ str (toString i) ++ str "));\n"
  | .float d =>
    padding level ++ str "\t\tentry = response::Value(static_cast<response::FloatType>(" ++ print d ++ str "));\n"
  | .enumValue s =>
    padding level ++ str "\t\tentry = response::Value(response::Type::EnumValue);\n\t\tentry.set<response::StringType>(R\"gql(" ++
    s ++ str ")gql\");\n"
  | .scalar v =>
    padding level ++ str "\t\tentry = []()\n" ++ padding level ++ str "\t\t{\n" ++
    padding level ++ str "\t\t\tresponse::Value scalar(response::Type::Scalar);\n" ++
    padding level ++ str "\t\t\tresponse::Value entry;\n\n" ++
    padding level ++ str "\t" ++ scalarText print level v ++
    padding level ++ str "\t\t\tscalar.set<response::ScalarType>(std::move(entry));\n\n" ++
    padding level ++ str "\t\t\treturn scalar;\n" ++ padding level ++ str "\t\t}();\n"
termination_by structural v => v
/-- The loop over the members, SchemaGenerator.cpp:1737-1743. -/
def membersText (print : Double → Str) (level : Nat) : List (Str × Resp) → Str
  | [] => []
  | m :: ms => memberText print level m ++ membersText print level ms
termination_by structural v => v
def memberText (print : Double → Str) (level : Nat) : Str × Resp → Str
  | (n, v) =>
    defaultText print (level + 1) v ++ padding level ++ str "\t\t\tmembers.emplace_back(\"" ++ n ++ str "\", std::move(entry));\n"
termination_by structural v => v
/-- The loop over the elements, SchemaGenerator.cpp:1762-1767. -/
def elementsText (print : Double → Str) (level : Nat) : List Resp → Str
  | [] => []
  | v :: vs =>
    defaultText print (level + 1) v ++ padding level ++ str "\t\t\telements.emplace_back(std::move(entry));\n" ++
    elementsText print level vs
termination_by structural v => v
/-- The value of a scalar, SchemaGenerator.cpp:1840-1842. -/
def scalarText (print : Double → Str) (level : Nat) : Option Resp → Str
  | some v => defaultText print (level + 1) v
  | none => []
termination_by structural v => v
end

/-- `argumentName[0] = std::toupper(argumentName[0])` on `cppName`, SchemaGenerator.cpp:1858-1860. -/
def capital (f : InputField) : Str :=
  match cpp f.name with
  | [] => []
  | c :: s => toUpper c :: s

/-- `SchemaLoader::getCppType` of a built-in type, SchemaLoader.cpp:19-33, 1331-1341. -/
def builtinType (type : Str) : Str :=
  if type = str "Int" then str "response::IntType"
  else if type = str "Float" then str "response::FloatType"
  else if type = str "String" then str "response::StringType"
  else if type = str "Boolean" then str "response::BooleanType"
  else str "response::IdType"

/-- The type between the brackets, SchemaGenerator.cpp:1895-1910. (An enum or an input object is not a built-in or scalar type,
so that `getCppType` is `getSafeCppName`.) -/
def accessText (ns : Str) (f : InputField) : Str :=
  match f.fieldType with
  | .builtin => builtinType f.type
  | .enum => ns ++ str "::" ++ cpp f.type
  | .input => ns ++ str "::" ++ cpp f.type
  | .scalar => str "response::Value"

/-- `Generator::getArgumentAccessType`, SchemaGenerator.cpp:1889-1915. -/
def getArgumentAccessType (ns : Str) (f : InputField) : Str :=
  str "service::ModifiedArgument<" ++ accessText ns f ++ str ">"

/-- `Generator::getArgumentDeclaration`, SchemaGenerator.cpp:1854-1887. -/
def getArgumentDeclaration (ns : Str) (prefixToken argumentsToken defaultToken : Str) (f : InputField) : Str :=
  if f.defaultValue.type = .null then
    str "\tauto " ++ prefixToken ++ capital f ++ str " = " ++ getArgumentAccessType ns f ++ str "::require" ++
    getTypeModifiers (str "service::") f.modifiers ++ str "(\"" ++ f.name ++ str "\", " ++ argumentsToken ++ str ");\n"
  else
    str "\tauto pair" ++ capital f ++ str " = " ++ getArgumentAccessType ns f ++ str "::find" ++
    getTypeModifiers (str "service::") f.modifiers ++ str "(\"" ++ f.name ++ str "\", " ++ argumentsToken ++ str ");\n\tauto " ++
    prefixToken ++ capital f ++ str " = (pair" ++ capital f ++ str ".second\n\t\t? std::move(pair" ++ capital f ++
    str ".first)\n\t\t: " ++ getArgumentAccessType ns f ++ str "::require" ++ getTypeModifiers (str "service::") f.modifiers ++
    str "(\"" ++ f.name ++ str "\", " ++ defaultToken ++ str "));\n"

/-- The fields with a default value. -/
def withDefault (fs : List InputField) : List InputField := fs.filter fun f => f.defaultValue.type ≠ .null

/-- The variable with the default values, SchemaGenerator.cpp:694-723, 1491-1521. -/
def defaultsText (print : Double → Str) (defaultToken : Str) (fs : List InputField) : Str :=
  if (withDefault fs).isEmpty then []
  else
    str "\tconst auto " ++ defaultToken ++
    str " = []()\n\t{\n\t\tresponse::Value values(response::Type::Map);\n\t\tresponse::Value entry;\n\n" ++
    (withDefault fs).flatMap (fun f =>
      defaultText print 0 f.defaultValue ++ str "\t\tvalues.emplace_back(\"" ++ f.name ++ str "\", std::move(entry));\n") ++
    str "\n\t\treturn values;\n\t}();\n\n"

/-- `ModifiedArgument<X>::convert` of an input object, SchemaGenerator.cpp:681-755. -/
def inputText (print : Double → Str) (ns : Str) (t : InputType) : Str :=
  str "template <>\n" ++ ns ++ str "::" ++ cpp t.type ++ str " ModifiedArgument<" ++ ns ++ str "::" ++ cpp t.type ++
  str ">::convert(const response::Value& value)\n{\n" ++
  defaultsText print (str "defaultValue") t.fields ++
  t.fields.flatMap (getArgumentDeclaration ns (str "value") (str "value") (str "defaultValue")) ++
  (if t.fields.isEmpty then [] else str "\n") ++
  str "\treturn {\n" ++
  GenText.commas (t.fields.map fun f => str "\t\tstd::move(value" ++ capital f ++ str ")") ++
  str "\n\t};\n}\n\n"

/-- The first part of a resolver, SchemaGenerator.cpp:1487-1530. -/
def argumentsText (print : Double → Str) (ns : Str) (fs : List InputField) : Str :=
  defaultsText print (str "defaultArguments") fs ++
  fs.flatMap (getArgumentDeclaration ns (str "arg") (str "params.arguments") (str "defaultArguments"))

end Verif.GenCode
