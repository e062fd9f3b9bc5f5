import Verif.GenTypes.Model
import Verif.GenObject.Model

/-!
# The text of the declarations of interfaces and objects

Models the text which `schemagen` writes (`/repo/src/SchemaGenerator.cpp`) in the header for the interfaces and the objects (254-316,
without `--separate-files`), with `outputObjectDeclaration` (443-510) and `getFieldDeclaration` and `getResolverDeclaration` (521-563).

Simplification: the lines which open and close namespaces (`NamespaceScope`), with the empty lines around them, are left out: forward declarations and classes of objects
are in the namespace `object` of the schema, interfaces are in that of the schema.
-/
namespace Verif.GenClass
open Verif.Value Verif.Resp Verif.Gen
open Verif.GenText (cpp)
open Verif.GenCode (builtinType)
open Verif.GenTypes (typeText)
open Verif.GenObject (capital resolver)

/-- Is the type an object, an interface or a union? SchemaLoader.cpp:1422-1438 -/
def composite (f : OutputField) : Bool :=
  match f.fieldType with
  | .object | .union | .interface => true
  | _ => false

/-- The type inside of the brackets, SchemaLoader.cpp:1440-1461. -/
def leafText (f : OutputField) : Str :=
  match f.fieldType with
  | .builtin => builtinType f.type
  | .scalar => str "response::Value"
  | .enum => cpp f.type
  | .object => (if f.interfaceField then str "object::" else []) ++ cpp f.type
  | .union => str "service::Object"
  | .interface => str "service::Object"

/-- `, T&& xArg`, SchemaGenerator.cpp:531-535 -/
def parameterText (a : InputField) : Str :=
  str ", " ++ getInputCppType (typeText a) a.modifiers ++ str "&& " ++ (cpp a.name ++ str "Arg")

/-- `Generator::getFieldDeclaration` of an output field, SchemaGenerator.cpp:521-550; `abstract` is
`_loader.isIntrospection() || _options.noStubs`. -/
def accessorText (abstract : Bool) (f : OutputField) : Str :=
  str "\tvirtual service::FieldResult<" ++ getResolverCppType (composite f) (leafText f) f.modifiers ++ str "> " ++
  (f.accessor ++ capital f) ++ str "(service::FieldParams&& params" ++ f.arguments.flatMap parameterText ++ str ") const" ++
  (if f.interfaceField || abstract then str " = 0" else if f.inheritedField then str " override" else []) ++ str ";\n"

/-- `Generator::getResolverDeclaration`, SchemaGenerator.cpp:552-563, and the other declarations, 493-502. -/
def resolverDecl (name : Str) : Str :=
  str "\tstd::future<service::ResolverResult> " ++ name ++ str "(service::ResolverParams&& params);\n"

/-- An interface, SchemaGenerator.cpp:290-300. -/
def interfaceText (abstract : Bool) (t : InterfaceType) : Str :=
  str "struct " ++ cpp t.type ++ str "\n{\n" ++ t.fields.flatMap (accessorText abstract) ++ str "};\n\n"

/-- The fields which get an accessor of their own, SchemaGenerator.cpp:466-471. -/
def declared (abstract : Bool) (t : ObjectType) : List OutputField := t.fields.filter fun f => !(f.inheritedField && abstract)

/-- `Generator::outputObjectDeclaration`, SchemaGenerator.cpp:443-510; `introspection` is `!_options.noIntrospection && isQueryType`. -/
def classText (abstract introspection : Bool) (t : ObjectType) : Str :=
  str "class " ++ cpp t.type ++ str "\n\t: public service::Object" ++
  t.interfaces.flatMap (fun i => str "\n\t, public " ++ cpp i) ++
  str "\n{\nprotected:\n\texplicit " ++ cpp t.type ++ str "();\n" ++
  (if t.fields.isEmpty then []
   else
    (if (declared abstract t).isEmpty then [] else str "\npublic:\n") ++ (declared abstract t).flatMap (accessorText abstract) ++
    str "\nprivate:\n" ++ t.fields.flatMap (fun f => resolverDecl (resolver f)) ++ str "\n" ++ resolverDecl (str "resolve_typename") ++
    (if introspection then resolverDecl (str "resolve_schema") ++ resolverDecl (str "resolve_type") ++
      str "\n\tstd::shared_ptr<schema::Schema> _schema;\n" else [])) ++
  str "};\n"

/-- The interfaces and objects of the header, SchemaGenerator.cpp:254-316; `query` is the type of queries, without
`--no-introspection`. -/
def headerText (abstract : Bool) (query : Option Str) (is : List InterfaceType) (os : List ObjectType) : Str :=
  os.flatMap (fun t => str "class " ++ cpp t.type ++ str ";\n") ++ str "\n" ++
  (if is.length > 1 then is.flatMap (fun t => str "struct " ++ cpp t.type ++ str ";\n") ++ str "\n" else []) ++
  is.flatMap (interfaceText abstract) ++
  os.flatMap (fun t => classText abstract (query = some t.type) t ++ str "\n")

end Verif.GenClass
