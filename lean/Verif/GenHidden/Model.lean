import Verif.GenStub.Model

/-!
# The text of `resolve_schema` and `resolve_type`

Models the end of `Generator::outputObjectImplementation` (`/repo/src/SchemaGenerator.cpp:1569-1597`), which `Verif.GenObject.Model` and
`Verif.GenStub.Model` leave out, so that the text of an object is complete with it.
-/
namespace Verif.GenHidden
open Verif.Value Verif.Resp Verif.Gen
open Verif.GenText (cpp)

/-- `SchemaLoader::getIntrospectionNamespace`, SchemaLoader.cpp:17, 1226-1229 -/
def introspectionNamespace : Str := str "introspection"

/-- SchemaGenerator.cpp:1571-1579 -/
def schemaText (t : ObjectType) : Str :=
  str "\nstd::future<service::ResolverResult> " ++ cpp t.type ++
  str "::resolve_schema(service::ResolverParams&& params)\n{\n\treturn service::ModifiedResult<service::Object>::convert(std::static_pointer_cast<service::Object>(std::make_shared<" ++
  introspectionNamespace ++ str "::Schema>(_schema)), std::move(params));\n}\n"

/-- SchemaGenerator.cpp:1581-1596 -/
def typeText (t : ObjectType) : Str :=
  str "\nstd::future<service::ResolverResult> " ++ cpp t.type ++
  str "::resolve_type(service::ResolverParams&& params)\n{\n\tauto argName = service::ModifiedArgument<response::StringType>::require(\"name\", params.arguments);\n\tconst auto& baseType = _schema->LookupType(argName);\n\tstd::shared_ptr<" ++
  introspectionNamespace ++ str "::object::Type> result { baseType ? std::make_shared<" ++ introspectionNamespace ++
  str "::Type>(baseType) : nullptr };\n\n\treturn service::ModifiedResult<" ++ introspectionNamespace ++
  str "::object::Type>::convert<service::TypeModifier::Nullable>(result, std::move(params));\n}\n"

/-- SchemaGenerator.cpp:1569-1597 -/
def hiddenText (t : ObjectType) : Str := schemaText t ++ typeText t

/-- `Generator::outputObjectImplementation`, SchemaGenerator.cpp:1365-1597; `introspection` is
`!_options.noIntrospection && isQueryType`, `stubs` is `!_loader.isIntrospection() && !_options.noStubs`. -/
def objectText (print : Double → Str) (ns : Str) (introspection stubs : Bool) (t : ObjectType) : Str :=
  GenStub.objectText print ns introspection stubs t ++ (if introspection then hiddenText t else [])

end Verif.GenHidden
