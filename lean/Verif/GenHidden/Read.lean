import Verif.GenHidden.Model
import Verif.GenHidden.Run
import Verif.GenStub.Read
import Verif.Cpp.HiddenUnique

/-!
# Reading the text of the resolvers of introspection
-/
namespace Verif.GenHidden
open Verif.Value Verif.Resp Verif.Text Verif.GenText
open Verif.GenCode (quoted_text isName_lit numberE lit' piece_known)
open Verif.GenObject (WrittenOk constructorK closed_head)
open Verif.GenStub (definitions closed_stubs)
open Verif.Gen (ObjectType)
open Verif.Cpp (Path path word Tok p kw Lexes keywords)
open Verif.Cpp.Code (SchemaMethod TypeMethod ReadsHidden ReadsQuery headTokens tailTokens Constructor Definition templateTokens)

variable {print : Double → Str} {read : Str → Double} {ns : Str} {q : Path} {t : ObjectType}

def schemaM (t : ObjectType) : SchemaMethod where
  c := cpp t.type
  f := str "resolve_schema"
  t := path "service" ["Object"]
  u := path "service" ["Object"]
  v := path "introspection" ["Schema"]
  m := str "_schema"

def typeM (t : ObjectType) : TypeMethod where
  c := cpp t.type
  f := str "resolve_type"
  x := str "argName"
  a := path "response" ["StringType"]
  name := str "name"
  y := str "baseType"
  m := str "_schema"
  g := str "LookupType"
  x' := str "argName"
  t := path "introspection" ["object", "Type"]
  r := str "result"
  y' := str "baseType"
  u := path "introspection" ["Type"]
  y'' := str "baseType"
  v := path "introspection" ["object", "Type"]
  ms := [path "service" ["TypeModifier", "Nullable"]]
  r' := str "result"

theorem closed_schema (h : IsName t.type ∧ cpp t.type ∉ keywords) : Closed (schemaText t) (schemaM t).tokens := by
  have h1 := closed_head h (f := str "resolve_schema") (Piece.word (isName_lit (by decide)) (by decide +kernel))
  have l1 : Closed (str "\treturn service::ModifiedResult<service::Object>::convert(")
    ([kw "return"] ++ (path "service" ["ModifiedResult"]).tokens ++ [p "<"] ++ (path "service" ["Object"]).tokens ++
      [p ">", p "::", .word (str "convert"), p "("]) := lit' 300 _ (by decide +kernel)
  have l2 : Closed (str "std::static_pointer_cast<service::Object>(")
    ((path "std" ["static_pointer_cast"]).tokens ++ [p "<"] ++ (path "service" ["Object"]).tokens ++ [p ">", p "("]) :=
    lit' 300 _ (by decide +kernel)
  have l3 : Closed (str "std::make_shared<introspection::Schema>(_schema))")
    ((path "std" ["make_shared"]).tokens ++ [p "<"] ++ (path "introspection" ["Schema"]).tokens ++ [p ">", p "(", .word (str "_schema"), p ")", p ")"]) :=
    lit' 300 _ (by decide +kernel)
  have l4 : Closed (str ", std::move(params));\n}\n") tailTokens := lit' 300 _ (by decide +kernel)
  refine Closed.of ((((h1.then l1).then l2).then l3).then l4) ?_ ?_
  · have e1 : str "::resolve_schema(service::ResolverParams&& params)\n{\n\treturn service::ModifiedResult<service::Object>::convert(std::static_pointer_cast<service::Object>(std::make_shared<" =
      str "::" ++ (str "resolve_schema" ++ (str "(service::ResolverParams&& params)\n{\n" ++
      (str "\treturn service::ModifiedResult<service::Object>::convert(" ++ (str "std::static_pointer_cast<service::Object>(" ++
        str "std::make_shared<")))) := by decide +kernel
    have e2 : str "std::make_shared<introspection::Schema>(_schema))" = str "std::make_shared<" ++ (introspectionNamespace ++
      str "::Schema>(_schema))") := by decide +kernel
    have e3 : str "::Schema>(_schema)), std::move(params));\n}\n" = str "::Schema>(_schema))" ++ str ", std::move(params));\n}\n" := by decide +kernel
    simp only [schemaText, e1, e2, e3, List.append_assoc]
  · unfold SchemaMethod.tokens headTokens schemaM
    simp only [List.append_assoc, List.cons_append, List.nil_append]

theorem closed_type (h : IsName t.type ∧ cpp t.type ∉ keywords) : Closed (typeText t) (typeM t).tokens := by
  have h1 := closed_head h (f := str "resolve_type") (Piece.word (isName_lit (by decide)) (by decide +kernel))
  have l0 : Closed (str "\tauto argName = service::ModifiedArgument<response::StringType>::require(")
    ([kw "auto", .word (str "argName"), p "="] ++ (path "service" ["ModifiedArgument"]).tokens ++ [p "<"] ++ (path "response" ["StringType"]).tokens ++
    [p ">", p "::", .word (str "require"), p "("]) := lit' 300 _ (by decide +kernel)
  have l1 := quoted_text (s := str "name") (isName_lit (by decide)) (lit' 300 (s := str ", params.arguments);\n")
    [p ",", .word (str "params"), p ".", .word (str "arguments"), p ")", p ";"] (by decide +kernel)) (Begins.lit (by decide))
  have l2 : Closed (str "\tconst auto& baseType = _schema->LookupType(argName);\n")
    [kw "const", kw "auto", p "&", .word (str "baseType"), p "=", .word (str "_schema"), p "->", .word (str "LookupType"), p "(",
      .word (str "argName"), p ")", p ";"] := lit' 300 _ (by decide +kernel)
  have l3 : Closed (str "\tstd::shared_ptr<introspection::object::Type> result { baseType ? ")
    ((path "std" ["shared_ptr"]).tokens ++ [p "<"] ++ (path "introspection" ["object", "Type"]).tokens ++ [p ">", .word (str "result"), p "{",
      .word (str "baseType"), p "?"]) := lit' 300 _ (by decide +kernel)
  have l4 : Closed (str "std::make_shared<introspection::Type>(baseType) : nullptr };\n\n")
    ((path "std" ["make_shared"]).tokens ++ [p "<"] ++ (path "introspection" ["Type"]).tokens ++ [p ">", p "(", .word (str "baseType"), p ")", p ":",
      kw "nullptr", p "}", p ";"]) := lit' 300 _ (by decide +kernel)
  have l5 : Closed (str "\treturn service::ModifiedResult<introspection::object::Type>::convert<service::TypeModifier::Nullable>(")
    ([kw "return"] ++ (path "service" ["ModifiedResult"]).tokens ++ [p "<"] ++ (path "introspection" ["object", "Type"]).tokens ++ [p ">", p "::",
      .word (str "convert")] ++ templateTokens [path "service" ["TypeModifier", "Nullable"]] ++ [p "("]) := lit' 300 _ (by decide +kernel)
  have l6 : Closed (str "result, std::move(params));\n}\n") ([.word (str "result")] ++ tailTokens) := lit' 300 _ (by decide +kernel)
  refine Closed.of (((((((h1.then l0).then l1).then l2).then l3).then l4).then l5).then l6) ?_ ?_
  · have e1 : str "::resolve_type(service::ResolverParams&& params)\n{\n\tauto argName = service::ModifiedArgument<response::StringType>::require(\"name\", params.arguments);\n\tconst auto& baseType = _schema->LookupType(argName);\n\tstd::shared_ptr<" =
      str "::" ++ (str "resolve_type" ++ (str "(service::ResolverParams&& params)\n{\n" ++
      (str "\tauto argName = service::ModifiedArgument<response::StringType>::require(" ++
      (str "\"" ++ str "name" ++ str "\"" ++ (str ", params.arguments);\n" ++
      (str "\tconst auto& baseType = _schema->LookupType(argName);\n" ++ str "\tstd::shared_ptr<")))))) := by decide +kernel
    have e2 : str "\tstd::shared_ptr<introspection::object::Type> result { baseType ? " = str "\tstd::shared_ptr<" ++ (introspectionNamespace ++
      str "::object::Type> result { baseType ? ") := by decide +kernel
    have e3 : str "::object::Type> result { baseType ? std::make_shared<" = str "::object::Type> result { baseType ? " ++
      str "std::make_shared<" := by decide +kernel
    have e4 : str "std::make_shared<introspection::Type>(baseType) : nullptr };\n\n" = str "std::make_shared<" ++ (introspectionNamespace ++
      str "::Type>(baseType) : nullptr };\n\n") := by decide +kernel
    have e5 : str "::Type>(baseType) : nullptr };\n\n\treturn service::ModifiedResult<" = str "::Type>(baseType) : nullptr };\n\n" ++
      str "\treturn service::ModifiedResult<" := by decide +kernel
    have e6 : str "\treturn service::ModifiedResult<introspection::object::Type>::convert<service::TypeModifier::Nullable>(" =
      str "\treturn service::ModifiedResult<" ++ (introspectionNamespace ++
        str "::object::Type>::convert<service::TypeModifier::Nullable>(") := by decide +kernel
    have e7 : str "::object::Type>::convert<service::TypeModifier::Nullable>(result, std::move(params));\n}\n" =
      str "::object::Type>::convert<service::TypeModifier::Nullable>(" ++ str "result, std::move(params));\n}\n" := by decide +kernel
    simp only [typeText, e1, e2, e3, e4, e5, e6, e7, List.append_assoc]
  · unfold TypeMethod.tokens headTokens typeM
    simp only [List.append_assoc, List.cons_append, List.nil_append]

theorem closed_hidden (h : IsName t.type ∧ cpp t.type ∉ keywords) : Closed (hiddenText t) ((schemaM t).tokens ++ (typeM t).tokens) :=
  (closed_schema h).then (closed_type h)

theorem reads_hidden (h : IsName t.type ∧ cpp t.type ∉ keywords) : ReadsHidden (hiddenText t) (schemaM t) (typeM t) :=
  (closed_hidden h).lexes

theorem reads_query (hn : IsNamespace ns q) (h : WrittenOk print read t) (stubs : Bool) :
    ReadsQuery (objectText print ns true stubs t) (constructorK true t) (definitions (numberE print) q stubs t) (schemaM t) (typeM t) :=
  ((closed_stubs hn h true stubs).then (closed_hidden h.type)).lexes

end Verif.GenHidden
