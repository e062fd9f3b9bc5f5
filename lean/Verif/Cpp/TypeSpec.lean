import Verif.Cpp.CodeSpec

/-!
# The part of C++ in which generated code is written: types, and the conversions of enums

A specification, like `Verif.Cpp.Spec`: the structures of the header with their types, and the functions which are written for an
enum.
-/
namespace Verif.Cpp.Code
open Verif.Value Verif.Text Verif.Cpp

/-! ## Structures -/

inductive CType where
  | name (q : Path)
  /-- `std::optional<t>` -/
  | optional (t : CType)
  /-- `std::vector<t>` -/
  | vector (t : CType)
  /-- `std::shared_ptr<t>` -/
  | shared (t : CType)
deriving DecidableEq

def CType.tokens : CType → List Tok
  | .name q => q.tokens
  | .optional t => (path "std" ["optional"]).tokens ++ [p "<"] ++ t.tokens ++ [p ">"]
  | .vector t => (path "std" ["vector"]).tokens ++ [p "<"] ++ t.tokens ++ [p ">"]
  | .shared t => (path "std" ["shared_ptr"]).tokens ++ [p "<"] ++ t.tokens ++ [p ">"]

/-- `t x;` in a structure -/
structure Member where
  type : CType
  name : Str
deriving DecidableEq

def Member.tokens (m : Member) : List Tok := m.type.tokens ++ [.word m.name, p ";"]

inductive TypeDecl where
  /-- `enum class name { a, b };` -/
  | enumClass (name : Str) (values : List Str)
  /-- `struct name { members };` -/
  | struct (name : Str) (members : List Member)

def TypeDecl.tokens : TypeDecl → List Tok
  | .enumClass name values => (Decl.enumClass name values).tokens
  | .struct name members => [kw "struct", .word name, p "{"] ++ members.flatMap Member.tokens ++ [p "}", p ";"]

/-- What a compiler reads: the types of a header. -/
def ReadsTypes (text : Str) (ds : List TypeDecl) : Prop := Lexes text (ds.flatMap TypeDecl.tokens)

/-! ## The conversions of enums -/

/-- `throw service::schema_exception { { "message" } };` -/
def throwTokens (message : Str) : List Tok :=
  [kw "throw"] ++ (path "service" ["schema_exception"]).tokens ++ [p "{", p "{", .text message false, p "}", p "}", p ";"]

/-- `x.m()` -/
def memberTokens (x : Str) (m : String) : List Tok := [.word x, p ".", .word (str m), p "(", p ")"]

/--
```
template <> result ModifiedArgument<t>::convert(const response::Value& value)
{
  if (!value.maybe_enum()) { throw service::schema_exception { { "notEnum" } }; }
  const auto itr = std::find(first.cbegin(), last.cend(), value.get<response::StringType>());
  if (itr == end.cend()) { throw service::schema_exception { { "notFound" } }; }
  return static_cast<cast>(itr - begin.cbegin());
}
``` -/
structure EnumArgument where
  result : Path
  t : Path
  notEnum : Str
  first : Str
  last : Str
  «end» : Str
  notFound : Str
  cast : Path
  begin : Str

def EnumArgument.tokens (f : EnumArgument) : List Tok :=
  [kw "template", p "<", p ">"] ++ f.result.tokens ++ [.word (str "ModifiedArgument"), p "<"] ++ f.t.tokens ++
  [p ">", p "::", .word (str "convert"), p "(", kw "const"] ++ (path "response" ["Value"]).tokens ++
  [p "&", .word (str "value"), p ")", p "{"] ++
  [kw "if", p "(", p "!"] ++ memberTokens (str "value") "maybe_enum" ++ [p ")", p "{"] ++ throwTokens f.notEnum ++ [p "}"] ++
  [kw "const", kw "auto", .word (str "itr"), p "="] ++ (path "std" ["find"]).tokens ++ [p "("] ++
  memberTokens f.first "cbegin" ++ [p ","] ++ memberTokens f.last "cend" ++
  [p ",", .word (str "value"), p ".", .word (str "get"), p "<"] ++ (path "response" ["StringType"]).tokens ++
  [p ">", p "(", p ")", p ")", p ";"] ++
  [kw "if", p "(", .word (str "itr"), p "=="] ++ memberTokens f.end "cend" ++ [p ")", p "{"] ++ throwTokens f.notFound ++ [p "}"] ++
  [kw "return", kw "static_cast", p "<"] ++ f.cast.tokens ++ [p ">", p "(", .word (str "itr"), p "-"] ++
  memberTokens f.begin "cbegin" ++ [p ")", p ";", p "}"]

/--
```
template <> std::future<service::ResolverResult> ModifiedResult<t>::convert(service::FieldResult<u>&& result, ResolverParams&& params)
{
  return resolve(std::move(result), std::move(params),
    [](w value, const ResolverParams&)
    {
      response::Value result(response::Type::EnumValue);
      result.set<response::StringType>(response::StringType { names[static_cast<size_t>(value)] });
      return result;
    });
}
``` -/
structure EnumResult where
  t : Path
  u : Path
  w : Path
  names : Str

def EnumResult.tokens (f : EnumResult) : List Tok :=
  [kw "template", p "<", p ">"] ++ (path "std" ["future"]).tokens ++ [p "<"] ++ (path "service" ["ResolverResult"]).tokens ++
  [p ">", .word (str "ModifiedResult"), p "<"] ++ f.t.tokens ++ [p ">", p "::", .word (str "convert"), p "("] ++
  (path "service" ["FieldResult"]).tokens ++ [p "<"] ++ f.u.tokens ++ [p ">", p "&&", .word (str "result"), p ","] ++
  [.word (str "ResolverParams"), p "&&", .word (str "params"), p ")", p "{"] ++
  [kw "return", .word (str "resolve"), p "("] ++ (path "std" ["move"]).tokens ++ [p "(", .word (str "result"), p ")", p ","] ++
  (path "std" ["move"]).tokens ++ [p "(", .word (str "params"), p ")", p ",", p "[", p "]", p "("] ++ f.w.tokens ++
  [.word (str "value"), p ",", kw "const", .word (str "ResolverParams"), p "&", p ")", p "{"] ++
  (path "response" ["Value"]).tokens ++ [.word (str "result"), p "("] ++ (path "response" ["Type", "EnumValue"]).tokens ++
  [p ")", p ";", .word (str "result"), p ".", .word (str "set"), p "<"] ++ (path "response" ["StringType"]).tokens ++
  [p ">", p "("] ++ (path "response" ["StringType"]).tokens ++ [p "{", .word f.names, p "[", kw "static_cast", p "<",
    .word (str "size_t"), p ">", p "(", .word (str "value"), p ")", p "]", p "}", p ")", p ";",
    kw "return", .word (str "result"), p ";", p "}", p ")", p ";", p "}"]

inductive ServiceDecl where
  /-- `static const std::array<std::string_view, size> name = { "a"sv, "b"sv };` -/
  | array (size : Nat) (name : Str) (values : List Str)
  | argument (f : EnumArgument)
  | result (f : EnumResult)
  | function (f : Function)

def ServiceDecl.tokens : ServiceDecl → List Tok
  | .array size name values => (Decl.array size name values).tokens
  | .argument f => f.tokens
  | .result f => f.tokens
  | .function f => f.tokens

/-- What a compiler reads: the conversions. -/
def ReadsService (text : Str) (ds : List ServiceDecl) : Prop := Lexes text (ds.flatMap ServiceDecl.tokens)

end Verif.Cpp.Code
