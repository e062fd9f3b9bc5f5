import Verif.Cpp.CodeSpec

/-!
# The part of C++ in which generated code is written: the classes of objects

A specification, like `Verif.Cpp.Spec`, for the constructor of a class and its resolvers.
-/
namespace Verif.Cpp.Code
open Verif.Value Verif.Text Verif.Cpp

/-- `{ "name"sv, [this](service::ResolverParams&& params) { return method(std::move(params)); } }` -/
structure Entry where
  name : Str
  method : Str
deriving DecidableEq

def Entry.tokens (e : Entry) : List Tok :=
  [p "{", .text e.name true, p ",", p "[", kw "this", p "]", p "("] ++ (path "service" ["ResolverParams"]).tokens ++
  [p "&&", .word (str "params"), p ")", p "{", kw "return", .word e.method, p "("] ++ (path "std" ["move"]).tokens ++
  [p "(", .word (str "params"), p ")", p ")", p ";", p "}", p "}"]

/-- `C::C() : service::Object({ types }, { entries }) {}`, where `, _schema(GetSchema())` may come before the body. -/
structure Constructor where
  c : Str
  types : List Str
  entries : List Entry
  schema : Bool

def Constructor.tokens (k : Constructor) : List Tok :=
  [.word k.c, p "::", .word k.c, p "(", p ")", p ":"] ++ (path "service" ["Object"]).tokens ++ [p "(", p "{"] ++
  commaTokens (k.types.map fun s => [Tok.text s false]) ++ [p "}", p ",", p "{"] ++
  commaTokens (k.entries.map Entry.tokens) ++ [p "}", p ")"] ++
  (if k.schema then [p ",", .word (str "_schema"), p "(", .word (str "GetSchema"), p "(", p ")", p ")"] else []) ++
  [p "{", p "}"]

/-- `std::future<service::ResolverResult> C::f(service::ResolverParams&& params) { body }` -/
structure Method where
  c : Str
  f : Str
  body : List Stmt

def Method.tokens (m : Method) : List Tok :=
  (path "std" ["future"]).tokens ++ [p "<"] ++ (path "service" ["ResolverResult"]).tokens ++ [p ">", .word m.c, p "::", .word m.f, p "("] ++
  (path "service" ["ResolverParams"]).tokens ++ [p "&&", .word (str "params"), p ")", p "{"] ++ Stmt.listTokens m.body ++ [p "}"]

/-- What a compiler reads: the constructor and the resolvers of a class. -/
def ReadsClass (text : Str) (k : Constructor) (ms : List Method) : Prop := Lexes text (k.tokens ++ ms.flatMap Method.tokens)

end Verif.Cpp.Code
