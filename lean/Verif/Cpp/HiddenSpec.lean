import Verif.Cpp.StubSpec

/-!
# The part of C++ in which generated code is written: the resolvers of introspection

A specification, like `Verif.Cpp.Spec`.
-/
namespace Verif.Cpp.Code
open Verif.Value Verif.Text Verif.Cpp

/-- `std::future<service::ResolverResult> c::f(service::ResolverParams&& params) {` -/
def headTokens (c f : Str) : List Tok :=
  (path "std" ["future"]).tokens ++ [p "<"] ++ (path "service" ["ResolverResult"]).tokens ++ [p ">", .word c, p "::", .word f, p "("] ++
  (path "service" ["ResolverParams"]).tokens ++ [p "&&", .word (str "params"), p ")", p "{"]

/-- `, std::move(params)); }` -/
def tailTokens : List Tok :=
  [p ","] ++ (path "std" ["move"]).tokens ++ [p "(", .word (str "params"), p ")", p ")", p ";", p "}"]

/--
```
std::future<service::ResolverResult> c::f(service::ResolverParams&& params)
{ return service::ModifiedResult<t>::convert(std::static_pointer_cast<u>(std::make_shared<v>(m)), std::move(params)); }
``` -/
structure SchemaMethod where
  c : Str
  f : Str
  t : Path
  u : Path
  v : Path
  m : Str
deriving DecidableEq

def SchemaMethod.tokens (a : SchemaMethod) : List Tok :=
  headTokens a.c a.f ++ [kw "return"] ++ (path "service" ["ModifiedResult"]).tokens ++ [p "<"] ++ a.t.tokens ++
  [p ">", p "::", .word (str "convert"), p "("] ++ (path "std" ["static_pointer_cast"]).tokens ++ [p "<"] ++ a.u.tokens ++ [p ">", p "("] ++
  (path "std" ["make_shared"]).tokens ++ [p "<"] ++ a.v.tokens ++ [p ">", p "(", .word a.m, p ")", p ")"] ++ tailTokens

/--
```
std::future<service::ResolverResult> c::f(service::ResolverParams&& params)
{
  auto x = service::ModifiedArgument<a>::require("name", params.arguments);
  const auto& y = m->g(x');
  std::shared_ptr<t> r { y' ? std::make_shared<u>(y'') : nullptr };
  return service::ModifiedResult<v>::convert<ms...>(r', std::move(params));
}
``` -/
structure TypeMethod where
  c : Str
  f : Str
  x : Str
  a : Path
  name : Str
  y : Str
  m : Str
  g : Str
  x' : Str
  t : Path
  r : Str
  y' : Str
  u : Path
  y'' : Str
  v : Path
  ms : List Path
  r' : Str
deriving DecidableEq

def TypeMethod.tokens (b : TypeMethod) : List Tok :=
  headTokens b.c b.f ++
  ([kw "auto", .word b.x, p "="] ++ (path "service" ["ModifiedArgument"]).tokens ++ [p "<"] ++ b.a.tokens ++
    [p ">", p "::", .word (str "require"), p "(", .text b.name false, p ",", .word (str "params"), p ".", .word (str "arguments"), p ")", p ";"]) ++
  [kw "const", kw "auto", p "&", .word b.y, p "=", .word b.m, p "->", .word b.g, p "(", .word b.x', p ")", p ";"] ++
  ((path "std" ["shared_ptr"]).tokens ++ [p "<"] ++ b.t.tokens ++ [p ">", .word b.r, p "{", .word b.y', p "?"] ++
    (path "std" ["make_shared"]).tokens ++ [p "<"] ++ b.u.tokens ++ [p ">", p "(", .word b.y'', p ")", p ":", kw "nullptr", p "}", p ";"]) ++
  ([kw "return"] ++ (path "service" ["ModifiedResult"]).tokens ++ [p "<"] ++ b.v.tokens ++ [p ">", p "::", .word (str "convert")] ++
    templateTokens b.ms ++ [p "(", .word b.r'] ++ tailTokens)

/-- What a compiler reads: two functions of a class. -/
def ReadsHidden (text : Str) (a : SchemaMethod) (b : TypeMethod) : Prop := Lexes text (a.tokens ++ b.tokens)

/-- What a compiler reads: the constructor and the functions of a class, the last two of them those of introspection. -/
def ReadsQuery (text : Str) (k : Constructor) (ds : List Definition) (a : SchemaMethod) (b : TypeMethod) : Prop :=
  Lexes text (k.tokens ++ ds.flatMap Definition.tokens ++ (a.tokens ++ b.tokens))

end Verif.Cpp.Code
