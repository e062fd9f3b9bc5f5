import Verif.Cpp.Spec

/-!
# The part of C++ in which generated code is written: statements which compute

A specification, like `Verif.Cpp.Spec`, for the code which builds default values and reads arguments: local variables,
assignments, calls of functions, members and members of templates, lambdas which are called at once, `c ? a : b`.

`t x(a);` is the definition of a variable: here `a` is never the name of a type ([stmt.ambig]).
-/
namespace Verif.Cpp.Code
open Verif.Value Verif.Text Verif.Cpp

mutual
inductive Expr where
  /-- `a::b` -/
  | name (q : Path)
  | text (s : Str)
  /-- `5`, `-1.5` -/
  | number (negative : Bool) (s : Str)
  | boolean (b : Bool)
  /-- `x.m` -/
  | member (x m : Str)
  /-- `f(a, b)` -/
  | call (f : Path) (args : List Expr)
  /-- `c<t>::f(a, b)`, or `c<t>::f<m, n>(a, b)` -/
  | template (c t : Path) (f : Str) (ms : List Path) (args : List Expr)
  /-- `x.m(a, b)`, or `x.m<t>(a, b)` -/
  | method (x m : Str) (t : Option Path) (args : List Expr)
  /-- `static_cast<t>(e)` -/
  | staticCast (t : Path) (e : Expr)
  /-- `(c ? a : b)` -/
  | cond (c a b : Expr)
  /-- `[]() { body }()` -/
  | invoke (body : List Stmt)
  /-- `{ a, b }` -/
  | braces (es : List Expr)
  /-- `t{ a, b }` -/
  | init (t : Path) (es : List Expr)
inductive Stmt where
  /-- `t x;` -/
  | var (t : Path) (x : Str)
  /-- `t x(e);` -/
  | varWith (t : Path) (x : Str) (e : Expr)
  /-- `auto x = e;`, or `const auto x = e;` -/
  | auto (const : Bool) (x : Str) (e : Expr)
  /-- `x = e;` -/
  | assign (x : Str) (e : Expr)
  /-- `e;` -/
  | expr (e : Expr)
  /-- `return e;` -/
  | ret (e : Expr)
end

/-- `<a, b>`, or nothing -/
def templateTokens (ms : List Path) : List Tok :=
  if ms = [] then [] else [p "<"] ++ commaTokens (ms.map Path.tokens) ++ [p ">"]

mutual
def Expr.tokens : Expr → List Tok
  | .name q => q.tokens
  | .text s => [.text s false]
  | .number negative s => (if negative then [p "-"] else []) ++ [.number s]
  | .boolean b => [if b then kw "true" else kw "false"]
  | .member x m => [.word x, p ".", .word m]
  | .call f args => f.tokens ++ [p "("] ++ Expr.listTokens args ++ [p ")"]
  | .template c t f ms args =>
    c.tokens ++ [p "<"] ++ t.tokens ++ [p ">", p "::", .word f] ++ templateTokens ms ++ [p "("] ++ Expr.listTokens args ++ [p ")"]
  | .method x m t args => [.word x, p ".", .word m] ++ templateTokens t.toList ++ [p "("] ++ Expr.listTokens args ++ [p ")"]
  | .staticCast t e => [kw "static_cast", p "<"] ++ t.tokens ++ [p ">", p "("] ++ e.tokens ++ [p ")"]
  | .cond c a b => [p "("] ++ c.tokens ++ [p "?"] ++ a.tokens ++ [p ":"] ++ b.tokens ++ [p ")"]
  | .invoke body => [p "[", p "]", p "(", p ")", p "{"] ++ Stmt.listTokens body ++ [p "}", p "(", p ")"]
  | .braces es => [p "{"] ++ Expr.listTokens es ++ [p "}"]
  | .init t es => t.tokens ++ [p "{"] ++ Expr.listTokens es ++ [p "}"]
termination_by structural x => x
def Expr.listTokens : List Expr → List Tok
  | [] => []
  | e :: es => e.tokens ++ Expr.moreTokens es
termination_by structural x => x
def Expr.moreTokens : List Expr → List Tok
  | [] => []
  | e :: es => [p ","] ++ e.tokens ++ Expr.moreTokens es
termination_by structural x => x
def Stmt.tokens : Stmt → List Tok
  | .var t x => t.tokens ++ [.word x, p ";"]
  | .varWith t x e => t.tokens ++ [.word x, p "("] ++ e.tokens ++ [p ")", p ";"]
  | .auto const x e => (if const then [kw "const"] else []) ++ [kw "auto", .word x, p "="] ++ e.tokens ++ [p ";"]
  | .assign x e => [.word x, p "="] ++ e.tokens ++ [p ";"]
  | .expr e => e.tokens ++ [p ";"]
  | .ret e => [kw "return"] ++ e.tokens ++ [p ";"]
termination_by structural x => x
def Stmt.listTokens : List Stmt → List Tok
  | [] => []
  | s :: ss => s.tokens ++ Stmt.listTokens ss
termination_by structural x => x
end

/-- `template <> result c<t>::f(const type& x) { body }` -/
structure Function where
  result : Path
  c : Path
  t : Path
  f : Str
  type : Path
  x : Str
  body : List Stmt

def Function.tokens (f : Function) : List Tok :=
  [kw "template", p "<", p ">"] ++ f.result.tokens ++ f.c.tokens ++ [p "<"] ++ f.t.tokens ++ [p ">", p "::", .word f.f, p "(", kw "const"] ++
  f.type.tokens ++ [p "&", .word f.x, p ")", p "{"] ++ Stmt.listTokens f.body ++ [p "}"]

/-- What a compiler reads: statements. -/
def ReadsBody (text : Str) (ss : List Stmt) : Prop := Lexes text (Stmt.listTokens ss)

/-- What a compiler reads: functions. -/
def ReadsFunctions (text : Str) (fs : List Function) : Prop := Lexes text (fs.flatMap Function.tokens)

end Verif.Cpp.Code
