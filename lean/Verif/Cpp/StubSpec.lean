import Verif.Cpp.ClassSpec
import Verif.Cpp.ObjectSpec

/-!
# The part of C++ in which generated code is written: stubs, and the class `Operations`

A specification, like `Verif.Cpp.Spec`.
-/
namespace Verif.Cpp.Code
open Verif.Value Verif.Text Verif.Cpp

/-- `, t&&` -/
def parameterTokens (t : CType) : List Tok := [p ","] ++ t.tokens ++ [p "&&"]

/--
```
service::FieldResult<result> c::f(service::FieldParams&&, t&&, ...) const
{ throw std::runtime_error("message"); }
``` -/
structure Stub where
  result : CType
  c : Str
  f : Str
  params : List CType
  message : Str
deriving DecidableEq

def Stub.tokens (s : Stub) : List Tok :=
  (path "service" ["FieldResult"]).tokens ++ [p "<"] ++ s.result.tokens ++ [p ">", .word s.c, p "::", .word s.f, p "("] ++
  (path "service" ["FieldParams"]).tokens ++ [p "&&"] ++ s.params.flatMap parameterTokens ++ [p ")", kw "const", p "{", kw "throw"] ++
  (path "std" ["runtime_error"]).tokens ++ [p "(", .text s.message false, p ")", p ";", p "}"]

/-- A function of a class. -/
inductive Definition where
  | stub (s : Stub)
  | resolver (m : Method)

def Definition.tokens : Definition → List Tok
  | .stub s => s.tokens
  | .resolver m => m.tokens

/-- What a compiler reads: the constructor and the functions of a class. -/
def ReadsStubs (text : Str) (k : Constructor) (ds : List Definition) : Prop := Lexes text (k.tokens ++ ds.flatMap Definition.tokens)

/-- `t x` -/
def Member.parameterTokens (m : Member) : List Tok := m.type.tokens ++ [.word m.name]

/--
```
class Operations : public service::Request
{
public:
  explicit Operations(t x, ...);
private:
  t x; ...
};
``` -/
structure OperationsDecl where
  params : List Member
  members : List Member

def OperationsDecl.tokens (d : OperationsDecl) : List Tok :=
  [kw "class", .word (str "Operations"), p ":", kw "public"] ++ (path "service" ["Request"]).tokens ++
  [p "{", kw "public", p ":", kw "explicit", .word (str "Operations"), p "("] ++
  commaTokens (d.params.map Member.parameterTokens) ++ [p ")", p ";", kw "private", p ":"] ++ d.members.flatMap Member.tokens ++
  [p "}", p ";"]

/-- `{ "name", x }` -/
structure Pair where
  name : Str
  x : Str
deriving DecidableEq

def Pair.tokens (e : Pair) : List Tok := [p "{", .text e.name false, p ",", .word e.x, p "}"]

/-- `, m(std::move(x))` -/
structure Move where
  m : Str
  x : Str
deriving DecidableEq

def Move.tokens (i : Move) : List Tok :=
  [p ",", .word i.m, p "("] ++ (path "std" ["move"]).tokens ++ [p "(", .word i.x, p ")", p ")"]

/--
```
Operations::Operations(t x, ...)
  : service::Request({ { "name", x }, ... }, GetSchema()), m(std::move(x)), ...
{}
``` -/
structure OperationsDef where
  params : List Member
  entries : List Pair
  moves : List Move

def OperationsDef.tokens (d : OperationsDef) : List Tok :=
  [.word (str "Operations"), p "::", .word (str "Operations"), p "("] ++ commaTokens (d.params.map Member.parameterTokens) ++
  [p ")", p ":"] ++ (path "service" ["Request"]).tokens ++ [p "(", p "{"] ++ commaTokens (d.entries.map Pair.tokens) ++
  [p "}", p ",", .word (str "GetSchema"), p "(", p ")", p ")"] ++ d.moves.flatMap Move.tokens ++ [p "{", p "}"]

def ReadsOperationsDecl (text : Str) (d : OperationsDecl) : Prop := Lexes text d.tokens
def ReadsOperationsDef (text : Str) (d : OperationsDef) : Prop := Lexes text d.tokens

end Verif.Cpp.Code
