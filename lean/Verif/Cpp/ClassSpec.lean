import Verif.Cpp.TypeSpec

/-!
# The part of C++ in which generated code is written: the declarations of classes

A specification, like `Verif.Cpp.Spec`: what a header declares for interfaces and objects.
-/
namespace Verif.Cpp.Code
open Verif.Value Verif.Text Verif.Cpp

inductive Ending where
  | plain
  /-- `= 0` -/
  | pure
  | override
deriving DecidableEq

def Ending.tokens : Ending → List Tok
  | .plain => []
  | .pure => [p "=", .number (str "0")]
  | .override => [.word (str "override")]

/-- `, t&& x` -/
def Member.argumentTokens (m : Member) : List Tok := [p ","] ++ m.type.tokens ++ [p "&&", .word m.name]

/-- `virtual service::FieldResult<result> name(service::FieldParams&& params, ...) const ending;` -/
structure Accessor where
  result : CType
  name : Str
  params : List Member
  ending : Ending
deriving DecidableEq

def Accessor.tokens (a : Accessor) : List Tok :=
  [kw "virtual"] ++ (path "service" ["FieldResult"]).tokens ++ [p "<"] ++ a.result.tokens ++ [p ">", .word a.name, p "("] ++
  (path "service" ["FieldParams"]).tokens ++ [p "&&", .word (str "params")] ++ a.params.flatMap Member.argumentTokens ++
  [p ")", kw "const"] ++ a.ending.tokens ++ [p ";"]

/-- `std::future<service::ResolverResult> f(service::ResolverParams&& params);` -/
def resolverTokens (f : Str) : List Tok :=
  (path "std" ["future"]).tokens ++ [p "<"] ++ (path "service" ["ResolverResult"]).tokens ++ [p ">", .word f, p "("] ++
  (path "service" ["ResolverParams"]).tokens ++ [p "&&", .word (str "params"), p ")", p ";"]

/--
```
class name : public service::Object, public base, ...
{
protected:
  explicit name();
public:
  accessors
private:
  resolvers
  std::shared_ptr<schema::Schema> _schema;
};
```
where `public:` and `private:` are only there with methods, and `_schema` with `schema`. -/
structure ClassDecl where
  name : Str
  bases : List Str
  accessors : List Accessor
  resolvers : List Str
  schema : Bool

def ClassDecl.tokens (c : ClassDecl) : List Tok :=
  [kw "class", .word c.name, p ":", kw "public"] ++ (path "service" ["Object"]).tokens ++
  c.bases.flatMap (fun b => [p ",", kw "public", .word b]) ++
  [p "{", kw "protected", p ":", kw "explicit", .word c.name, p "(", p ")", p ";"] ++
  (if c.accessors = [] then [] else [kw "public", p ":"] ++ c.accessors.flatMap Accessor.tokens) ++
  (if c.resolvers = [] then [] else [kw "private", p ":"] ++ c.resolvers.flatMap resolverTokens) ++
  (if c.schema then (path "std" ["shared_ptr"]).tokens ++ [p "<"] ++ (path "schema" ["Schema"]).tokens ++ [p ">", .word (str "_schema"), p ";"]
    else []) ++
  [p "}", p ";"]

inductive ClassHeader where
  /-- `class name;` -/
  | forwardClass (name : Str)
  /-- `struct name;` -/
  | forwardStruct (name : Str)
  /-- `struct name { accessors };` -/
  | interface (name : Str) (accessors : List Accessor)
  | object (c : ClassDecl)

def ClassHeader.tokens : ClassHeader → List Tok
  | .forwardClass name => [kw "class", .word name, p ";"]
  | .forwardStruct name => [kw "struct", .word name, p ";"]
  | .interface name accessors => [kw "struct", .word name, p "{"] ++ accessors.flatMap Accessor.tokens ++ [p "}", p ";"]
  | .object c => c.tokens

/-- What a compiler reads: the classes of a header. -/
def ReadsClasses (text : Str) (hs : List ClassHeader) : Prop := Lexes text (hs.flatMap ClassHeader.tokens)

end Verif.Cpp.Code
