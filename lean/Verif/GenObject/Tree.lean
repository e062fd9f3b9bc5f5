import Verif.GenObject.Spec
import Verif.GenCode.Tree

/-!
# The syntax of a class

What the text of `Verif.GenObject.Model` is meant to be, as syntax; an instrument of the proofs.
-/
namespace Verif.GenObject
open Verif.Value Verif.Resp Verif.GenCode
open Verif.Gen (InputField ObjectType OutputField)
open Verif.GenText (cpp)
open Verif.Cpp (Path path word)
open Verif.Cpp.Code (Expr Stmt Entry Constructor Method)

def constructorK (introspection : Bool) (t : ObjectType) : Constructor where
  c := cpp t.type
  types := t.interfaces ++ t.unions ++ [t.type]
  entries := (resolvers Entry.mk resolver introspection t.fields).map (·.2)
  schema := introspection

def argVar (a : InputField) : Str := str "arg" ++ GenCode.capital a

def accessorE (f : OutputField) : Expr :=
  .call (word (f.accessor ++ capital f))
    (.call (path "service" ["FieldParams"]) [moveE (str "params"), moveE (str "directives")] :: (f.arguments.map argVar).map moveE)

def convertE (t : Path) (ms : List Path) (e : Expr) : Expr :=
  .template (path "service" ["ModifiedResult"]) t (str "convert") ms [e, moveE (str "params")]

def lastS (f : OutputField) : List Stmt :=
  [.varWith (path "std" ["unique_lock"]) (str "resolverLock") (var "_resolverMutex"),
   .auto false (str "directives") (.call (path "std" ["move"]) [.member (str "params") (str "fieldDirectives")]),
   .auto false (str "result") (accessorE f),
   .expr (.method (str "resolverLock") (str "unlock") none []),
   .ret (convertE (resultPath f) (f.modifiers.map modPath) (moveE (str "result")))]

def resolverM (number : Double → Expr) (ns : Path) (t : ObjectType) (f : OutputField) : Method where
  c := cpp t.type
  f := resolver f
  body := argumentsS number ns f.arguments ++ lastS f

def typenameM (t : ObjectType) : Method where
  c := cpp t.type
  f := str "resolve_typename"
  body := [.ret (convertE (path "response" ["StringType"]) [] (.init (path "response" ["StringType"]) [.text t.type]))]

def methods (number : Double → Expr) (ns : Path) (t : ObjectType) : List Method :=
  t.fields.map (resolverM number ns t) ++ [typenameM t]

end Verif.GenObject
