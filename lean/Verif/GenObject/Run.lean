import Verif.Cpp.ObjectSpec
import Verif.GenCode.Run

/-!
# What an object does

A specification: how C++ runs the resolvers of `Verif.Cpp.ObjectSpec`. The statements which `Verif.GenCode.Run` knows run as there;
the others are `std::unique_lock` on the mutex of the object, the call of an accessor, and `ModifiedResult::convert`. What can be
seen from outside are `Event`s.

`service::FieldParams` is made of the part of `params` with references and values which are copied
(`/repo/include/graphqlservice/GraphQLService.h:151-173`, `/repo/src/GraphQLService.cpp:167-171`), so that `params` can be used
after `std::move`.
-/
namespace Verif.GenObject
open Verif.Value Verif.Resp Verif.Errors Verif.GenCode
open Verif.Cpp (Path path word)
open Verif.Gen.Client (Data)
open Verif.Modifiers (Mod Arg)
open Verif.Cpp.Code (Expr Stmt Entry Constructor Method)

/-- What is given to `convert`. -/
inductive Given where
  /-- the result of the accessor -/
  | result
  | text (s : Str)
deriving DecidableEq

inductive Event where
  /-- the mutex of the object is locked -/
  | lock
  | unlock
  /-- an accessor is called with the directives of the field, and these arguments -/
  | call (accessor : Str) (args : List (Arg Data))
  /-- `ModifiedResult<t>::convert<ms...>`; its result is the answer -/
  | convert (t : Path) (ms : List Mod) (what : Given)

/-- Whether the mutex is locked after these events. -/
def held (es : List Event) : Bool :=
  es.foldl (fun h e => match e with
    | .lock => true
    | .unlock => false
    | _ => h) false

/-- Local variables are destroyed at the end, after an exception too: a lock is released. -/
def leave (es : List Event) : List Event := if held es then es ++ [.unlock] else es

/-- The library, and the exception which an accessor throws, if it does. -/
structure World where
  library : Library
  accessor : Str → List (Arg Data) → Option Exn

/-- `std::move(x)` -/
def moved? (e : Expr) : Option Str :=
  match e with
  | .call f [.name q] => if f = path "std" ["move"] ∧ q.tail = [] then some q.head else none
  | _ => none

def isParams (E : Scope) (x : Str) : Bool :=
  match E x with
  | some (.params _) => true
  | _ => false

def args? (vs : List Val) : Option (List (Arg Data)) :=
  vs.mapM fun (v : Val) =>
    match v with
    | .arg a => some a
    | _ => none

/-- The value of a variable: a call of an accessor, the directives, or what `eval` knows. -/
def value (W : World) (e : Expr) (E : Scope) : List Event × Out (Val × Scope) :=
  match e with
  | .call f [.member x m] =>
    if f = path "std" ["move"] ∧ m = str "fieldDirectives" ∧ isParams E x then ([], .ok (.directives, E))
    else ([], eval W.library e E)
  | .call f (.call g [a, b] :: args) =>
    if f.tail = [] ∧ g = path "service" ["FieldParams"] then
      match moved? a, moved? b with
      | some x, some d =>
        match isParams E x, E d with
        | true, some .directives =>
          match evalList W.library args (E.set d .moved) with
          | .ok r =>
            match args? r.1 with
            | some as =>
              ([.call f.head as],
                match W.accessor f.head as with
                | none => .ok (.result, r.2)
                | some e => .throws e)
            | none => ([], .stuck)
          | _ => ([], .stuck)
        | _, _ => ([], .stuck)
      | _, _ => ([], .stuck)
    else ([], eval W.library e E)
  | _ => ([], eval W.library e E)

/-- The first argument of `convert`. -/
def given (E : Scope) (e : Expr) : Option Given :=
  match e with
  | .init t [.text s] => if t = path "response" ["StringType"] then some (.text (cString s)) else none
  | _ =>
    (moved? e).bind fun x =>
      match E x with
      | some .result => some .result
      | _ => none

/-- A statement: the events, whether the function returns, and the variables. -/
def step (W : World) (s : Stmt) (E : Scope) : List Event × Out (Bool × Scope) :=
  match s with
  | .varWith t x (.name m) =>
    if t = path "std" ["unique_lock"] ∧ m = word (str "_resolverMutex") then
      match E x with
      | none => ([.lock], .ok (false, E.set x (.lock true)))
      | some _ => ([], .stuck)
    else ([], (exec W.library s E).map fun r => (r.1.isSome, r.2))
  | .auto false x e =>
    match E x with
    | none => ((value W e E).1, (value W e E).2.map fun r => (false, r.2.set x r.1))
    | some _ => ([], .stuck)
  | .expr (.method x m none []) =>
    match E x with
    | some (.lock true) => if m = str "unlock" then ([.unlock], .ok (false, E.set x (.lock false))) else ([], .stuck)
    | _ => ([], (exec W.library s E).map fun r => (r.1.isSome, r.2))
  | .ret e =>
    match e with
    | .template c t f ms [a, b] =>
      if c = path "service" ["ModifiedResult"] ∧ f = str "convert" then
        match given E a, moved? b, ms.mapM modifier with
        | some g, some x, some ms => if isParams E x then ([.convert t ms g], .ok (true, E)) else ([], .stuck)
        | _, _, _ => ([], .stuck)
      else ([], .stuck)
    | _ => ([], .stuck)
  | _ => ([], (exec W.library s E).map fun r => (r.1.isSome, r.2))

/-- The statements of a resolver, up to the one which returns. -/
def steps (W : World) : List Stmt → Scope → List Event × Out Unit
  | [], _ => ([], .stuck)
  | s :: ss, E =>
    match step W s E with
    | (es, .ok (true, _)) => (es, .ok ())
    | (es, .ok (false, E)) => (es ++ (steps W ss E).1, (steps W ss E).2)
    | (es, .throws e) => (es, .throws e)
    | (es, .depth) => (es, .depth)
    | (es, .stuck) => (es, .stuck)

/-- A resolver which is called with these arguments. -/
def run (W : World) (m : Method) (arguments : Resp) : List Event × Out Unit :=
  let r := steps W m.body (Scope.empty.set (str "params") (.params arguments))
  (leave r.1, r.2)

/-- The object which is made by the constructor `k`, of a class with the resolvers `ms`, is asked for a field: the first entry with
this name, and the method which it calls. `none`: there is no such field. -/
def answer (W : World) (k : Constructor) (ms : List Method) (name : Str) (arguments : Resp) : Option (List Event × Out Unit) :=
  (k.entries.find? fun e => e.name = name).map fun e =>
    match ms.filter fun m => m.c = k.c ∧ m.f = e.method with
    | [m] => run W m arguments
    | _ => ([], .stuck)

end Verif.GenObject
