import Verif.Cpp.StubSpec
import Verif.GenClass.Run
import Verif.GenObject.Run

/-!
# What stubs and the class `Operations` do

A specification: the meaning of `Verif.Cpp.StubSpec`.
-/
namespace Verif.GenStub
open Verif.Value
open Verif.GenClass
open Verif.Errors (Exn)
open Verif.GenCode (cString)
open Verif.Gen.Client (Data)
open Verif.Modifiers (Arg)
open Verif.Cpp (Path path word)
open Verif.Cpp.Code (CType Member ClassDecl ClassHeader Stub Definition Method Pair Move OperationsDecl OperationsDef)

/-! ## Stubs -/

/-- The resolvers of a class. -/
def resolver? : Definition → Option Method
  | .stub _ => none
  | .resolver m => some m

def stub? : Definition → Option Stub
  | .stub s => some s
  | .resolver _ => none

/-- The function which a stub in the namespace `ns::object` defines: the type in front of the name of the class is looked up in the
namespace, the parameters are looked up in the class. -/
def definition (ns : Path) (hs : List ClassHeader) (c : ClassDecl) (s : Stub) : Option Signature :=
  (CType.mean (fun q => some (inNamespaces ns (objects hs) q)) s.result).bind fun r =>
    (s.params.mapM fun x => CType.mean (inClass ns hs c) x).map fun ps => ⟨s.f, r, ps⟩

/-- A call of a function of the class: the exception which is thrown by a stub with this name. There are none with the same name.
`what()` of `std::runtime_error` is its message. -/
def thrown (c : Str) (ds : List Definition) (f : Str) : Option Exn :=
  match (ds.filterMap stub?).filter fun s => s.c = c ∧ s.f = f with
  | [s] => some (.other (cString s.message))
  | _ => none

/-! ## `Operations` -/

/-- What is made: the map of `service::Request` (GraphQLService.h:962), and the members. `none` is a null pointer. -/
structure Made (α : Type) where
  operations : List (Str × Option α)
  members : List (Str × Option α)
deriving DecidableEq

/-- Variables with their types and values. -/
abbrev Vars (α : Type) := List (Member × Option α)

def get {α : Type} (x : Str) (E : Vars α) : Option (CType × Option α) := (E.find? fun v => v.1.name = x).map fun v => (v.1.type, v.2)

/-- `std::move(x)` -/
def clear {α : Type} (x : Str) (E : Vars α) : Vars α := E.map fun v => if v.1.name = x then (v.1, none) else v

/-- The type is a pointer to an object of the schema. -/
def pointer (ns : Path) (hs : List ClassHeader) : CType → Bool
  | .shared (.name q) => isObject ns hs (inNamespaces ns [] q)
  | _ => false

/-- Elements of a map of strings in a list: what comes first stays. -/
def mapOf {β : Type} : List (Str × β) → List (Str × β)
  | [] => []
  | (k, v) :: es => (k, v) :: (mapOf es).filter fun e => e.1 ≠ k

/-- Members are initialised in the order of their declarations, whatever the order of the initializers is; an initializer has the
value of a variable of the same type. -/
def members {α : Type} (moves : List Move) : List Member → Vars α → Option (List (Str × Option α))
  | [], _ => some []
  | m :: ms, E =>
    match moves.filter fun i => i.m = m.name with
    | [] => (members moves ms E).map ((m.name, none) :: ·)
    | [i] =>
      match get i.x E with
      | some (t, v) => if t = m.type then (members moves ms (clear i.x E)).map ((m.name, v) :: ·) else none
      | none => none
    | _ => none

/-- `Operations(args...)`: the base is made first, with copies of pointers. `none`: this is not C++, as when the definition is not that of
the constructor which is declared, when variables or members have the same names, or when a type is not what it must be. -/
def make {α : Type} (ns : Path) (hs : List ClassHeader) (d : OperationsDecl) (k : OperationsDef) (args : List α) : Option (Made α) :=
  if d.params = k.params ∧ args.length = k.params.length ∧ (k.params.map (·.name)).Nodup ∧ (d.members.map (·.name)).Nodup ∧
      k.moves.all (fun i => decide (i.m ∈ d.members.map (·.name))) ∧ (d.params ++ d.members).all (fun m => pointer ns hs m.type) then
    let E : Vars α := k.params.zip (args.map some)
    (k.entries.mapM fun e => (get e.x E).map fun v => (cString e.name, v.2)).bind fun es =>
      (members k.moves d.members E).map fun ms => ⟨mapOf es, ms⟩
  else none

/-- The object for an operation: `_operations.find(strOperation)`, /repo/src/GraphQLService.cpp:1313, 1981. -/
def Made.find {α : Type} (m : Made α) (operation : Str) : Option (Option α) :=
  (m.operations.find? fun e => e.1 = operation).map (·.2)

end Verif.GenStub
