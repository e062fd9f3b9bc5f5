import Verif.Cpp.TypeSpec
import Verif.GenCode.Run
import Verif.GenCode.Spec

/-!
# What the types are, and what the conversions of enums do

A specification: the meaning of `Verif.Cpp.TypeSpec`. What does not compile, or has no defined behaviour, is `stuck`.
-/
namespace Verif.GenTypes
open Verif.Value Verif.Resp Verif.Errors Verif.GenCode
open Verif.Cpp (Path path word)
open Verif.Gen.Client (Data)
open Verif.Modifiers (Mod)
open Verif.Cpp.Code (CType Member TypeDecl EnumArgument EnumResult ServiceDecl Function)
open Verif.Gen.Service (Types convertBuiltin Res)
open Verif.Modifiers (convertScalar)

/-! ## The header -/

def declName : TypeDecl → Str
  | .enumClass name _ => name
  | .struct name _ => name

/-- The enumerator of `name` with this number: the first one has the number zero. -/
def enumerator (hs : List TypeDecl) (name : Str) (i : Nat) : Option Str :=
  hs.findSome? fun d =>
    match d with
    | .enumClass n values => if n = name then values[i]? else none
    | .struct _ _ => none

/-- The members of the structure `name`. -/
def members (hs : List TypeDecl) (name : Str) : Option (List Member) :=
  hs.findSome? fun d =>
    match d with
    | .struct n ms => if n = name then some ms else none
    | .enumClass _ _ => none

/-- `ModifiedArgument<U>::ArgumentTraits<U, Modifiers...>::type`, the type of what `require` returns,
GraphQLService.h:302-316, 359-409. -/
def argumentType (u : Path) : List Mod → CType
  | [] => .name u
  | .nullable :: ms => .optional (argumentType u ms)
  | .list :: ms => .vector (argumentType u ms)

/-- The type which a name means in the namespace `ns`: names of one word are declared there. -/
def CType.inNamespace (ns : Path) : CType → CType
  | .name q => .name (if q.tail = [] then ⟨ns.head, ns.tail ++ [q.head]⟩ else q)
  | .optional t => .optional (CType.inNamespace ns t)
  | .vector t => .vector (CType.inNamespace ns t)
  | .shared t => .shared (CType.inNamespace ns t)

/-- The type inside of `std::optional`, `std::vector` and `std::shared_ptr`. -/
def CType.leaf : CType → Path
  | .name q => q
  | .optional t => CType.leaf t
  | .vector t => CType.leaf t
  | .shared t => CType.leaf t

/-- The declarations compile: names are different, the members of a structure too, a type which is declared here is complete where
it is the type of a member, and no member has the name of a type which is used in the structure. -/
structure Compiles (hs : List TypeDecl) : Prop where
  names : (hs.map declName).Nodup
  enums : ∀ n values, TypeDecl.enumClass n values ∈ hs → values.Nodup
  structs : ∀ n ms, TypeDecl.struct n ms ∈ hs → (ms.map (·.name)).Nodup
  complete : ∀ pre n ms post, hs = pre ++ TypeDecl.struct n ms :: post →
    ∀ m ∈ ms, (CType.leaf m.type).tail = [] → (CType.leaf m.type).head ∈ pre.map declName
  meaning : ∀ n ms, TypeDecl.struct n ms ∈ hs → ∀ m ∈ ms, (CType.leaf m.type).tail = [] → (CType.leaf m.type).head ∉ ms.map (·.name)

/-! ## The source -/

/-- The array `a`. -/
def array? (ds : List ServiceDecl) (a : Str) : Option (List Str) :=
  ds.findSome? fun d =>
    match d with
    | .array size n values => if n = a ∧ size = values.length then some values else none
    | _ => none

/-- The text of a value for which `maybe_enum` is true, GraphQLResponse.cpp:544-548. -/
def enumText? : Resp → Option Str
  | .string s true => some s
  | .enumValue s => some s
  | _ => none

/-- `convert` of an argument, where `ds` are the declarations before it: the number of the enumerator. The iterators must be of
one array. -/
def runArgument (ds : List ServiceDecl) (f : EnumArgument) (v : Resp) : Out Nat :=
  if f.result = f.t ∧ f.cast = f.t ∧ f.first = f.last ∧ f.first = f.end ∧ f.first = f.begin then
    match array? ds f.first with
    | none => .stuck
    | some names =>
      match enumText? v with
      | none => .throws (.message (cString f.notEnum))
      | some s =>
        match names.findIdx? fun n => decide (n = s) with
        | none => .throws (.message (cString f.notFound))
        | some i => .ok i
  else .stuck

/-- `convert` of a result, where `ds` are the declarations before it, with the number of an enumerator. -/
def runResult (ds : List ServiceDecl) (f : EnumResult) (i : Nat) : Out Resp :=
  if f.u = f.t ∧ f.w = f.t then
    match array? ds f.names with
    | none => .stuck
    | some names =>
      match names[i]? with
      | none => .stuck
      | some s => .ok (.enumValue s)
  else .stuck

/-- The first declaration which is looked for, and those before it. -/
def locate {α : Type} (pick : ServiceDecl → Option α) : List ServiceDecl → Option (List ServiceDecl × α)
  | [] => none
  | d :: ds =>
    match pick d with
    | some a => some ([], a)
    | none => (locate pick ds).map fun r => (d :: r.1, r.2)

def isArgument (t : Path) : ServiceDecl → Option EnumArgument
  | .argument f => if f.t = t then some f else none
  | _ => none

def isResult (t : Path) : ServiceDecl → Option EnumResult
  | .result f => if f.t = t then some f else none
  | _ => none

/-- `ModifiedArgument<t>::convert` of an enum. -/
def argument (ds : List ServiceDecl) (t : Path) : Option (Resp → Out Nat) :=
  (locate (isArgument t) ds).map fun r => runArgument r.1 r.2

/-- `ModifiedResult<t>::convert` of an enum. -/
def result (ds : List ServiceDecl) (t : Path) : Option (Nat → Out Resp) :=
  (locate (isResult t) ds).map fun r => runResult r.1 r.2

/-- The conversions of the library. -/
def libraryConversions (t : Path) : Option (Resp → Res Data) :=
  if t = path "response" ["IntType"] then some fun v => .of (convertBuiltin (str "Int") v)
  else if t = path "response" ["FloatType"] then some fun v => .of (convertBuiltin (str "Float") v)
  else if t = path "response" ["StringType"] then some fun v => .of (convertBuiltin (str "String") v)
  else if t = path "response" ["BooleanType"] then some fun v => .of (convertBuiltin (str "Boolean") v)
  else if t = path "response" ["IdType"] then some fun v => .of (convertBuiltin (str "ID") v)
  else if t = valueT then some fun v => .of (Gen.Client.wrap .scalar (convertScalar v))
  else none

def functions (ds : List ServiceDecl) : List Function :=
  ds.filterMap fun d =>
    match d with
    | .function f => some f
    | _ => none

/-- `ModifiedArgument<t>::convert` of any type: that of the library, or of an enum or an input object in `ds`. A structure is filled
by position; `fields` names the positions. `depth` bounds the nesting of calls. -/
def convertAll (read : Str → Double) (fields : Path → List Str) (ds : List ServiceDecl) : (depth : Nat) → Path → Resp → Out Data
  | depth, t, v =>
    match libraryConversions t with
    | some c => .of (c v)
    | none =>
      match argument ds t with
      | some c => (c v).map .enum
      | none =>
        match (functions ds).find? (fun f => f.c = word (str "ModifiedArgument") ∧ f.t = t ∧ f.f = str "convert") with
        | none => .stuck
        | some f =>
          match depth with
          | 0 => .depth
          | depth + 1 =>
            (execs ⟨read, convertAll read fields ds depth⟩ f.body (Scope.empty.set f.x (.value v))).bind fun r =>
              Out.ofOption (r.1.bind (structure? (fields t)))

end Verif.GenTypes
