import Verif.Cpp.ClassSpec
import Verif.GenTypes.Run
import Verif.GenObject.Run

/-!
# What the declarations of classes mean

A specification: the meaning of `Verif.Cpp.ClassSpec`. Interfaces are in the namespace `ns`, the classes of objects in
`ns::object`. Simplification: `std`, `service`, `response` and `object` mean these namespaces.
-/
namespace Verif.GenClass
open Verif.Value
open Verif.Cpp (Path path word)
open Verif.Modifiers (Mod)
open Verif.Cpp.Code (CType Member Accessor Ending ClassDecl ClassHeader)

/-! ## Declarations -/

def class? (hs : List ClassHeader) (name : Str) : Option ClassDecl :=
  hs.findSome? fun d =>
    match d with
    | .object c => if c.name = name then some c else none
    | _ => none

/-- The functions of the interface `name`. -/
def interface? (hs : List ClassHeader) (name : Str) : Option (List Accessor) :=
  hs.findSome? fun d =>
    match d with
    | .interface n accessors => if n = name then some accessors else none
    | _ => none

/-- The functions of the interfaces of a class. -/
def inherited (hs : List ClassHeader) (c : ClassDecl) : List Accessor := c.bases.flatMap fun b => (interface? hs b).getD []

/-! ## Names of types -/

/-- The members of `service::Object` which are not types, GraphQLService.h:467-494. -/
def objectMembers : List Str :=
  [str "resolve", str "matchesType", str "beginSelectionSet", str "endSelectionSet", str "_resolverMutex", str "_typeNames",
   str "_resolvers"]

/-- What the name of a type means in the namespace `ns::object` or `ns`: `objects` are the classes of objects. -/
def inNamespaces (ns : Path) (objects : List Str) (q : Path) : Path :=
  match q.tail with
  | [] => if q.head ∈ objects then ⟨ns.head, ns.tail ++ [str "object", q.head]⟩ else ⟨ns.head, ns.tail ++ [q.head]⟩
  | [x] => if q.head = str "object" then ⟨ns.head, ns.tail ++ [str "object", x]⟩ else q
  | _ => q

def objectName : ClassHeader → Option Str
  | .object c => some c.name
  | _ => none

/-- The names of the classes of objects. -/
def objects (hs : List ClassHeader) : List Str := hs.filterMap objectName

/-- In an interface: the members of the interface come first. -/
def inInterface (ns : Path) (accessors : List Accessor) (q : Path) : Option Path :=
  if q.tail = [] ∧ q.head ∈ accessors.map (·.name) then none else some (inNamespaces ns [] q)

/-- In the class of an object: the members of the class come first, then those of its bases, with the names of the bases. -/
def inClass (ns : Path) (hs : List ClassHeader) (c : ClassDecl) (q : Path) : Option Path :=
  if q.tail = [] then
    if q.head ∈ c.accessors.map (·.name) ++ c.resolvers ++ [str "_schema"] then none
    else if q.head = c.name then some ⟨ns.head, ns.tail ++ [str "object", q.head]⟩
    else if q.head ∈ objectMembers ++ (inherited hs c).map (·.name) then none
    else if q.head = str "Object" then some (path "service" ["Object"])
    else if q.head ∈ c.bases then some ⟨ns.head, ns.tail ++ [q.head]⟩
    else some (inNamespaces ns (objects hs) q)
  else some (inNamespaces ns (objects hs) q)

/-- A type with the names replaced by what they mean. -/
def CType.mean (m : Path → Option Path) : CType → Option CType
  | .name q => (m q).map .name
  | .optional t => (CType.mean m t).map .optional
  | .vector t => (CType.mean m t).map .vector
  | .shared t => (CType.mean m t).map .shared

/-! ## Functions -/

/-- `service::FieldResult<result> name(service::FieldParams&&, params...)` -/
structure Signature where
  name : Str
  result : CType
  params : List CType
deriving DecidableEq

def signature (m : Path → Option Path) (a : Accessor) : Option Signature :=
  (CType.mean m a.result).bind fun r => (a.params.mapM fun x => CType.mean m x.type).map fun ps => ⟨a.name, r, ps⟩

/-- A function which is declared, and what the declaration means. -/
def declaredIn (m : Path → Option Path) (accessors : List Accessor) : List (Ending × Option Signature) :=
  accessors.map fun a => (a.ending, signature m a)

/-- The functions which a class declares itself. -/
def own (ns : Path) (hs : List ClassHeader) (c : ClassDecl) : List (Ending × Option Signature) := declaredIn (inClass ns hs c) c.accessors

/-- The functions of its interfaces. -/
def fromBases (ns : Path) (hs : List ClassHeader) (c : ClassDecl) : List (Ending × Option Signature) :=
  c.bases.flatMap fun b => let accessors := (interface? hs b).getD []; declaredIn (inInterface ns accessors) accessors

/-- Is it a function of this name? -/
def named (f : Str) (d : Ending × Option Signature) : Bool :=
  match d.2 with
  | some s => decide (s.name = f)
  | none => false

/-- The function which `f(...)` in a method of the class calls. Names of the class itself hide those of the bases; a name of several
bases is ambiguous, and so is not compiled. -/
def callee (ns : Path) (hs : List ClassHeader) (c : ClassDecl) (f : Str) : Option Signature :=
  if f ∈ c.resolvers then none
  else
    match (own ns hs c).filter (named f) with
    | [d] => d.2
    | _ :: _ :: _ => none
    | [] =>
      if f ∈ objectMembers then none
      else
        match (fromBases ns hs c).filter (named f) with
        | [d] => d.2
        | _ => none

/-- The function `s` of an interface is overridden by `d`: same name and parameters. -/
def overrides (d s : Signature) : Prop := d.name = s.name ∧ d.params = s.params

instance (d s : Signature) : Decidable (overrides d s) := inferInstanceAs (Decidable (_ ∧ _))

/-- The functions without a definition: an object can be made of a class which is derived from this one, if it defines these. -/
def undefinedFunctions (ns : Path) (hs : List ClassHeader) (c : ClassDecl) : List Signature :=
  let ownFunctions := own ns hs c
  ownFunctions.filterMap (fun d => if d.1 = .pure then d.2 else none) ++
  (fromBases ns hs c).filterMap fun d =>
    if d.1 = .pure then d.2.filter fun s => !(ownFunctions.any fun o => match o.2 with | some o => decide (overrides o s) | none => false)
    else none

/-- What C++ asks of `override`: a function with it overrides one of a base, and a function which overrides one has the same type of
results. -/
def OverridesOk (ns : Path) (hs : List ClassHeader) (c : ClassDecl) : Prop :=
  ∀ d ∈ own ns hs c, ∃ s, d.2 = some s ∧
    (d.1 = .override → ∃ b ∈ fromBases ns hs c, ∃ r, b.2 = some r ∧ overrides s r) ∧
    ∀ b ∈ fromBases ns hs c, ∀ r, b.2 = some r → overrides s r → s.result = r.result

/-! ## `ModifiedResult` -/

/-- Is the type derived from `service::Object`? -/
def isObject (ns : Path) (hs : List ClassHeader) (u : Path) : Bool :=
  decide (u = path "service" ["Object"]) || (objects hs).any fun o => decide (u = ⟨ns.head, ns.tail ++ [str "object", o]⟩)

/-- `ModifiedResult<U>::ResultTraits<U, Modifiers...>::type`, GraphQLService.h:502-525. -/
def resultType (object : Bool) (u : Path) : List Mod → CType
  | [] => if object then .shared (.name u) else .name u
  | .nullable :: ms =>
    if object = true ∧ resultType object u ms = .shared (.name u) then .shared (.name u) else .optional (resultType object u ms)
  | .list :: ms => .vector (resultType object u ms)

end Verif.GenClass
