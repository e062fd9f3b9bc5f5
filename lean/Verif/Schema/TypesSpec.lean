import Verif.Schema.Types

/-!
# What a schema contains, from the history of the calls which built it

Only the type `Op` of calls is shared with the model.
-/
namespace Verif.TypeSystem.Spec
open Verif.Value

/-- What the last of the calls picked out by `f` said, if there was one. -/
def last {β : Type} (f : Op → Option β) (ops : List Op) : Option β := (ops.filterMap f).getLast?

/-- The types added to the schema, in order. -/
def added (ops : List Op) : List (Str × Addr) :=
  ops.filterMap fun | .addType n a => some (n, a) | _ => none

/-- The type last added under a name. -/
def named (ops : List Op) (name : Str) : Option Addr :=
  last (fun | .addType n a => if n = name then some a else none | _ => none) ops

/-- The fields last given to a type. -/
def fields (ops : List Op) (a : Addr) : List Field :=
  (last (fun | .addFields b fs => if b = a then some fs else none | _ => none) ops).getD []

/-- The interfaces last given to an object type. -/
def interfaces (ops : List Op) (a : Addr) : List Addr :=
  (last (fun | .addInterfaces b is => if b = a then some is else none | _ => none) ops).getD []

/-- The possible types last given to a union. -/
def unionTypes (ops : List Op) (a : Addr) : List Addr :=
  (last (fun | .addPossibleTypes b ps => if b = a then some ps else none | _ => none) ops).getD []

/-- The object types which were ever given an interface, in the order of the calls. -/
def implementers (ops : List Op) (i : Addr) : List Addr :=
  ops.flatMap fun | .addInterfaces a is => (is.filter (· = i)).map fun _ => a | _ => []

/-- The values last given to an enum. -/
def enumValues (ops : List Op) (a : Addr) : List EnumValue :=
  (last (fun | .addEnumValues b vs => if b = a then some vs else none | _ => none) ops).getD []

/-- The input fields last given to an input object. -/
def inputFields (ops : List Op) (a : Addr) : List InputValue :=
  (last (fun | .addInputValues b vs => if b = a then some vs else none | _ => none) ops).getD []

/-- Null stands for the empty text. -/
def nullIfEmpty (s : Str) : Option Str := if s = [] then none else some s

/-- The members which are visible: all of them if deprecated members are asked for, otherwise those which are not
deprecated. -/
def visible {α : Type} (reason : α → Option Str) (includeDeprecated : Option Bool) (xs : List α) : List α :=
  if includeDeprecated = some true then xs else xs.filter fun x => (reason x).isNone

end Verif.TypeSystem.Spec
