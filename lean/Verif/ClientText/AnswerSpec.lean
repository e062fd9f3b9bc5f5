import Verif.Request.Model
import Verif.ClientText.Spec
import Mathlib.Data.List.Forall2

/-!
# The same answer, apart from places: specification
-/
namespace Verif.ClientText
open Verif.Value Verif.Resp Verif.Errors Verif.Exec

/-- An error of a response without its `locations`. -/
def errorWithoutPlaces : Resp → Resp
  | .map ms => .map (ms.filter fun e => e.1 ≠ str "locations")
  | x => x

/-- The `errors` of a response without their `locations`. -/
def errorsWithoutPlaces : Resp → Resp
  | .list xs => .list (xs.map errorWithoutPlaces)
  | x => x

/-- A response without the `locations` of its errors; the data stays. -/
def withoutPlaces : Resp → Resp
  | .map ms => .map (ms.map fun e => (e.1, if e.1 = str "errors" then errorsWithoutPlaces e.2 else e.2))
  | x => x

/-- Two errors with the same message and path. -/
def SameError (e e' : SchemaError) : Prop := e.message = e'.message ∧ e.path = e'.path

/-- Two exceptions which are the same apart from places. -/
inductive SameExn : Exn → Exn → Prop where
  | schema {es es' : List SchemaError} : List.Forall₂ SameError es es' → SameExn (.schema es) (.schema es')
  | other (what : Str) : SameExn (.other what) (.other what)

/-- Both give a value, or both throw. -/
inductive ExceptRel {α β : Type} (R : α → β → Prop) : Except Exn α → Except Exn β → Prop where
  | ok {a b} : R a b → ExceptRel R (.ok a) (.ok b)
  | error {e e'} : SameExn e e' → ExceptRel R (.error e) (.error e')

/-- The same user code runs in the same order, and then both give a value, or both throw. -/
structure RunRel {E α β : Type} (R : α → β → Prop) (x : Run E α) (y : Run E β) : Prop where
  trace : x.trace = y.trace
  result : ExceptRel R x.result y.result

/-- Two answers which are the same apart from places. -/
inductive SameAnswer {E : Type} : Request.Outcome (Run E Resp) → Request.Outcome (Run E Resp) → Prop where
  | done {x y} : RunRel (fun a b => withoutPlaces a = withoutPlaces b) x y → SameAnswer (.done x) (.done y)
  | undefined : SameAnswer .undefined .undefined

end Verif.ClientText
