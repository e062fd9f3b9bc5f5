import Verif.Async.Deliver

/-!
# Specification of subscriptions with threads

`Verif.Subs` has the same calls with `std::launch::deferred`.
-/
namespace Verif.Async
open Verif.Value Verif.Resp Verif.Errors Verif.Ast Verif.Exec Verif.Request

variable {E O C : Type}

/-- A call of `Request::deliver`. -/
structure Delivery (E O C : Type) where
  service : Service E O
  state : Subs.State C
  /-- What the callbacks do. -/
  react : C → Reaction E
  name : Str
  applyArguments : Subs.Filter
  applyDirectives : Subs.Filter
  object : Option O

/-- Callbacks are called one after the other until one throws. -/
def callAll (react : C → Reaction E) : List (Subs.Call E C) → Run E Unit
  | [] => .pure ()
  | call :: calls => ((react call.callback).run call.document).bind fun _ => callAll react calls

/-- The call with `std::launch::deferred`, in one thread: `Verif.Subs`, and then the callbacks. -/
def Delivery.deferred (q : Delivery E O C) : Outcome (Run E Unit) :=
  match Subs.deliver q.service q.state q.name q.applyArguments q.applyDirectives q.object with
  | .undefined => .undefined
  | .done run => .done (run.bind fun calls => callAll q.react calls)

/-- The call with a launch policy, as a program with threads. -/
def Delivery.program (q : Delivery E O C) (launch : Launch) : Outcome (Proc E O) :=
  deliver q.service launch q.react q.state q.name q.applyArguments q.applyDirectives q.object

/-- A schedule has brought the call to `c`; `t` are the events of user code until then, with the threads which they happen in. -/
def Delivery.Reaches (q : Delivery E O C) (launch : Launch) (t : List (Nat × E)) (c : Config E O) : Prop :=
  ∃ p, q.program launch = .done p ∧ Steps (start p) t c

/-- The call of the caller has returned, or thrown. -/
def Returned (c : Config E O) (r : Except Exn Unit) : Prop := ∃ v : Val, c.threads[0]? = some (.done v) ∧ v.map (fun _ => ()) = r

/-- The callback calls `get()`. -/
def Reaction.Reads : Reaction E → Prop
  | .reads _ _ => True
  | .drops _ => False

/-- All callbacks call `get()`, and no selection set fails as a whole. -/
structure Delivery.Clean (q : Delivery E O C) : Prop where
  sets : SetsSucceed q.service.impl
  evaluate : ∀ e ∈ q.state.subscriptions, EvaluateAll ⟨e.2.variables, q.service.atoiOverflow⟩ e.2.selection
  reads : ∀ e ∈ q.state.subscriptions, (q.react e.2.callback).Reads

/-- The events of a callback. -/
def Reaction.Has (e : E) : Reaction E → Prop
  | .reads before after => e ∈ before ∨ ∃ r, e ∈ (after r).trace
  | .drops run => e ∈ run.trace

/-- The events of callbacks belong to no object. -/
def Delivery.Labelled (q : Delivery E O C) (owner : E → Option O) : Prop :=
  ∀ e ∈ q.state.subscriptions, ∀ x, (q.react e.2.callback).Has x → owner x = none

end Verif.Async
