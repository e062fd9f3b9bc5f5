import Verif.Subs.Model
import Verif.Request.Props

/-!
# Specification of subscriptions

The active subscriptions as a list in order of their keys, and histories of calls on a `Request`.
-/
namespace Verif.Subs.Spec
open Verif.Value Verif.Resp Verif.Errors Verif.Ast Verif.Exec Verif.Request Verif.Subs

variable {E O C : Type}

/-- Active subscriptions with their keys. -/
abbrev Active (C : Type) := List (Nat × Registration C)

/-- The key of the next subscription: one more than the last active one, or 0. -/
def fresh (a : Active C) : Nat :=
  match a.getLast? with
  | none => 0
  | some e => e.1 + 1

/-- Does the subscription get events of the field `name` which pass the filters? -/
def wants (name : Str) (arguments directives : Filter) (r : Registration C) : Bool :=
  r.field == name && (r.arguments.getD []).all arguments && (r.fieldDirectives.getD []).all directives

/-- The callbacks of the object around a selection set throw nothing but a `schema_exception`. -/
def Quiet (S : Service E O) (o : O) : Prop :=
  ∀ params what, (S.impl.beginSet o params).result ≠ .error (.other what) ∧
    (S.impl.endSet o params).result ≠ .error (.other what)

/-- Executing the selection of a subscription for an event on the object `o`, with the variables and the directives it was
registered with. -/
def eventRun (S : Service E O) (o : O) (r : Registration C) : Fut E :=
  execute S.impl ⟨r.variables, S.atoiOverflow⟩ o (rootParams .subscription r.directives) r.selection

/-- `d` is the response of an event: that of executing the selection, or the errors if it cannot be executed. -/
def EventResponse (S : Service E O) (o : O) (r : Registration C) (d : Resp) : Prop :=
  (∃ x, (eventRun S o r).result = .ok x ∧ d = response x) ∨
  (∃ es, (eventRun S o r).result = .error (.schema es) ∧ d = failed es)

/-- `c` is the call of the callback of `r`, with a future of the response of the event, which does not throw. -/
def Notified (S : Service E O) (o : O) (r : Registration C) (c : Call E C) : Prop :=
  c.callback = r.callback ∧ ∃ d, c.document.result = .ok d ∧ EventResponse S o r d

/-! ## Histories

All calls are one after the other, but a callback may make calls on the `Request` itself: while a `deliver` is calling
callbacks, any other call may happen, also another `deliver`. -/

/-- The state of the `Request`, and for every `deliver` which is running the callbacks it still has to call, the innermost
`deliver` first. -/
structure Sys (C : Type) where
  st : State C := {}
  pending : List (List C) := []

/-- What can be observed; `r` is what `registration` (the first part of `subscribe`) makes of the document. -/
inductive Event (C : Type) where
  | subscribed (key : Nat) (r : Registration C)
  | unsubscribed (key : Nat)
  | called (callback : C)
  | silent

/-- One step of a history. -/
inductive Step (S : Service E O) : Sys C → Event C → Sys C → Prop where
  /-- `subscribe` returns a key -/
  | subscribe (s : Sys C) (p : Params C) (r : Registration C) (st' : State C) (key : Nat) (hr : registration S p = .ok r)
      (h : Subs.subscribe S s.st p = .ok (st', key)) : Step S s (.subscribed key r) { s with st := st' }
  /-- the asynchronous `subscribe` returns a key -/
  | subscribeAsync (s : Sys C) (p : Params C) (r : Registration C) (t : List E) (st' : State C) (key : Nat)
      (hr : registration S p = .ok r) (h : Subs.subscribeAsync S s.st p = .done (t, st', some key)) :
      Step S s (.subscribed key r) { s with st := st' }
  /-- the asynchronous `subscribe` fails -/
  | subscribeAsyncFails (s : Sys C) (p : Params C) (t : List E) (st' : State C)
      (h : Subs.subscribeAsync S s.st p = .done (t, st', none)) : Step S s .silent { s with st := st' }
  /-- `unsubscribe` -/
  | unsubscribe (s : Sys C) (key : Nat) (st' : State C) (h : Subs.unsubscribe s.st key = some st') :
      Step S s (.unsubscribed key) { s with st := st' }
  /-- the asynchronous `unsubscribe` succeeds -/
  | unsubscribeAsync (s : Sys C) (key : Nat) (t : List E) (st' : State C)
      (h : Subs.unsubscribeAsync S s.st key = .done (t, st', true)) :
      Step S s (.unsubscribed key) { s with st := st' }
  /-- the asynchronous `unsubscribe` fails -/
  | unsubscribeAsyncFails (s : Sys C) (key : Nat) (t : List E) (st' : State C)
      (h : Subs.unsubscribeAsync S s.st key = .done (t, st', false)) : Step S s .silent { s with st := st' }
  /-- `deliver` has found the callbacks it will call -/
  | deliver (s : Sys C) (name : Str) (arguments directives : Filter) (o : Option O) (t : List E) (calls : List (Call E C))
      (h : Subs.deliver S s.st name arguments directives o = .done ⟨t, .ok calls⟩) :
      Step S s .silent { s with pending := calls.map (·.callback) :: s.pending }
  /-- the innermost `deliver` calls its next callback -/
  | call (st : State C) (c : C) (cs : List C) (rest : List (List C)) :
      Step S ⟨st, (c :: cs) :: rest⟩ (.called c) ⟨st, cs :: rest⟩
  /-- the innermost `deliver` returns, or a callback threw and the remaining ones are not called -/
  | finish (st : State C) (cs : List C) (rest : List (List C)) : Step S ⟨st, cs :: rest⟩ .silent ⟨st, rest⟩

/-- A history. -/
inductive Steps (S : Service E O) : Sys C → List (Event C) → Sys C → Prop where
  | refl (s : Sys C) : Steps S s [] s
  | step {s s' s'' : Sys C} {e : Event C} {es : List (Event C)} (h : Step S s e s') (hs : Steps S s' es s'') :
      Steps S s (e :: es) s''

/-- What an event does to the active subscriptions. -/
def apply (a : Active C) : Event C → Active C
  | .subscribed key r => a ++ [(key, r)]
  | .unsubscribed key => a.filter fun x => x.1 ≠ key
  | .called _ => a
  | .silent => a

/-- The active subscriptions after a history: those which were subscribed and not unsubscribed since, oldest first. -/
def active (es : List (Event C)) : Active C := es.foldl apply []

/-- The states of a `Request` which its users can reach. -/
def Reachable (S : Service E O) (s : Sys C) : Prop := ∃ es, Steps S {} es s

end Verif.Subs.Spec
