import Verif.Async.Threads

/-!
# Specification of execution with threads

What is said of a request which runs with a launch policy, under any scheduler. `Verif.Request.resolve` is the same request with
`std::launch::deferred`: its events in order and its answer.
-/
namespace Verif.Async
open Verif.Value Verif.Resp Verif.Errors Verif.Ast Verif.Exec Verif.Request

variable {E O : Type}

/-- A call of `Request::resolve`. -/
structure Call (E O : Type) where
  service : Service E O
  validated : Bool
  doc : Document
  name : Str
  supplied : Members

/-- The call with `std::launch::deferred` and `get()`, in one thread: `Verif.Request`. -/
def Call.deferred (q : Call E O) : Outcome (Run E Resp) := Request.resolve q.service q.validated q.doc q.name q.supplied

/-- The call with a launch policy and `get()`, as a program with threads. -/
def Call.program (q : Call E O) (launch : Launch) : Outcome (Proc E O) := resolve q.service launch q.validated q.doc q.name q.supplied

/-- A schedule has brought the call to `c`; `t` are the events of user code until then, with the threads which they happen in. -/
def Call.Reaches (q : Call E O) (launch : Launch) (t : List (Nat × E)) (c : Config E O) : Prop :=
  ∃ p, q.program launch = .done p ∧ Steps (start p) t c

/-- The events in their order. -/
def events (t : List (Nat × E)) : List E := t.map (·.2)

/-- `get()` has returned this to the caller. -/
def Answered (c : Config E O) (r : Except Exn Resp) : Prop := ∃ v : Except Exn Result, c.threads[0]? = some (.done v) ∧ v.map (·.data) = r

/-- The call runs a mutation. -/
def Call.IsMutation (q : Call E O) : Prop :=
  ∃ op, findOperation q.name q.doc.operations = some op ∧ operationType op = str "mutation"

/-- Which object an event belongs to, if events say so: those of a call of an accessor are those of the object, and the others of none. -/
structure Labels (I : Impl E O) (owner : E → Option O) : Prop where
  access : ∀ o name resolver, I.resolver o name = some resolver → ∀ params, ∀ e ∈ (resolver.access params).trace, owner e = some o
  later : ∀ o name resolver, I.resolver o name = some resolver → ∀ params later outcome,
    (resolver.access params).result = .ok (.future later outcome) → ∀ e ∈ later, owner e = none
  sets : ∀ o params, (∀ e ∈ (I.beginSet o params).trace, owner e = none) ∧ ∀ e ∈ (I.endSet o params).trace, owner e = none

/-- The events of one call of an accessor of an object. -/
def AccessorCall (I : Impl E O) (o : O) (w : List E) : Prop :=
  ∃ name resolver params, I.resolver o name = some resolver ∧ w = (resolver.access params).trace

/-- No callback of a selection set throws. -/
def SetsSucceed (I : Impl E O) : Prop :=
  ∀ o params, (∃ x, (I.beginSet o params).result = .ok x) ∧ ∃ x, (I.endSet o params).result = .ok x

/-- The directives of a selection evaluate. -/
def DirectivesEvaluate (env : Env) (directives : Option (List Directive)) : Prop :=
  ∃ ds, evalDirectives env directives = .ok ds ∧ ∃ b, shouldSkip ds = .ok b

mutual
/-- The directives and arguments of a selection and those in it evaluate, and its fragments exist. -/
def Evaluates (env : Env) : XSelection → Prop
  | .leaf f => DirectivesEvaluate env f.directives ∧ ∃ args, evalOptArgs env f.arguments = .ok args
  | .node f _ sub => (DirectivesEvaluate env f.directives ∧ ∃ args, evalOptArgs env f.arguments = .ok args) ∧ EvaluateAll env sub
  | .unknownSpread _ _ => False
  | .spread _ directives sub => DirectivesEvaluate env directives ∧ EvaluateAll env sub
  | .inline _ directives sub => DirectivesEvaluate env directives ∧ EvaluateAll env sub
/-- The same for all of a list. -/
def EvaluateAll (env : Env) : List XSelection → Prop
  | [] => True
  | s :: rest => Evaluates env s ∧ EvaluateAll env rest
end

/-- No selection set of the call fails as a whole: no callback throws, and everything in the selections of the operation evaluates. -/
def Call.SetsSucceed (q : Call E O) : Prop :=
  Async.SetsSucceed q.service.impl ∧
    ∀ ready xs, prepare q.service q.validated q.doc q.name q.supplied = .ok ready → expand ready.fragments ready.op.sub = some xs →
      EvaluateAll ⟨ready.variables, q.service.atoiOverflow⟩ xs

end Verif.Async
