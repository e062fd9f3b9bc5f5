/-!
# Model of the lifetimes of what execution borrows

The parameters of accessors and callbacks refer to objects which others own: the error path of the selection set (each path refers to
the path of its parent), the directives of the fragments, and what belongs to the operation (state, directives, variables, fragments).
This is a model of when these objects are created and destroyed, and of when they are used, for all launch policies: the functions of
`Verif.Async` again, without the values, but with the objects.

* What user code does is a plan: a tree of what the accessors return, and of what throws. All plans are considered.
* Objects have addresses, which are not used again. An object which is moved is a new one; where it makes no difference, an object is
  created when the function which uses it starts, and destroyed when it ends (the arguments which `std::async` stores live longer).
* Not modelled: `std::async` throws no `std::system_error`; `std::bad_alloc`; the syntax tree, which the caller has to keep.
-/
namespace Verif.Life

abbrev Addr := Nat

/-- What objects are used for. -/
inductive Use where
  /-- An accessor runs: its `errorPath` with its parents. -/
  | accessorPath
  /-- An accessor runs: the directives of the fragments around the field. -/
  | accessorFragments
  /-- An accessor runs: the state and the directives of the operation. -/
  | accessorOperation
  /-- `beginSelectionSet` or `endSelectionSet` runs: the path. -/
  | callbackPath
  /-- The same: the directives of the fragments; `atOnce` if the object is resolved while its field is visited (or is the root). -/
  | callbackFragments (atOnce : Bool)
  /-- The same: the state and the directives of the operation. -/
  | callbackOperation
  /-- `buildErrorPath` -/
  | errorPath
  /-- The future of an accessor runs: the directives of the fragments. -/
  | futureFragments
  /-- The future of an accessor runs: the state and the directives of the operation. -/
  | futureOperation
deriving DecidableEq, Repr

/-- Exceptions which are derived from `std::exception`, and others. -/
inductive Exc where
  | standard | other
deriving DecidableEq

/-- What a thread still has to do. -/
inductive Prog where
  | done (r : Except Exc Unit)
  /-- `std::terminate` -/
  | abort
  /-- An object is created. -/
  | alloc (next : Addr → Prog)
  /-- An object is destroyed. -/
  | free (a : Addr) (next : Prog)
  /-- Objects are used. -/
  | use (u : Use) (as : List Addr) (next : Prog)
  /-- `std::async` starts a thread, which gets the next number. -/
  | fork (child : Prog) (next : Nat → Prog)
  /-- `get()`, or the destructor of a future, waits for a thread. -/
  | join (i : Nat) (next : Except Exc Unit → Prog)
  /-- The C++ library chooses. -/
  | choose (next : Bool → Prog)

/-! ## Threads -/

/-- The threads, the next address, and the objects which are alive. -/
structure State where
  threads : List Prog
  fresh : Addr
  live : Addr → Prop

/-- A thread does something. -/
inductive Step : State → State → Prop where
  | alloc {σ i next} : σ.threads[i]? = some (.alloc next) →
      Step σ { threads := σ.threads.set i (next σ.fresh), fresh := σ.fresh + 1, live := fun a => σ.live a ∨ a = σ.fresh }
  | free {σ i a next} : σ.threads[i]? = some (.free a next) →
      Step σ { σ with threads := σ.threads.set i next, live := fun b => σ.live b ∧ b ≠ a }
  | use {σ i u as next} : σ.threads[i]? = some (.use u as next) → Step σ { σ with threads := σ.threads.set i next }
  | fork {σ i child next} : σ.threads[i]? = some (.fork child next) →
      Step σ { σ with threads := σ.threads.set i (next σ.threads.length) ++ [child] }
  | join {σ i j next r} : σ.threads[i]? = some (.join j next) → σ.threads[j]? = some (.done r) →
      Step σ { σ with threads := σ.threads.set i (next r) }
  | choose {σ i next} (b : Bool) : σ.threads[i]? = some (.choose next) → Step σ { σ with threads := σ.threads.set i (next b) }

/-- One thread, and no objects. -/
def State.start (p : Prog) : State := { threads := [p], fresh := 0, live := fun _ => False }

/-- A state which can come about. -/
inductive Reachable (p : Prog) : State → Prop where
  | start : Reachable p (.start p)
  | step {σ σ'} : Reachable p σ → Step σ σ' → Reachable p σ'

/-! ## Computations and futures -/

/-- A computation, as a function of what is done with its result or exception. -/
abbrev Comp (α : Type) := (Except Exc α → Prog) → Prog

/-- `std::launch`: `either` is `async | deferred`. -/
inductive Launch where
  | deferred | async | either
deriving DecidableEq

/-- `std::future`: a deferred function (also a future which is ready), with the numbers of the threads whose futures are stored in it, or
the number of a thread. -/
inductive Future where
  | deferred (run : Comp Unit) (owned : List Nat)
  | thread (i : Nat)

/-- `std::promise` with a value or an exception. -/
def Future.ready (r : Except Exc Unit) : Future := .deferred (fun k => k r) []

/-- `get()` -/
def Future.get : Future → Comp Unit
  | .deferred run _ => run
  | .thread i => .join i

/-- The threads for which the destructor waits. -/
def Future.owned : Future → List Nat
  | .deferred _ owned => owned
  | .thread i => [i]

/-- The threads for which the destructors of futures wait. -/
def ownedBy (fs : List Future) : List Nat := fs.flatMap Future.owned

/-- Waiting for threads, whatever their results. -/
def waitAll : List Nat → Prog → Prog
  | [], p => p
  | i :: is, p => .join i fun _ => waitAll is p

/-- `std::async(launch, ...)`; the function owns futures of these threads. -/
def async (launch : Launch) (c : Comp Unit) (owned : List Nat) : Comp Future := fun k =>
  match launch with
  | .deferred => k (.ok (.deferred c owned))
  | .async => .fork (c .done) fun i => k (.ok (.thread i))
  | .either => .choose fun b =>
      if b then .fork (c .done) fun i => k (.ok (.thread i))
      else k (.ok (.deferred c owned))

/-! ## Plans -/

/-- The type of a field: `object true` is `service::Object` itself (interfaces and unions), `object false` a class derived from it. -/
inductive Ty where
  | leaf
  | object (base : Bool)
  | nullable (t : Ty)
  | list (t : Ty)
deriving DecidableEq

/-- Where a value comes from: it is there, or a future of the accessor has to be asked, or a `std::promise` of the library. -/
inductive Source where
  | value | userFuture | promise
deriving DecidableEq

mutual
/-- A value, or how getting it ends. -/
inductive Val where
  | throws (x : Exc)
  | null
  | leaf
  | some (v : Val)
  | object (s : SetPlan)
  | list (vs : List Val)
/-- A selection set: how the callbacks end, and the selections. -/
inductive SetPlan where
  | mk (begins : Option Exc) (items : List Item) (ends : Option Exc)
/-- A selection. -/
inductive Item where
  /-- Nothing happens: a field with a name which was there before, or something skipped. -/
  | skip
  /-- Directives or arguments cannot be evaluated, or the fragment is unknown (only then the error has a path). -/
  | fail
  /-- There is no such field. -/
  | unknown
  /-- A field: how the accessor ends, whether it has returned a future, whether the field has selections. -/
  | field (access : Option Exc) (future : Bool) (sub : Bool) (type : Ty) (v : Val)
  /-- A fragment which applies to the object. -/
  | fragment (items : List Item)
end

/-! ## Object::resolve -/

/-- What is the same for the whole operation: the launch policy, and the address of `OperationData`. -/
structure Ctx where
  launch : Launch
  op : Addr

/-- The future of the accessor may use the parameters which the accessor has got. -/
def ask (c : Ctx) (fragments : Addr) : Source → Prog → Prog
  | .userFuture, p => .use .futureFragments [fragments] (.use .futureOperation [c.op] p)
  | _, p => p

/-- The function of `Object::resolve`, GraphQLService.cpp:1145-1197. An exception which is not caught destroys the rest. -/
def collect : List Future → Comp Unit
  | [], k => k (.ok ())
  | child :: rest, k => child.get fun
    | .error .other => waitAll (ownedBy rest) (k (.error .other))
    | _ => collect rest k

/-- The second loop of `ModifiedResult::convert` for lists, GraphQLService.h:673-710; `chain` is `wrappedParams.errorPath`. -/
def gather (chain : List Addr) : List Future → (List Future → Option Exc → Prog) → Prog
  | [], k => k [] none
  | child :: rest, k => child.get fun
    | .ok _ => gather chain rest k
    | .error .standard => .use .errorPath chain (gather chain rest k)
    | .error .other => k rest (some .other)

mutual
/-- `Object::resolve`, GraphQLService.cpp:1123-1199, with the constructor and the destructor of `SelectionVisitor`. `chain` is
`selectionSetParams.errorPath` with its parents, and `fragments` the directives of fragments in `selectionSetParams`. -/
def resolveSet (c : Ctx) (chain : List Addr) (fragments : Addr) (atOnce : Bool) : SetPlan → Comp Future
  | .mk begins items ends, k => .alloc fun frame =>
    .use .callbackPath chain <| .use (.callbackFragments atOnce) [fragments] <| .use .callbackOperation [c.op] <|
    match begins with
    | some x => .free frame (k (.error x))
    | none => visitItems c chain frame items [] fun values r =>
      match r with
      | some x => waitAll (ownedBy values) (.free frame (k (.error x)))
      | none =>
        .use .callbackPath chain <| .use (.callbackFragments atOnce) [fragments] <| .use .callbackOperation [c.op] <|
        match ends with
        | some x => waitAll (ownedBy values) (.free frame (k (.error x)))
        | none => async c.launch (collect values) (ownedBy values) fun f => .free frame (k f)
termination_by structural s => s

/-- The loops over selections, GraphQLService.cpp:1136-1139, 1047-1050, 1107-1110. `frame` is `_fragmentDirectives.back()`. -/
def visitItems (c : Ctx) (chain : List Addr) (frame : Addr) : List Item → List Future → (List Future → Option Exc → Prog) → Prog
  | [], values, k => k values none
  | item :: rest, values, k => visitItem c chain frame item values fun values r =>
    match r with
    | some x => k values (some x)
    | none => visitItems c chain frame rest values k
termination_by structural items => items

/-- `visitField`, GraphQLService.cpp:836-974, and `visitFragmentSpread` and `visitInlineFragment` (976-1115). (If an exception is thrown the directives are destroyed here; in the code, together with the
visitor.) The accessor is called by the generated code with the parameters, SchemaGenerator.cpp:1532-1555. -/
def visitItem (c : Ctx) (chain : List Addr) (frame : Addr) : Item → List Future → (List Future → Option Exc → Prog) → Prog
  | .skip, values, k => k values none
  | .fail, values, k => .use .errorPath chain (k values (some .standard))
  | .unknown, values, k => .use .errorPath chain (k (values ++ [.ready (.error .standard)]) none)
  | .fragment items, values, k => .alloc fun frame' =>
    visitItems c chain frame' items values fun values r => .free frame' (k values r)
  | .field access future sub type v, values, k => .alloc fun path =>
    .use .accessorPath (path :: chain) <| .use .accessorFragments [frame] <| .use .accessorOperation [c.op] <|
    match access with
    | some .standard => .use .errorPath (path :: chain) (.free path (k (values ++ [.ready (.error .standard)]) none))
    | some .other => .free path (k values (some .other))
    | none => convert c chain frame true (if future then .userFuture else .value) sub type v fun
      | .ok f => .free path (k (values ++ [f]) none)
      | .error .standard => .use .errorPath (path :: chain) (.free path (k (values ++ [.ready (.error .standard)]) none))
      | .error .other => .free path (k values (some .other))
termination_by structural item => item

/-- `ModifiedResult::convert`: for leaves `resolve`, GraphQLService.h:722-775 (a `noexcept` function), after `blockSubFields`; for objects
GraphQLService.cpp:708-744 and GraphQLService.h:531-550; nullable, GraphQLService.h:563-625; lists, GraphQLService.h:627-716. `parents` are
the parents of `params.errorPath`; `visiting` if the field is being visited. A value which does not belong to the type is taken as null. -/
def convert (c : Ctx) (parents : List Addr) (fragments : Addr) (visiting : Bool) (source : Source) (sub : Bool) : Ty → Val → Comp Future
  | .leaf, v, k =>
    if sub then .use .errorPath parents (k (.error .standard))
    else
      let run : Comp Unit := fun k => ask c fragments source <|
        match v with
        | .throws .standard => .alloc fun path => .use .errorPath (path :: parents) (.free path (k (.ok ())))
        | .throws .other => .abort
        | _ => k (.ok ())
      if source = .value then run fun _ => k (.ok (.ready (.ok ()))) else async .deferred run [] k
  | .object base, v, k =>
    if sub = false then .use .errorPath parents (k (.error .standard))
    else
      let now := base && source = .value
      let run : Comp Unit := fun k => .alloc fun path => ask c fragments source <|
        match v with
        | .throws x => .free path (k (.error x))
        | .object s => resolveSet c (path :: parents) fragments (now && visiting) s fun
          | .ok f => f.get fun r => .free path (k r)
          | .error x => .free path (k (.error x))
        | _ => .free path (k (.ok ()))
      if now then run fun
        | .ok _ => k (.ok (.ready (.ok ())))
        | .error x => k (.error x)
      else async c.launch run [] k
  | .nullable t, v, k => async .deferred (fun k => .alloc fun path => ask c fragments source <|
      match v with
      | .throws x => .free path (k (.error x))
      | .some v => convert c parents fragments false .promise sub t v fun
        | .ok f => f.get fun r => .free path (k r)
        | .error x => .free path (k (.error x))
      | _ => .free path (k (.ok ()))) [] k
  | .list t, v, k => async c.launch (fun k => .alloc fun path => ask c fragments source <|
      match v with
      | .throws x => .free path (k (.error x))
      | .list vs => .alloc fun parentPath =>
        let leave (children : List Future) (x : Exc) : Prog :=
          .free parentPath (waitAll (ownedBy children) (.free path (k (.error x))))
        convertAll c (parentPath :: parents) fragments sub t vs [] fun children r =>
          match r with
          | some x => leave children x
          | none => gather (path :: parentPath :: parents) children fun children r =>
            match r with
            | some x => leave children x
            | none => .free parentPath (.free path (k (.ok ())))
      | _ => .free path (k (.ok ()))) [] k
termination_by structural _ v => v

/-- The first loop for lists, GraphQLService.h:641-668: the elements are there. -/
def convertAll (c : Ctx) (parents : List Addr) (fragments : Addr) (sub : Bool) (t : Ty) : List Val → List Future →
    (List Future → Option Exc → Prog) → Prog
  | [], children, k => k children none
  | v :: vs, children, k => convert c parents fragments false .value sub t v fun
    | .ok f => convertAll c parents fragments sub t vs (children ++ [f]) k
    | .error x => k children (some x)
termination_by structural vs => vs
end

/-! ## Requests -/

/-- The function for the operation, GraphQLService.cpp:1363-1388: it owns `OperationData`. -/
def runOperation (launch : Launch) (s : SetPlan) : Comp Unit := fun k =>
  .alloc fun op => .alloc fun empty =>
    resolveSet { launch := launch, op := op } [] empty true s fun
      | .ok f => f.get fun r => .free empty (.free op (k r))
      | .error x => .free empty (.free op (k (.error x)))

/-- `Request::resolve`, GraphQLService.cpp:1889-1917, and `get()`. The functions of `subscribe` (2001-2048) and `unsubscribe` (2080-2111) which
call the resolvers of a subscription do the same with the data of the subscription, which end with `unsubscribe`. -/
def runRequest (launch : Launch) (s : SetPlan) : Prog :=
  async launch (runOperation launch s) [] fun
    | .ok f => async launch f.get f.owned fun
      | .ok document => document.get .done
      | .error x => .done (.error x)
    | .error x => .done (.error x)

/-! ## Delivering events -/

/-- A subscription: what the accessors do, whether the callback calls `get()` for the document which it gets or destroys it, and how it
ends. -/
structure Listener where
  plan : SetPlan
  gets : Bool
  ends : Option Exc

/-- How a function ends. -/
def result : Option Exc → Except Exc Unit
  | none => .ok ()
  | some x => .error x

/-- The callback, GraphQLService.cpp:2320-2322. It may catch what `get()` throws. -/
def react (l : Listener) (document : Future) : Comp Unit := fun k =>
  if l.gets then document.get fun r => .choose fun catches => if catches then k (result l.ends) else k r
  else waitAll document.owned (k (result l.ends))

/-- The first loop of `Request::deliver`, GraphQLService.cpp:2225-2324, for the subscriptions which match, with the addresses of their data.
A `schema_exception` is one of the exceptions derived from `std::exception`. -/
def deliverAll (launch : Launch) : List (Addr × Listener) → List Future → (List Future → Option Exc → Prog) → Prog
  | [], callbacks, k => k callbacks none
  | (op, l) :: rest, callbacks, k => .alloc fun empty =>
    let last (document : Future) : Prog := async launch (react l document) document.owned fun
      | .ok f => .free empty (deliverAll launch rest (callbacks ++ [f]) k)
      | .error x => .free empty (k callbacks (some x))
    resolveSet { launch := launch, op := op } [] empty true l.plan fun
      | .ok f => async launch f.get f.owned fun
        | .ok document => last document
        | .error x => .free empty (k callbacks (some x))
      | .error .standard => .choose fun isSchemaException =>
        if isSchemaException then last (.ready (.ok ())) else .free empty (k callbacks (some .standard))
      | .error .other => .free empty (k callbacks (some .other))

/-- The second loop, GraphQLService.cpp:2326-2329. -/
def waitCallbacks : List Future → Comp Unit
  | [], k => k (.ok ())
  | f :: rest, k => f.get fun
    | .ok _ => waitCallbacks rest k
    | .error x => waitAll (ownedBy rest) (k (.error x))

/-- `Request::deliver`, GraphQLService.cpp:2194-2330. -/
def deliver (launch : Launch) (ls : List (Addr × Listener)) : Comp Unit := fun k =>
  deliverAll launch ls [] fun callbacks r =>
    match r with
    | some x => waitAll (ownedBy callbacks) (k (.error x))
    | none => waitCallbacks callbacks k

/-- The subscriptions are there before (GraphQLService.cpp:1981-1999), and end afterwards (2050-2078). -/
def withSubscriptions (c : List (Addr × Listener) → Comp Unit) : List Listener → List (Addr × Listener) → Comp Unit
  | [], subscribed => c subscribed
  | l :: ls, subscribed => fun k => .alloc fun op => withSubscriptions c ls (subscribed ++ [(op, l)]) fun r => .free op (k r)

/-- An event is delivered. -/
def runDeliver (launch : Launch) (ls : List Listener) : Prog := withSubscriptions (deliver launch) ls [] .done

/-- An event is delivered to a callback which keeps the future of the document, and calls `get()` after `unsubscribe`. (Only for
`std::launch::deferred`, and plans without errors.) -/
def runKept (s : SetPlan) : Prog :=
  .alloc fun op => .alloc fun empty => resolveSet { launch := .deferred, op := op } [] empty true s fun
    | .ok f => async .deferred f.get f.owned fun
      | .ok document => .free empty (.free op (document.get .done))
      | .error x => .free empty (.free op (.done (.error x)))
    | .error x => .free empty (.free op (.done (.error x)))

end Verif.Life
