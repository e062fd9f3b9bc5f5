import Verif.Request.Model

/-!
# Model of execution with `std::launch::async`

`Verif.Exec` and `Verif.Request` model execution with `std::launch::deferred`, where a future is a computation which `get()` runs. This
is the model of the same functions for all launch policies: `std::async` may start a thread, `get()` may wait for one, and the
destructor of a future waits for the thread it belongs to.

* A thread is a program (`Proc`): what it still has to do, with continuations for what it waits for. All threads compute a
  `ResolverResult` (the document of `Request::resolve` is the data of one).
* A function which may start threads, wait and throw is written in continuation passing style (`Comp`).
* The user's code is as in `Verif.Exec`: each call has its events and its outcome, which depend on nothing but the parameters of the
  call. So services are covered whose answers do not depend on the order of the calls. Each event is a step of its own.
* Not modelled: `std::async` throws no `std::system_error` (no thread can be started); exceptions of `std::bad_alloc`.
-/
namespace Verif.Async
open Verif.Value Verif.Resp Verif.Errors Verif.Ast Verif.Exec

/-- What a thread still has to do. -/
inductive Proc (E O : Type) where
  /-- The thread has ended: its future is ready. -/
  | done (r : Except Exn Result)
  /-- User code runs. -/
  | emit (e : E) (next : Proc E O)
  /-- `std::unique_lock resolverLock(_resolverMutex)` of the object. -/
  | enter (o : O) (next : Proc E O)
  /-- `resolverLock.unlock()`, or its destructor. -/
  | leave (o : O) (next : Proc E O)
  /-- `std::async` starts a thread, which gets the next number. -/
  | fork (child : Proc E O) (next : Nat → Proc E O)
  /-- `get()` waits for a thread. -/
  | join (i : Nat) (next : Except Exn Result → Proc E O)
  /-- The C++ library chooses. -/
  | choose (next : Bool → Proc E O)

/-- A computation, as a function of what is done with its result or exception. -/
abbrev Comp (E O α : Type) := (Except Exn α → Proc E O) → Proc E O

/-- `std::launch`: `either` is `async | deferred`. -/
inductive Launch where
  | deferred | async | either
deriving DecidableEq

/-- `std::future<ResolverResult>`: a deferred function (also a future which is ready), with the numbers of the threads whose futures are
stored in it, or the number of a thread. -/
inductive Future (E O : Type) where
  | deferred (run : Comp E O Result) (owned : List Nat)
  | thread (i : Nat)

section
variable {E O α β : Type}

/-! ## Computations -/

namespace Comp

/-- `return` -/
def pure (a : α) : Comp E O α := fun k => k (.ok a)
/-- `throw` -/
def throw (e : Exn) : Comp E O α := fun k => k (.error e)
/-- A result computed without events. -/
def lift (r : Except Exn α) : Comp E O α := fun k => k r
/-- Sequence; an exception skips the rest. -/
def bind (c : Comp E O α) (f : α → Comp E O β) : Comp E O β := fun k =>
  c fun
    | .ok a => f a k
    | .error e => k (.error e)
/-- `try { c } catch` -/
def handle (c : Comp E O α) (h : Exn → α) : Comp E O α := fun k =>
  c fun
    | .ok a => k (.ok a)
    | .error e => k (.ok (h e))
/-- The events of user code. -/
def emits : List E → Proc E O → Proc E O
  | [], p => p
  | e :: es, p => .emit e (emits es p)
/-- A call of user code. -/
def user (r : Run E α) : Comp E O α := fun k => emits r.trace (k r.result)
/-- A call of an accessor of an object, while the generated resolver holds its lock, SchemaGenerator.cpp:1532-1555. -/
def locked (o : O) (r : Run E α) : Comp E O α := fun k => .enter o (emits r.trace (.leave o (k r.result)))
/-- Waiting for threads, whatever their results. -/
def waitAll : List Nat → Proc E O → Proc E O
  | [], p => p
  | i :: is, p => .join i fun _ => waitAll is p

end Comp

namespace Future

/-- `std::promise` with a value or an exception. -/
def ready (r : Except Exn Result) : Future E O := .deferred (fun k => k r) []

/-- `get()` -/
def get : Future E O → Comp E O Result
  | .deferred run _ => run
  | .thread i => .join i

/-- The threads for which the destructor waits. (A deferred function is destroyed without running.) -/
def owned : Future E O → List Nat
  | .deferred _ owned => owned
  | .thread i => [i]

end Future

/-- The threads for which the destructors of futures wait. -/
def ownedBy (fs : List (Future E O)) : List Nat := fs.flatMap Future.owned

/-- An exception of `c` destroys these futures. -/
def unwind (fs : List (Future E O)) (c : Comp E O α) : Comp E O α := fun k =>
  c fun
    | .ok a => k (.ok a)
    | .error e => Comp.waitAll (ownedBy fs) (k (.error e))

/-- `std::async(launch, ...)`; the function owns futures of these threads. -/
def async (launch : Launch) (c : Comp E O Result) (owned : List Nat) : Comp E O (Future E O) := fun k =>
  match launch with
  | .deferred => k (.ok (.deferred c owned))
  | .async => .fork (c .done) fun i => k (.ok (.thread i))
  | .either => .choose fun b =>
      if b then .fork (c .done) fun i => k (.ok (.thread i))
      else k (.ok (.deferred c owned))

/-- `FieldResult::get`, GraphQLService.h:206-214. -/
def getResult (r : FieldResult E O) : Comp E O (Out O) := .user r.get

/-! ## Object::resolve -/

/-- `SelectionVisitor`'s members `_names` and `_values`, GraphQLService.cpp:786-787. -/
structure St (E O : Type) where
  names : List Str
  values : List (Str × Future E O)

/-- The futures in `_values`. -/
def St.futures (st : St E O) : List (Future E O) := st.values.map (·.2)

/-- Visiting a selection set of an object within some parameters. An exception destroys the visitor. -/
abbrev SetVisitor (E O : Type) := O → SetParams → St E O → Comp E O (St E O)

/-- `ResolverParams`, GraphQLService.h:251-271, with the launch policy. -/
structure ResolverParams (E O : Type) where
  set : SetParams
  pos : Loc
  fieldName : Str
  selection : Option (Loc × SetVisitor E O)

/-- The function of `Object::resolve`, GraphQLService.cpp:1145-1197: it gets the children one after the other. -/
def collectFields : List (Str × Future E O) → Members → List SchemaError → Comp E O Result
  | [], ms, errors => .pure { data := .map ms, errors := errors }
  | (name, child) :: rest, ms, errors => fun k =>
    child.get fun r =>
      let next := Exec.collectField ms errors name r
      collectFields rest next.1 next.2 k

/-- `Object::resolve`, GraphQLService.cpp:1123-1199. -/
def resolveObject (I : Impl E O) (launch : Launch) (visit : SetVisitor E O) (o : O) (params : SetParams) : Comp E O (Future E O) :=
  (Comp.user (I.beginSet o params)).bind fun _ =>
  (visit o { params with fragmentDirectives := {} } { names := [], values := [] }).bind fun st =>
  (unwind st.futures (.user (I.endSet o params))).bind fun _ =>
  async launch (collectFields st.values [] []) (ownedBy st.futures)

/-! ## ModifiedResult -/

/-- `blockSubFields`, GraphQLService.cpp:598-612. -/
def blockSubFields (params : ResolverParams E O) : Comp E O Unit :=
  match params.selection with
  | none => .pure ()
  | some (pos, _) => .throw (.schema [{
      message := str "Field may not have sub-fields name: " ++ params.fieldName
      location := pos
      path := buildErrorPath params.set.errorPath }])

/-- The error of `requireSubFields`, GraphQLService.cpp:692-706. -/
def missingSubFields (params : ResolverParams E O) : Exn :=
  .schema [{
    message := str "Field must have sub-fields name: " ++ params.fieldName
    location := params.pos
    path := buildErrorPath params.set.errorPath }]

/-- `buildResult` in `ModifiedResult::resolve`, GraphQLService.h:728-759. -/
def leafResult (params : ResolverParams E O) : Except Exn (Out O) → Result
  | .ok (.leaf v) => { data := v }
  | .ok _ => {}  -- not possible: the value has the static type
  | .error (.schema errors) => { errors := errors }
  | .error (.other what) => { errors := [{
      message := str "Field name: " ++ params.fieldName ++ str " unknown error: " ++ what
      location := params.pos
      path := buildErrorPath params.set.errorPath }] }

/-- `ModifiedResult::resolve`, GraphQLService.h:722-775: a future is deferred whatever the policy, 761-768. -/
def resolveLeaf (params : ResolverParams E O) : FieldResult E O → Comp E O (Future E O)
  | .value x => .pure (.ready (.ok (leafResult params (.ok x))))
  | .future later outcome => .pure (.deferred (fun k => Comp.emits later (k (.ok (leafResult params outcome)))) [])

/-- `ModifiedResult<T>::convert` of a leaf, GraphQLService.cpp:614-690. -/
def convertLeaf (params : ResolverParams E O) (r : FieldResult E O) : Comp E O (Future E O) :=
  (blockSubFields params).bind fun _ => resolveLeaf params r

/-- `buildResult` in `ModifiedResult<Object>::convert`, GraphQLService.cpp:714-729. -/
def objectResult (I : Impl E O) (launch : Launch) (params : ResolverParams E O) (visit : SetVisitor E O) (r : FieldResult E O) :
    Comp E O Result :=
  (getResult r).bind fun x =>
    match x with
    | .object (some o) => (resolveObject I launch visit o params.set).bind fun f => f.get
    | _ => .pure {}

/-- `ModifiedResult<Object>::convert`, GraphQLService.cpp:708-744: `std::async(params.launch, ...)` at 733. -/
def convertObject (I : Impl E O) (launch : Launch) (direct : Bool) (params : ResolverParams E O) (r : FieldResult E O) :
    Comp E O (Future E O) :=
  match params.selection with
  | none => .throw (missingSubFields params)
  | some (_, visit) =>
    if direct && !r.isFuture then
      (objectResult I launch params visit r).bind fun result => .pure (.ready (.ok result))
    else async launch (objectResult I launch params visit r) []

/-- `ResolverParams(wrappedParams)` with the index of a list element, GraphQLService.h:641-643, 655-657. -/
def ResolverParams.atIndex (params : ResolverParams E O) (i : Nat) : ResolverParams E O :=
  { params with set := { params.set with errorPath := some (.extend params.set.errorPath (.index i)) } }

/-- The first loop over the elements, GraphQLService.h:650-667. -/
def convertElements (convert : ResolverParams E O → FieldResult E O → Comp E O (Future E O)) (params : ResolverParams E O) :
    Nat → List (Out O) → List (Future E O) → Comp E O (List (Future E O))
  | _, [], children => .pure children
  | i, x :: xs, children =>
    (unwind children (convert (params.atIndex i) (.value x))).bind fun child =>
    convertElements convert params (i + 1) xs (children ++ [child])

/-- The second loop, GraphQLService.h:675-710. -/
def collectElements (params : ResolverParams E O) :
    Nat → List (Future E O) → List Resp → List SchemaError → Comp E O Result
  | _, [], data, errors => .pure { data := .list data, errors := errors }
  | i, child :: rest, data, errors => fun k =>
    child.get fun r =>
      let next : List Resp × List SchemaError :=
        match r with
        | .ok value => (data ++ [value.data], errors ++ value.errors)
        | .error (.schema es) => (data, errors ++ es)
        | .error (.other what) => (data, errors ++ [{
            message := str "Field error name: " ++ params.fieldName ++ str " unknown error: " ++ what
            location := params.pos
            path := buildErrorPath (params.atIndex i).set.errorPath }])
      collectElements params (i + 1) rest next.1 next.2 k

/-- `ModifiedResult<T>::convert<Modifiers...>`, GraphQLService.h:531-716: `std::launch::deferred` for nullable results, 571-573 and
605-607, `params.launch` for lists, 633-635. -/
def convert (I : Impl E O) (launch : Launch) : OutType → ResolverParams E O → FieldResult E O → Comp E O (Future E O)
  | .leaf, params, r => convertLeaf params r
  | .enum, params, r => resolveLeaf params r
  | .object direct, params, r => convertObject I launch direct params r
  | .nullable t, params, r =>
    async .deferred ((getResult r).bind fun x =>
      match x with
      | .present y => (convert I launch t params (.future [] (.ok y))).bind fun f => f.get
      | _ => .pure {}) []
  | .list t, params, r =>
    async launch ((getResult r).bind fun x =>
      (convertElements (convert I launch t) params 0 x.elements []).bind fun children =>
        collectElements params 0 children [] []) []

/-! ## SelectionVisitor -/

/-- `SelectionVisitor::visitField`, GraphQLService.cpp:836-974. The generated resolver calls the accessor while it holds the lock, and
converts the result without it, SchemaGenerator.cpp:1532-1555. -/
def visitField (I : Impl E O) (launch : Launch) (env : Env) (f : Field) (sub : Option (Loc × SetVisitor E O)) (o : O)
    (params : SetParams) (st : St E O) : Comp E O (St E O) :=
  let alias := responseName f
  if st.names.contains alias then .pure st
  else
    let st := { st with names := alias :: st.names }
    match I.resolver o f.name with
    | none =>
      .pure { st with values := st.values ++ [(alias, .ready (.error (.schema [{
        message := str "Unknown field name: " ++ f.name
        location := f.pos
        path := buildErrorPath params.errorPath }])))] }
    | some resolver =>
      (unwind st.futures (.lift (evalDirectives env f.directives))).bind fun directives =>
      (unwind st.futures (.lift (shouldSkip directives))).bind fun skip =>
      if skip then .pure st
      else
        (unwind st.futures (.lift (evalOptArgs env f.arguments))).bind fun arguments =>
        let set : SetParams := { params with errorPath := some (.extend params.errorPath (.name alias)) }
        let resolve : Comp E O (Future E O) :=
          (Comp.locked o (resolver.access { set := set, fieldDirectives := directives, arguments := arguments })).bind fun r =>
            convert I launch resolver.type { set := set, pos := f.pos, fieldName := alias, selection := sub } r
        (resolve.handle fun e => .ready (.error (fieldException f.pos alias (buildErrorPath set.errorPath) e))).bind fun future =>
        .pure { st with values := st.values ++ [(alias, future)] }

mutual
/-- `SelectionVisitor::visit`, GraphQLService.cpp:820-834, 976-1115. -/
def visit (I : Impl E O) (launch : Launch) (env : Env) : XSelection → SetVisitor E O
  | .leaf f, o, params, st => visitField I launch env f none o params st
  | .node f pos sub, o, params, st => visitField I launch env f (some (pos, visitAll I launch env sub)) o params st
  | .unknownSpread pos name, _, params, st =>
    unwind st.futures (.throw (.schema [{
      message := str "Unknown fragment name: " ++ name
      location := pos
      path := buildErrorPath params.errorPath }]))
  | .spread fragment directives sub, o, params, st =>
    if !matchesType I o fragment.type then .pure st
    else
      (unwind st.futures (.lift (evalDirectives env directives))).bind fun ds =>
      (unwind st.futures (.lift (shouldSkip ds))).bind fun skip =>
      if skip then .pure st
      else
        visitAll I launch env sub o { params with fragmentDirectives := {
          definition := mergeOuter fragment.directives params.fragmentDirectives.definition
          spread := mergeOuter ds params.fragmentDirectives.spread
          inline := params.fragmentDirectives.inline } } st
  | .inline typeCondition directives sub, o, params, st =>
    (unwind st.futures (.lift (evalDirectives env directives))).bind fun ds =>
    (unwind st.futures (.lift (shouldSkip ds))).bind fun skip =>
    if skip then .pure st
    else if typeCondition.all (matchesType I o) then
      visitAll I launch env sub o { params with fragmentDirectives := {
        definition := params.fragmentDirectives.definition
        spread := params.fragmentDirectives.spread
        inline := mergeOuter ds params.fragmentDirectives.inline } } st
    else .pure st
/-- The loops over the children of a selection set, GraphQLService.cpp:1047-1050, 1107-1110, 1136-1139. -/
def visitAll (I : Impl E O) (launch : Launch) (env : Env) : List XSelection → SetVisitor E O
  | [], _, _, st => .pure st
  | s :: rest, o, params, st =>
    (visit I launch env s o params st).bind fun st => visitAll I launch env rest o params st
end

/-- `resolve(...)` followed by `get()`, GraphQLService.cpp:1384-1386. -/
def execute (I : Impl E O) (launch : Launch) (env : Env) (o : O) (params : SetParams) (sub : List XSelection) : Comp E O Result :=
  (resolveObject I launch (visitAll I launch env sub) o params).bind fun f => f.get

/-! ## Request::resolve -/

open Verif.Request

/-- The policy of the operation, GraphQLService.cpp:1735-1736: mutations are not parallel. -/
def operationLaunch (launch : Launch) (op : Operation) : Launch :=
  if operationType op = str "mutation" then .deferred else launch

/-- The end of `Request::resolve`, GraphQLService.cpp:1738-1763 with 1363-1388, and `get()` of the caller. The document is the data of
the result here. -/
def runOperation (I : Impl E O) (launch : Launch) (env : Env) (root : O) (ready : Ready) (xs : List XSelection) : Comp E O Result :=
  (async (operationLaunch launch ready.op)
    (execute I (operationLaunch launch ready.op) env root (rootParams (contextOf ready.op) ready.directives) xs) []).bind
    fun operation =>
  (async launch (operation.get.bind fun r => .pure { data := document r }) operation.owned).bind fun f => f.get

/-- `Request::resolve(launch, ...)`, GraphQLService.cpp:1686-1776, and `get()` of the caller. -/
def resolve (S : Service E O) (launch : Launch) (validated : Bool) (doc : Document) (name : Str) (supplied : Members) :
    Outcome (Proc E O) :=
  match prepare S validated doc name supplied with
  | .error (.schema errors) => .done (.done (.ok { data := errorDocument errors }))
  | .error (.other what) => .done (.done (.error (.other what)))
  | .ok ready =>
    match S.operations (operationType ready.op) with
    | none => .undefined
    | some none => .undefined
    | some (some root) =>
      match expand ready.fragments ready.op.sub with
      | none => .undefined
      | some xs => .done (runOperation S.impl launch ⟨ready.variables, S.atoiOverflow⟩ root ready xs .done)

end

end Verif.Async
