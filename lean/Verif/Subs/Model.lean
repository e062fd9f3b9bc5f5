import Verif.Request.Model
import Verif.Resp.Eq
import Verif.SortedMap.Model

/-!
# Model of subscriptions

Models `SubscriptionDefinitionVisitor` and `Request::subscribe`, `unsubscribe`, `deliver`
(`/repo/src/GraphQLService.cpp:1391-1611`, `1932-2330`, `/repo/include/graphqlservice/GraphQLService.h:855-966`).

* `_subscriptions` and `_listeners` are `sorted_map`s as in `Verif.SortedMap`.
* A callback is a value of any type `C`; a call of a callback is reported with the document it gets.
* `Request` has no locks, so all calls are one after the other. Callbacks may call `subscribe`, `unsubscribe` and
  `deliver` again (`Verif.Subs.Spec` has the histories); accessors and filters may not (the loop in `deliver` holds
  iterators).
* The key counter does not overflow.
-/
namespace Verif.Subs
open Verif.Value Verif.Resp Verif.Errors Verif.Ast Verif.Exec Verif.Request Verif.SortedMap

/-- `SubscriptionData`, GraphQLService.h:855-871. `none` for `arguments` and `fieldDirectives` is a null value, which is
left there if no root field was visited. `selection` is expanded as in `Verif.Request`. -/
structure Registration (C : Type) where
  field : Str
  arguments : Option Members
  fieldDirectives : Option Members
  variables : Members
  directives : Members
  selection : List XSelection
  callback : C

/-- The mutable members of `Request`, GraphQLService.h:964-966. -/
structure State (C : Type) where
  subscriptions : SMap Nat (Registration C) := []
  listeners : SMap Str (List Nat) := []
  nextKey : Nat := 0

/-- `std::less<SubscriptionKey>` -/
def keyLess (a b : Nat) : Bool := decide (a < b)
/-- `std::less<SubscriptionName>`: bytes, lexicographically. -/
def nameLess (a b : Str) : Bool := decide (a < b)

/-- Why a call fails: an exception, or undefined behaviour. -/
inductive Fail where
  | exn (e : Exn)
  | undefined

/-! ## Visiting the root of the subscription -/

/-- The members `_field`, `_arguments`, `_fieldDirectives`, GraphQLService.cpp:1413-1415. -/
structure Visited where
  field : Str := []
  arguments : Option Members := none
  fieldDirectives : Option Members := none

/-- `SubscriptionDefinitionVisitor::visitField`, GraphQLService.cpp:1487-1536. -/
def visitRootField (env : Env) (f : Field) (v : Visited) : Except Exn Visited :=
  if !v.field.isEmpty then
    .error (.schema [{ message := str "Extra subscription root field name: " ++ f.name, location := f.pos }])
  else
    match evalDirectives env f.directives with
    | .error e => .error e
    | .ok ds =>
      match shouldSkip ds with
      | .error e => .error e
      | .ok true => .ok v
      | .ok false =>
        match evalOptArgs env f.arguments with
        | .error e => .error e
        | .ok args => .ok ⟨f.name, some args, some ds⟩

/-- What the visitor does at a fragment: nothing if it does not apply or is skipped. Otherwise it visits the children of
the selections of the fragment as if they were operations, and moves its members into a registration which it drops at
the next visit: use after free, or a registration without a callback (`Fail.undefined`). -/
def visitRootFragment (applies : Bool) (env : Env) (ds : Option (List Directive)) (v : Visited) : Except Fail Visited :=
  if !applies then .ok v
  else
    match evalDirectives env ds with
    | .error e => .error (.exn e)
    | .ok ds =>
      match shouldSkip ds with
      | .error e => .error (.exn e)
      | .ok true => .ok v
      | .ok false => .error .undefined

/-- The loop of `SubscriptionDefinitionVisitor::visit`, GraphQLService.cpp:1443-1461, with `visitFragmentSpread`
(1538-1577) and `visitInlineFragment` (1579-1611). `types` is `matchesType` of the default subscription object, if there
is one (otherwise a null pointer is dereferenced). -/
def visitRoot (types : Option (Str → Bool)) (env : Env) (fragments : FragmentMap) :
    List Selection → Visited → Except Fail Visited
  | [], v => .ok v
  | .leaf f :: rest, v =>
    match visitRootField env f v with
    | .error e => .error (.exn e)
    | .ok v => visitRoot types env fragments rest v
  | .node f _ _ :: rest, v =>
    match visitRootField env f v with
    | .error e => .error (.exn e)
    | .ok v => visitRoot types env fragments rest v
  | .spread pos name ds :: rest, v =>
    match fragments.find name with
    | none => .error (.exn (.schema [{ message := str "Unknown fragment name: " ++ name, location := pos }]))
    | some fragment =>
      match types with
      | none => .error .undefined
      | some types =>
        match visitRootFragment (types fragment.info.type) env ds v with
        | .error e => .error e
        | .ok v => visitRoot (some types) env fragments rest v
  | .inline _ t ds _ :: rest, v =>
    match evalDirectives env ds with
    | .error e => .error (.exn e)
    | .ok evaluated =>
      match shouldSkip evaluated with
      | .error e => .error (.exn e)
      | .ok true => visitRoot types env fragments rest v
      | .ok false =>
        match t with
        | none => .error .undefined
        | some t =>
          match types with
          | none => .error .undefined
          | some types =>
            if types t then .error .undefined else visitRoot (some types) env fragments rest v

/-- The rest of `SubscriptionDefinitionVisitor::visit`, GraphQLService.cpp:1463-1485. The visitor is called for every
operation of the document (1987-1990), and a second call reuses what was moved into the first registration
(`Fail.undefined`). -/
def register {C : Type} (types : Option (Str → Bool)) (env : Env) (fragments : FragmentMap) (ops : List Operation)
    (callback : C) : Except Fail (Registration C) :=
  match ops with
  | [] => .error .undefined  -- not reachable: there is an operation
  | op :: more =>
    match visitRoot types env fragments op.sub {} with
    | .error e => .error e
    | .ok v =>
      match evalDirectives env op.directives with
      | .error e => .error (.exn e)
      | .ok ds =>
        match more with
        | _ :: _ => .error .undefined
        | [] =>
          match expand fragments op.sub with
          | none => .error .undefined
          | some xs => .ok ⟨v.field, v.arguments, v.fieldDirectives, env.variables, ds, xs, callback⟩

/-! ## Request -/

section
variable {E O C : Type}

/-- `SubscriptionParams` (with the flag `query.validated`) and the callback, GraphQLService.h:819-825. -/
structure Params (C : Type) where
  doc : Document
  validated : Bool := false
  operationName : Str := []
  supplied : Members := []
  callback : C

/-- The first part of `Request::subscribe`, GraphQLService.cpp:1932-1992: what will be registered. -/
def registration (S : Service E O) (p : Params C) : Except Fail (Registration C) :=
  match validate S p.doc p.validated with
  | (e :: es, _) => .error (.exn (.schema (e :: es)))
  | ([], _) =>
    let env : Env := ⟨p.supplied, S.atoiOverflow⟩
    match collectFragments env p.doc.fragments [] with
    | .error e => .error (.exn e)
    | .ok fragments =>
      match findOperation p.operationName p.doc.operations with
      | none => .error (.exn (.message (str "Missing subscription" ++ nameSuffix p.operationName)))
      | some op =>
        if operationType op ≠ str "subscription" then
          .error (.exn (.schema [{
            message := str "Unexpected operation type: " ++ operationType op ++ nameSuffix p.operationName
            location := op.pos }]))
        else
          match S.operations (str "subscription") with
          | none => .error .undefined
          | some object => register (object.map fun o => matchesType S.impl o) env fragments p.doc.operations p.callback

/-- The last part of `Request::subscribe`, GraphQLService.cpp:1993-1998. -/
def add (st : State C) (r : Registration C) : State C × Nat :=
  let key := st.nextKey
  ({ nextKey := key + 1
     listeners := (index nameLess [] st.listeners r.field fun keys => (setEmplace keyLess keys key).1).1
     subscriptions := (emplace keyLess st.subscriptions key r).1 }, key)

/-- `Request::subscribe`, GraphQLService.cpp:1932-1999. -/
def subscribe (S : Service E O) (st : State C) (p : Params C) : Except Fail (State C × Nat) :=
  match registration S p with
  | .error e => .error e
  | .ok r => .ok (add st r)

/-- `_subscriptions.empty() ? 0 : _subscriptions.rbegin()->first + 1`, GraphQLService.cpp:2070-2077. -/
def nextKeyOf (m : SMap Nat (Registration C)) : Nat :=
  match m.getLast? with
  | none => 0
  | some e => e.1 + 1

/-- `Request::unsubscribe(SubscriptionKey)`, GraphQLService.cpp:2050-2078. `none` if `_listeners.at` throws. -/
def unsubscribe (st : State C) (key : Nat) : Option (State C) :=
  match find keyLess st.subscriptions key with
  | none => some st
  | some (_, r) =>
    match at? nameLess st.listeners r.field with
    | none => none
    | some keys =>
      let keys' := setErase keyLess keys key
      let updated := (index nameLess [] st.listeners r.field fun _ => keys').1
      let listeners := if keys'.isEmpty then erase nameLess updated r.field else updated
      let subscriptions := erase keyLess st.subscriptions key
      some { subscriptions := subscriptions, listeners := listeners, nextKey := nextKeyOf subscriptions }

/-- The call of `resolve(...).get()` which tells the subscription object about a new or ending subscription,
GraphQLService.cpp:2013-2034, 2087-2106. -/
def notify (S : Service E O) (context : Context) (o : O) (r : Registration C) : Fut E :=
  execute S.impl ⟨r.variables, S.atoiOverflow⟩ o (rootParams context r.directives) r.selection

/-- `Request::subscribe(std::launch, ...)`, GraphQLService.cpp:2001-2048: the events, the new state, and the key or the
exception. A null subscription object is dereferenced. (`throw ex` copies the exception as a `std::exception`, which loses
its type and text: which exception is thrown is not modelled.) -/
def subscribeAsync (S : Service E O) (st : State C) (p : Params C) : Outcome (List E × State C × Option Nat) :=
  match subscribe S st p with
  | .error .undefined => .undefined
  | .error (.exn _) => .done ([], st, none)
  | .ok (st', key) =>
    match S.operations (str "subscription") with
    | none => .done ([], st', some key)
    | some none => .undefined
    | some (some o) =>
      match at? keyLess st'.subscriptions key with
      | none => .done ([], st', none)  -- not reachable: the key was just added
      | some r =>
        let run := notify S .notifySubscribe o r
        match run.result with
        | .ok _ => .done (run.trace, st', some key)
        | .error _ =>
          match unsubscribe st' key with
          | none => .done (run.trace, st', none)  -- not reachable, C27
          | some st'' => .done (run.trace, st'', none)

/-- `Request::unsubscribe(std::launch, key)`, GraphQLService.cpp:2080-2111: the events, the new state, and whether the
call succeeds (otherwise it throws). -/
def unsubscribeAsync (S : Service E O) (st : State C) (key : Nat) : Outcome (List E × State C × Bool) :=
  let finish (trace : List E) : Outcome (List E × State C × Bool) :=
    match unsubscribe st key with
    | none => .done (trace, st, false)
    | some st' => .done (trace, st', true)
  match S.operations (str "subscription") with
  | none => finish []
  | some object =>
    match at? keyLess st.subscriptions key with
    | none => .done ([], st, false)
    | some r =>
      match object with
      | none => .undefined
      | some o =>
        let run := notify S .notifyUnsubscribe o r
        match run.result with
        | .ok _ => finish run.trace
        | .error _ => .done (run.trace, st, false)

/-! ## deliver -/

/-- `SubscriptionFilterCallback`, GraphQLService.h:848; it does not throw. -/
abbrev Filter := Str × Resp → Bool

/-- The loops over the arguments and directives, GraphQLService.cpp:2232-2268: `none` if the value is not an object
(`Value::begin` throws). -/
def allPass (filter : Filter) : Option Members → Option Bool
  | none => none
  | some ms => some (ms.all filter)

/-- A call of a callback, with the future of the document it gets. -/
structure Call (E C : Type) where
  callback : C
  document : Run E Resp

/-- The document of an event, GraphQLService.cpp:2270-2316: `resolve` runs at once, the rest when the callback asks for it. -/
def eventDocument (S : Service E O) (o : O) (r : Registration C) : Run E (Run E Resp) :=
  let started := resolveObject S.impl (visitAll S.impl ⟨r.variables, S.atoiOverflow⟩ r.selection) o
    (rootParams .subscription r.directives)
  match started.result with
  | .ok f => ⟨started.trace, .ok (f.bind fun result => .pure (document result))⟩
  | .error (.schema errors) => ⟨started.trace, .ok (.pure (errorDocument errors))⟩
  | .error (.other what) => ⟨started.trace, .error (.other what)⟩

/-- The exception of `Value::begin`, GraphQLResponse.cpp:646-654. -/
def notAnObject : Exn := .other (str "Invalid call to Value::begin for MapType")

/-- The loop over the listeners, GraphQLService.cpp:2225-2324: the calls of callbacks, in order. -/
def deliverKeys (S : Service E O) (st : State C) (o : O) (applyArguments applyDirectives : Filter) :
    List Nat → Outcome (Run E (List (Call E C)))
  | [] => .done (.pure [])
  | key :: keys =>
    match find keyLess st.subscriptions key with
    | none => .undefined
    | some (_, r) =>
      match allPass applyArguments r.arguments with
      | none => .done (.throw notAnObject)
      | some false => deliverKeys S st o applyArguments applyDirectives keys
      | some true =>
        match allPass applyDirectives r.fieldDirectives with
        | none => .done (.throw notAnObject)
        | some false => deliverKeys S st o applyArguments applyDirectives keys
        | some true =>
          match deliverKeys S st o applyArguments applyDirectives keys with
          | .undefined => .undefined
          | .done rest => .done ((eventDocument S o r).bind fun doc => rest.bind fun calls => .pure (⟨r.callback, doc⟩ :: calls))

/-- `Request::deliver`, GraphQLService.cpp:2194-2330: the calls which it makes afterwards, in order (each with `get()`, so
that an exception of a callback leaves out the following ones). -/
def deliver (S : Service E O) (st : State C) (name : Str) (applyArguments applyDirectives : Filter)
    (subscriptionObject : Option O) : Outcome (Run E (List (Call E C))) :=
  match S.operations (str "subscription") with
  | none => .done (.throw (.other (str "Subscriptions not supported")))
  | some object =>
    match subscriptionObject.or object with
    | none => .done (.throw (.other (str "Missing subscriptionObject")))
    | some o =>
      match find nameLess st.listeners name with
      | none => .done (.pure [])
      | some (_, keys) => deliverKeys S st o applyArguments applyDirectives keys

/-- `argumentsMatch` and `directivesMatch`, GraphQLService.cpp:2163-2175: `given` is a `std::map`. -/
def literalFilter (given : List (Str × Resp)) : Filter := fun required =>
  match given.find? fun e => e.1 == required.1 with
  | none => false
  | some e => Resp.eq e.2 required.2

/-- `Request::deliver(name, arguments, directives, object)`, GraphQLService.cpp:2159-2178; the other overloads with maps
pass empty ones (2147-2157). -/
def deliverLiteral (S : Service E O) (st : State C) (name : Str) (arguments directives : List (Str × Resp))
    (subscriptionObject : Option O) : Outcome (Run E (List (Call E C))) :=
  deliver S st name (literalFilter arguments) (literalFilter directives) subscriptionObject

/-- `Request::deliver(name, applyArguments, object)`, GraphQLService.cpp:2180-2192: all directives pass. -/
def deliverFiltered (S : Service E O) (st : State C) (name : Str) (applyArguments : Filter)
    (subscriptionObject : Option O) : Outcome (Run E (List (Call E C))) :=
  deliver S st name applyArguments (fun _ => true) subscriptionObject

end

end Verif.Subs
