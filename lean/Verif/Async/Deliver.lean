import Verif.Async.Props
import Verif.Subs.Model

/-!
# Subscriptions with launch policies

Models `Request::deliver`, `subscribe` and `unsubscribe` with a `std::launch` (`/repo/src/GraphQLService.cpp:2001-2048`, `2080-2111`,
`2194-2330`), as programs with threads. `Verif.Subs` has the same functions with `std::launch::deferred`.

* The members of `Request` have no locks. So no other call changes the subscriptions while these programs run, in particular no accessor
  and no callback does (callbacks which subscribe again are in `Verif.Subs`, without threads).
* The caller of `subscribe` and `unsubscribe` gets the future at once.
-/
namespace Verif.Async
open Verif.Value Verif.Resp Verif.Errors Verif.Ast Verif.Exec Verif.Request

variable {E O C : Type}

/-- What a callback does with the future of its document, GraphQLService.h:846. -/
inductive Reaction (E : Type) where
  /-- It calls `get()`, after some events, and goes on with what it gets. -/
  | reads (before : List E) (after : Except Exn Resp → Run E Unit)
  /-- It does not call `get()`, for example because it throws. -/
  | drops (run : Run E Unit)

/-- The callback with a future which is deferred, all in one thread. -/
def Reaction.run (document : Run E Resp) : Reaction E → Run E Unit
  | .reads before after => ⟨before ++ document.trace ++ (after document.result).trace, (after document.result).result⟩
  | .drops run => run

/-- The function of a callback, GraphQLService.cpp:2318-2323. The document which it gets is the data of a result. Its destructor waits
for the threads of the future, if `get()` was not called. -/
def callBack (reaction : Reaction E) (document : Future E O) : Comp E O Result :=
  match reaction with
  | .reads before after => fun k =>
    Comp.emits before (document.get fun r => (Comp.user (after (r.map (·.data)))).bind (fun _ => .pure {}) k)
  | .drops run => fun k => Comp.emits run.trace (Comp.waitAll document.owned (k (run.result.map fun _ => {})))

/-- What becomes of the result of `resolve`, GraphQLService.cpp:2285-2316. -/
def documentOf (launch : Launch) : Except Exn (Future E O) → Comp E O (Future E O)
  | .ok operation => async launch (operation.get.bind fun r => .pure { data := document r }) operation.owned
  | .error (.schema errors) => .pure (.ready (.ok { data := errorDocument errors }))
  | .error (.other what) => .throw (.other what)

/-- The future of the document of an event, GraphQLService.cpp:2270-2316. -/
def eventFuture (S : Service E O) (launch : Launch) (o : O) (r : Subs.Registration C) : Comp E O (Future E O) := fun k =>
  resolveObject S.impl launch (visitAll S.impl launch ⟨r.variables, S.atoiOverflow⟩ r.selection) o (rootParams .subscription r.directives)
    fun operation => documentOf launch operation k

/-- The loop over the listeners, GraphQLService.cpp:2225-2324, with the futures in `callbacks`. -/
def deliverKeys (S : Service E O) (launch : Launch) (react : C → Reaction E) (st : Subs.State C) (o : O)
    (applyArguments applyDirectives : Subs.Filter) :
    List Nat → Outcome (List (Future E O) → Comp E O (List (Future E O)))
  | [] => .done .pure
  | key :: keys =>
    match SortedMap.find Subs.keyLess st.subscriptions key with
    | none => .undefined
    | some (_, r) =>
      match Subs.allPass applyArguments r.arguments with
      | none => .done fun callbacks => unwind callbacks (.throw Subs.notAnObject)
      | some false => deliverKeys S launch react st o applyArguments applyDirectives keys
      | some true =>
        match Subs.allPass applyDirectives r.fieldDirectives with
        | none => .done fun callbacks => unwind callbacks (.throw Subs.notAnObject)
        | some false => deliverKeys S launch react st o applyArguments applyDirectives keys
        | some true =>
          match deliverKeys S launch react st o applyArguments applyDirectives keys with
          | .undefined => .undefined
          | .done rest => .done fun callbacks =>
            (unwind callbacks (eventFuture S launch o r)).bind fun document =>
            (async launch (callBack (react r.callback) document) document.owned).bind fun callback =>
            rest (callbacks ++ [callback])

/-- The last loop, GraphQLService.cpp:2326-2329. An exception destroys the other futures. -/
def getAll : List (Future E O) → Comp E O Result
  | [] => .pure {}
  | callback :: callbacks => (unwind callbacks callback.get).bind fun _ => getAll callbacks

/-- `Request::deliver(launch, ...)`, GraphQLService.cpp:2194-2330. -/
def deliver (S : Service E O) (launch : Launch) (react : C → Reaction E) (st : Subs.State C) (name : Str)
    (applyArguments applyDirectives : Subs.Filter) (subscriptionObject : Option O) : Outcome (Proc E O) :=
  match S.operations (str "subscription") with
  | none => .done (.done (.error (.other (str "Subscriptions not supported"))))
  | some object =>
    match subscriptionObject.or object with
    | none => .done (.done (.error (.other (str "Missing subscriptionObject"))))
    | some o =>
      match SortedMap.find Subs.nameLess st.listeners name with
      | none => .done (.done (.ok {}))
      | some (_, keys) =>
        match deliverKeys S launch react st o applyArguments applyDirectives keys with
        | .undefined => .undefined
        | .done start => .done (((start []).bind getAll) .done)

/-- The call of `resolve(...).get()` in `subscribe` and `unsubscribe`, in the function of `std::async`, GraphQLService.cpp:2004-2034,
2082-2106, and `get()` of the caller. -/
def notify (S : Service E O) (launch : Launch) (context : Context) (o : O) (r : Subs.Registration C) : Proc E O :=
  ((async launch (execute S.impl launch ⟨r.variables, S.atoiOverflow⟩ o (rootParams context r.directives) r.selection) []).bind
    fun f => f.get) .done

/-- What is left after the threads of a call of `subscribe` or `unsubscribe`: the program, and what becomes of the subscriptions and is
returned when it has this result. -/
structure Notified (E O C α : Type) where
  program : Proc E O
  finish : Val → Subs.State C × α

/-- `Request::subscribe(std::launch, ...)`, GraphQLService.cpp:2001-2048. The key, or nothing if it throws. -/
def subscribe (S : Service E O) (launch : Launch) (st : Subs.State C) (p : Subs.Params C) : Outcome (Notified E O C (Option Nat)) :=
  match Subs.subscribe S st p with
  | .error .undefined => .undefined
  | .error (.exn e) => .done ⟨.done (.error e), fun _ => (st, none)⟩
  | .ok (st', key) =>
    match S.operations (str "subscription") with
    | none => .done ⟨.done (.ok {}), fun _ => (st', some key)⟩
    | some none => .undefined
    | some (some o) =>
      match SortedMap.at? Subs.keyLess st'.subscriptions key with
      | none => .done ⟨.done (.ok {}), fun _ => (st', none)⟩  -- not reachable: the key was just added
      | some r => .done ⟨notify S launch .notifySubscribe o r, fun
          | .ok _ => (st', some key)
          | .error _ => ((Subs.unsubscribe st' key).getD st', none)⟩

/-- `Request::unsubscribe(std::launch, key)`, GraphQLService.cpp:2080-2111. Whether it succeeds, otherwise it throws. -/
def unsubscribe (S : Service E O) (launch : Launch) (st : Subs.State C) (key : Nat) : Outcome (Notified E O C Bool) :=
  let finish : Subs.State C × Bool :=
    match Subs.unsubscribe st key with
    | none => (st, false)
    | some st' => (st', true)
  match S.operations (str "subscription") with
  | none => .done ⟨.done (.ok {}), fun _ => finish⟩
  | some object =>
    match SortedMap.at? Subs.keyLess st.subscriptions key with
    | none => .done ⟨.done (.error (.other (str "Key not found"))), fun _ => (st, false)⟩
    | some r =>
      match object with
      | none => .undefined
      | some o => .done ⟨notify S launch .notifyUnsubscribe o r, fun
          | .ok _ => finish
          | .error _ => (st, false)⟩

end Verif.Async
