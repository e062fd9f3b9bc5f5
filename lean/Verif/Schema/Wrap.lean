import Verif.SortedMap.Model
import Mathlib.Logic.Function.Basic

/-!
# Model of `Schema::WrapType` with any number of threads

Models `/repo/src/Schema.cpp:64-84` and the members it uses (`/repo/include/graphqlservice/internal/Schema.h:73-78`).

* A `shared_ptr` is the address of its object; `heap` says which addresses are in use. An object which is made and then
  dropped again may have its address used again.
* One step of a thread is one lock operation, one search of the vector, or one half of an update of the vector. Any
  thread may run at any time; a `shared_lock` waits for the writer, a `unique_lock` for the writer and the readers.
* The update of the vector is not atomic: it starts (`make`) and ends (`insert`), and a thread which searches the
  vector, dereferences an iterator or starts an update in between has undefined behaviour (`corrupt`).
* An iterator is a position in the vector.
-/
namespace Verif.Schema.Wrap
open Verif.SortedMap

/-- The address of an object. -/
abbrev Addr := Nat
abbrev Thread := Nat

/-- `introspection::TypeKind`, IntrospectionSchema.h:36-46. -/
inductive Kind where
  | scalar | object | interface | union | enum | inputObject | list | nonNull
deriving DecidableEq, Repr

/-- The parameters of a call, Schema.cpp:64-65. -/
structure Call where
  kind : Kind
  ofType : Addr
deriving DecidableEq, Repr

/-- Where a thread is in `WrapType`. -/
inductive Pc where
  /-- not in a call -/
  | idle
  /-- before line 70 -/
  | called (c : Call)
  /-- has the shared lock, before line 72 -/
  | reading (c : Call)
  /-- has the shared lock, `itr` is the position -/
  | found (c : Call) (itr : Nat)
  /-- has the shared lock, `itr == wrappers.end()`, before line 77 -/
  | missed (c : Call)
  /-- has no lock, before line 78 -/
  | upgrading (c : Call)
  /-- has the unique lock, before line 80 -/
  | writing (c : Call)
  /-- in line 80, with the result of `WrapperType::Make` -/
  | emplacing (c : Call) (made : Addr)
  /-- has the unique lock, `itr` is the position -/
  | emplaced (c : Call) (itr : Nat)
deriving DecidableEq, Repr

/-- A `sorted_map` of wrappers with its `shared_mutex`, Schema.h:73-78. -/
structure Cache where
  map : SMap Addr Addr := []
  /-- an update of the vector has started and not ended -/
  torn : Bool := false
  readers : List Thread := []
  writer : Option Thread := none

/-- What there is at an address: a `WrapperType` (Schema.cpp:396-406), or some other type. -/
inductive Obj where
  | wrapper (kind : Kind) (ofType : Addr)
  | other
deriving DecidableEq, Repr

/-- A call which has returned. -/
structure Done where
  thread : Thread
  call : Call
  result : Addr

structure State where
  /-- `_listWrappers` is `caches true`, `_nonNullWrappers` is `caches false`, with their mutexes -/
  caches : Bool → Cache := fun _ => {}
  heap : Addr → Option Obj := fun _ => none
  pc : Thread → Pc := fun _ => .idle
  /-- all calls made so far -/
  started : List Call := []
  /-- all calls which returned so far -/
  done : List Done := []
  /-- undefined behaviour has happened -/
  corrupt : Bool := false

/-- `std::less<std::shared_ptr<...>>` compares addresses. -/
def addrLess (a b : Addr) : Bool := decide (a < b)

/-- The choice of `wrappers` and `mutex`, Schema.cpp:67-69. -/
def Call.isList (c : Call) : Bool := decide (c.kind = .list)

/-- `wrappers.find(ofType)`, Schema.cpp:72 (SortedMap.h:87-97), as a position; `none` is `end()`. -/
def findItr (m : SMap Addr Addr) (key : Addr) : Option Nat :=
  let r := range addrLess m key
  if r.1 = r.2 then none else some r.1

/-- `wrappers.emplace(...)`, Schema.cpp:80 (SortedMap.h:107-125): the vector, the position, and if it was inserted. -/
def emplaceItr (m : SMap Addr Addr) (key value : Addr) : SMap Addr Addr × Nat × Bool :=
  let r := range addrLess m key
  if r.1 ≠ r.2 then (m, r.1, false) else (vectorInsert m r.2 (key, value), r.2, true)

/-- The address is not in use: there is no object, and no thread has just made one there. -/
def State.Fresh (s : State) (a : Addr) : Prop := s.heap a = none ∧ ∀ t c, s.pc t ≠ .emplacing c a

def State.setPc (s : State) (t : Thread) (pc : Pc) : State := { s with pc := Function.update s.pc t pc }
def State.setCache (s : State) (b : Bool) (c : Cache) : State := { s with caches := Function.update s.caches b c }

/-- The end of a call, Schema.cpp:83: `itr->second` is copied, then the destructors release the lock. -/
def State.finish (s : State) (t : Thread) (c : Call) (cache : Cache) (result : Addr) : State :=
  { (s.setPc t .idle).setCache c.isList cache with done := ⟨t, c, result⟩ :: s.done }

/-- The end of `emplace`: a wrapper which was not inserted is destroyed. -/
def State.insert (s : State) (t : Thread) (c : Call) (made : Addr) : State :=
  let cache := s.caches c.isList
  let r := emplaceItr cache.map c.ofType made
  let s' := (s.setPc t (.emplaced c r.2.1)).setCache c.isList { cache with map := r.1, torn := false }
  if r.2.2 then { s' with heap := Function.update s.heap made (some (.wrapper c.kind c.ofType)) } else s'

/-- One step of thread `t`. -/
inductive Step (t : Thread) (s : State) : State → Prop where
  /-- anything else makes a type -/
  | create (a : Addr) : s.Fresh a → Step t s { s with heap := Function.update s.heap a (some .other) }
  /-- the call, Schema.cpp:64-69 -/
  | call (c : Call) : s.pc t = .idle → s.heap c.ofType ≠ none →
      Step t s { s.setPc t (.called c) with started := c :: s.started }
  /-- `std::shared_lock shared_lock { mutex };`, Schema.cpp:70 -/
  | lockShared (c : Call) : s.pc t = .called c → (s.caches c.isList).writer = none →
      Step t s ((s.setPc t (.reading c)).setCache c.isList
        { s.caches c.isList with readers := t :: (s.caches c.isList).readers })
  /-- `wrappers.find(ofType)`, Schema.cpp:72-74 -/
  | find (c : Call) : s.pc t = .reading c → (s.caches c.isList).torn = false →
      Step t s (match findItr (s.caches c.isList).map c.ofType with
        | some itr => s.setPc t (.found c itr)
        | none => s.setPc t (.missed c))
  /-- the same while another thread changes the vector -/
  | findTorn (c : Call) : s.pc t = .reading c → (s.caches c.isList).torn = true →
      Step t s { s with corrupt := true }
  /-- `return itr->second;`, Schema.cpp:83, with the shared lock -/
  | returnFound (c : Call) (itr : Nat) (e : Addr × Addr) : s.pc t = .found c itr →
      (s.caches c.isList).torn = false → (s.caches c.isList).map[itr]? = some e →
      Step t s (s.finish t c
        { s.caches c.isList with readers := (s.caches c.isList).readers.erase t } e.2)
  /-- the same with an invalid iterator -/
  | returnFoundTorn (c : Call) (itr : Nat) : s.pc t = .found c itr →
      ((s.caches c.isList).torn = true ∨ (s.caches c.isList).map[itr]? = none) →
      Step t s { s with corrupt := true }
  /-- `shared_lock.unlock();`, Schema.cpp:77 -/
  | unlock (c : Call) : s.pc t = .missed c →
      Step t s ((s.setPc t (.upgrading c)).setCache c.isList
        { s.caches c.isList with readers := (s.caches c.isList).readers.erase t })
  /-- `unique_lock.lock();`, Schema.cpp:78 -/
  | lock (c : Call) : s.pc t = .upgrading c → (s.caches c.isList).writer = none → (s.caches c.isList).readers = [] →
      Step t s ((s.setPc t (.writing c)).setCache c.isList { s.caches c.isList with writer := some t })
  /-- `WrapperType::Make(kind, ofType)` and the start of `emplace`, Schema.cpp:80 -/
  | make (c : Call) (a : Addr) : s.pc t = .writing c → s.Fresh a → (s.caches c.isList).torn = false →
      Step t s ((s.setPc t (.emplacing c a)).setCache c.isList { s.caches c.isList with torn := true })
  /-- the same while another thread changes the vector -/
  | makeTorn (c : Call) : s.pc t = .writing c → (s.caches c.isList).torn = true →
      Step t s { s with corrupt := true }
  /-- the end of `emplace`, Schema.cpp:80 -/
  | insert (c : Call) (a : Addr) : s.pc t = .emplacing c a → Step t s (s.insert t c a)
  /-- `return itr->second;`, Schema.cpp:83, with the unique lock -/
  | returnEmplaced (c : Call) (itr : Nat) (e : Addr × Addr) : s.pc t = .emplaced c itr →
      (s.caches c.isList).torn = false → (s.caches c.isList).map[itr]? = some e →
      Step t s (s.finish t c { s.caches c.isList with writer := none } e.2)
  /-- the same with an invalid iterator -/
  | returnEmplacedTorn (c : Call) (itr : Nat) : s.pc t = .emplaced c itr →
      ((s.caches c.isList).torn = true ∨ (s.caches c.isList).map[itr]? = none) →
      Step t s { s with corrupt := true }

/-- The states which any number of threads can reach, in any interleaving, from a new `Schema`. -/
inductive Reachable : State → Prop where
  | init : Reachable {}
  | step {s s' : State} {t : Thread} : Reachable s → Step t s s' → Reachable s'

end Verif.Schema.Wrap
