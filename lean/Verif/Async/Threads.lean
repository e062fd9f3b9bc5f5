import Verif.Async.Model

/-!
# Threads

What any scheduler may do with a program: the steps of the threads, in any order. The semantics of C++ threads, `std::mutex` and
`std::future` which is assumed.
-/
namespace Verif.Async
open Verif.Errors Verif.Exec

variable {E O : Type}

/-- All the threads, in the order in which they were started (number 0 is the caller), and which objects are locked by which thread. -/
structure Config (E O : Type) where
  threads : List (Proc E O)
  locks : List (O × Nat) := []

/-- A program before it starts. -/
def start (p : Proc E O) : Config E O := { threads := [p] }

/-- One step of one thread, with the thread and the event if it is one of the user's code. -/
inductive Step : Config E O → Option (Nat × E) → Config E O → Prop where
  | emit {ts ls i e k} (h : ts[i]? = some (.emit e k)) : Step ⟨ts, ls⟩ (some (i, e)) ⟨ts.set i k, ls⟩
  /-- A lock waits until no thread has it. -/
  | enter {ts ls i o k} (h : ts[i]? = some (.enter o k)) (free : ∀ j, (o, j) ∉ ls) :
      Step ⟨ts, ls⟩ none ⟨ts.set i k, (o, i) :: ls⟩
  | leave {ts ls ls' i o k} (h : ts[i]? = some (.leave o k)) (held : ls.Perm ((o, i) :: ls')) :
      Step ⟨ts, ls⟩ none ⟨ts.set i k, ls'⟩
  | fork {ts ls i c k} (h : ts[i]? = some (.fork c k)) : Step ⟨ts, ls⟩ none ⟨ts.set i (k ts.length) ++ [c], ls⟩
  /-- `get()` waits until the thread has ended. -/
  | join {ts ls i j k r} (h : ts[i]? = some (.join j k)) (ended : ts[j]? = some (.done r)) :
      Step ⟨ts, ls⟩ none ⟨ts.set i (k r), ls⟩
  | choose {ts ls i k} (h : ts[i]? = some (.choose k)) (b : Bool) : Step ⟨ts, ls⟩ none ⟨ts.set i (k b), ls⟩

/-- Executions, with the events of user code in their order, and the threads in which they happen. -/
inductive Steps : Config E O → List (Nat × E) → Config E O → Prop where
  | refl (c) : Steps c [] c
  | step {c d e t l} (h : Steps c t d) (s : Step d l e) : Steps c (t ++ l.toList) e

/-- No thread can do anything. -/
def Stopped (c : Config E O) : Prop := ∀ l d, ¬ Step c l d

/-- All threads have ended. -/
def Ended (c : Config E O) : Prop := ∀ p ∈ c.threads, ∃ r, p = .done r

end Verif.Async
