import Verif.Life.Functions

/-!
# C70: Lifetimes of what execution borrows

Threads do their steps in any order; the C++ library chooses for `async | deferred`; user code is any plan.
-/
namespace Verif.Life

/-- Whatever `p` uses for this purpose, in any state which can come about, is alive. -/
def Alive (p : Prog) (u : Use) : Prop :=
  ∀ σ, Reachable p σ → ∀ (i : Nat) as next, σ.threads[i]? = some (.use u as next) → ∀ a ∈ as, σ.live a

/-- Whatever `p` destroys is alive (nothing is destroyed twice). -/
def DestroysOnce (p : Prog) : Prop :=
  ∀ σ, Reachable p σ → ∀ (i : Nat) a next, σ.threads[i]? = some (.free a next) → σ.live a

/-- When the first thread has ended, all others have ended, and nothing is alive. -/
def LeavesNothing (p : Prog) : Prop :=
  ∀ σ, Reachable p σ → (∃ r, σ.threads[0]? = some (.done r)) →
    (∀ (i : Nat) q, σ.threads[i]? = some q → ∃ r, q = .done r) ∧ ∀ a, ¬σ.live a

theorem SafeIn.alive {strict : Bool} {p : Prog} (h : SafeIn strict ∅ ∅ [] p) {u : Use} (hu : Granted strict u) : Alive p u :=
  fun _ hr _ _ _ hi => Safe.uses h hr hi hu

theorem SafeIn.once {strict : Bool} {p : Prog} (h : SafeIn strict ∅ ∅ [] p) : DestroysOnce p := fun _ hr _ _ _ hi => Safe.frees h hr hi

theorem SafeIn.nothing {strict : Bool} {p : Prog} (h : SafeIn strict ∅ ∅ [] p) : LeavesNothing p := fun _ hr ⟨_, h0⟩ => Safe.ends h hr h0

/-- The state and the directives of the operation are alive while an accessor, one of the callbacks of a selection set, or a future which an
accessor has returned, runs: in all schedules, for all launch policies, whatever is thrown. -/
theorem C70_operation (launch : Launch) (s : SetPlan) :
    Alive (runRequest launch s) .accessorOperation ∧ Alive (runRequest launch s) .callbackOperation ∧
    Alive (runRequest launch s) .futureOperation := by
  have h : SafeIn false ∅ ∅ [] (runRequest launch s) := safe_runRequest launch s (by simp)
  exact ⟨h.alive trivial, h.alive trivial, h.alive trivial⟩

/-- The directives of the fragments are alive while an accessor runs, and while the callbacks of a selection set run if the object is
the root or is resolved while its field is visited. -/
theorem C70_fragments (launch : Launch) (s : SetPlan) :
    Alive (runRequest launch s) .accessorFragments ∧ Alive (runRequest launch s) (.callbackFragments true) := by
  have h : SafeIn false ∅ ∅ [] (runRequest launch s) := safe_runRequest launch s (by simp)
  exact ⟨h.alive trivial, h.alive rfl⟩

/-- If all exceptions are derived from `std::exception`, the error paths and all their parents are alive while accessors and callbacks
run, and whenever the path of an error is built. -/
theorem C70_paths (launch : Launch) (s : SetPlan) (hs : s.Standard) :
    Alive (runRequest launch s) .accessorPath ∧ Alive (runRequest launch s) .callbackPath ∧ Alive (runRequest launch s) .errorPath := by
  have h : SafeIn true ∅ ∅ [] (runRequest launch s) := safe_runRequest launch s fun _ => hs
  exact ⟨h.alive rfl, h.alive rfl, h.alive rfl⟩

/-- Nothing is destroyed twice; and when `get()` has returned or thrown, all threads of the request have ended, and everything which
was created for it has been destroyed. -/
theorem C70_nothing_left (launch : Launch) (s : SetPlan) : DestroysOnce (runRequest launch s) ∧ LeavesNothing (runRequest launch s) := by
  have h : SafeIn false ∅ ∅ [] (runRequest launch s) := safe_runRequest launch s (by simp)
  exact ⟨h.once, h.nothing⟩

/-- All this is also true when events are delivered, if the callbacks call `get()` for the document, or destroy it, and the subscriptions
stay until `deliver` has returned. -/
theorem C70_deliver (launch : Launch) (ls : List Listener) :
    (Alive (runDeliver launch ls) .accessorOperation ∧ Alive (runDeliver launch ls) .callbackOperation ∧
      Alive (runDeliver launch ls) .futureOperation) ∧
    (Alive (runDeliver launch ls) .accessorFragments ∧ Alive (runDeliver launch ls) (.callbackFragments true)) ∧
    DestroysOnce (runDeliver launch ls) ∧ LeavesNothing (runDeliver launch ls) := by
  have h : SafeIn false ∅ ∅ [] (runDeliver launch ls) := safe_runDeliver launch ls (by simp)
  exact ⟨⟨h.alive trivial, h.alive trivial, h.alive trivial⟩, ⟨h.alive trivial, h.alive rfl⟩, h.once, h.nothing⟩

/-- The same for the paths. -/
theorem C70_deliver_paths (launch : Launch) (ls : List Listener) (hs : ∀ l ∈ ls, l.Standard) :
    Alive (runDeliver launch ls) .accessorPath ∧ Alive (runDeliver launch ls) .callbackPath ∧ Alive (runDeliver launch ls) .errorPath := by
  have h : SafeIn true ∅ ∅ [] (runDeliver launch ls) := safe_runDeliver launch ls fun _ => hs
  exact ⟨h.alive rfl, h.alive rfl, h.alive rfl⟩

end Verif.Life
