import Verif.Life.Claims

/-!
# Examples for C70, and what is not guaranteed

`Machine` runs a program for a given schedule; what it reaches is reachable.
-/
namespace Verif.Life

/-- A state whose objects are a list. -/
structure Machine where
  threads : List Prog
  fresh : Addr
  objects : List Addr

def Machine.state (m : Machine) : State := { threads := m.threads, fresh := m.fresh, live := (· ∈ m.objects) }

/-- Thread `i` does something; `b` is what the library chooses. -/
def Machine.step (m : Machine) (i : Nat) (b : Bool) : Machine :=
  match m.threads[i]? with
  | some (.alloc next) => { threads := m.threads.set i (next m.fresh), fresh := m.fresh + 1, objects := m.objects ++ [m.fresh] }
  | some (.free a next) => { m with threads := m.threads.set i next, objects := m.objects.filter (· != a) }
  | some (.use _ _ next) => { m with threads := m.threads.set i next }
  | some (.fork child next) => { m with threads := m.threads.set i (next m.threads.length) ++ [child] }
  | some (.join j next) =>
    match m.threads[j]? with
    | some (.done r) => { m with threads := m.threads.set i (next r) }
    | _ => m
  | some (.choose next) => { m with threads := m.threads.set i (next b) }
  | _ => m

theorem Machine.step_sound {p : Prog} {m : Machine} (h : Reachable p m.state) (i : Nat) (b : Bool) : Reachable p (m.step i b).state := by
  unfold Machine.step
  split
  · rename_i next hi
    have := h.step (Step.alloc (σ := m.state) hi)
    convert this using 1
    simp [Machine.state]
  · rename_i a next hi
    have := h.step (Step.free (σ := m.state) hi)
    convert this using 1
    simp [Machine.state]
  · rename_i hi
    exact h.step (Step.use (σ := m.state) hi)
  · rename_i hi
    exact h.step (Step.fork (σ := m.state) hi)
  · rename_i hi
    split
    · rename_i hj
      exact h.step (Step.join (σ := m.state) hi hj)
    · exact h
  · rename_i hi
    exact h.step (Step.choose (σ := m.state) b hi)
  · exact h

/-- Thread `i` goes on for `n` steps, as the library always chooses `b`. -/
def Machine.go (m : Machine) (b : Bool) (i : Nat) : Nat → Machine
  | 0 => m
  | n + 1 => (m.step i b).go b i n

/-- A schedule: threads, and for how many steps they go on. -/
def Machine.run (m : Machine) (b : Bool) : List (Nat × Nat) → Machine
  | [] => m
  | (i, n) :: rest => (m.go b i n).run b rest

def start (p : Prog) : Machine := { threads := [p], fresh := 0, objects := [] }

theorem Machine.go_sound {p : Prog} (b : Bool) (i n : Nat) {m : Machine} (h : Reachable p m.state) : Reachable p (m.go b i n).state := by
  induction n generalizing m with
  | zero => exact h
  | succ n ih => exact ih (Machine.step_sound h i b)

theorem Machine.run_sound {p : Prog} (b : Bool) (l : List (Nat × Nat)) {m : Machine} (h : Reachable p m.state) :
    Reachable p (m.run b l).state := by
  induction l generalizing m with
  | nil => exact h
  | cons e l ih => exact ih (Machine.go_sound b e.1 e.2 h)

theorem start_reachable (p : Prog) : Reachable p (start p).state := by
  have : (start p).state = State.start p := by simp [Machine.state, State.start, start]
  rw [this]
  exact .start

/-- Thread `i` is about to use something which is not alive. -/
def Machine.dangles (m : Machine) (i : Nat) (u : Use) : Bool :=
  match m.threads[i]? with
  | some (.use v as _) => v == u && as.any fun a => !m.objects.contains a
  | _ => false

theorem not_alive {p : Prog} {u : Use} (b : Bool) (l : List (Nat × Nat)) (i : Nat) (h : ((start p).run b l).dangles i u = true) :
    ¬Alive p u := by
  intro ha
  unfold Machine.dangles at h
  split at h
  · rename_i v as next hi
    simp only [Bool.and_eq_true, beq_iff_eq, List.any_eq_true, Bool.not_eq_true', List.contains_eq_mem, decide_eq_false_iff_not] at h
    obtain ⟨rfl, a, haa, hna⟩ := h
    exact hna (ha _ (Machine.run_sound b l (start_reachable p)) i as next hi a haa)
  · cases h

/-- What the threads are about to do. -/
inductive Look where
  | done (ok : Bool) | abort | alloc | free | use (u : Use) (alive : Bool) | fork | join (i : Nat) | choose
deriving DecidableEq, Repr

def Machine.look (m : Machine) : List Look := m.threads.map fun
  | .done r => .done r.isOk
  | .abort => .abort
  | .alloc _ => .alloc
  | .free _ _ => .free
  | .use u as _ => .use u (as.all m.objects.contains)
  | .fork _ _ => .fork
  | .join i _ => .join i
  | .choose _ => .choose

def leafField : Item := .field none false false .leaf .leaf
def oneLeaf : SetPlan := .mk none [leafField] none
/-- `{ ...F } fragment F { object { leaf } }`: an object of a generated class, with the callbacks. -/
def nested : SetPlan := .mk none [.fragment [.field none false true (.object false) (.object oneLeaf)]] none


/-- Futures of accessors, lists and errors. -/
def busy : SetPlan := .mk none
  [.field none true true (.nullable (.list (.object false)))
    (.some (.list [.object (.mk none [.field (some .standard) false false .leaf .leaf] none), .object oneLeaf])),
   .unknown, leafField, .field (some .standard) false false .leaf .leaf] none
/-- A list of objects; `beginSelectionSet` of the first throws something which is not derived from `std::exception`; an accessor of the
second throws. -/
def wild : SetPlan := .mk none
  [.field none false true (.list (.object false))
    (.list [.object (.mk (some .other) [] none), .object (.mk none [.field (some .standard) false false .leaf .leaf] none)])] none


/-- An accessor which returns a future. -/
def asks : SetPlan := .mk none [.field none true false .leaf .leaf] none

/-- The first `m` threads take turns. -/
def rounds (n m k : Nat) : List (Nat × Nat) := (List.replicate n ((List.range m).map (·, k))).flatten

/-- `busy` is a plan as in `C70_paths`; with nine threads, it comes to an end. -/
example : busy.Standard := by simp [busy, oneLeaf, leafField, SetPlan.Standard, itemsStandard, Item.Standard, Val.Standard, valsStandard]
set_option maxRecDepth 100000 in
example : ((start (runRequest .async busy)).run true (rounds 7 9 14)).look = List.replicate 9 (.done true) := by decide +kernel
/-- In the middle: an accessor runs. -/
example : (((start (runRequest .async busy)).run true (rounds 1 10 14)).look) =
    [.join 2, .use .accessorFragments true, .join 1] := by decide +kernel

/-- Two subscriptions; the callback of the second throws. -/
def two : List Listener := [⟨busy, true, none⟩, ⟨nested, false, some .standard⟩]
set_option maxRecDepth 100000 in
example : ((start (runDeliver .async two)).run true (rounds 6 14 14)).look =
    .done false :: List.replicate 11 (.done true) ++ [.done false, .done true] := by decide +kernel
example : ∀ l ∈ two, l.Standard := by
  simp [two, Listener.Standard, nested, busy, oneLeaf, leafField, SetPlan.Standard, itemsStandard, Item.Standard, Val.Standard, valsStandard]

/-! ## What is not guaranteed -/

/-- `beginSelectionSet` of an object of a generated class gets references to directives of fragments which have been destroyed: also
without threads, and without anything being thrown. -/
theorem C70_finding_callbacks : ¬Alive (runRequest .deferred nested) (.callbackFragments false) :=
  not_alive false [(0, 20)] 0 (by decide +kernel)

/-- A future which an accessor has returned gets the references of the accessor; the directives of fragments (with
`fragmentDefinitionDirectives`, of which GraphQLService.h:156-160 says that they are owned by `OperationData`) have been destroyed when it
runs. -/
theorem C70_finding_futures : ¬Alive (runRequest .deferred asks) .futureFragments :=
  not_alive false [(0, 15)] 0 (by decide +kernel)

/-- With an exception which is not derived from `std::exception`, the path of a list ends before the threads of its elements: callbacks,
accessors and errors of other elements still use it. -/
theorem C70_finding_paths : ¬Alive (runRequest .async wild) .callbackPath ∧ ¬Alive (runRequest .async wild) .accessorPath ∧
    ¬Alive (runRequest .async wild) .errorPath :=
  ⟨not_alive false [(0, 4), (1, 20), (3, 20), (5, 20), (3, 2), (6, 2)] 6 (by decide +kernel),
   not_alive false [(0, 4), (1, 20), (3, 20), (5, 20), (3, 2), (6, 6)] 6 (by decide +kernel),
   not_alive false [(0, 4), (1, 20), (3, 20), (5, 20), (3, 2), (6, 9)] 6 (by decide +kernel)⟩

/-- A callback keeps the future of the document, and calls `get()` after `unsubscribe`: accessors then use the state and the directives of
an operation which has been destroyed. -/
theorem C70_finding_kept : ¬Alive (runKept nested) .accessorOperation :=
  not_alive false [(0, 27)] 0 (by decide +kernel)

end Verif.Life
