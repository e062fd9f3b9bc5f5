import Verif.Async.Valid
import Verif.Async.Unvalidated
import Verif.Sound.Examples

/-!
# Concrete executions with threads
-/
namespace Verif.Async.Demo
open Verif.Value Verif.Resp Verif.Errors Verif.Ast Verif.Exec Verif.Request

/-! ## A scheduler which can be run -/

section
variable {E O : Type} [DecidableEq O]

/-- One step of a thread, if it can go on; `b` is the choice of the library. -/
def act (c : Config E O) (i : Nat) (b : Bool) : Option (Option (Nat × E) × Config E O) :=
  match c.threads[i]? with
  | some (.emit e k) => some (some (i, e), ⟨c.threads.set i k, c.locks⟩)
  | some (.enter o k) => if c.locks.all (fun l => l.1 ≠ o) then some (none, ⟨c.threads.set i k, (o, i) :: c.locks⟩) else none
  | some (.leave o k) => if (o, i) ∈ c.locks then some (none, ⟨c.threads.set i k, c.locks.erase (o, i)⟩) else none
  | some (.fork p k) => some (none, ⟨c.threads.set i (k c.threads.length) ++ [p], c.locks⟩)
  | some (.join j k) =>
    match c.threads[j]? with
    | some (.done r) => some (none, ⟨c.threads.set i (k r), c.locks⟩)
    | _ => none
  | some (.choose k) => some (none, ⟨c.threads.set i (k b), c.locks⟩)
  | _ => none

theorem act_step {c d : Config E O} {i : Nat} {b : Bool} {l : Option (Nat × E)} (h : act c i b = some (l, d)) : Step c l d := by
  obtain ⟨ts, ls⟩ := c
  unfold act at h
  dsimp only at h
  split at h
  · rename_i hp
    cases h
    exact .emit hp
  · rename_i hp
    split at h
    · rename_i ho
      cases h
      refine .enter hp fun j hj => ?_
      have := List.all_eq_true.1 ho _ hj
      simp at this
    · cases h
  · rename_i hp
    split at h
    · rename_i ho
      cases h
      exact .leave hp (List.perm_cons_erase ho)
    · cases h
  · rename_i hp
    cases h
    exact .fork hp
  · rename_i hp
    split at h
    · rename_i hr
      cases h
      exact .join hp hr
    · cases h
  · rename_i hp
    cases h
    exact .choose hp b
  · cases h

/-- A schedule: the threads in the order in which they act, as far as they can. -/
def runs : List Nat → Config E O → List (Nat × E) × Config E O
  | [], c => ([], c)
  | i :: is, c =>
    match act c i true with
    | some (l, d) => let r := runs is d; (l.toList ++ r.1, r.2)
    | none => runs is c

theorem runs_steps : (is : List Nat) → (c : Config E O) → Steps c (runs is c).1 (runs is c).2
  | [], c => .refl c
  | i :: is, c => by
    unfold runs
    cases h : act c i true with
    | none => exact runs_steps is c
    | some x => exact (runs_steps is x.2).cons (act_step h)

end

/-! ## A service -/

/-- Events with the object whose accessor they belong to. -/
abbrev Ev := Option Nat × Str

/-- Objects are numbers. `a` is the number of the object, found in two steps; `f` a future; `o` the next object; `l` the one after it, twice.
The callback at the end of the selection sets of some objects throws. -/
def I (bad : Nat → Bool) : Impl Ev Nat where
  typeNames _ := [str "T"]
  resolver o name :=
    if name = str "a" then some ⟨.leaf, fun _ => ⟨[(some o, str "a"), (some o, str "!")], .ok (.value (.leaf (.int o)))⟩⟩
    else if name = str "f" then some ⟨.leaf, fun _ => ⟨[(some o, str "f")], .ok (.future [(none, str "later")] (.ok (.leaf (.int 5))))⟩⟩
    else if name = str "o" then some ⟨.object false, fun _ => ⟨[(some o, str "o")], .ok (.value (.object (some (o + 1))))⟩⟩
    else if name = str "l" then some ⟨.list (.object false), fun _ => ⟨[(some o, str "l")],
      .ok (.value (.list [.object (some (o + 2)), .object (some (o + 2))]))⟩⟩
    else none
  beginSet _ _ := .pure ()
  endSet o _ := if bad o then .throw (.message (str "end")) else .pure ()

/-- Object 0 is the root of queries, 6 of mutations. The validator accepts everything. -/
def S (bad : Nat → Bool) : Service Ev Nat where
  impl := I bad
  operations t := if t = str "query" then some (some 0) else some (some 6)
  validate _ := []
  atoiOverflow := id

def f (name : String) : Field := { pos := ⟨1, 1⟩, name := str name }

/-- `{ l { a } f a }`, `mutation M { o { a } a }`, `query Q { o { o { a } } }` -/
def doc : Document where
  definitions := [
    .operation { pos := ⟨1, 1⟩, sub := [.node (f "l") ⟨1, 3⟩ [.leaf (f "a")], .leaf (f "f"), .leaf (f "a")] },
    .operation {
      pos := ⟨2, 1⟩, type := some (str "mutation"), name := some (str "M")
      sub := [.node (f "o") ⟨2, 3⟩ [.leaf (f "a")], .leaf (f "a")] },
    .operation { pos := ⟨3, 1⟩, name := some (str "Q"), sub := [.node (f "o") ⟨3, 3⟩ [.node (f "o") ⟨3, 5⟩ [.leaf (f "a")]]] }]

/-- `{ l { a } f a }` -/
def query : Call Ev Nat := ⟨S fun _ => false, false, doc, [], []⟩
/-- `mutation M { o { a } a }` -/
def mutation : Call Ev Nat := ⟨S fun _ => false, false, doc, str "M", []⟩
/-- `query Q { o { o { a } } }`, where the callback for the middle object throws. -/
def failing : Call Ev Nat := ⟨S fun o => o = 1, false, doc, str "Q", []⟩

/-- What the caller has got. -/
def answerOf : Option (Proc Ev Nat) → Option (Except Exn Resp)
  | some (.done v) => some (v.map (·.data))
  | _ => none

/-- The events of a schedule, the answer, and the number of threads. -/
def go (q : Call Ev Nat) (launch : Launch) (is : List Nat) : List (Nat × Ev) × Option (Except Exn Resp) × Nat :=
  match q.program launch with
  | .done p => ((runs is (start p)).1, answerOf (runs is (start p)).2.threads[0]?, (runs is (start p)).2.threads.length)
  | .undefined => ([], none, 0)

theorem go_reaches {q : Call Ev Nat} {launch : Launch} {is : List Nat} {t : List (Nat × Ev)} {r : Except Exn Resp} {n : Nat}
    (h : go q launch is = (t, some r, n)) : ∃ c, q.Reaches launch t c ∧ Answered c r := by
  unfold go at h
  cases hp : q.program launch with
  | undefined => simp [hp] at h
  | done p =>
    simp only [hp, Prod.mk.injEq] at h
    refine ⟨(runs is (start p)).2, ⟨p, hp, h.1 ▸ runs_steps is (start p)⟩, ?_⟩
    have h2 := h.2.1
    unfold answerOf at h2
    split at h2
    · rename_i v hv
      exact ⟨v, hv, Option.some.inj h2⟩
    · cases h2

/-- All threads in turn. -/
def up : List Nat := (List.replicate 20 [0, 1, 2, 3, 4, 5, 6, 7, 8]).flatten
/-- The other way round. -/
def down : List Nat := (List.replicate 20 [8, 7, 6, 5, 4, 3, 2, 1, 0]).flatten

/-- The answer to the query. -/
def answer : Except Exn Resp := .ok (.map [(str "data", .map [
  (str "l", .list [.map [(str "a", .int 2)], .map [(str "a", .int 2)]]), (str "f", .int 5), (str "a", .int 0)])])

/-! ## C65 -/

/-- The hypotheses are met: the call is defined. -/
example : query.deferred = .done ⟨[(some 0, str "l"), (some 0, str "f"), (some 0, str "a"), (some 0, str "!"),
    (some 2, str "a"), (some 2, str "!"), (some 2, str "a"), (some 2, str "!"), (none, str "later")], answer⟩ := rfl

/-- One thread. -/
example : go query .deferred up = ([(0, some 0, str "l"), (0, some 0, str "f"), (0, some 0, str "a"), (0, some 0, str "!"),
    (0, some 2, str "a"), (0, some 2, str "!"), (0, some 2, str "a"), (0, some 2, str "!"), (0, none, str "later")], some answer, 1) := rfl

/-- Nine threads, in two schedules, with the same answer. -/
example : go query .async up = ([(1, some 0, str "l"), (4, some 2, str "a"), (1, some 0, str "f"), (4, some 2, str "!"),
    (5, some 2, str "a"), (1, some 0, str "a"), (5, some 2, str "!"), (1, some 0, str "!"), (8, none, str "later")],
    some answer, 9) := rfl
example : go query .async down = ([(1, some 0, str "l"), (1, some 0, str "f"), (4, some 2, str "a"), (4, some 2, str "!"),
    (1, some 0, str "a"), (1, some 0, str "!"), (5, some 2, str "a"), (5, some 2, str "!"), (7, none, str "later")],
    some answer, 9) := rfl

/-- No selection set fails. -/
example : query.SetsSucceed := by
  refine ⟨fun o params => ⟨⟨_, rfl⟩, ⟨_, rfl⟩⟩, fun ready xs h1 h2 => ?_⟩
  cases h1
  cases h2
  exact ⟨⟨⟨⟨_, rfl, _, rfl⟩, _, rfl⟩, ⟨⟨_, rfl, _, rfl⟩, _, rfl⟩, trivial⟩, ⟨⟨_, rfl, _, rfl⟩, _, rfl⟩, ⟨⟨_, rfl, _, rfl⟩, _, rfl⟩, trivial⟩

/-- The events say to which object they belong. -/
theorem labels (bad : Nat → Bool) : Labels (I bad) (fun e => e.1) := by
  refine ⟨fun o name resolver h params => ?_, fun o name resolver h params later outcome => ?_, fun o params => ⟨?_, ?_⟩⟩
  · simp only [I] at h
    repeat' split at h
    all_goals first | cases h; done | skip
    all_goals
      cases h
      simp
  · simp only [I] at h
    repeat' split at h
    all_goals first | cases h; done | skip
    all_goals
      cases h
      try simp; done
    intro he e hm
    cases he
    simp only [List.mem_singleton] at hm
    rw [hm]
  · simp [I, Run.pure]
  · simp only [I]
    split <;> simp [Run.pure, Run.throw]

/-- A mutation with threads: in order. -/
example : mutation.IsMutation := ⟨_, rfl, rfl⟩
example : go mutation .async up = ([(1, some 6, str "o"), (1, some 6, str "a"), (1, some 6, str "!"), (1, some 7, str "a"),
    (1, some 7, str "!")], some (.ok (.map [(str "data", .map [(str "o", .map [(str "a", .int 7)]), (str "a", .int 6)])])), 2) := rfl

/-- Finding: a selection set which fails as a whole. With `std::launch::deferred` the fields of the innermost object are not asked for; with
threads they are, although the answer is the same. -/
theorem C65_failed_set_still_works :
    (∃ run, failing.deferred = .done run ∧ (some 2, str "a") ∉ run.trace) ∧
      ∃ t c r, failing.Reaches .async t c ∧ Answered c r ∧ (some 2, str "a") ∈ events t := by
  refine ⟨⟨_, rfl, by decide +kernel⟩, ?_⟩
  have h : ∃ t r n, go failing .async up = (t, some r, n) ∧ (some 2, str "a") ∈ events t := ⟨_, _, _, rfl, by decide +kernel⟩
  obtain ⟨t, r, n, h, he⟩ := h
  obtain ⟨c, h1, h2⟩ := go_reaches h
  exact ⟨t, c, r, h1, h2, he⟩

/-- The overload for nodes, with a mutation: one thread. -/
example : ∃ p, resolveUnvalidated (S fun _ => false) .async doc (str "M") [] = .done p ∧
    answerOf (runs up (start p)).2.threads[0]? =
      some (.ok (.map [(str "data", .map [(str "o", .map [(str "a", .int 7)]), (str "a", .int 6)])])) ∧
    (runs up (start p)).2.threads.length = 1 := ⟨_, rfl, rfl, rfl⟩

/-- The valid request of C60. -/
def good : Call Str Sound.Examples.Thing := ⟨Sound.Examples.service false, false, Validation.Examples.good, [], Sound.Examples.goodSupplied⟩

/-- With threads, it has an answer in every schedule, and always the same. -/
theorem good_threads (launch : Launch) : ∃ data, ∃ p, good.program launch = .done p ∧ ∀ t c, Steps (start p) t c →
    (∃ t' d, Steps c t' d ∧ Answered d (.ok (.map [(str "data", data)]))) ∧
    ∀ r, Answered c r → r = .ok (.map [(str "data", data)]) := by
  obtain ⟨run, data, _, _, _, ⟨p, hp⟩, h⟩ := valid_answer (q := good) (Sound.Examples.service_for false) Sound.Examples.good_ready
    Validation.Examples.good_consistent Sound.Examples.good_supplied Sound.Examples.good_selects (by decide) launch
  exact ⟨data, p, hp, fun t c hs => ⟨(h t c ⟨p, hp, hs⟩).1, fun r ha => ((h t c ⟨p, hp, hs⟩).2 r ha).1⟩⟩

end Verif.Async.Demo
