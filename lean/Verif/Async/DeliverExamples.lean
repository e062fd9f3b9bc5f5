import Verif.Async.DeliverProps
import Verif.Async.Examples
import Verif.Subs.Lemmas

/-!
# Concrete deliveries with threads
-/
namespace Verif.Async.Demo
open Verif.Value Verif.Resp Verif.Errors Verif.Ast Verif.Exec Verif.Request

/-- `subscription { o { a } }`, with a number as its callback -/
def reg (c : Nat) : Subs.Registration Nat := ⟨str "o", some [], some [], [], [], [.node (f "o") ⟨1, 1⟩ [.leaf (f "a")]], c⟩

/-- Two subscriptions. -/
def two : Subs.State Nat where
  subscriptions := [(0, reg 10), (1, reg 11)]
  listeners := [(str "o", [0, 1])]
  nextKey := 2

/-- The callbacks say what they get. Callback 10 may throw. -/
def react (bad : Bool) (c : Nat) : Reaction Ev :=
  if c = 10 && bad then .reads [(none, str "10")] fun _ => .throw (.other (str "bad"))
  else .reads [(none, str "call")] fun
    | .ok _ => ⟨[(none, str "document")], .ok ()⟩
    | .error _ => ⟨[(none, str "error")], .ok ()⟩

/-- `deliver` for the field, with the default object. -/
def delivery (bad : Bool) : Delivery Ev Nat Nat := ⟨S fun _ => false, two, react bad, str "o", fun _ => true, fun _ => true, none⟩

theorem two_find : SortedMap.find Subs.nameLess two.listeners (str "o") = some (str "o", [0, 1]) := by
  have := List.lt_irrefl (str "o")
  simp [SortedMap.find, SortedMap.range, Std.equalRange, Std.lowerBound, Std.upperBound, Subs.nameLess, two, this]
theorem two_key (k : Nat) : SortedMap.find Subs.keyLess two.subscriptions k = two.subscriptions.find? fun e => e.1 == k :=
  Subs.find_key _ (by simp [two]) k

/-- The program of the delivery, with the lookups done. -/
def body (bad : Bool) (launch : Launch) : Proc Ev Nat :=
  ((Comp.bind (unwind [] (eventFuture (S fun _ => false) launch 6 (reg 10))) fun d =>
    (async launch (callBack (react bad 10) d) d.owned).bind fun cb =>
    (unwind ([] ++ [cb]) (eventFuture (S fun _ => false) launch 6 (reg 11))).bind fun d' =>
    (async launch (callBack (react bad 11) d') d'.owned).bind fun cb' => .pure ([] ++ [cb] ++ [cb'])).bind getAll) .done

theorem delivery_program (bad : Bool) (launch : Launch) : (delivery bad).program launch = .done (body bad launch) := by
  have h : (S fun _ => false).operations (str "subscription") = some (some 6) := rfl
  simp only [Delivery.program, delivery, deliver, h, Option.or, two_find, deliverKeys, two_key]
  rfl

/-- What the caller has got. -/
def returnedOf : Option (Proc Ev Nat) → Option (Except Exn Unit)
  | some (.done v) => some (v.map fun _ => ())
  | _ => none

/-- The events of a schedule, the outcome, and the number of threads. -/
def goDelivery (bad : Bool) (launch : Launch) (is : List Nat) : List (Nat × Ev) × Option (Except Exn Unit) × Nat :=
  ((runs is (start (body bad launch))).1, returnedOf (runs is (start (body bad launch))).2.threads[0]?,
    (runs is (start (body bad launch))).2.threads.length)

theorem goDelivery_reaches {bad : Bool} {launch : Launch} {is : List Nat} {t : List (Nat × Ev)} {r : Except Exn Unit} {n : Nat}
    (h : goDelivery bad launch is = (t, some r, n)) : ∃ c, (delivery bad).Reaches launch t c ∧ Returned c r := by
  simp only [goDelivery, Prod.mk.injEq] at h
  refine ⟨(runs is (start (body bad launch))).2, ⟨_, delivery_program bad launch, h.1 ▸ runs_steps is _⟩, ?_⟩
  have h2 := h.2.1
  unfold returnedOf at h2
  split at h2
  · rename_i v hv
    exact ⟨v, hv, Option.some.inj h2⟩
  · cases h2

/-- A schedule. -/
def first : List Nat :=
  [0, 0, 0, 0, 1, 0, 1, 0, 1, 0, 1, 4, 0, 1, 0, 1, 2, 3, 4, 0, 4, 0, 6, 0, 6, 0, 6, 0, 6, 9, 0, 6, 6, 7, 8, 9, 9, 0]
/-- Another one. -/
def second : List Nat :=
  [0, 0, 0, 0, 1, 0, 1, 0, 1, 0, 4, 1, 0, 1, 0, 1, 0, 2, 0, 6, 3, 0, 6, 4, 0, 6, 4, 0, 9, 6, 0, 6, 6, 7, 8, 9, 9, 0]

/-! ## C67 -/

/-- One thread: the hypotheses are met, the call is defined. -/
theorem delivery_deferred : (delivery false).deferred = .done ⟨[(some 6, str "o"), (some 6, str "o"),
    (none, str "call"), (some 7, str "a"), (some 7, str "!"), (none, str "document"),
    (none, str "call"), (some 7, str "a"), (some 7, str "!"), (none, str "document")], .ok ()⟩ := by
  have h : (S fun _ => false).operations (str "subscription") = some (some 6) := rfl
  simp only [Delivery.deferred, delivery, Subs.deliver, h, Option.or, two_find, Subs.deliverKeys, two_key]
  rfl

/-- Eleven threads, in two schedules: one callback runs while the other event is resolved. -/
example : goDelivery false .async first = ([(0, some 6, str "o"), (1, some 7, str "a"), (1, some 7, str "!"), (4, none, str "call"),
    (0, some 6, str "o"), (4, none, str "document"), (6, some 7, str "a"), (6, some 7, str "!"), (9, none, str "call"),
    (9, none, str "document")], some (.ok ()), 11) := by decide +kernel
example : goDelivery false .async second = ([(0, some 6, str "o"), (1, some 7, str "a"), (1, some 7, str "!"), (4, none, str "call"),
    (0, some 6, str "o"), (6, some 7, str "a"), (6, some 7, str "!"), (4, none, str "document"), (9, none, str "call"),
    (9, none, str "document")], some (.ok ()), 11) := by decide +kernel

/-- The callbacks call `get()`, and no selection set fails. -/
theorem delivery_clean : (delivery false).Clean := by
  refine ⟨fun o params => ⟨⟨_, rfl⟩, ⟨_, rfl⟩⟩, fun e he => ?_, fun e he => ?_⟩
  · simp only [delivery, two, List.mem_cons, List.not_mem_nil, or_false] at he
    rcases he with rfl | rfl <;>
      exact ⟨⟨⟨⟨_, rfl, _, rfl⟩, _, rfl⟩, ⟨⟨_, rfl, _, rfl⟩, _, rfl⟩, trivial⟩, trivial⟩
  · simp only [delivery, two, List.mem_cons, List.not_mem_nil, or_false] at he
    rcases he with rfl | rfl <;> trivial

/-- The events of the callbacks belong to no object. -/
theorem delivery_labelled (bad : Bool) : (delivery bad).Labelled fun e => e.1 := by
  intro e _ x hx
  have hx : (react bad e.2.callback).Has x := hx
  unfold react at hx
  split at hx
  · rcases hx with hx | ⟨r, hx⟩
    · simp only [List.mem_singleton] at hx
      simp [hx]
    · cases hx
  · rcases hx with hx | ⟨r, hx⟩
    · simp only [List.mem_singleton] at hx
      simp [hx]
    · cases r <;> simp only [List.mem_singleton] at hx <;> simp [hx]

/-- Finding: if a callback throws, `deliver` throws with every policy; with threads the later callbacks are called all the same, and with
`std::launch::deferred` they are not. -/
theorem C67_later_callbacks :
    (∃ t c, (delivery true).Reaches .async t c ∧ Returned c (.error (.other (str "bad"))) ∧ (9, none, str "call") ∈ t) ∧
    ∃ run, (delivery true).deferred = .done run ∧ run.result = .error (.other (str "bad")) ∧ (none, str "call") ∉ run.trace := by
  refine ⟨?_, ⟨[(some 6, str "o"), (some 6, str "o"), (none, str "10"), (some 7, str "a"), (some 7, str "!")],
    .error (.other (str "bad"))⟩, ?_, rfl, by decide⟩
  · have h : goDelivery true .async first = ([(0, some 6, str "o"), (1, some 7, str "a"), (1, some 7, str "!"), (4, none, str "10"),
        (0, some 6, str "o"), (6, some 7, str "a"), (6, some 7, str "!"), (9, none, str "call"), (9, none, str "document")],
        some (.error (.other (str "bad"))), 11) := by decide +kernel
    obtain ⟨c, h1, h2⟩ := goDelivery_reaches h
    exact ⟨_, c, h1, h2, by decide⟩
  · have h : (S fun _ => false).operations (str "subscription") = some (some 6) := rfl
    simp only [Delivery.deferred, delivery, Subs.deliver, h, Option.or, two_find, Subs.deliverKeys, two_key]
    rfl

/-- The theorems for the delivery: whatever the schedule, it returns, and these are its events. -/
example {t : List (Nat × Ev)} {c : Config Ev Nat} {r : Except Exn Unit} (h : (delivery false).Reaches .async t c) (ha : Returned c r) :
    r = .ok () ∧ [(some 6, str "o"), (some 6, str "o"), (none, str "call"), (some 7, str "a"), (some 7, str "!"), (none, str "document"),
      (none, str "call"), (some 7, str "a"), (some 7, str "!"), (none, str "document")].Perm (events t) := by
  have h1 := deliver_same h delivery_deferred ha
  subst h1
  exact ⟨rfl, deliver_events_same h delivery_deferred ha delivery_clean⟩

theorem two_at : SortedMap.at? Subs.keyLess two.subscriptions 0 = some (reg 10) := by
  simp [SortedMap.at?, SortedMap.range, Std.equalRange, Std.lowerBound, Std.upperBound, Subs.keyLess, two]

/-- `unsubscribe` with threads tells the object about the end of the subscription; the hypotheses are met. -/
example : ∃ n, unsubscribe (S fun _ => false) .async two 0 = .done n ∧
    (runs up (start n.program)).1.map (·.2) = [(some 6, str "o"), (some 7, str "a"), (some 7, str "!")] := by
  have h : (S fun _ => false).operations (str "subscription") = some (some 6) := rfl
  simp only [unsubscribe, h, two_at]
  exact ⟨_, rfl, rfl⟩

end Verif.Async.Demo
