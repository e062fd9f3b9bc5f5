import Verif.Subs.Deliver
import Verif.Subs.RootProps
import Verif.Exec.Examples

/-!
# Concrete subscriptions
-/
namespace Verif.Subs.Demo
open Verif.Value Verif.Resp Verif.Errors Verif.Ast Verif.Exec Verif.Request Verif.Subs.Spec Verif.Exec.Demo

/-- Object 0 is the default subscription object. The validator accepts everything. -/
def S : Service Str Nat where
  impl := I
  operations := fun t => if t = str "subscription" then some (some 0) else none
  validate := fun _ => []
  atoiOverflow := id

def sub (sel : List Selection) : Document where
  definitions := [.operation ⟨⟨1, 1⟩, some (str "subscription"), none, [], none, sel⟩]

/-- `subscription { a }` -/
def pa (c : Nat) : Params Nat := { doc := sub [.leaf (f "a")], callback := c }
/-- `subscription { a(x: 1) @d(y: 2) }` -/
def px (c : Nat) : Params Nat where
  doc := sub [.leaf { f "a" with
    arguments := some [(str "x", .int 1)], directives := some [⟨str "d", some [(str "y", .int 2)]⟩] }]
  callback := c
/-- `subscription { bad }` -/
def pbad (c : Nat) : Params Nat := { doc := sub [.leaf (f "bad")], callback := c }
/-- `subscription { a @skip(if: true) }` -/
def pskip (c : Nat) : Params Nat := { doc := sub [.leaf { f "a" with directives := dir "skip" (.boolean true) }], callback := c }
/-- `subscription { ... on T { a } }` -/
def pinline (c : Nat) : Params Nat := { doc := sub [.inline ⟨1, 1⟩ (some (str "T")) none [.leaf (f "a")]], callback := c }

def ra (c : Nat) : Registration Nat := ⟨str "a", some [], some [], [], [], [.leaf (f "a")], c⟩
def rx (c : Nat) : Registration Nat :=
  ⟨str "a", some [(str "x", .int 1)], some [(str "d", .map [(str "y", .int 2)])], [], [], [.leaf { f "a" with
    arguments := some [(str "x", .int 1)], directives := some [⟨str "d", some [(str "y", .int 2)]⟩] }], c⟩

theorem registration_a (c : Nat) : registration S (pa c) = .ok (ra c) := rfl
theorem registration_x (c : Nat) : registration S (px c) = .ok (rx c) := rfl

/-- Three subscriptions. -/
def st3 : State Nat where
  subscriptions := [(0, ra 10), (1, rx 11), (2, ra 12)]
  listeners := [(str "a", [0, 1, 2])]
  nextKey := 3

/-- A state where all subscriptions are to the same field. -/
def one (n : Str) (l : Active Nat) : State Nat := ⟨l, [(n, l.map Prod.fst)], fresh l⟩

theorem one_ok {n : Str} {l : Active Nat} (hl : l ≠ []) (hk : Increasing (l.map Prod.fst)) (hn : ∀ e ∈ l, e.2.field = n) :
    Ok (one n l) where
  keys := hk
  next := rfl
  sorted := List.pairwise_singleton _ _
  listeners := by
    intro name
    by_cases h : n = name
    · subst h
      have : keysOf l n = l.map Prod.fst := by
        unfold keysOf
        rw [List.filter_eq_self.mpr]
        intro e he
        simp [hn e he]
      simp [one, this, listenersOf, SortedMap.abs, same_name, hl]
    · have h' : ¬name = n := fun hc => h hc.symm
      have : keysOf l name = [] := by
        unfold keysOf
        rw [List.filter_eq_nil_iff.mpr]
        · rfl
        · intro e he
          simp [hn e he, h]
      simp [one, this, listenersOf, SortedMap.abs, same_name, h']

theorem ok1 : Ok (one (str "a") [(0, ra 10)]) := one_ok (by simp) (by simp [Increasing]) (by simp [ra])
theorem ok2 : Ok (one (str "a") [(0, ra 10), (1, rx 11)]) := one_ok (by simp) (by simp [Increasing]) (by simp [ra, rx])
theorem ok3 : Ok st3 := one_ok (n := str "a") (l := [(0, ra 10), (1, rx 11), (2, ra 12)]) (by simp) (by simp [Increasing])
  (by simp [ra, rx])

theorem add_to {st st' : State Nat} {r : Registration Nat} (h : Ok st) (h' : Ok st')
    (hs : st'.subscriptions = st.subscriptions ++ [(fresh st.subscriptions, r)]) : add st r = (st', fresh st.subscriptions) := by
  obtain ⟨h1, h2⟩ := add_eq h r
  have := State.ext_ok (add_ok h r) h' (h1.trans hs.symm)
  exact Prod.ext this h2

theorem add1 : add {} (ra 10) = (one (str "a") [(0, ra 10)], 0) := add_to Ok.init ok1 rfl
theorem add2 : add (one (str "a") [(0, ra 10)]) (rx 11) = (one (str "a") [(0, ra 10), (1, rx 11)], 1) := add_to ok1 ok2 rfl
theorem add3 : add (one (str "a") [(0, ra 10), (1, rx 11)]) (ra 12) = (st3, 2) := add_to ok2 ok3 rfl
theorem remove2 : unsubscribe st3 2 = some (one (str "a") [(0, ra 10), (1, rx 11)]) := by
  obtain ⟨st', e1, e2, e3, _⟩ := unsubscribe_eq ok3 2
  rw [e1, State.ext_ok e2 ok2 (by rw [e3]; rfl)]
theorem find_a : SortedMap.find nameLess st3.listeners (str "a") = some (str "a", [0, 1, 2]) := by
  have := List.lt_irrefl (str "a")
  simp [SortedMap.find, SortedMap.range, Std.equalRange, Std.lowerBound, Std.upperBound, nameLess, st3, this]
theorem find_key (k : Nat) : SortedMap.find keyLess st3.subscriptions k = st3.subscriptions.find? fun e => e.1 == k :=
  Verif.Subs.find_key _ (by simp [st3, Increasing]) k

theorem history3 : Steps (E := Str) (O := Nat) S {}
    [.subscribed 0 (ra 10), .subscribed 1 (rx 11), .subscribed 2 (ra 12)] ⟨st3, []⟩ :=
  .step (.subscribe _ (pa 10) (ra 10) _ 0 rfl (congrArg _ add1)) (.step (.subscribe _ (px 11) (rx 11) _ 1 rfl
    (congrArg _ add2)) (.step (.subscribe _ (pa 12) (ra 12) _ 2 rfl (congrArg _ add3)) (.refl _)))

/-- C25: with maps which have the registered arguments and directives (and more), all get the event. -/
example : deliverLiteral S st3 (str "a") [(str "x", .int 1), (str "z", .null)] [(str "d", .map [(str "y", .int 2)])]
    (some 7) = .done ⟨[str "a", str "a", str "a"], .ok [
      ⟨10, ⟨[], .ok (.map [(str "data", .map [(str "a", .int 7)])])⟩⟩,
      ⟨11, ⟨[], .ok (.map [(str "data", .map [(str "a", .int 7)])])⟩⟩,
      ⟨12, ⟨[], .ok (.map [(str "data", .map [(str "a", .int 7)])])⟩⟩]⟩ := by
  simp only [deliverLiteral, deliver, find_a, deliverKeys, find_key]; rfl

/-- C26 finding: the overloads without maps (`deliver(name, object)`) reach only the subscriptions without arguments and
directives. -/
theorem C26_plain_deliver : deliverLiteral S st3 (str "a") [] [] none = .done ⟨[str "a", str "a"], .ok [
      ⟨10, ⟨[], .ok (.map [(str "data", .map [(str "a", .int 0)])])⟩⟩,
      ⟨12, ⟨[], .ok (.map [(str "data", .map [(str "a", .int 0)])])⟩⟩]⟩ := by
  simp only [deliverLiteral, deliver, find_a, deliverKeys, find_key]; rfl

/-- C24: the hypotheses of `C24_no_calls` are met by this history; the callback 11 is silent from now on. -/
example (es' : List (Event Nat)) (s2 : Sys Nat) (st' : State Nat) (hu : unsubscribe st3 1 = some st')
    (h' : Steps (E := Str) (O := Nat) S ⟨st', []⟩ es' s2) (hnew : ∀ k r, .subscribed k r ∈ es' → r.callback ≠ 11) :
    .called 11 ∉ es' := by
  refine C24_no_calls (key := 1) history3 ?_ (by simp) (.unsubscribe _ 1 _ hu) h' hnew
  intro e he
  simp only [active, apply, List.foldl, List.nil_append, List.cons_append, List.mem_cons, List.not_mem_nil, or_false] at he
  rcases he with rfl | rfl | rfl <;> simp [ra, rx]

/-- C24 finding: the key of the last subscription is used again after it is unsubscribed. An owner of the old key who
unsubscribes twice ends somebody else's subscription. -/
theorem C24_key_reused : ∃ st, unsubscribe st3 2 = some st ∧ (add st (ra 99)).2 = 2 := ⟨_, remove2, rfl⟩

theorem Steps.append {s s' s'' : Sys Nat} {es es' : List (Event Nat)} (h : Steps (E := Str) (O := Nat) S s es s')
    (h' : Steps (E := Str) (O := Nat) S s' es' s'') : Steps (E := Str) (O := Nat) S s (es ++ es') s'' := by
  induction h with
  | refl s => exact h'
  | step h _ ih => exact .step h (ih h')

/-- C24 finding: if the first callback of an event unsubscribes the second subscription, the second callback is still called
by this event. -/
theorem C24_called_after_unsubscribe : ∃ s, Steps (E := Str) (O := Nat) S {}
    [.subscribed 0 (ra 10), .subscribed 1 (rx 11), .subscribed 2 (ra 12), .silent, .called 10, .unsubscribed 2, .called 12]
    s :=
  ⟨_, Steps.append history3 (.step (.deliver _ (str "a") _ _ _ _ _ C26_plain_deliver) (.step (.call _ _ _ _)
    (.step (.unsubscribe _ 2 _ remove2) (.step (.call _ _ _ _) (.refl _)))))⟩

/-- `subscription { bad }` -/
def rbad (c : Nat) : Registration Nat := ⟨str "bad", some [], some [], [], [], [.leaf (f "bad")], c⟩

/-- C27 finding: an accessor which throws when it is told about the subscription does not make `subscribe` fail: the
error is part of a response which is dropped. -/
theorem C27_throwing_accessor :
    subscribeAsync S ({} : State Nat) (pbad 5) = .done ([str "bad"], one (str "bad") [(0, rbad 5)], some 0) := by
  have hok : Ok (one (str "bad") [(0, rbad 5)]) := one_ok (by simp) (by simp [Increasing]) (by simp [rbad])
  have h1 : subscribe S {} (pbad 5) = .ok (one (str "bad") [(0, rbad 5)], 0) :=
    congrArg Except.ok (add_to (r := rbad 5) Ok.init hok rfl)
  have h2 : SortedMap.at? keyLess (one (str "bad") [(0, rbad 5)]).subscriptions 0 = some (rbad 5) := by
    rw [at_key _ hok.keys]; rfl
  simp only [subscribeAsync, h1, h2]
  rfl

/-- A service whose object refuses subscriptions: `beginSelectionSet` throws when it is told about one. -/
def refusing : Service Str Nat where
  impl := { I with
    beginSet := fun _ params => if params.context = .notifySubscribe then .throw (.other (str "refused")) else .pure () }
  operations := S.operations
  validate := S.validate
  atoiOverflow := id

/-- C27: the hypotheses of `C27_notification_fails` are met by it. -/
example : subscribeAsync refusing ({} : State Nat) (pa 5) = .done ([], {}, none) :=
  C27_notification_fails (s := {}) (r := ra 5) ⟨[], .refl _⟩ rfl rfl rfl

/-- C25 finding: if the `beginSelectionSet` of the object throws something other than a `schema_exception`, the event
fails and no callback is called at all. -/
theorem C25_begin_throws : deliverLiteral { S with impl := { I with beginSet := fun _ _ => .throw (.other (str "no")) } }
    st3 (str "a") [] [] none = .done ⟨[], .error (.other (str "no"))⟩ := by
  simp only [deliverLiteral, deliver, find_a, deliverKeys, find_key]; rfl

theorem quiet (o : Nat) : Quiet S o := by intro params what; exact ⟨nofun, nofun⟩

/-- C25 finding: a subscription whose only root field is skipped is accepted, and registered under the empty name without
arguments, where an event with the empty name fails. -/
def rskip (c : Nat) : Registration Nat :=
  ⟨[], none, none, [], [], [.leaf { f "a" with directives := dir "skip" (.boolean true) }], c⟩
theorem C25_skipped_root : registration S (pskip 5) = .ok (rskip 5) ∧
    deliverLiteral S (one [] [(0, rskip 5)]) [] [] [] none = .done (.throw notAnObject) := by
  have hok : Ok (one [] [(0, rskip 5)]) := one_ok (by simp) (by simp [Increasing]) (by simp [rskip])
  refine ⟨rfl, ?_⟩
  have h1 : SortedMap.find nameLess (one [] [(0, rskip 5)]).listeners [] = some ([], [0]) := by
    simp [SortedMap.find, SortedMap.range, Std.equalRange, Std.lowerBound, Std.upperBound, nameLess, one]
  have h2 : ∀ k, SortedMap.find keyLess (one [] [(0, rskip 5)]).subscriptions k = _ := Verif.Subs.find_key _ hok.keys
  simp only [deliverLiteral, deliver, h1, deliverKeys, h2]
  rfl

/-- C25 finding: a fragment at the root of a subscription leads to undefined behaviour: the visitor visits the
selections of the fragment as if they were operations, and keeps a registration whose parts were moved away. -/
theorem C25_fragment_at_root : registration S (pinline 5) = .error .undefined := rfl

/-- C23 finding: the variables of a subscription get no defaults: `subscription ($x: Int = 5) { a(x: $x) }` fails. -/
theorem C23_subscription_without_defaults : registration S ({
    doc := ⟨[.operation ⟨⟨1, 1⟩, some (str "subscription"), none, [⟨str "x", .named (str "Int"), some (.int 5)⟩], none,
      [.leaf { f "a" with arguments := some [(str "x", .variable ⟨1, 30⟩ (str "x"))] }]⟩]⟩
    callback := 5 } : Params Nat) =
      .error (.exn (.schema [{ message := str "Unknown variable name: x", location := ⟨1, 30⟩ }])) := rfl

/-- C47: the hypotheses are met by `subscription { a(x: 1) @d(y: 2) }`. -/
example : registration S (px 5) = .ok (rx 5) ∧
    ∀ op ∈ (px 5).doc.operations, ∀ s ∈ op.sub, ∀ f, fieldOf s = some f → f.name ≠ [] := by
  refine ⟨rfl, ?_⟩
  intro op hop s hs g hg
  simp only [px, sub, Document.operations, List.filterMap_cons, List.filterMap_nil, List.mem_singleton] at hop
  subst hop
  simp only [List.mem_singleton] at hs
  subst hs
  simp only [fieldOf, Option.some.injEq] at hg
  subst hg
  exact of_decide_eq_true rfl

/-- C47: a query is not registered. -/
example : registration S { pa 5 with doc := { definitions := [.operation ⟨⟨1, 1⟩, some (str "query"), none, [], none, [.leaf (f "a")]⟩] } } =
    .error (.exn (.schema [{ message := str "Unexpected operation type: query", location := ⟨1, 1⟩ }])) := rfl

end Verif.Subs.Demo
