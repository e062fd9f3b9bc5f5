import Verif.Async.Threads
import Mathlib.Algebra.Order.Group.Multiset
import Mathlib.Data.Multiset.AddSub

/-!
# A logic for programs with threads

`Den` says of a program which threads it waits for, what it returns, and which lists of events it can have, together with the threads it
starts, in any schedule. `Threads.lean` and `Adequate.lean` say that this is right.
-/
namespace Verif.Async
open Verif.Errors Verif.Exec

variable {E O α β : Type}

/-- What a thread returns. -/
abbrev Val := Except Exn Result

/-- Two lists of events, mixed in some order. -/
inductive Interleave : List E → List E → List E → Prop where
  | nil : Interleave [] [] []
  | left {e a b l} (h : Interleave a b l) : Interleave (e :: a) b (e :: l)
  | right {e a b l} (h : Interleave a b l) : Interleave a (e :: b) (e :: l)

theorem Interleave.perm {a b l : List E} (h : Interleave a b l) : (a ++ b).Perm l := by
  induction h with
  | nil => exact .refl _
  | left _ ih => exact .cons _ ih
  | right _ ih => exact List.perm_middle.trans (.cons _ ih)

theorem Interleave.empty_right {a b l : List E} (h : Interleave a b l) (hb : b = []) : l = a := by
  induction h with
  | nil => rfl
  | left _ ih => rw [ih hb]
  | right => cases hb

/-- Whose accessor an event belongs to, if to one (if that is known), and the calls of the accessors of an object. -/
structure Rules (E O : Type) where
  known : Prop
  owner : E → Option O
  call : O → List E → Prop
  /-- There may be threads. -/
  forks : Prop

/-- A program with the results `vals` of the threads, which waits for the threads `K`, returns `r`, and has only events in `T`. It runs
calls of accessors, and nothing else of accessors, while it has the lock of the object: with `h = some (o, w)` it has the lock of `o` and
the events `w` of the call are to come. -/
inductive Den (rules : Rules E O) :
    List Val → Multiset Nat → Option (O × List E) → Proc E O → Val → (List E → Prop) → Prop where
  | done {vals r T} (h : T []) : Den rules vals 0 none (.done r) r T
  | emit {vals K e k r T} (a : rules.known → rules.owner e = none) (n : Den rules vals K none k r fun x => T (e :: x)) :
      Den rules vals K none (.emit e k) r T
  | act {vals K o w e k r T} (n : Den rules vals K (some (o, w)) k r fun x => T (e :: x)) :
      Den rules vals K (some (o, e :: w)) (.emit e k) r T
  | enter {vals K o w k r T} (c : rules.call o w) (a : rules.known → ∀ e ∈ w, rules.owner e = some o) (n : Den rules vals K (some (o, w)) k r T) :
      Den rules vals K none (.enter o k) r T
  | leave {vals K o k r T} (n : Den rules vals K none k r T) : Den rules vals K (some (o, [])) (.leave o k) r T
  | join {vals K K' i v k r T} (hK : K = i ::ₘ K') (hv : vals[i]? = some v) (n : Den rules vals K' none (k v) r T) :
      Den rules vals K none (.join i k) r T
  | choose {vals K k r T} (n : ∀ b, Den rules vals K none (k b) r T) : Den rules vals K none (.choose k) r T
  | fork {vals K K₁ K₂ c k v r Tc Tk T} (hf : rules.forks) (hK : K = K₁ + K₂) (hc : Den rules vals K₁ none c v Tc)
      (hk : ∀ vals', vals <+: vals' → ∀ i, vals'[i]? = some v → Den rules vals' (i ::ₘ K₂) none (k i) r Tk)
      (ht : ∀ a b l, Tc a → Tk b → Interleave a b l → T l) : Den rules vals K none (.fork c k) r T

theorem prefix_get {vals vals' : List Val} (h : vals <+: vals') {i : Nat} {v : Val} (hv : vals[i]? = some v) : vals'[i]? = some v := by
  obtain ⟨t, rfl⟩ := h
  rw [List.getElem?_append_left (List.getElem?_eq_some_iff.1 hv).1]
  exact hv

theorem Den.mono {rules : Rules E O} {vals vals' K h p r} {T T' : List E → Prop} (d : Den rules vals K h p r T)
    (hv : vals <+: vals') (ht : ∀ x, T x → T' x) : Den rules vals' K h p r T' := by
  induction d generalizing vals' T' with
  | done h => exact .done (ht _ h)
  | emit a n ih => exact .emit a (ih hv fun x hx => ht _ hx)
  | act n ih => exact .act (ih hv fun x hx => ht _ hx)
  | enter c a n ih => exact .enter c a (ih hv ht)
  | leave n ih => exact .leave (ih hv ht)
  | join hK h n ih => exact .join hK (prefix_get hv h) (ih hv ht)
  | choose n ih => exact .choose fun b => ih b hv ht
  | fork hf hK hc hk h ihc ihk =>
    refine .fork hf hK (ihc hv fun _ h => h) (fun vals'' hv' i hi => hk vals'' (hv.trans hv') i hi) ?_
    exact fun a b l ha hb hl => ht _ (h a b l ha hb hl)

/-! ## Comparing executions -/

/-- How the events of an execution compare with those of deferred execution. -/
structure Mode (E O : Type) where
  /-- The first are those of deferred execution. -/
  le : List E → List E → Prop
  refl : ∀ a, le a a
  trans : ∀ {a b c}, le a b → le b c → le a c
  append : ∀ {a b c d}, le a b → le c d → le (a ++ c) (b ++ d)
  /-- There may be threads, and then the order is left open. -/
  threads : Prop
  perm : threads → ∀ {a b : List E}, a.Perm b → le a b
  /-- There may be further events. -/
  more : Prop
  extra : more → ∀ a b, le a (a ++ b)
  rules : Rules E O
  forks : threads → rules.forks

variable {m : Mode E O}

/-- Conditions which may be used for `T`. -/
def Closed (m : Mode E O) (T : List E → Prop) : Prop := ∀ x y, T x → m.le x y → T y

theorem Closed.after {T : List E → Prop} (h : Closed m T) (s : List E) : Closed m fun x => T (s ++ x) :=
  fun _ _ hx hl => h _ _ hx (m.append (m.refl s) hl)

/-- A computation which waits for threads `K` leaves threads to wait for, an outcome, and the events it had. -/
def Tri (m : Mode E O) (vals₀ : List Val) (K : Multiset Nat) (c : Comp E O α)
    (Q : List Val → Multiset Nat → Except Exn α → List E → Prop) : Prop :=
  ∀ vals, vals₀ <+: vals → ∀ (κ : Except Exn α → Proc E O) (r : Val) (T : List E → Prop) (F : Multiset Nat), Closed m T →
    (∀ vals' K' a s, vals <+: vals' → Q vals' K' a s → Den m.rules vals' (K' + F) none (κ a) r fun x => T (s ++ x)) →
    Den m.rules vals (K + F) none (c κ) r T

variable {vals vals' : List Val} {K K' : Multiset Nat}

theorem Tri.weaken {c : Comp E O α} {Q Q' : List Val → Multiset Nat → Except Exn α → List E → Prop} (h : Tri m vals K c Q)
    (hq : ∀ vals' K' a s, vals <+: vals' → Q vals' K' a s → Q' vals' K' a s) : Tri m vals K c Q' :=
  fun _ hv₀ κ r T F hT hκ => h _ hv₀ κ r T F hT fun _ _ _ _ hv hQ => hκ _ _ _ _ hv (hq _ _ _ _ (hv₀.trans hv) hQ)

theorem Tri.mono {c : Comp E O α} {Q : List Val → Multiset Nat → Except Exn α → List E → Prop} (h : Tri m vals K c Q)
    (hv : vals <+: vals') : Tri m vals' K c Q := fun _ hv₀ => h _ (hv.trans hv₀)

theorem Tri.lift {a : Except Exn α} {Q : List Val → Multiset Nat → Except Exn α → List E → Prop}
    (h : ∀ vals', vals <+: vals' → Q vals' K a []) : Tri m vals K (Comp.lift a) Q :=
  fun _ hv _ _ _ _ _ hκ => hκ _ K a [] (List.prefix_refl _) (h _ hv)

theorem Tri.pure {a : α} {Q : List Val → Multiset Nat → Except Exn α → List E → Prop}
    (h : ∀ vals', vals <+: vals' → Q vals' K (.ok a) []) : Tri m vals K (Comp.pure a) Q := Tri.lift h

theorem Tri.throw {e : Exn} {Q : List Val → Multiset Nat → Except Exn α → List E → Prop}
    (h : ∀ vals', vals <+: vals' → Q vals' K (.error e) []) : Tri m vals K (Comp.throw e) Q := Tri.lift h

theorem Tri.bind {c : Comp E O α} {f : α → Comp E O β} {Q : List Val → Multiset Nat → Except Exn α → List E → Prop}
    {Q' : List Val → Multiset Nat → Except Exn β → List E → Prop} (h : Tri m vals K c Q)
    (hok : ∀ vals' K' a s, vals <+: vals' → Q vals' K' (.ok a) s → Tri m vals' K' (f a) fun v k b s' => Q' v k b (s ++ s'))
    (herr : ∀ vals' K' e s, vals <+: vals' → Q vals' K' (.error e) s → Q' vals' K' (.error e) s) :
    Tri m vals K (c.bind f) Q' := by
  intro vals₀ hv₀ κ r T F hT hκ
  refine h _ hv₀ _ r T F hT fun vals' K' a s hv hQ => ?_
  cases a with
  | error e => exact hκ _ _ _ _ hv (herr _ _ _ _ (hv₀.trans hv) hQ)
  | ok a =>
    refine hok _ _ _ _ (hv₀.trans hv) hQ _ (List.prefix_refl _) κ r _ F (hT.after s) fun vals'' K'' b s' hv' hQ' => ?_
    have := hκ _ _ _ _ (hv.trans hv') hQ'
    simpa [List.append_assoc] using this

/-- `handle` -/
theorem Tri.handle {c : Comp E O α} {f : Exn → α} {Q Q' : List Val → Multiset Nat → Except Exn α → List E → Prop} (h : Tri m vals K c Q)
    (hok : ∀ vals' K' a s, vals <+: vals' → Q vals' K' (.ok a) s → Q' vals' K' (.ok a) s)
    (herr : ∀ vals' K' e s, vals <+: vals' → Q vals' K' (.error e) s → Q' vals' K' (.ok (f e)) s) :
    Tri m vals K (c.handle f) Q' := by
  intro vals₀ hv₀ κ r T F hT hκ
  refine h _ hv₀ _ r T F hT fun vals' K' a s hv hQ => ?_
  cases a with
  | error e => exact hκ _ _ _ _ hv (herr _ _ _ _ (hv₀.trans hv) hQ)
  | ok a => exact hκ _ _ _ _ hv (hok _ _ _ _ (hv₀.trans hv) hQ)

theorem den_emits {rules : Rules E O} {p : Proc E O} {r : Val} :
    {es : List E} → {T : List E → Prop} → (∀ e ∈ es, rules.known → rules.owner e = none) → (Den rules vals K none p r fun x => T (es ++ x)) →
    Den rules vals K none (Comp.emits es p) r T
  | [], _, _, d => d
  | e :: es, T, ha, d => .emit (ha e (by simp)) (den_emits (es := es) (fun x hx => ha x (by simp [hx])) d)

theorem den_acts {rules : Rules E O} {o : O} {p : Proc E O} {r : Val} :
    {es : List E} → {T : List E → Prop} → (Den rules vals K (some (o, [])) p r fun x => T (es ++ x)) →
    Den rules vals K (some (o, es)) (Comp.emits es p) r T
  | [], _, d => d
  | _ :: es, _, d => .act (den_acts (es := es) d)

theorem Tri.user {run : Run E α} {Q : List Val → Multiset Nat → Except Exn α → List E → Prop}
    (ha : ∀ e ∈ run.trace, m.rules.known → m.rules.owner e = none) (h : ∀ vals', vals <+: vals' → Q vals' K run.result run.trace) :
    Tri m vals K (Comp.user run) Q :=
  fun _ hv _ _ _ _ _ hκ => den_emits ha (hκ _ _ _ _ (List.prefix_refl _) (h _ hv))

theorem Tri.locked {o : O} {run : Run E α} {Q : List Val → Multiset Nat → Except Exn α → List E → Prop}
    (hc : m.rules.call o run.trace) (ha : m.rules.known → ∀ e ∈ run.trace, m.rules.owner e = some o)
    (h : ∀ vals', vals <+: vals' → Q vals' K run.result run.trace) :
    Tri m vals K (Comp.locked o run) Q :=
  fun _ hv _ _ _ _ _ hκ => .enter hc ha (den_acts (.leave (hκ _ _ _ _ (List.prefix_refl _) (h _ hv))))

theorem den_waitAll {rules : Rules E O} {p : Proc E O} {r : Val} {T : List E → Prop} (d : Den rules vals K none p r T) :
    {is : List Nat} → (∀ i ∈ is, i < vals.length) → Den rules vals (↑is + K) none (Comp.waitAll is p) r T
  | [], _ => by simpa [Comp.waitAll] using d
  | i :: is, h => .join (by simp [← Multiset.cons_coe]) (List.getElem?_eq_getElem (h i (by simp)))
      (den_waitAll d (is := is) fun j hj => h j (by simp [hj]))

/-- Starting a thread, or not. `S` are the events of deferred execution. -/
theorem Tri.async {launch : Launch} {c : Comp E O Result} {owned : List Nat} {v : Val} {S : List E}
    {Q : List Val → Multiset Nat → Except Exn (Future E O) → List E → Prop} (hl : launch = .deferred ∨ m.threads)
    (hc : Tri m vals (↑owned) c fun _ K' a s => K' = 0 ∧ a = v ∧ m.le S s)
    (hd : ∀ vals', vals <+: vals' → Q vals' (↑owned) (.ok (.deferred c owned)) [])
    (ht : m.threads → ∀ vals', vals <+: vals' → ∀ i, vals'[i]? = some v → Q vals' {i} (.ok (.thread i)) S) :
    Tri m vals (↑owned) (async launch c owned) Q := by
  intro vals₀ hv₀ κ r T F hT hκ
  have deferred : Den m.rules vals₀ (↑owned + F) none (κ (.ok (.deferred c owned))) r T :=
    hκ _ _ _ _ (List.prefix_refl _) (hd _ hv₀)
  have forks (h : m.threads) : Den m.rules vals₀ (↑owned + F) none (.fork (c .done) fun i => κ (.ok (.thread i))) r T := by
    refine .fork (Tc := m.le S) (Tk := fun x => T (S ++ x)) (m.forks h) rfl (v := v) ?_ (fun vals' hv i hi => ?_) ?_
    · have := hc _ hv₀ .done v (m.le S) 0 (fun x y => m.trans) fun vals' K' a s hv hq => by
        obtain ⟨rfl, rfl, hs⟩ := hq
        exact .done (by simpa using hs)
      simpa using this
    · exact hκ _ _ _ _ hv (ht h _ (hv₀.trans hv) i hi)
    · intro a b l ha hb hi
      exact hT _ _ hb (m.trans (m.append ha (m.refl b)) (m.perm h hi.perm))
  cases launch with
  | deferred => exact deferred
  | async => exact forks (by simpa using hl)
  | either =>
    refine .choose fun b => ?_
    cases b with
    | false => exact deferred
    | true => exact forks (by simpa using hl)

end Verif.Async
