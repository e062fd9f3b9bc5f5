import Verif.Async.Logic
import Mathlib.Logic.Hydra
import Mathlib.Logic.Function.Basic
import Mathlib.Tactic.ByContra

/-!
# What the logic says about schedules
-/
namespace Verif.Async
open Verif.Errors Verif.Exec
open Function (update)

variable {E O : Type}

/-! ## Every execution ends -/

/-- Immediate parts of programs. -/
inductive Part : Proc E O → Proc E O → Prop where
  | emit {e k} : Part k (.emit e k)
  | enter {o k} : Part k (.enter o k)
  | leave {o k} : Part k (.leave o k)
  | child {c k} : Part c (.fork c k)
  | fork {c k} (i : Nat) : Part (k i) (.fork c k)
  | join {i k} (r : Val) : Part (k r) (.join i k)
  | choose {k} (b : Bool) : Part (k b) (.choose k)

theorem part_wf : WellFounded (Part (E := E) (O := O)) := by
  refine ⟨fun p => ?_⟩
  induction p with
  | done r => exact ⟨_, fun q h => by cases h⟩
  | emit e k ih => exact ⟨_, fun q h => by cases h; exact ih⟩
  | enter o k ih => exact ⟨_, fun q h => by cases h; exact ih⟩
  | leave o k ih => exact ⟨_, fun q h => by cases h; exact ih⟩
  | fork c k ihc ih => exact ⟨_, fun q h => by cases h; exacts [ihc, ih _]⟩
  | join i k ih => exact ⟨_, fun q h => by cases h; exact ih _⟩
  | choose k ih => exact ⟨_, fun q h => by cases h; exact ih _⟩

theorem set_coe {α : Type} {ts : List α} {i : Nat} {p q : α} (h : ts[i]? = some p) :
    (↑(ts.set i q) : Multiset α) + {p} = ↑ts + {q} := by
  induction ts generalizing i with
  | nil => simp at h
  | cons t ts ih =>
    cases i with
    | zero =>
      simp only [List.getElem?_cons_zero, Option.some.injEq] at h
      subst h
      simp only [List.set_cons_zero, ← Multiset.cons_coe, ← Multiset.singleton_add]
      ac_rfl
    | succ i =>
      simp only [List.set_cons_succ, ← Multiset.cons_coe, Multiset.cons_add]
      rw [ih (by simpa using h)]

theorem set_expand {ts : List (Proc E O)} {i : Nat} {p q : Proc E O} (h : ts[i]? = some p) (hq : Part q p) :
    Relation.CutExpand Part (↑(ts.set i q) : Multiset (Proc E O)) ↑ts :=
  ⟨{q}, p, by simpa using hq, set_coe h⟩

/-- No schedule goes on for ever. -/
theorem step_wf : WellFounded (fun d c : Config E O => ∃ l, Step c l d) := by
  refine Subrelation.wf ?_ (InvImage.wf (fun c : Config E O => (↑c.threads : Multiset (Proc E O))) part_wf.cutExpand)
  rintro d c ⟨l, h⟩
  cases h with
  | emit h => exact set_expand h .emit
  | enter h _ => exact set_expand h .enter
  | leave h _ => exact set_expand h .leave
  | join h _ => exact set_expand h (.join _)
  | choose h b => exact set_expand h (.choose b)
  | @fork ts ls i c k h =>
    refine ⟨{k ts.length} + {c}, .fork c k, ?_, ?_⟩
    · intro a ha
      rcases Multiset.mem_add.1 ha with ha | ha
      · rw [Multiset.mem_singleton.1 ha]; exact .fork _
      · rw [Multiset.mem_singleton.1 ha]; exact .child
    · show (↑(ts.set i (k ts.length) ++ [c]) : Multiset (Proc E O)) + _ = _
      rw [← Multiset.coe_add, add_right_comm, set_coe h, add_assoc, Multiset.coe_singleton]

/-! ## Shuffles -/

/-- The events of all threads, in some order. -/
inductive Shuffle : (Nat → List E) → List E → Prop where
  | nil {xs} (h : ∀ i, xs i = []) : Shuffle xs []
  | cons {xs i e x l} (h : xs i = e :: x) (n : Shuffle (update xs i x) l) : Shuffle xs (e :: l)

/-- Two of the threads taken together. -/
theorem Shuffle.merge {xs : Nat → List E} {l : List E} (h : Shuffle xs l) {i n : Nat} (hn : i ≠ n) :
    ∃ c, Interleave (xs n) (xs i) c ∧ Shuffle (update (update xs i c) n []) l := by
  induction h with
  | nil h =>
    refine ⟨[], ?_, .nil fun j => ?_⟩
    · rw [h n, h i]; exact .nil
    · by_cases h1 : j = n <;> by_cases h2 : j = i <;> simp [update, h1, h2, h]
  | @cons xs j e x l h _ ih =>
    obtain ⟨c, h1, h2⟩ := ih
    by_cases hj : j = n
    · subst hj
      refine ⟨e :: c, ?_, .cons (i := i) (e := e) (x := c) (by simp [update, hn]) ?_⟩
      · rw [h]
        rw [Function.update_self, Function.update_of_ne hn] at h1
        exact .left h1
      · have : update (update (update xs i (e :: c)) j []) i c = update (update (update xs j x) i c) j [] := by
          funext k
          simp only [Function.update_apply]
          grind
        rw [this]; exact h2
    · by_cases hi : j = i
      · subst hi
        refine ⟨e :: c, ?_, .cons (i := j) (e := e) (x := c) (by simp [update, hn]) ?_⟩
        · rw [h]
          rw [Function.update_self, Function.update_of_ne (Ne.symm hn)] at h1
          exact .right h1
        · have : update (update (update xs j (e :: c)) n []) j c = update (update (update xs j x) j c) n [] := by
            funext k
            simp only [Function.update_apply]
            grind
          rw [this]; exact h2
      · rw [Function.update_of_ne (fun h => hj h.symm), Function.update_of_ne (fun h => hi h.symm)] at h1
        refine ⟨c, h1, .cons (i := j) (e := e) (x := x) (by simp [update, hj, hi, h]) ?_⟩
        have : update (update (update xs i c) n []) j x = update (update (update xs j x) i c) n [] := by
          funext k
          simp only [Function.update_apply]
          grind
        rw [this]; exact h2

/-! ## The invariant -/

/-- The events of the accessors of an object. -/
def eventsOf [DecidableEq O] (rules : Rules E O) (o : O) (trace : List E) : List E := trace.filter fun e => rules.owner e = some o

/-- The accessors of an object have been called one after the other; the last call may still run, in a thread which has the lock. -/
def Serial [DecidableEq O] (rules : Rules E O) (h : Nat → Option (O × List E)) (trace : List E) : Prop :=
  rules.known → ∀ o, ∃ (calls : List (List E)) (last : List E), eventsOf rules o trace = calls.flatten ++ last ∧ (∀ c ∈ calls, rules.call o c) ∧
    (∀ i w, h i = some (o, w) → rules.call o (last ++ w) ∧ ∀ e ∈ w, rules.owner e = some o) ∧ ((∀ i w, h i ≠ some (o, w)) → last = [])

/-- What holds in all configurations which a program with `Den` can reach: `v` and `T` are its result and its events. -/
structure Inv [DecidableEq O] (rules : Rules E O) (v : Val) (T : List E → Prop) (c : Config E O) (trace : List E)
    (vals : List Val) (K : Nat → Multiset Nat) (h : Nat → Option (O × List E)) (Ts : Nat → List E → Prop) (rank : Nat → Nat) : Prop where
  length : vals.length = c.threads.length
  den : ∀ i p, c.threads[i]? = some p → ∃ w, vals[i]? = some w ∧ Den rules vals (K i) (h i) p w (Ts i)
  outside : ∀ i, c.threads.length ≤ i → K i = 0 ∧ h i = none ∧ Ts i = fun x => x = []
  ranks : ∀ i j, j ∈ K i → j < c.threads.length ∧ rank j < rank i
  owned : ∀ j, 0 < j → j < c.threads.length → (∃ r, c.threads[j]? = some (.done r)) ∨ ∃ i, j ∈ K i
  locks : ∀ o i, (o, i) ∈ c.locks ↔ ∃ w, h i = some (o, w)
  serial : Serial rules h trace
  free : (c.locks.map (·.1)).Nodup
  main : vals[0]? = some v
  events : ∀ xs l, (∀ i, Ts i (xs i)) → Shuffle xs l → T (trace ++ l)

def Good [DecidableEq O] (rules : Rules E O) (v : Val) (T : List E → Prop) (c : Config E O) (trace : List E) : Prop :=
  ∃ vals K h Ts rank, Inv rules v T c trace vals K h Ts rank

variable [DecidableEq O] {rules : Rules E O} {v : Val} {T : List E → Prop}

theorem good_start {p : Proc E O} (d : Den rules [v] 0 none p v T) : Good rules v T (start p) [] := by
  refine ⟨[v], fun _ => 0, fun _ => none, fun i => if i = 0 then T else fun x => x = [], fun _ => 0, ?_⟩
  refine ⟨rfl, ?_, ?_, ?_, ?_, ?_, fun _ o => ⟨[], [], rfl, by simp, by simp, fun _ => rfl⟩, ?_, rfl, ?_⟩
  · intro i q hq
    cases i with
    | zero =>
      simp only [start, List.getElem?_cons_zero, Option.some.injEq] at hq
      subst hq
      exact ⟨v, rfl, by simpa using d⟩
    | succ i => simp [start] at hq
  · intro i hi
    have : i ≠ 0 := by simp [start] at hi; omega
    simp [this]
  · intro i j hj; simp at hj
  · intro j h1 h2; simp [start] at h2; omega
  · intro o i; simp [start]
  · simp [start]
  · intro xs l hxs hl
    simp only [List.nil_append]
    have h0 : ∀ i, i ≠ 0 → xs i = [] := fun i hi => by simpa [hi] using hxs i
    have : l = xs 0 := by
      clear hxs
      induction hl with
      | nil h => rw [h]
      | @cons xs i e x l h _ ih =>
        have hi : i = 0 := by
          by_contra hi
          rw [h0 i hi] at h; cases h
        subst hi
        rw [h, ih fun j hj => by simp [update, hj, h0 j hj]]
        simp
    rw [this]
    simpa using hxs 0

theorem get_set {α : Type} {ts : List α} {i j : Nat} {p q x : α} (h : ts[i]? = some p) (hx : (ts.set i q)[j]? = some x) :
    (j = i ∧ x = q) ∨ (j ≠ i ∧ ts[j]? = some x) := by
  by_cases hj : j = i
  · subst hj
    rw [List.getElem?_set_self (List.getElem?_eq_some_iff.1 h).1] at hx
    exact .inl ⟨rfl, (Option.some.inj hx).symm⟩
  · rw [List.getElem?_set_ne (fun h => hj h.symm)] at hx
    exact .inr ⟨hj, hx⟩

theorem lt_of_get {α : Type} {ts : List α} {i : Nat} {p : α} (h : ts[i]? = some p) : i < ts.length :=
  (List.getElem?_eq_some_iff.1 h).1

theorem Serial.emit {h : Nat → Option (O × List E)} {trace : List E} {e : E} (hs : Serial rules h trace) (he : rules.known → rules.owner e = none) :
    Serial rules h (trace ++ [e]) := by
  intro kn o
  have he := he kn
  obtain ⟨calls, last, h1, h2⟩ := hs kn o
  refine ⟨calls, last, ?_, h2⟩
  rw [← h1]
  simp [eventsOf, he]

/-- No other thread has the lock. -/
def Alone (h : Nat → Option (O × List E)) (i : Nat) (o : O) : Prop := ∀ j w, h j = some (o, w) → j = i

theorem Serial.act {h : Nat → Option (O × List E)} {trace : List E} {e : E} {i : Nat} {o : O} {w : List E} (hs : Serial rules h trace)
    (hi : h i = some (o, e :: w)) (ha : Alone h i o) : Serial rules (update h i (some (o, w))) (trace ++ [e]) := by
  intro kn o'
  have he : rules.owner e = some o := by
    obtain ⟨_, _, _, _, h3, _⟩ := hs kn o
    exact (h3 i _ hi).2 e (by simp)
  obtain ⟨calls, last, h1, h2, h3, h4⟩ := hs kn o'
  by_cases ho : o' = o
  · subst ho
    refine ⟨calls, last ++ [e], ?_, h2, fun j w' hj => ?_, fun hn => absurd (by simp) (hn i w)⟩
    · unfold eventsOf at h1 ⊢
      rw [List.filter_append, h1]
      simp [he]
    · by_cases hji : j = i
      · subst hji
        simp only [Function.update_self, Option.some.injEq, Prod.mk.injEq, true_and] at hj
        subst hj
        refine ⟨by simpa using (h3 j _ hi).1, fun x hx => (h3 j _ hi).2 x (by simp [hx])⟩
      · rw [Function.update_of_ne hji] at hj
        exact absurd (ha j w' hj) hji
  · refine ⟨calls, last, ?_, h2, fun j w' hj => ?_, fun hn => h4 fun j w' hj => ?_⟩
    · unfold eventsOf at h1 ⊢
      rw [List.filter_append, h1]
      simp [he, Ne.symm ho]
    · by_cases hji : j = i
      · subst hji
        simp only [Function.update_self, Option.some.injEq, Prod.mk.injEq] at hj
        exact absurd hj.1.symm ho
      · rw [Function.update_of_ne hji] at hj
        exact h3 j w' hj
    · by_cases hji : j = i
      · subst hji
        rw [hi] at hj
        simp only [Option.some.injEq, Prod.mk.injEq] at hj
        exact ho hj.1.symm
      · exact hn j w' (by rw [Function.update_of_ne hji]; exact hj)

theorem Serial.enter {h : Nat → Option (O × List E)} {trace : List E} {i : Nat} {o : O} {w : List E} (hs : Serial rules h trace)
    (hi : h i = none) (hf : ∀ j w, h j ≠ some (o, w)) (hc : rules.call o w) (hw : rules.known → ∀ e ∈ w, rules.owner e = some o) :
    Serial rules (update h i (some (o, w))) trace := by
  intro kn o'
  obtain ⟨calls, last, h1, h2, h3, h4⟩ := hs kn o'
  refine ⟨calls, last, h1, h2, fun j w' hj => ?_, fun hn => h4 fun j w' hj => ?_⟩
  · by_cases hji : j = i
    · subst hji
      simp only [Function.update_self, Option.some.injEq, Prod.mk.injEq] at hj
      obtain ⟨rfl, rfl⟩ := hj
      rw [h4 hf]
      exact ⟨hc, hw kn⟩
    · rw [Function.update_of_ne hji] at hj
      exact h3 j w' hj
  · by_cases hji : j = i
    · subst hji
      rw [hi] at hj; cases hj
    · exact hn j w' (by rw [Function.update_of_ne hji]; exact hj)

theorem Serial.leave {h : Nat → Option (O × List E)} {trace : List E} {i : Nat} {o : O} (hs : Serial rules h trace)
    (hi : h i = some (o, [])) (ha : Alone h i o) : Serial rules (update h i none) trace := by
  intro kn o'
  obtain ⟨calls, last, h1, h2, h3, h4⟩ := hs kn o'
  by_cases ho : o' = o
  · subst ho
    refine ⟨calls ++ [last], [], by simp [h1], fun c hc => ?_, fun j w' hj => ?_, fun _ => rfl⟩
    · rcases List.mem_append.1 hc with hc | hc
      · exact h2 c hc
      · simp only [List.mem_singleton] at hc
        subst hc
        simpa using (h3 i _ hi).1
    · by_cases hji : j = i
      · subst hji; simp at hj
      · rw [Function.update_of_ne hji] at hj
        exact absurd (ha j w' hj) hji
  · refine ⟨calls, last, h1, h2, fun j w' hj => ?_, fun hn => h4 fun j w' hj => ?_⟩
    · by_cases hji : j = i
      · subst hji; simp at hj
      · rw [Function.update_of_ne hji] at hj
        exact h3 j w' hj
    · by_cases hji : j = i
      · subst hji
        rw [hi] at hj
        simp only [Option.some.injEq, Prod.mk.injEq] at hj
        exact ho hj.1.symm
      · exact hn j w' (by rw [Function.update_of_ne hji]; exact hj)

theorem Inv.alone {c : Config E O} {trace : List E} {vals K h Ts rank} (g : Inv rules v T c trace vals K h Ts rank) {i : Nat} {o : O}
    {w : List E} (hi : h i = some (o, w)) : Alone h i o := by
  intro j w' hj
  have h1 := (g.locks o i).2 ⟨w, hi⟩
  have h2 := (g.locks o j).2 ⟨w', hj⟩
  have := List.inj_on_of_nodup_map g.free h1 h2 rfl
  exact (Prod.ext_iff.1 this).2.symm

/-- Steps which change one thread only, and give no events. -/
theorem Inv.change {c : Config E O} {trace : List E} {vals K h Ts rank} (g : Inv rules v T c trace vals K h Ts rank) {i : Nat}
    {p q : Proc E O} (hp : c.threads[i]? = some p) (hnd : ∀ r, p ≠ .done r) {ls : List (O × Nat)} {K' : Multiset Nat} {h' : Option (O × List E)}
    {T' : List E → Prop} {trace' : List E}
    (hd : ∀ w, vals[i]? = some w → Den rules vals K' h' q w T') (hK : ∀ j ∈ K', j ∈ K i)
    (hK' : ∀ j ∈ K i, j ∈ K' ∨ ∃ r, c.threads[j]? = some (.done r))
    (hl : ∀ o j, (o, j) ∈ ls ↔ ∃ w, update h i h' j = some (o, w)) (hs : Serial rules (update h i h') trace') (hf : (ls.map (·.1)).Nodup)
    (he : ∀ xs l, (∀ j, update Ts i T' j (xs j)) → Shuffle xs l → T (trace' ++ l)) :
    Good rules v T ⟨c.threads.set i q, ls⟩ trace' := by
  have hi := lt_of_get hp
  refine ⟨vals, update K i K', update h i h', update Ts i T', rank, ?_⟩
  refine ⟨by simpa using g.length, ?_, ?_, ?_, ?_, hl, hs, hf, g.main, he⟩
  · intro j x hx
    rcases get_set hp hx with ⟨rfl, rfl⟩ | ⟨hj, hx⟩
    · have : j < vals.length := g.length ▸ hi
      refine ⟨vals[j], List.getElem?_eq_getElem this, ?_⟩
      simpa using hd _ (List.getElem?_eq_getElem this)
    · obtain ⟨w, h1, h2⟩ := g.den j x hx
      exact ⟨w, h1, by simpa [update, hj] using h2⟩
  · intro j hj
    have : j ≠ i := by simp at hj; omega
    simpa [update, this] using g.outside j (by simpa using hj)
  · intro j k hk
    by_cases hj : j = i
    · subst hj
      simpa using g.ranks j k (hK k (by simpa using hk))
    · simpa using g.ranks j k (by simpa [update, hj] using hk)
  · intro j h0 hj
    have ended (r) (hr : c.threads[j]? = some (.done r)) : ∃ r, (c.threads.set i q)[j]? = some (.done r) := by
      have : i ≠ j := fun e => by
        rw [e, hr, Option.some.injEq] at hp
        exact hnd r hp.symm
      exact ⟨r, by rw [List.getElem?_set_ne this]; exact hr⟩
    rcases g.owned j h0 (by simpa using hj) with ⟨r, hr⟩ | ⟨k, hk⟩
    · exact .inl (ended r hr)
    · by_cases hki : k = i
      · subst hki
        rcases hK' j hk with h1 | ⟨r, hr⟩
        · exact .inr ⟨k, by simpa using h1⟩
        · exact .inl (ended r hr)
      · exact .inr ⟨k, by simpa [update, hki] using hk⟩

/-- Events after one more. -/
theorem Inv.emitted {c : Config E O} {trace : List E} {vals K h Ts rank} (g : Inv rules v T c trace vals K h Ts rank) (i : Nat) (e : E) :
    ∀ xs l, (∀ j, update Ts i (fun x => Ts i (e :: x)) j (xs j)) → Shuffle xs l → T (trace ++ [e] ++ l) := by
  intro xs l hxs hl
  have := g.events (update xs i (e :: xs i)) (e :: l) (fun j => ?_) (.cons (i := i) (e := e) (x := xs i) (by simp) ?_)
  · simpa using this
  · have := hxs j
    by_cases hj : j = i
    · subst hj; simpa using this
    · simpa [update, hj] using this
  · have : update (update xs i (e :: xs i)) i (xs i) = xs := by simp
    rw [this]; exact hl

theorem update_same {α : Type} (f : Nat → α) (i : Nat) : update f i (f i) = f := Function.update_eq_self i f

theorem Good.step {c d : Config E O} {trace : List E} {l : Option (Nat × E)} (g : Good rules v T c trace) (s : Step c l d) :
    Good rules v T d (trace ++ l.toList.map (·.2)) := by
  obtain ⟨vals, K, h, Ts, rank, g⟩ := g
  cases s with
  | @emit ts ls i e k hp =>
    obtain ⟨w, hw, hd⟩ := g.den i _ hp
    generalize hK : K i = Ki at hd
    generalize hh : h i = hi at hd
    cases hd with
    | emit ha n =>
      refine g.change hp (fun r => nofun) (K' := K i) (h' := h i) (T' := fun x => Ts i (e :: x)) ?_ (fun _ h => h) (fun _ h => .inl h)
        ?_ ?_ g.free (g.emitted i e)
      · intro w' hw'
        rw [hw] at hw'
        cases hw'
        rw [hK, hh]
        exact n
      · rw [update_same]; exact g.locks
      · rw [update_same]; exact g.serial.emit ha
    | @act _ _ o rest _ _ _ _ n =>
      refine g.change hp (fun r => nofun) (K' := K i) (h' := some (o, rest)) (T' := fun x => Ts i (e :: x)) ?_ (fun _ h => h)
        (fun _ h => .inl h) ?_ (g.serial.act hh (g.alone hh)) g.free (g.emitted i e)
      · intro w' hw'
        rw [hw] at hw'
        cases hw'
        rw [hK]
        exact n
      · intro o' j
        rw [g.locks]
        by_cases hj : j = i
        · subst hj
          simp [hh]
        · simp [update, hj]
  | @enter ts ls i o k hp hfree =>
    obtain ⟨w, hw, hd⟩ := g.den i _ hp
    generalize hK : K i = Ki at hd
    generalize hh : h i = hi at hd
    cases hd with
    | @enter _ _ _ call _ _ _ hc hcw n =>
      simp only [Option.toList_none, List.map_nil, List.append_nil]
      refine g.change hp (fun r => nofun) (K' := K i) (h' := some (o, call)) (T' := Ts i) ?_ (fun _ h => h) (fun _ h => .inl h) ?_
        (g.serial.enter hh (fun j w' hj => hfree j ((g.locks o j).2 ⟨w', hj⟩)) hc hcw) ?_ ?_
      · intro w' hw'
        rw [hw] at hw'
        cases hw'
        rw [hK]
        exact n
      · intro o' j
        by_cases hj : j = i
        · subst hj
          have : (o', j) ∉ ls := fun hm => by
            obtain ⟨_, this⟩ := (g.locks o' j).1 hm
            rw [hh] at this; cases this
          simp [this, eq_comm]
        · have := g.locks o' j
          simpa [update, hj] using this
      · simp only [List.map_cons, List.nodup_cons]
        refine ⟨fun hm => ?_, g.free⟩
        obtain ⟨⟨o', j⟩, hm', he⟩ := List.mem_map.1 hm
        simp only at he
        subst he
        exact hfree j hm'
      · rw [update_same]; exact g.events
  | @leave ts ls ls' i o k hp hperm =>
    obtain ⟨w, hw, hd⟩ := g.den i _ hp
    generalize hK : K i = Ki at hd
    generalize hh : h i = hi at hd
    cases hd with
    | leave n =>
      simp only [Option.toList_none, List.map_nil, List.append_nil]
      have hnd : ((o :: ls'.map (·.1))).Nodup := by
        have := (hperm.map (·.1)).nodup_iff.1 g.free
        simpa using this
      refine g.change hp (fun r => nofun) (K' := K i) (h' := none) (T' := Ts i) ?_ (fun _ h => h) (fun _ h => .inl h) ?_
        (g.serial.leave hh (g.alone hh)) (List.nodup_cons.1 hnd).2 ?_
      · intro w' hw'
        rw [hw] at hw'
        cases hw'
        rw [hK]
        exact n
      · intro o' j
        by_cases hj : j = i
        · subst hj
          simp only [Function.update_self, reduceCtorEq, exists_const, iff_false]
          intro hm
          obtain ⟨_, h1⟩ := (g.locks o' j).1 (hperm.mem_iff.2 (List.mem_cons_of_mem _ hm))
          rw [hh] at h1
          cases h1
          exact (List.nodup_cons.1 hnd).1 (List.mem_map.2 ⟨_, hm, rfl⟩)
        · have := g.locks o' j
          rw [Function.update_of_ne hj, ← this, hperm.mem_iff]
          simp [hj]
      · rw [update_same]; exact g.events
  | @join ts ls i j k r hp hr =>
    obtain ⟨w, hw, hd⟩ := g.den i _ hp
    generalize hK : K i = Ki at hd
    generalize hh : h i = hi at hd
    cases hd with
    | @join _ _ K' _ v' _ _ _ hKi hv n =>
      simp only [Option.toList_none, List.map_nil, List.append_nil]
      have hvr : v' = r := by
        obtain ⟨w', hw', hd'⟩ := g.den j _ hr
        rw [hv] at hw'
        cases hw'
        generalize K j = a at hd'
        generalize h j = b at hd'
        cases hd'
        rfl
      subst hvr
      refine g.change hp (fun r => nofun) (K' := K') (h' := none) (T' := Ts i) ?_ ?_ ?_ ?_ ?_ g.free ?_
      · intro w' hw'
        rw [hw] at hw'
        cases hw'
        exact n
      · intro x hx; rw [hK, hKi]; exact Multiset.mem_cons_of_mem hx
      · intro x hx
        rw [hK, hKi] at hx
        rcases Multiset.mem_cons.1 hx with rfl | hx
        · exact .inr ⟨_, hr⟩
        · exact .inl hx
      · rw [← hh, update_same]; exact g.locks
      · rw [← hh, update_same]; exact g.serial
      · rw [update_same]; exact g.events
  | @choose ts ls i k hp b =>
    obtain ⟨w, hw, hd⟩ := g.den i _ hp
    generalize hK : K i = Ki at hd
    generalize hh : h i = hi at hd
    cases hd with
    | choose n =>
      simp only [Option.toList_none, List.map_nil, List.append_nil]
      refine g.change hp (fun r => nofun) (K' := K i) (h' := h i) (T' := Ts i) ?_ (fun _ h => h) (fun _ h => .inl h) ?_ ?_ g.free ?_
      · intro w' hw'
        rw [hw] at hw'
        cases hw'
        rw [hK, hh]
        exact n b
      · rw [update_same]; exact g.locks
      · rw [update_same]; exact g.serial
      · rw [update_same]; exact g.events
  | @fork ts ls i c k hp =>
    obtain ⟨w, hw, hd⟩ := g.den i _ hp
    generalize hK : K i = Ki at hd
    generalize hh : h i = hi at hd
    simp only [Option.toList_none, List.map_nil, List.append_nil]
    cases hd with
    | @fork _ _ K₁ K₂ _ _ v' _ Tc Tk _ _ hKi hc hk ht =>
      have hi := lt_of_get hp
      have hlen : vals.length = ts.length := g.length
      have hne : i ≠ ts.length := by omega
      have hpre : vals <+: vals ++ [v'] := List.prefix_append _ _
      refine ⟨vals ++ [v'], update (update K i (ts.length ::ₘ K₂)) ts.length K₁, h, update (update Ts i Tk) ts.length Tc,
        fun j => if j = ts.length then 2 * rank i else 2 * rank j + 1, ?_⟩
      have hlength : (ts.set i (k ts.length) ++ [c]).length = ts.length + 1 := by simp
      have outN := g.outside ts.length (Nat.le_refl _)
      refine ⟨by simp [hlen], ?_, ?_, ?_, ?_, g.locks, g.serial, g.free, prefix_get hpre g.main, ?_⟩
      · intro j x hx
        by_cases hjn : j < ts.length
        · rw [List.getElem?_append_left (by simpa using hjn)] at hx
          have hjn' : j ≠ ts.length := by omega
          rcases get_set hp hx with ⟨rfl, rfl⟩ | ⟨hj, hx⟩
          · refine ⟨w, prefix_get hpre hw, ?_⟩
            rw [Function.update_of_ne hjn', Function.update_of_ne hjn', Function.update_self, Function.update_self, hh]
            exact hk _ hpre _ (by rw [← hlen]; simp)
          · obtain ⟨w', h1, h2⟩ := g.den j x hx
            refine ⟨w', prefix_get hpre h1, ?_⟩
            rw [Function.update_of_ne hjn', Function.update_of_ne hjn', Function.update_of_ne hj, Function.update_of_ne hj]
            exact h2.mono hpre fun _ h => h
        · have hj : j = ts.length := by
            have := lt_of_get hx
            simp only [hlength] at this
            omega
          subst hj
          rw [List.getElem?_append_right (by simp)] at hx
          simp at hx
          subst hx
          refine ⟨v', by rw [← hlen]; simp, ?_⟩
          rw [Function.update_self, Function.update_self, outN.2.1]
          exact hc.mono hpre fun _ h => h
      · intro j hj
        rw [hlength] at hj
        have h1 : j ≠ ts.length := by omega
        have h2 : j ≠ i := by omega
        simpa [update, h1, h2] using g.outside j (by show ts.length ≤ j; omega)
      · intro j x hx
        rw [hlength]
        by_cases hjn : j = ts.length
        · subst hjn
          simp only [Function.update_self] at hx
          have := g.ranks i x (by rw [hK, hKi]; exact Multiset.mem_add.2 (.inl hx))
          obtain ⟨h1, h2⟩ := this
          change x < ts.length at h1
          have : x ≠ ts.length := by omega
          simp only [this, if_false, if_true]
          omega
        · simp only [Function.update_of_ne hjn] at hx
          by_cases hj : j = i
          · subst hj
            simp only [Function.update_self] at hx
            rcases Multiset.mem_cons.1 hx with rfl | hx
            · simp only [if_true, hne, if_false]
              omega
            · have := g.ranks j x (by rw [hK, hKi]; exact Multiset.mem_add.2 (.inr hx))
              obtain ⟨h1, h2⟩ := this
              change x < ts.length at h1
              have : x ≠ ts.length := by omega
              simp only [this, if_false, hne]
              omega
          · simp only [Function.update_of_ne hj] at hx
            obtain ⟨h1, h2⟩ := g.ranks j x hx
            change x < ts.length at h1
            have : x ≠ ts.length := by omega
            simp only [this, if_false, hjn]
            omega
      · intro j h0 hj
        rw [hlength] at hj
        by_cases hjn : j = ts.length
        · exact .inr ⟨i, by simp [update, hne, hjn]⟩
        · rcases g.owned j h0 (by show j < ts.length; omega) with ⟨r, hr⟩ | ⟨x, hx⟩
          · refine .inl ⟨r, ?_⟩
            have : i ≠ j := fun e => by
              change ts[j]? = _ at hr
              rw [e, hr] at hp; cases hp
            rw [List.getElem?_append_left (by simp; omega), List.getElem?_set_ne this]
            exact hr
          · right
            by_cases hxi : x = i
            · subst hxi
              rw [hK, hKi] at hx
              rcases Multiset.mem_add.1 hx with hx | hx
              · exact ⟨ts.length, by simpa using hx⟩
              · exact ⟨x, by simp [update, hne, hx]⟩
            · have hxn : x ≠ ts.length := fun e => by
                rw [e, outN.1] at hx; simp at hx
              exact ⟨x, by simpa [update, hxn, hxi] using hx⟩
      · intro xs l hxs hl
        obtain ⟨e, h1, h2⟩ := hl.merge hne
        have hn := hxs ts.length
        have hi' := hxs i
        rw [Function.update_self] at hn
        rw [Function.update_of_ne hne, Function.update_self] at hi'
        refine g.events _ l (fun j => ?_) h2
        by_cases hjn : j = ts.length
        · subst hjn
          rw [Function.update_self, outN.2.2]
        · rw [Function.update_of_ne hjn]
          by_cases hj : j = i
          · subst hj
            rw [Function.update_self]
            exact ht _ _ _ hn hi' h1
          · rw [Function.update_of_ne hj]
            have := hxs j
            rw [Function.update_of_ne hjn, Function.update_of_ne hj] at this
            exact this

theorem Good.steps {c d : Config E O} {t : List (Nat × E)} {trace : List E} (g : Good rules v T c trace) (s : Steps c t d) :
    Good rules v T d (trace ++ t.map (·.2)) := by
  induction s with
  | refl => simpa using g
  | step _ s ih => simpa [List.append_assoc] using ih.step s

/-! ## Consequences -/

/-- A thread which has not ended, with the largest or smallest rank. -/
theorem exists_extreme {P : Nat → Prop} {n : Nat} (f : Nat → Nat) (h : ∃ i < n, P i) :
    (∃ i < n, P i ∧ ∀ j < n, P j → f i ≤ f j) ∧ ∃ i < n, P i ∧ ∀ j < n, P j → f j ≤ f i := by
  induction n with
  | zero => obtain ⟨i, hi, _⟩ := h; omega
  | succ n ih =>
    by_cases hn : ∃ i < n, P i
    · obtain ⟨⟨i, hi, h1, h2⟩, ⟨j, hj, h3, h4⟩⟩ := ih hn
      by_cases hp : P n
      · constructor
        · by_cases hc : f i ≤ f n
          · exact ⟨i, by omega, h1, fun k hk hpk => by rcases Nat.lt_succ_iff_lt_or_eq.1 hk with hk | rfl; exacts [h2 k hk hpk, hc]⟩
          · exact ⟨n, by omega, hp, fun k hk hpk => by
              rcases Nat.lt_succ_iff_lt_or_eq.1 hk with hk | rfl
              · have := h2 k hk hpk; omega
              · exact Nat.le_refl _⟩
        · by_cases hc : f n ≤ f j
          · exact ⟨j, by omega, h3, fun k hk hpk => by rcases Nat.lt_succ_iff_lt_or_eq.1 hk with hk | rfl; exacts [h4 k hk hpk, hc]⟩
          · exact ⟨n, by omega, hp, fun k hk hpk => by
              rcases Nat.lt_succ_iff_lt_or_eq.1 hk with hk | rfl
              · have := h4 k hk hpk; omega
              · exact Nat.le_refl _⟩
      · exact ⟨⟨i, by omega, h1, fun k hk hpk => h2 k (by
            rcases Nat.lt_succ_iff_lt_or_eq.1 hk with hk | rfl; exacts [hk, absurd hpk hp]) hpk⟩,
          ⟨j, by omega, h3, fun k hk hpk => h4 k (by
            rcases Nat.lt_succ_iff_lt_or_eq.1 hk with hk | rfl; exacts [hk, absurd hpk hp]) hpk⟩⟩
    · obtain ⟨i, hi, hp⟩ := h
      have hin : i = n := by
        rcases Nat.lt_succ_iff_lt_or_eq.1 hi with hi | rfl
        · exact absurd ⟨i, hi, hp⟩ hn
        · rfl
      subst hin
      refine ⟨⟨i, hi, hp, fun k hk hpk => ?_⟩, ⟨i, hi, hp, fun k hk hpk => ?_⟩⟩ <;>
      · rcases Nat.lt_succ_iff_lt_or_eq.1 hk with hk | rfl
        · exact absurd ⟨k, hk, hpk⟩ hn
        · exact Nat.le_refl _

/-- The thread has not ended. -/
def Running (c : Config E O) (i : Nat) : Prop := ∃ p, c.threads[i]? = some p ∧ ∀ r, p ≠ .done r

omit [DecidableEq O] in
theorem not_ended {c : Config E O} (h : ¬ Ended c) : ∃ i < c.threads.length, Running c i := by
  simp only [Ended, not_forall] at h
  obtain ⟨p, hp, hr⟩ := h
  obtain ⟨i, hi⟩ := List.mem_iff_getElem?.1 hp
  exact ⟨i, lt_of_get hi, p, hi, fun r e => hr ⟨r, e⟩⟩

/-- There is no deadlock. -/
theorem Good.progress {c : Config E O} {trace : List E} (g : Good rules v T c trace) (hs : Stopped c) : Ended c := by
  obtain ⟨vals, K, h, Ts, rank, g⟩ := g
  by_contra he
  obtain ⟨⟨i, hi, ⟨p, hp, hr⟩, hmin⟩, _⟩ := exists_extreme rank (not_ended he)
  obtain ⟨ts, ls⟩ := c
  obtain ⟨w, hw, hd⟩ := g.den i p hp
  cases p with
  | done r => exact hr r rfl
  | emit e k => exact hs _ _ (.emit hp)
  | fork c k => exact hs _ _ (.fork hp)
  | choose k => exact hs _ _ (.choose hp true)
  | leave o k =>
    generalize hK : K i = Ki at hd
    generalize hh : h i = hi at hd
    cases hd with
    | leave n =>
      obtain ⟨s, t, hst⟩ := List.append_of_mem ((g.locks o i).2 ⟨_, hh⟩)
      exact hs _ _ (.leave hp (by simp only at hst; rw [hst]; exact List.perm_middle))
  | join j k =>
    generalize hK : K i = Ki at hd
    generalize hh : h i = hi at hd
    cases hd with
    | join hKi hv n =>
      obtain ⟨h1, h2⟩ := g.ranks i j (by rw [hK, hKi]; exact Multiset.mem_cons_self _ _)
      have hj : ¬ Running ⟨ts, ls⟩ j := fun hj => by have := hmin j h1 hj; omega
      change j < ts.length at h1
      have hget : ts[j]? = some ts[j] := List.getElem?_eq_getElem h1
      cases hq : ts[j] with
      | done r => exact hs _ _ (.join hp (by rw [hget, hq]))
      | _ => exact hj ⟨_, hget, fun r => by rw [hq]; nofun⟩
  | enter o k =>
    by_cases hf : ∀ j, (o, j) ∉ ls
    · exact hs _ _ (.enter hp hf)
    · simp only [not_forall, Classical.not_not] at hf
      obtain ⟨j, hj⟩ := hf
      obtain ⟨rest, hhj⟩ := (g.locks o j).1 hj
      have hjl : j < ts.length := by
        by_contra hn
        have := (g.outside j (by show ts.length ≤ j; omega)).2.1
        rw [hhj] at this; cases this
      obtain ⟨w', hw', hd'⟩ := g.den j _ (List.getElem?_eq_getElem hjl)
      have hget : ts[j]? = some ts[j] := List.getElem?_eq_getElem hjl
      rw [hhj] at hd'
      generalize K j = Kj at hd'
      change Den rules vals Kj (some (o, rest)) ts[j] w' (Ts j) at hd'
      generalize hq : ts[j] = q at hd' hget
      cases hd' with
      | act => exact hs _ _ (.emit hget)
      | leave =>
        obtain ⟨s, t, hst⟩ := List.append_of_mem hj
        exact hs _ _ (.leave hget (by rw [hst]; exact List.perm_middle))

/-- If the first thread has ended, so have all the others. -/
theorem Good.main_last {c : Config E O} {trace : List E} (g : Good rules v T c trace) {r : Val} (hm : c.threads[0]? = some (.done r)) :
    Ended c := by
  obtain ⟨vals, K, h, Ts, rank, g⟩ := g
  by_contra he
  obtain ⟨_, ⟨i, hi, ⟨p, hp, hr⟩, hmax⟩⟩ := exists_extreme rank (not_ended he)
  have h0 : 0 < i := by
    rcases Nat.eq_zero_or_pos i with rfl | h
    · rw [hm] at hp; cases hp; exact absurd rfl (hr r)
    · exact h
  rcases g.owned i h0 hi with ⟨r', hr'⟩ | ⟨j, hj⟩
  · rw [hp] at hr'; cases hr'; exact hr r' rfl
  · obtain ⟨_, h2⟩ := g.ranks j i hj
    have hjl : j < c.threads.length := by
      by_contra hn
      have := (g.outside j (by omega)).1
      rw [this] at hj; simp at hj
    have hjr : Running c j := by
      refine ⟨_, List.getElem?_eq_getElem hjl, fun r e => ?_⟩
      obtain ⟨w, _, hd⟩ := g.den j _ (List.getElem?_eq_getElem hjl)
      rw [e] at hd
      generalize hK : K j = Kj at hd
      generalize h j = hj' at hd
      cases hd
      rw [hK] at hj; simp at hj
    have := hmax j hjl hjr
    omega

/-- What has happened when all threads have ended. -/
theorem Good.finished {c : Config E O} {trace : List E} (g : Good rules v T c trace) (he : Ended c) :
    c.threads[0]? = some (.done v) ∧ T trace := by
  obtain ⟨vals, K, h, Ts, rank, g⟩ := g
  constructor
  · have h0 : 0 < c.threads.length := by rw [← g.length]; exact lt_of_get g.main
    obtain ⟨r, hr⟩ := he _ (List.getElem_mem h0)
    have hget := List.getElem?_eq_getElem h0
    obtain ⟨w, hw, hd⟩ := g.den 0 _ hget
    rw [g.main] at hw
    cases hw
    rw [hr] at hd hget
    generalize K 0 = a at hd
    generalize h 0 = b at hd
    cases hd
    exact hget
  · have := g.events (fun _ => []) [] (fun i => ?_) (.nil fun _ => rfl)
    · simpa using this
    · by_cases hi : i < c.threads.length
      · obtain ⟨r, hr⟩ := he _ (List.getElem_mem hi)
        obtain ⟨w, hw, hd⟩ := g.den i _ (List.getElem?_eq_getElem hi)
        rw [hr] at hd
        generalize K i = a at hd
        generalize h i = b at hd
        cases hd
        assumption
      · rw [(g.outside i (by omega)).2.2]

/-- No object is locked by two threads. -/
theorem Good.exclusive {c : Config E O} {trace : List E} (g : Good rules v T c trace) : (c.locks.map (·.1)).Nodup := by
  obtain ⟨vals, K, h, Ts, rank, g⟩ := g
  exact g.free

/-- An event of an accessor happens in a thread which has the lock of the object. -/
theorem Good.holds_lock {c d : Config E O} {trace : List E} {i : Nat} {e : E} {o : O} (g : Good rules v T c trace)
    (kn : rules.known) (s : Step c (some (i, e)) d) (ho : rules.owner e = some o) : (o, i) ∈ c.locks := by
  obtain ⟨vals, K, h, Ts, rank, g⟩ := g
  cases s with
  | emit hp =>
    obtain ⟨w, hw, hd⟩ := g.den i _ hp
    generalize hK : K i = Ki at hd
    generalize hh : h i = hi at hd
    cases hd with
    | emit ha n => rw [ha kn] at ho; cases ho
    | @act _ _ o' rest _ _ _ _ n =>
      obtain ⟨_, _, _, _, h3, _⟩ := g.serial kn o'
      have := (h3 i _ hh).2 e (by simp)
      rw [ho] at this
      cases this
      exact (g.locks o i).2 ⟨_, hh⟩

/-- The calls of the accessors of an object come one after the other. -/
theorem Good.serial {c : Config E O} {trace : List E} (g : Good rules v T c trace) (kn : rules.known) (o : O) :
    ∃ (calls : List (List E)) (last : List E), eventsOf rules o trace = calls.flatten ++ last ∧ (∀ c ∈ calls, rules.call o c) ∧
      (last = [] ∨ ∃ rest, rules.call o (last ++ rest)) ∧ (Ended c → last = []) := by
  obtain ⟨vals, K, h, Ts, rank, g⟩ := g
  obtain ⟨calls, last, h1, h2, h3, h4⟩ := g.serial kn o
  refine ⟨calls, last, h1, h2, ?_, fun he => h4 fun i w hi => ?_⟩
  · by_cases hn : ∀ i w, h i ≠ some (o, w)
    · exact .inl (h4 hn)
    · push Not at hn
      obtain ⟨i, w, hi⟩ := hn
      exact .inr ⟨w, (h3 i w hi).1⟩
  · by_cases hi' : i < c.threads.length
    · obtain ⟨r, hr⟩ := he _ (List.getElem_mem hi')
      obtain ⟨w', _, hd⟩ := g.den i _ (List.getElem?_eq_getElem hi')
      rw [hr, hi] at hd
      generalize K i = a at hd
      cases hd
    · rw [(g.outside i (by omega)).2.1] at hi
      cases hi

/-- When all threads have ended, nothing is locked. -/
theorem Good.unlocked {c : Config E O} {trace : List E} (g : Good rules v T c trace) (he : Ended c) : c.locks = [] := by
  obtain ⟨vals, K, h, Ts, rank, g⟩ := g
  refine List.eq_nil_iff_forall_not_mem.2 fun ⟨o, i⟩ hm => ?_
  obtain ⟨w, hi⟩ := (g.locks o i).1 hm
  by_cases hi' : i < c.threads.length
  · obtain ⟨r, hr⟩ := he _ (List.getElem_mem hi')
    obtain ⟨w', _, hd⟩ := g.den i _ (List.getElem?_eq_getElem hi')
    rw [hr, hi] at hd
    generalize K i = a at hd
    cases hd
  · rw [(g.outside i (by omega)).2.1] at hi
    cases hi

/-- Without forks there is no further thread. -/
theorem Good.single {c d : Config E O} {t : List (Nat × E)} {trace : List E} (g : Good rules v T c trace) (hf : ¬ rules.forks)
    (s : Steps c t d) : d.threads.length = c.threads.length := by
  induction s with
  | refl => rfl
  | step s1 s2 ih =>
    have g' := g.steps s1
    cases s2 with
    | fork h =>
      obtain ⟨vals, K, h', Ts, rank, g'⟩ := g'
      obtain ⟨w, _, hd⟩ := g'.den _ _ h
      generalize K _ = a at hd
      generalize h' _ = b at hd
      cases hd with
      | fork hf' => exact absurd hf' hf
    | _ => simpa using ih

end Verif.Async
