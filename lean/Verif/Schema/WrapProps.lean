import Verif.Schema.Wrap
import Verif.SortedMap.Lemmas
import Verif.SortedMap.Props
import Mathlib.Tactic.Tauto

/-!
# `WrapType` gives one object for each kind and type, in every interleaving
-/
namespace Verif.Schema.Wrap
open Verif.SortedMap Verif.SortedMap.Spec Verif.Std

/-! ## The vector -/

theorem addrLess_strictWeak : StrictWeak addrLess := natLess_strictWeak

theorem same_iff (a b : Addr) : same addrLess a b = true ↔ a = b := by
  constructor
  · intro h; simp [same, addrLess] at h; exact Nat.le_antisymm h.2 h.1
  · rintro rfl; simp [same, addrLess]

theorem find_some {m : SMap Addr Addr} (hm : Inv addrLess m) {k i : Nat} (h : findItr m k = some i) :
    ∃ v, m[i]? = some (k, v) := by
  obtain ⟨a, e, b, rfl, ha, hb, he⟩ := split addrLess_strictWeak Prod.fst k m hm
  have hr := range_split addrLess_strictWeak Prod.fst k a e b ha hb he
  rcases he with rfl | ⟨⟨k', v⟩, rfl, hx⟩
  · simp only [findItr, range, hr] at h
    simp at h
  · simp only [findItr, range, hr] at h
    rw [same_iff] at hx
    have hx : k' = k := hx
    simp at h
    subst h; subst hx
    exact ⟨v, by simp⟩

theorem emplace_spec {m : SMap Addr Addr} (hm : Inv addrLess m) (k v : Addr) :
    Inv addrLess (emplaceItr m k v).1 ∧
    (∃ v', (emplaceItr m k v).1[(emplaceItr m k v).2.1]? = some (k, v')) ∧
    (∀ e, e ∈ (emplaceItr m k v).1 ↔ e ∈ m ∨ ((emplaceItr m k v).2.2 = true ∧ e = (k, v))) ∧
    ((emplaceItr m k v).2.2 = false → (emplaceItr m k v).1 = m) := by
  obtain ⟨a, e, b, rfl, ha, hb, he⟩ := split addrLess_strictWeak Prod.fst k m hm
  have hr := range_split addrLess_strictWeak Prod.fst k a e b ha hb he
  rcases he with rfl | ⟨⟨k', v'⟩, rfl, hx⟩
  · have h1 : emplaceItr (a ++ [] ++ b) k v = (a ++ (k, v) :: b, a.length, true) := by
      simp only [emplaceItr, range, hr]
      simp [vectorInsert]
    rw [h1]
    refine ⟨?_, ⟨v, by simp⟩, ?_, by simp⟩
    · exact Sorted_insert addrLess_strictWeak (kf := Prod.fst) (x := (k, v)) rfl (by simpa [SortedMap.Inv, Sorted] using hm) ha hb
    · intro e; simp; tauto
  · rw [same_iff] at hx
    have hx : k' = k := hx
    subst hx
    have h1 : emplaceItr (a ++ [(k', v')] ++ b) k' v = (a ++ [(k', v')] ++ b, a.length, false) := by
      simp only [emplaceItr, range, hr]
      simp
    rw [h1]
    exact ⟨hm, ⟨v', by simp⟩, by simp, by simp⟩

theorem key_unique {m : SMap Addr Addr} (hm : Inv addrLess m) {k v v' : Addr} (h : (k, v) ∈ m) (h' : (k, v') ∈ m) :
    v = v' := by
  rcases List.mem_iff_getElem.1 h with ⟨i, hi, e⟩
  rcases List.mem_iff_getElem.1 h' with ⟨j, hj, e'⟩
  have hp := List.pairwise_iff_getElem.1 hm
  rcases Nat.lt_trichotomy i j with hlt | rfl | hlt
  · have := hp i j hi hj hlt
    rw [e, e'] at this; simp [addrLess] at this
  · rw [e] at e'; simpa using e'
  · have := hp j i hj hi hlt
    rw [e, e'] at this; simp [addrLess] at this

/-! ## The invariant -/

/-- The call a thread is in. -/
def Pc.call : Pc → Option Call
  | .idle => none
  | .called c | .reading c | .found c _ | .missed c | .upgrading c | .writing c | .emplacing c _ | .emplaced c _ => some c

/-- Has the shared lock. -/
def Pc.reads (b : Bool) : Pc → Bool
  | .reading c | .found c _ | .missed c => c.isList == b
  | _ => false

/-- Has the unique lock. -/
def Pc.writes (b : Bool) : Pc → Bool
  | .writing c | .emplacing c _ | .emplaced c _ => c.isList == b
  | _ => false

structure Good (s : State) : Prop where
  sorted : ∀ b, Inv addrLess (s.caches b).map
  writer : ∀ b t, (s.caches b).writer = some t ↔ (s.pc t).writes b = true
  readers : ∀ b t, t ∈ (s.caches b).readers ↔ (s.pc t).reads b = true
  nodup : ∀ b, (s.caches b).readers.Nodup
  excl : ∀ b, (s.caches b).writer ≠ none → (s.caches b).readers = []
  torn : ∀ b, (s.caches b).torn = true → ∃ t c a, s.pc t = .emplacing c a ∧ c.isList = b
  found : ∀ t c i, s.pc t = .found c i ∨ s.pc t = .emplaced c i →
    ∃ r, (s.caches c.isList).map[i]? = some (c.ofType, r)
  value : ∀ b k a, (k, a) ∈ (s.caches b).map → ∃ kind, s.heap a = some (.wrapper kind k) ∧ decide (kind = .list) = b
  temp : ∀ t c a, s.pc t = .emplacing c a → s.heap a = none
  temps : ∀ t t' c c' a, s.pc t = .emplacing c a → s.pc t' = .emplacing c' a → t = t'
  done : ∀ d ∈ s.done, (d.call.ofType, d.result) ∈ (s.caches d.call.isList).map ∧ d.call ∈ s.started
  ok : s.corrupt = false
  calls : ∀ t c, (s.pc t).call = some c → c ∈ s.started
  kinds : ∀ a k o, s.heap a = some (.wrapper k o) → ⟨k, o⟩ ∈ s.started

theorem good_init : Good {} := by
  constructor <;> simp [SortedMap.Inv, Sorted, Pc.reads, Pc.writes, Pc.call]

section
variable {s : State}

/-- While a thread has the shared lock, nobody changes the vector. -/
theorem Good.reading_not_torn (h : Good s) {t : Thread} {b : Bool} (hr : (s.pc t).reads b = true) :
    (s.caches b).torn = false := by
  cases hn : (s.caches b).torn with
  | false => rfl
  | true =>
    obtain ⟨t', c, a, hp, hc⟩ := h.torn b hn
    have hw := (h.writer b t').2 (by rw [hp]; simp [Pc.writes, hc])
    have := h.excl b (by rw [hw]; simp)
    have hm := (h.readers b t).2 hr
    rw [this] at hm; cases hm

theorem Good.writing_not_torn (h : Good s) {t : Thread} {b : Bool} (hw : (s.pc t).writes b = true)
    (hne : ∀ c a, s.pc t ≠ .emplacing c a) : (s.caches b).torn = false := by
  cases hn : (s.caches b).torn with
  | false => rfl
  | true =>
    obtain ⟨t', c, a, hp, hc⟩ := h.torn b hn
    have h1 := (h.writer b t').2 (by rw [hp]; simp [Pc.writes, hc])
    have h2 := (h.writer b t).2 hw
    rw [h1] at h2
    cases h2
    exact absurd hp (hne c a)

theorem Good.step (h : Good s) {s' : State} {t : Thread} (hs : Step t s s') : Good s' := by
  cases hs with
  | create a hf =>
    obtain ⟨hf1, hf2⟩ := hf
    exact {
      sorted := h.sorted, writer := h.writer, readers := h.readers, nodup := h.nodup, excl := h.excl, torn := h.torn,
      found := h.found, temps := h.temps, done := h.done, ok := h.ok, calls := h.calls
      value := by
        intro b k x hx
        obtain ⟨kind, hk, hb⟩ := h.value b k x hx
        refine ⟨kind, ?_, hb⟩
        have : x ≠ a := by rintro rfl; rw [hf1] at hk; cases hk
        simp [Function.update_of_ne this, hk]
      temp := by
        intro t c x hx
        have : x ≠ a := by rintro rfl; exact hf2 t c hx
        simp [Function.update_of_ne this, h.temp t c x hx]
      kinds := by
        intro x k o hx
        by_cases e : x = a
        · subst e; simp at hx
        · simp only [Function.update_of_ne e] at hx; exact h.kinds x k o hx }
  | call c hp hc =>
    obtain ⟨h1,h2,h3,h4,h5,h6,h7,h8,h9,h10,h11,h12,h13,h14⟩ := h
    constructor <;> simp only [State.setPc, Function.update_apply]
    all_goals grind [Pc.reads, Pc.writes, Pc.call]
  | lockShared c hp hw =>
    obtain ⟨h1,h2,h3,h4,h5,h6,h7,h8,h9,h10,h11,h12,h13,h14⟩ := h
    constructor <;> simp only [State.setPc, State.setCache, Function.update_apply]
    all_goals grind [Pc.reads, Pc.writes, Pc.call]
  | find c hp ht =>
    obtain ⟨h1,h2,h3,h4,h5,h6,h7,h8,h9,h10,h11,h12,h13,h14⟩ := h
    cases hf : findItr (s.caches c.isList).map c.ofType with
    | none =>
      constructor <;> simp only [State.setPc, State.setCache, Function.update_apply]
      all_goals grind [Pc.reads, Pc.writes, Pc.call]
    | some itr =>
      have := find_some (h1 c.isList) hf
      constructor <;> simp only [State.setPc, State.setCache, Function.update_apply]
      all_goals grind [Pc.reads, Pc.writes, Pc.call]
  | findTorn c hp ht =>
    have := h.reading_not_torn (t := t) (b := c.isList) (by rw [hp]; simp [Pc.reads])
    rw [this] at ht; cases ht
  | returnFound c itr e hp ht he =>
    have he' := h.found t c itr (.inl hp)
    have hmem := List.mem_of_getElem? he
    obtain ⟨h1,h2,h3,h4,h5,h6,h7,h8,h9,h10,h11,h12,h13,h14⟩ := h
    constructor <;> simp only [State.finish, State.setPc, State.setCache, Function.update_apply]
    all_goals grind [Pc.reads, Pc.writes, Pc.call]
  | returnFoundTorn c itr hp ht =>
    have h1 := h.reading_not_torn (t := t) (b := c.isList) (by rw [hp]; simp [Pc.reads])
    obtain ⟨r, h2⟩ := h.found t c itr (.inl hp)
    rw [h1, h2] at ht; simp at ht
  | unlock c hp =>
    obtain ⟨h1,h2,h3,h4,h5,h6,h7,h8,h9,h10,h11,h12,h13,h14⟩ := h
    constructor <;> simp only [State.setPc, State.setCache, Function.update_apply]
    all_goals grind [Pc.reads, Pc.writes, Pc.call]
  | lock c hp hw hr =>
    obtain ⟨h1,h2,h3,h4,h5,h6,h7,h8,h9,h10,h11,h12,h13,h14⟩ := h
    constructor <;> simp only [State.setPc, State.setCache, Function.update_apply]
    all_goals grind [Pc.reads, Pc.writes, Pc.call]
  | make c a hp hf ht =>
    obtain ⟨h1,h2,h3,h4,h5,h6,h7,h8,h9,h10,h11,h12,h13,h14⟩ := h
    obtain ⟨hf1, hf2⟩ := hf
    constructor <;> simp only [State.setPc, State.setCache, Function.update_apply]
    case torn =>
      intro b hb
      by_cases e : b = c.isList
      · exact ⟨t, c, a, by simp, e.symm⟩
      · simp only [e, if_false] at hb
        obtain ⟨t', c', a', hp', hc'⟩ := h6 b hb
        refine ⟨t', c', a', ?_, hc'⟩
        have : t' ≠ t := by rintro rfl; rw [hp] at hp'; cases hp'
        simp [this, hp']
    all_goals grind [Pc.reads, Pc.writes, Pc.call]
  | makeTorn c hp ht =>
    have := h.writing_not_torn (t := t) (b := c.isList) (by rw [hp]; simp [Pc.writes]) (by rw [hp]; simp)
    rw [this] at ht; cases ht
  | insert c a hp =>
    have hw := (h.writer c.isList t).2 (by rw [hp]; simp [Pc.writes])
    have hr := h.excl c.isList (by rw [hw]; simp)
    obtain ⟨k1, k2, k3, k4⟩ := emplace_spec (h.sorted c.isList) c.ofType a
    obtain ⟨h1,h2,h3,h4,h5,h6,h7,h8,h9,h10,h11,h12,h13,h14⟩ := h
    simp only [State.insert]
    generalize emplaceItr (s.caches c.isList).map c.ofType a = r at *
    obtain ⟨m, itr, inserted⟩ := r
    cases inserted with
    | false =>
      constructor <;> simp only [State.setPc, State.setCache, Function.update_apply, Bool.false_eq_true, if_false]
      case torn =>
        intro b hb
        by_cases e : b = c.isList
        · simp [e] at hb
        · simp only [e, if_false, if_true, reduceIte] at hb
          obtain ⟨t', c', a', hp', hc'⟩ := h6 b hb
          refine ⟨t', c', a', ?_, hc'⟩
          have : t' ≠ t := by rintro rfl; rw [hp] at hp'; cases hp'; exact e hc'.symm
          simp [this, hp']
      all_goals grind [Pc.reads, Pc.writes, Pc.call]
    | true =>
      constructor <;> simp only [State.setPc, State.setCache, if_true, Function.update_apply]
      case torn =>
        intro b hb
        by_cases e : b = c.isList
        · simp [e] at hb
        · simp only [e, if_false, if_true, reduceIte] at hb
          obtain ⟨t', c', a', hp', hc'⟩ := h6 b hb
          refine ⟨t', c', a', ?_, hc'⟩
          have : t' ≠ t := by rintro rfl; rw [hp] at hp'; cases hp'; exact e hc'.symm
          simp [this, hp']
      case found =>
        intro t' c' i hi
        by_cases e : t' = t
        · simp only [e, if_true] at hi
          simp at hi
          obtain ⟨rfl, rfl⟩ := hi
          simpa using k2
        · simp only [e, if_false] at hi
          by_cases e' : c'.isList = c.isList
          · rcases hi with hi | hi
            · have := (h3 c.isList t').2 (by rw [hi]; simp [Pc.reads, e'])
              rw [hr] at this; cases this
            · have := (h2 c.isList t').2 (by rw [hi]; simp [Pc.writes, e'])
              rw [hw] at this; cases this; exact absurd rfl e
          · simpa [e'] using h7 t' c' i hi
      case value =>
        intro b k x hx
        by_cases e : b = c.isList
        · simp only [e, if_true] at hx
          rcases (k3 _).1 hx with hx | ⟨-, hx⟩
          · obtain ⟨kind, hk, hb⟩ := h8 c.isList k x hx
            have : x ≠ a := by rintro rfl; rw [h9 t c x hp] at hk; cases hk
            exact ⟨kind, by simp [this, hk], by rw [hb, e]⟩
          · simp at hx
            obtain ⟨rfl, rfl⟩ := hx
            exact ⟨c.kind, by simp, by rw [e]; rfl⟩
        · simp only [e, if_false] at hx
          obtain ⟨kind, hk, hb⟩ := h8 b k x hx
          have : x ≠ a := by rintro rfl; rw [h9 t c x hp] at hk; cases hk
          exact ⟨kind, by simp [this, hk], hb⟩
      case kinds =>
        intro x k o hx
        by_cases e : x = a
        · simp [e] at hx
          have := h13 t c (by rw [hp]; rfl)
          rw [← hx.1, ← hx.2]; exact this
        · simp only [e, if_false] at hx; exact h14 x k o hx
      all_goals grind [Pc.reads, Pc.writes, Pc.call, Call.isList]
  | returnEmplaced c itr e hp ht he =>
    have he' := h.found t c itr (.inr hp)
    have hmem := List.mem_of_getElem? he
    obtain ⟨h1,h2,h3,h4,h5,h6,h7,h8,h9,h10,h11,h12,h13,h14⟩ := h
    constructor <;> simp only [State.finish, State.setPc, State.setCache, Function.update_apply]
    case writer =>
      intro b t'
      by_cases e : b = c.isList
      · by_cases e' : t' = t
        · simp [e, e', Pc.writes]
        · simp only [e, e', if_true, if_false]
          have hw := (h2 c.isList t).2 (by rw [hp]; simp [Pc.writes])
          have := h2 c.isList t'
          rw [hw] at this
          simp at this ⊢
          have hne : ¬ t = t' := fun h => e' h.symm
          simpa [hne] using this
      · by_cases e' : t' = t
        · simp only [e, e', if_true, if_false]
          rw [h2 b t, hp]
          have : (c.isList == b) = false := by simp; exact fun h => e h.symm
          simp [Pc.writes, this]
        · simp only [e, e', if_false]; exact h2 b t'
    all_goals grind [Pc.reads, Pc.writes, Pc.call]
  | returnEmplacedTorn c itr hp ht =>
    have h1 := h.writing_not_torn (t := t) (b := c.isList) (by rw [hp]; simp [Pc.writes]) (by rw [hp]; simp)
    obtain ⟨r, h2⟩ := h.found t c itr (.inr hp)
    rw [h1, h2] at ht; simp at ht

end

theorem Reachable.good {s : State} (h : Reachable s) : Good s := by
  induction h with
  | init => exact good_init
  | step _ hs ih => exact ih.step hs

/-! ## C36 -/

/-- **C36.** In every interleaving of any number of threads calling `WrapType`, two calls which have returned gave the
same object exactly if they were for the same type and both or neither were for `LIST`. -/
theorem C36_interned {s : State} (h : Reachable s) {d d' : Done} (hd : d ∈ s.done) (hd' : d' ∈ s.done) :
    d.result = d'.result ↔
      d.call.ofType = d'.call.ofType ∧ (d.call.kind = .list ↔ d'.call.kind = .list) := by
  have g := h.good
  have m := (g.done d hd).1
  have m' := (g.done d' hd').1
  constructor
  · intro e
    rw [← e] at m'
    obtain ⟨k, hk, hb⟩ := g.value _ _ _ m
    obtain ⟨k', hk', hb'⟩ := g.value _ _ _ m'
    rw [hk] at hk'
    simp only [Option.some.injEq, Obj.wrapper.injEq] at hk'
    obtain ⟨rfl, ho⟩ := hk'
    refine ⟨ho, ?_⟩
    rw [hb] at hb'
    simpa [Call.isList] using hb'
  · rintro ⟨e1, e2⟩
    have e3 : d.call.isList = d'.call.isList := by simpa [Call.isList] using e2
    rw [e1, e3] at m
    exact key_unique (g.sorted _) m m'

/-- **C36.** If `WrapType` is only called for `LIST` and `NON_NULL`, then every call which has returned gave a wrapper
of the kind and around the type it was called with, and two calls gave the same object exactly if they were for the same
kind and type. -/
theorem C36_wraps {s : State} (h : Reachable s) (hk : ∀ c ∈ s.started, c.kind = .list ∨ c.kind = .nonNull) :
    (∀ d ∈ s.done, s.heap d.result = some (.wrapper d.call.kind d.call.ofType)) ∧
    (∀ d ∈ s.done, ∀ d' ∈ s.done, d.result = d'.result ↔ d.call = d'.call) := by
  have g := h.good
  constructor
  · intro d hd
    obtain ⟨m, hs⟩ := g.done d hd
    obtain ⟨k, hk', hb⟩ := g.value _ _ _ m
    rw [hk']
    have h1 := hk _ (g.kinds _ _ _ hk')
    have h2 := hk _ hs
    simp only [Call.isList] at hb
    have : k = d.call.kind := by
      rcases h1 with h1 | h1 <;> rcases h2 with h2 | h2 <;> simp_all
    rw [this]
  · intro d hd d' hd'
    rw [C36_interned h hd hd']
    have h1 := hk _ (g.done d hd).2
    have h2 := hk _ (g.done d' hd').2
    obtain ⟨t, ⟨k, o⟩, r⟩ := d
    obtain ⟨t', ⟨k', o'⟩, r'⟩ := d'
    simp only [Call.mk.injEq] at h1 h2 ⊢
    rcases h1 with rfl | rfl <;> rcases h2 with rfl | rfl <;> simp

/-- **C36.** No interleaving has a data race: no thread searches a vector, dereferences an iterator or starts an update
while another thread is changing this vector. -/
theorem C36_no_race {s : State} (h : Reachable s) : s.corrupt = false := h.good.ok

/-- How many more steps a thread which is in a call needs at most. -/
def Pc.left : Pc → Nat
  | .idle => 0
  | .called _ => 7
  | .reading _ => 6
  | .missed _ => 5
  | .upgrading _ => 4
  | .writing _ => 3
  | .emplacing _ _ => 2
  | .found _ _ | .emplaced _ _ => 1

/-- A thread which has a lock is not blocked. -/
theorem Good.lock_holder_runs {s : State} (g : Good s) (hfresh : ∃ a, s.Fresh a) {t : Thread} {b : Bool}
    (ht : (s.pc t).reads b = true ∨ (s.pc t).writes b = true) :
    ∃ s', Step t s s' ∧ (s'.pc t).left < (s.pc t).left := by
  cases hp : s.pc t with
  | idle => simp [hp, Pc.reads, Pc.writes] at ht
  | called c => simp [hp, Pc.reads, Pc.writes] at ht
  | upgrading c => simp [hp, Pc.reads, Pc.writes] at ht
  | reading c =>
    have ht := g.reading_not_torn (t := t) (b := c.isList) (by rw [hp]; simp [Pc.reads])
    refine ⟨_, .find c hp ht, ?_⟩
    split <;> simp [State.setPc, Pc.left]
  | found c i =>
    have ht := g.reading_not_torn (t := t) (b := c.isList) (by rw [hp]; simp [Pc.reads])
    obtain ⟨r, hr⟩ := g.found t c i (.inl hp)
    exact ⟨_, .returnFound c i _ hp ht hr, by simp [State.finish, State.setPc, State.setCache, Pc.left]⟩
  | missed c => exact ⟨_, .unlock c hp, by simp [State.setPc, State.setCache, Pc.left]⟩
  | writing c =>
    have ht := g.writing_not_torn (t := t) (b := c.isList) (by rw [hp]; simp [Pc.writes]) (by rw [hp]; simp)
    obtain ⟨a, ha⟩ := hfresh
    exact ⟨_, .make c a hp ha ht, by simp [State.setPc, State.setCache, Pc.left]⟩
  | emplacing c a =>
    refine ⟨_, .insert c a hp, ?_⟩
    simp only [State.insert]
    split <;> simp [State.setPc, State.setCache, Pc.left]
  | emplaced c i =>
    have ht := g.writing_not_torn (t := t) (b := c.isList) (by rw [hp]; simp [Pc.writes]) (by rw [hp]; simp)
    obtain ⟨r, hr⟩ := g.found t c i (.inr hp)
    exact ⟨_, .returnEmplaced c i _ hp ht hr, by simp [State.finish, State.setPc, State.setCache, Pc.left]⟩

/-- **C36.** No interleaving deadlocks: as long as some thread is in a call, one of the threads which are in a call can
make a step which takes it closer to its return (as long as there is memory). -/
theorem C36_no_deadlock {s : State} (h : Reachable s) (hfresh : ∃ a, s.Fresh a) {t : Thread} (ht : s.pc t ≠ .idle) :
    ∃ t' s', s.pc t' ≠ .idle ∧ Step t' s s' ∧ (s'.pc t').left < (s.pc t').left := by
  have g := h.good
  have holder : ∀ {t b}, (s.pc t).reads b = true ∨ (s.pc t).writes b = true →
      ∃ t' s', s.pc t' ≠ .idle ∧ Step t' s s' ∧ (s'.pc t').left < (s.pc t').left := by
    intro t b hb
    obtain ⟨s', h1, h2⟩ := g.lock_holder_runs hfresh hb
    exact ⟨t, s', by intro e; simp [e, Pc.reads, Pc.writes] at hb, h1, h2⟩
  have blocked : ∀ b, (∃ w, (s.caches b).writer = some w) ∨ (s.caches b).readers ≠ [] →
      ∃ t' s', s.pc t' ≠ .idle ∧ Step t' s s' ∧ (s'.pc t').left < (s.pc t').left := by
    rintro b (⟨w, hw⟩ | hr)
    · exact holder (.inr ((g.writer b w).1 hw))
    · obtain ⟨r, hr⟩ := List.exists_mem_of_ne_nil _ hr
      exact holder (.inl ((g.readers b r).1 hr))
  cases hp : s.pc t with
  | idle => exact absurd hp ht
  | called c =>
    cases hw : (s.caches c.isList).writer with
    | some w => exact blocked _ (.inl ⟨w, hw⟩)
    | none => exact ⟨t, _, ht, .lockShared c hp hw, by simp [hp, State.setPc, State.setCache, Pc.left]⟩
  | upgrading c =>
    cases hw : (s.caches c.isList).writer with
    | some w => exact blocked _ (.inl ⟨w, hw⟩)
    | none =>
      by_cases hr : (s.caches c.isList).readers = []
      · exact ⟨t, _, ht, .lock c hp hw hr, by simp [hp, State.setPc, State.setCache, Pc.left]⟩
      · exact blocked _ (.inr hr)
  | reading c => exact holder (t := t) (b := c.isList) (by simp [hp, Pc.reads])
  | found c i => exact holder (t := t) (b := c.isList) (by simp [hp, Pc.reads])
  | missed c => exact holder (t := t) (b := c.isList) (by simp [hp, Pc.reads])
  | writing c => exact holder (t := t) (b := c.isList) (by simp [hp, Pc.writes])
  | emplacing c a => exact holder (t := t) (b := c.isList) (by simp [hp, Pc.writes])
  | emplaced c i => exact holder (t := t) (b := c.isList) (by simp [hp, Pc.writes])

end Verif.Schema.Wrap
