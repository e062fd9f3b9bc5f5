import Verif.Schema.WrapProps

/-! # Executions of `WrapType` -/
namespace Verif.Schema.Wrap
namespace Example

/-- A state in which only threads 1 and 2 have done anything. -/
def pcs (p q : Pc) : Thread → Pc := fun t => if t = 1 then p else if t = 2 then q else .idle
def heap (l : List (Addr × Obj)) : Addr → Option Obj := fun a => (l.find? fun e => e.1 == a).map (·.2)
def caches (l n : Cache) : Bool → Cache := fun b => if b then l else n

def st (p q : Pc) (l n : Cache) (h : List (Addr × Obj)) (started : List Call) (done : List Done) : State :=
  ⟨caches l n, heap h, pcs p q, started, done, false⟩

theorem init_eq : ({} : State) = st .idle .idle {} {} [] [] [] := by
  simp only [st, State.mk.injEq, and_true]
  refine ⟨?_, ?_, ?_⟩
  · funext b; simp [caches]
  · funext a; simp [heap]
  · funext t; simp [pcs]

theorem pcs1 (p q r : Pc) : Function.update (pcs p q) 1 r = pcs r q := by
  funext t; simp only [Function.update_apply, pcs]; split <;> simp_all

theorem pcs2 (p q r : Pc) : Function.update (pcs p q) 2 r = pcs p r := by
  funext t; simp only [Function.update_apply, pcs]
  split
  · rename_i h; subst h; simp
  · rfl

theorem cachesT (l n c : Cache) : Function.update (caches l n) true c = caches c n := by
  funext b; cases b <;> simp [Function.update_apply, caches]

theorem cachesF (l n c : Cache) : Function.update (caches l n) false c = caches l c := by
  funext b; cases b <;> simp [Function.update_apply, caches]

theorem heapI (l : List (Addr × Obj)) (a : Addr) (o : Obj) : Function.update (heap l) a (some o) = heap ((a, o) :: l) := by
  funext x
  simp only [Function.update_apply, heap, List.find?_cons]
  by_cases e : x = a
  · simp [e]
  · have : (a == x) = false := by simp; exact fun h => e h.symm
    simp [e, this]

theorem fresh {p q : Pc} {l n : Cache} {h : List (Addr × Obj)} {started : List Call} {done : List Done} {a : Addr}
    (h1 : heap h a = none) (h2 : ∀ c, p ≠ .emplacing c a) (h3 : ∀ c, q ≠ .emplacing c a) :
    (st p q l n h started done).Fresh a := by
  refine ⟨h1, ?_⟩
  intro t c
  simp only [st, pcs]
  split
  · exact h2 c
  · split
    · exact h3 c
    · simp

theorem next {s s' s'' : State} {t : Thread} (r : Reachable s) (h : Step t s s') (e : s' = s'') : Reachable s'' :=
  e ▸ r.step h

/-- What the steps do to the states above. -/
macro "upd" : tactic => `(tactic|
  simp [st, State.setPc, State.setCache, State.finish, State.insert, pcs1, pcs2, cachesT, cachesF, heapI, Call.isList,
    caches, findItr, emplaceItr, Verif.SortedMap.range, Verif.Std.equalRange, Verif.SortedMap.vectorInsert])

end Example
open Example

/-- A call for a list type. -/
def aList : Call := ⟨.list, 5⟩

/-- Two threads ask for the same list type, both miss, and both insert: the second drops its wrapper (address 7) and gets
the wrapper of the first (address 6). -/
theorem race_example : ∃ s, Reachable s ∧ (∀ c ∈ s.started, c.kind = .list ∨ c.kind = .nonNull) ∧
    s.done = [⟨2, aList, 6⟩, ⟨1, aList, 6⟩] ∧ s.heap 7 = none := by
  have r := Reachable.init
  rw [init_eq] at r
  let c := aList
  have r : Reachable (st .idle .idle {} {} [(5, .other)] [] []) :=
    next (t := 0) r (.create 5 (fresh rfl (by simp) (by simp))) (by upd)
  have r : Reachable (st (.called c) .idle {} {} [(5, .other)] [c] []) :=
    next (t := 1) r (.call c rfl (by simp [c, aList, st, heap])) (by upd)
  have r : Reachable (st (.called c) (.called c) {} {} [(5, .other)] [c, c] []) :=
    next (t := 2) r (.call c rfl (by simp [c, aList, st, heap])) (by upd)
  have r : Reachable (st (.reading c) (.called c) { readers := [1] } {} [(5, .other)] [c, c] []) :=
    next (t := 1) r (.lockShared c rfl rfl) (by simp only [c, aList]; upd)
  have r : Reachable (st (.reading c) (.reading c) { readers := [2, 1] } {} [(5, .other)] [c, c] []) :=
    next (t := 2) r (.lockShared c rfl rfl) (by simp only [c, aList]; upd)
  have r : Reachable (st (.missed c) (.reading c) { readers := [2, 1] } {} [(5, .other)] [c, c] []) :=
    next (t := 1) r (.find c rfl rfl) (by simp only [c, aList]; upd)
  have r : Reachable (st (.missed c) (.missed c) { readers := [2, 1] } {} [(5, .other)] [c, c] []) :=
    next (t := 2) r (.find c rfl rfl) (by simp only [c, aList]; upd)
  have r : Reachable (st (.missed c) (.upgrading c) { readers := [1] } {} [(5, .other)] [c, c] []) :=
    next (t := 2) r (.unlock c rfl) (by simp only [c, aList]; upd)
  have r : Reachable (st (.upgrading c) (.upgrading c) { readers := [] } {} [(5, .other)] [c, c] []) :=
    next (t := 1) r (.unlock c rfl) (by simp only [c, aList]; upd)
  have r : Reachable (st (.writing c) (.upgrading c) { writer := some 1 } {} [(5, .other)] [c, c] []) :=
    next (t := 1) r (.lock c rfl rfl rfl) (by simp only [c, aList]; upd)
  have r : Reachable (st (.emplacing c 6) (.upgrading c) { writer := some 1, torn := true } {} [(5, .other)] [c, c] []) :=
    next (t := 1) r (.make c 6 rfl (fresh rfl (by simp) (by simp)) rfl) (by simp only [c, aList]; upd)
  have r : Reachable (st (.emplaced c 0) (.upgrading c) { writer := some 1, map := [(5, 6)] } {}
      [(6, .wrapper .list 5), (5, .other)] [c, c] []) :=
    next (t := 1) r (.insert c 6 rfl) (by simp only [c, aList]; upd)
  have r : Reachable (st .idle (.upgrading c) { map := [(5, 6)] } {}
      [(6, .wrapper .list 5), (5, .other)] [c, c] [⟨1, c, 6⟩]) :=
    next (t := 1) r (.returnEmplaced c 0 (5, 6) rfl rfl rfl) (by simp only [c, aList]; upd)
  have r : Reachable (st .idle (.writing c) { writer := some 2, map := [(5, 6)] } {}
      [(6, .wrapper .list 5), (5, .other)] [c, c] [⟨1, c, 6⟩]) :=
    next (t := 2) r (.lock c rfl rfl rfl) (by simp only [c, aList]; upd)
  have r : Reachable (st .idle (.emplacing c 7) { writer := some 2, torn := true, map := [(5, 6)] } {}
      [(6, .wrapper .list 5), (5, .other)] [c, c] [⟨1, c, 6⟩]) :=
    next (t := 2) r (.make c 7 rfl (fresh rfl (by simp) (by simp)) rfl) (by simp only [c, aList]; upd)
  have r : Reachable (st .idle (.emplaced c 0) { writer := some 2, map := [(5, 6)] } {}
      [(6, .wrapper .list 5), (5, .other)] [c, c] [⟨1, c, 6⟩]) :=
    next (t := 2) r (.insert c 7 rfl) (by
      have : emplaceItr [(5, 6)] 5 7 = ([(5, 6)], 0, false) := by decide +kernel
      simp only [c, aList]
      simp [st, caches, Call.isList, State.insert, this, State.setPc, pcs2, State.setCache, cachesT])
  have r : Reachable (st .idle .idle { map := [(5, 6)] } {}
      [(6, .wrapper .list 5), (5, .other)] [c, c] [⟨2, c, 6⟩, ⟨1, c, 6⟩]) :=
    next (t := 2) r (.returnEmplaced c 0 (5, 6) rfl rfl rfl) (by simp only [c, aList]; upd)
  exact ⟨_, r, by simp [st, c, aList], rfl, rfl⟩

/-- Finding: `WrapType` looks for every kind which is not `LIST` among the non-null wrappers. After a call for another
kind, a call for `NON_NULL` gives this wrapper, which is not a non-null type. -/
theorem wrong_kind_is_shared : ∃ s, Reachable s ∧
    s.done = [⟨1, ⟨.nonNull, 5⟩, 6⟩, ⟨1, ⟨.scalar, 5⟩, 6⟩] ∧ s.heap 6 = some (.wrapper .scalar 5) := by
  have r := Reachable.init
  rw [init_eq] at r
  let c : Call := ⟨.scalar, 5⟩
  let d : Call := ⟨.nonNull, 5⟩
  have r : Reachable (st .idle .idle {} {} [(5, .other)] [] []) :=
    next (t := 0) r (.create 5 (fresh rfl (by simp) (by simp))) (by upd)
  have r : Reachable (st (.called c) .idle {} {} [(5, .other)] [c] []) :=
    next (t := 1) r (.call c rfl (by simp [c, st, heap])) (by upd)
  have r : Reachable (st (.reading c) .idle {} { readers := [1] } [(5, .other)] [c] []) :=
    next (t := 1) r (.lockShared c rfl rfl) (by simp only [c]; upd)
  have r : Reachable (st (.missed c) .idle {} { readers := [1] } [(5, .other)] [c] []) :=
    next (t := 1) r (.find c rfl rfl) (by simp only [c]; upd)
  have r : Reachable (st (.upgrading c) .idle {} {} [(5, .other)] [c] []) :=
    next (t := 1) r (.unlock c rfl) (by simp only [c]; upd)
  have r : Reachable (st (.writing c) .idle {} { writer := some 1 } [(5, .other)] [c] []) :=
    next (t := 1) r (.lock c rfl rfl rfl) (by simp only [c]; upd)
  have r : Reachable (st (.emplacing c 6) .idle {} { writer := some 1, torn := true } [(5, .other)] [c] []) :=
    next (t := 1) r (.make c 6 rfl (fresh rfl (by simp) (by simp)) rfl) (by simp only [c]; upd)
  have r : Reachable (st (.emplaced c 0) .idle {} { writer := some 1, map := [(5, 6)] }
      [(6, .wrapper .scalar 5), (5, .other)] [c] []) :=
    next (t := 1) r (.insert c 6 rfl) (by simp only [c]; upd)
  have r : Reachable (st .idle .idle {} { map := [(5, 6)] } [(6, .wrapper .scalar 5), (5, .other)] [c] [⟨1, c, 6⟩]) :=
    next (t := 1) r (.returnEmplaced c 0 (5, 6) rfl rfl rfl) (by simp only [c]; upd)
  have r : Reachable (st (.called d) .idle {} { map := [(5, 6)] } [(6, .wrapper .scalar 5), (5, .other)] [d, c]
      [⟨1, c, 6⟩]) :=
    next (t := 1) r (.call d rfl (by simp [d, st, heap])) (by upd)
  have r : Reachable (st (.reading d) .idle {} { readers := [1], map := [(5, 6)] }
      [(6, .wrapper .scalar 5), (5, .other)] [d, c] [⟨1, c, 6⟩]) :=
    next (t := 1) r (.lockShared d rfl rfl) (by simp only [d]; upd)
  have r : Reachable (st (.found d 0) .idle {} { readers := [1], map := [(5, 6)] }
      [(6, .wrapper .scalar 5), (5, .other)] [d, c] [⟨1, c, 6⟩]) :=
    next (t := 1) r (.find d rfl rfl) (by
      have : findItr [(5, 6)] 5 = some 0 := by decide +kernel
      simp only [d]; simp [st, caches, Call.isList, this, State.setPc, pcs1])
  have r : Reachable (st .idle .idle {} { map := [(5, 6)] }
      [(6, .wrapper .scalar 5), (5, .other)] [d, c] [⟨1, d, 6⟩, ⟨1, c, 6⟩]) :=
    next (t := 1) r (.returnFound d 0 (5, 6) rfl rfl rfl) (by simp only [d]; upd)
  exact ⟨_, r, rfl, rfl⟩

end Verif.Schema.Wrap
