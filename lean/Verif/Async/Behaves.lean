import Verif.Async.Props

/-!
# What the logic says about a program, in one place
-/
namespace Verif.Async
open Verif.Errors Verif.Exec

variable {E O : Type}

/-- A program which returns `v` and has the events `trace`, in the sense of `Den`, in all modes which fit. `quiet` says which labels fit
the events which are not those of the service, and `clean` when there are no other events. -/
def Behaves (I : Impl E O) (quiet : (E → Option O) → Prop) (clean : Prop) (launch : Launch) (p : Proc E O) (v : Val) (trace : List E) : Prop :=
  ∀ m : Mode E O, (launch = .deferred ∨ m.threads) → Allows m I → (m.rules.known → quiet m.rules.owner) → (Loses m ∨ clean) → ∀ vals,
    Den m.rules vals 0 none p v (m.le trace)

variable {I : Impl E O} {quiet : (E → Option O) → Prop} {clean : Prop} {launch : Launch} {p : Proc E O} {v : Val} {trace : List E}
  {t : List (Nat × E)} {c : Config E O}

theorem Behaves.good [DecidableEq O] (b : Behaves I quiet clean launch p v trace) (hs : Steps (start p) t c) :
    Good (Rules.silent True) v (fun x => ∃ y, (trace ++ y).Perm x) c (events t) :=
  (good_start (b (.atLeast (.silent True) trivial) (.inr trivial) (silent_allows _ rfl _) (fun h => h.elim) (.inl (.inl trivial)) [v])).steps hs

theorem Behaves.no_deadlock (b : Behaves I quiet clean launch p v trace) (hs : Steps (start p) t c) (h : Stopped c) :
    Ended c ∧ c.threads[0]? = some (.done v) := by
  classical
  have g := b.good hs
  have he := g.progress h
  exact ⟨he, (g.finished he).1⟩

theorem Behaves.returned (b : Behaves I quiet clean launch p v trace) (hs : Steps (start p) t c) {r : Val}
    (h : c.threads[0]? = some (.done r)) : r = v ∧ Ended c ∧ c.locks = [] ∧ ∃ more, (trace ++ more).Perm (events t) := by
  classical
  have g := b.good hs
  have he := g.main_last h
  have hf := g.finished he
  rw [h] at hf
  exact ⟨by simpa using hf.1, he, g.unlocked he, hf.2⟩

theorem Behaves.same (b : Behaves I quiet clean launch p v trace) (hs : Steps (start p) t c) {r : Val}
    (h : c.threads[0]? = some (.done r)) (hc : clean) : trace.Perm (events t) := by
  classical
  have g := (good_start (b (.same (.silent True) trivial) (.inr trivial) (silent_allows _ rfl _) (fun h => h.elim) (.inr hc) [v])).steps hs
  simpa [events, Mode.same] using (g.finished (g.main_last h)).2

theorem Behaves.comes (b : Behaves I quiet clean launch p v trace) (hs : Steps (start p) t c) :
    ∃ t' d, Steps c t' d ∧ d.threads[0]? = some (.done v) := by
  classical
  induction c using (step_wf (E := E) (O := O)).induction generalizing t with
  | _ c ih =>
    by_cases h : Stopped c
    · exact ⟨[], c, .refl c, (b.no_deadlock hs h).2⟩
    · unfold Stopped at h
      push Not at h
      obtain ⟨l, d, h⟩ := h
      obtain ⟨t', d', h1, h3⟩ := ih d ⟨l, h⟩ (t := t ++ l.toList) (hs.step h)
      exact ⟨_, d', h1.cons h, h3⟩

theorem Behaves.deferred (b : Behaves I quiet clean .deferred p v trace) (hs : Steps (start p) t c) :
    c.threads.length = 1 ∧ (∀ x ∈ t, x.1 = 0) ∧ ((∃ r, c.threads[0]? = some (.done r)) → events t = trace) := by
  classical
  have g := good_start (b (.exact (.silent False)) (.inl rfl) (silent_allows _ rfl _) (fun h => h.elim) (.inl (.inr id)) [v])
  refine ⟨g.single id hs, ?_, ?_⟩
  · induction hs with
    | refl => simp
    | step s1 s2 ih =>
      intro x hx
      rcases List.mem_append.1 hx with hx | hx
      · exact ih x hx
      · have hlen := g.single id s1
        cases s2 with
        | emit h =>
          simp only [Option.toList_some, List.mem_singleton] at hx
          subst hx
          have := lt_of_get h
          simp only [start, List.length_cons, List.length_nil] at hlen
          omega
        | _ => simp at hx
  · rintro ⟨r, hw⟩
    have g := g.steps hs
    have := (g.finished (g.main_last hw)).2
    simpa [events, Mode.exact, eq_comm] using this

theorem Behaves.serial [DecidableEq O] {owner : E → Option O} (hl : Labels I owner) (hq : quiet owner)
    (b : Behaves I quiet clean launch p v trace) (hs : Steps (start p) t c) (o : O) :
    ∃ (calls : List (List E)) (last : List E), ((events t).filter fun e => owner e = some o) = calls.flatten ++ last ∧
      (∀ w ∈ calls, AccessorCall I o w) ∧ (last = [] ∨ ∃ rest, AccessorCall I o (last ++ rest)) ∧
      (∀ r, c.threads[0]? = some (.done r) → last = []) := by
  have g := (good_start (b (.atLeast (.labelled I owner) trivial) (.inr trivial) (labelled_allows _ rfl hl) (fun _ => hq)
    (.inl (.inl trivial)) [v])).steps hs
  obtain ⟨calls, last, h2, h3, h4, h5⟩ := g.serial trivial o
  exact ⟨calls, last, h2, h3, h4, fun r hr => h5 (g.main_last hr)⟩

theorem Behaves.locked [DecidableEq O] {owner : E → Option O} (hl : Labels I owner) (hq : quiet owner)
    (b : Behaves I quiet clean launch p v trace) (hs : Steps (start p) t c) {i : Nat} {e : E} {d : Config E O} {o : O}
    (h : Step c (some (i, e)) d) (ho : owner e = some o) : (o, i) ∈ c.locks ∧ ∀ j, (o, j) ∈ c.locks → j = i := by
  have g := (good_start (b (.atLeast (.labelled I owner) trivial) (.inr trivial) (labelled_allows _ rfl hl) (fun _ => hq)
    (.inl (.inl trivial)) [v])).steps hs
  have h2 := g.holds_lock trivial h ho
  refine ⟨h2, fun j hj => ?_⟩
  have := List.inj_on_of_nodup_map g.exclusive hj h2 rfl
  exact (Prod.ext_iff.1 this).2

end Verif.Async
