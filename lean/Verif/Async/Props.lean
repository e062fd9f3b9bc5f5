import Verif.Async.Visit
import Verif.Async.Adequate

/-!
# Execution with threads: theorems
-/
namespace Verif.Async
open Verif.Value Verif.Resp Verif.Errors Verif.Ast Verif.Exec Verif.Request

variable {E O : Type}

/-! ## Modes -/

/-- Rules which say nothing about accessors. -/
def Rules.silent (forks : Prop) : Rules E O := ⟨False, fun _ => none, fun _ _ => True, forks⟩

/-- The rules of labelled events. -/
def Rules.labelled (I : Impl E O) (owner : E → Option O) : Rules E O := ⟨True, owner, AccessorCall I, True⟩

/-- One thread: the same events in the same order. -/
def Mode.exact (rules : Rules E O) : Mode E O where
  le := Eq
  refl _ := rfl
  trans := Eq.trans
  append h h' := by rw [h, h']
  threads := False
  perm := False.elim
  more := False
  extra := False.elim
  rules := rules
  forks := False.elim

/-- The same events. -/
def Mode.same (rules : Rules E O) (hf : rules.forks) : Mode E O where
  le := List.Perm
  refl := .refl
  trans := .trans
  append := .append
  threads := True
  perm _ _ _ h := h
  more := False
  extra := False.elim
  rules := rules
  forks _ := hf

/-- The same events, and others. -/
def Mode.atLeast (rules : Rules E O) (hf : rules.forks) : Mode E O where
  le a b := ∃ x, (a ++ x).Perm b
  refl a := ⟨[], by simp⟩
  trans := by
    rintro a b c ⟨x, hx⟩ ⟨y, hy⟩
    exact ⟨x ++ y, by rw [← List.append_assoc]; exact (hx.append_right y).trans hy⟩
  append := by
    rintro a b c d ⟨x, hx⟩ ⟨y, hy⟩
    refine ⟨x ++ y, List.Perm.trans ?_ (hx.append hy)⟩
    simp only [List.append_assoc]
    refine (List.Perm.refl a).append ?_
    rw [← List.append_assoc, ← List.append_assoc]
    exact List.perm_append_comm.append_right y
  threads := True
  perm _ a b h := ⟨[], by simpa using h⟩
  more := True
  extra _ a b := ⟨b, .refl _⟩
  rules := rules
  forks _ := hf

theorem silent_allows (m : Mode E O) {forks : Prop} (h : m.rules = Rules.silent forks) (I : Impl E O) : Allows m I := by
  refine ⟨?_, ?_, ?_, ?_⟩ <;> simp [h, Rules.silent]

theorem labelled_allows (m : Mode E O) {I : Impl E O} {owner : E → Option O} (h : m.rules = Rules.labelled I owner)
    (hl : Labels I owner) : Allows m I := by
  refine ⟨?_, ?_, ?_, ?_⟩ <;> simp only [h, Rules.labelled, forall_const]
  · exact fun o params => (hl.sets o params).1
  · exact fun o params => (hl.sets o params).2
  · exact fun o name resolver hr params => ⟨⟨name, resolver, params, hr, rfl⟩, hl.access o name resolver hr params⟩
  · exact hl.later

/-! ## Operations -/

/-- What deferred execution does with an operation. -/
def deferredOperation (I : Impl E O) (env : Env) (root : O) (ready : Ready) (xs : List XSelection) : Fut E :=
  (Exec.execute I env root (rootParams (contextOf ready.op) ready.directives) xs).bind fun r => .pure { data := document r }

theorem runOperation_sim {m : Mode E O} {I : Impl E O} {launch : Launch} (hl : launch = .deferred ∨ m.threads) (ha : Allows m I)
    (hs : Loses m ∨ SetsSucceed I) {env : Env} {xs : List XSelection} (he : Loses m ∨ EvaluateAll env xs) (root : O) (ready : Ready)
    {vals : List Val} : Sim m vals (runOperation I launch env root ready xs) (deferredOperation I env root ready xs) (Plain Eq) := by
  have hl' : operationLaunch launch ready.op = .deferred ∨ m.threads := by
    unfold operationLaunch
    split
    exacts [.inl rfl, hl]
  generalize hrun : Exec.execute I env root (rootParams (contextOf ready.op) ready.directives) xs = run
  have e : deferredOperation I env root ready xs = (Run.pure run).bind fun run =>
      (Run.pure (run.bind fun r => .pure { data := document r })).bind fun f => f := by
    simp [deferredOperation, hrun, Run.pure, Run.bind]
  rw [e]
  refine SimA.bind (Sim.async hl' fun vals' _ => hrun ▸ execute_sim hl' ha hs he root _) fun vals₁ K operation run' s _ _ hf => ?_
  obtain ⟨rest, hf⟩ := hf
  obtain ⟨hK, ho⟩ := hf.owned
  subst hK
  refine SimA.bind (SimA.async (rest := rest) hl ho ?_ hf.early ?_) fun vals₂ K f run'' s _ _ hf => hf.choose_spec.get
  · have ht := hf.trace
    cases hr : run'.result <;> simpa [Run.bind, Run.pure, hr] using ht
  · refine hf.get_does.bind (fun vals' K' a s hv hq => ?_) fun vals' K' e s hv hq => ?_
    · obtain ⟨rfl, ha, hl⟩ := hq
      exact Tri.pure fun _ _ => ⟨rfl, by simp [Run.bind, Run.pure, ← ha], by simpa using hl⟩
    · obtain ⟨rfl, ha, hl⟩ := hq
      exact ⟨rfl, by simp [Run.bind, ← ha], hl⟩

theorem Sim.den {m : Mode E O} {c : Comp E O Result} {run : Fut E} {vals : List Val} (h : Sim m vals c run (Plain Eq)) :
    Den m.rules vals 0 none (c .done) run.result (m.le run.trace) := by
  have := h vals (List.prefix_refl _) .done run.result (m.le run.trace) 0 (fun x y => m.trans) fun vals' K' a s hv hq => by
    obtain ⟨rfl, rfl, hs⟩ := ret_iff.1 hq
    exact .done (by simpa using hs)
  simpa using this

/-- A mutation runs in order, whatever the policy. -/
theorem mutation_den {I : Impl E O} {launch : Launch} {rules : Rules E O} (hf : rules.forks) (ha : Allows (Mode.exact rules) I) {env : Env}
    {xs : List XSelection} (root : O) {ready : Ready} (hm : operationType ready.op = str "mutation") {vals : List Val} :
    Den rules vals 0 none (runOperation I launch env root ready xs .done) (deferredOperation I env root ready xs).result
      fun x => (deferredOperation I env root ready xs).trace = x := by
  have hlost : Loses (Mode.exact rules) := .inr id
  have hd := fun vals => (runOperation_sim (launch := .deferred) (vals := vals) (.inl rfl) ha (.inl hlost) (env := env) (xs := xs)
    (.inl hlost) root ready).den
  have hol (l : Launch) : operationLaunch l ready.op = .deferred := by simp [operationLaunch, hm]
  simp only [runOperation, hol] at hd ⊢
  have forked : Den rules vals 0 none
      (.fork (((execute I .deferred env root (rootParams (contextOf ready.op) ready.directives) xs).bind
        fun r => Comp.pure { data := document r }) .done) fun i => .join i .done)
      (deferredOperation I env root ready xs).result fun x => (deferredOperation I env root ready xs).trace = x := by
    refine .fork (K₁ := 0) (K₂ := 0) hf rfl (v := (deferredOperation I env root ready xs).result) (Tk := fun x => x = [])
      (Tc := fun x => (deferredOperation I env root ready xs).trace = x) (hd vals) (fun vals' _ i hi => ?_) fun a b l ha hb hi => ?_
    · exact .join rfl hi (.done rfl)
    · rw [hi.empty_right hb, ha]
  cases launch with
  | deferred => exact hd vals
  | async => exact forked
  | either =>
    refine Den.choose fun b => ?_
    cases b with
    | false => exact hd vals
    | true => exact forked

theorem prepare_op {S : Service E O} {validated : Bool} {doc : Document} {name : Str} {supplied : Members} {ready : Ready}
    (h : prepare S validated doc name supplied = .ok ready) : findOperation name doc.operations = some ready.op := by
  unfold prepare at h
  dsimp only at h
  repeat' split at h
  all_goals first | cases h; done | skip
  cases h
  assumption

/-- What is known of a call. -/
theorem program_den (q : Call E O) {run : Run E Resp} (h : q.deferred = .done run) (launch : Launch) :
    ∃ p v, q.program launch = .done p ∧ v.map (·.data) = run.result ∧
      (∀ m : Mode E O, (launch = .deferred ∨ m.threads) → Allows m q.service.impl → (Loses m ∨ q.SetsSucceed) → ∀ vals,
        Den m.rules vals 0 none p v (m.le run.trace)) ∧
      (q.IsMutation → ∀ rules : Rules E O, rules.forks → Allows (Mode.exact rules) q.service.impl → ∀ vals,
        Den rules vals 0 none p v fun x => run.trace = x) := by
  unfold Call.deferred Request.resolve at h
  unfold Call.program resolve
  cases hp : prepare q.service q.validated q.doc q.name q.supplied with
  | error e =>
    cases e with
    | schema errors =>
      simp only [hp, Outcome.done.injEq] at h
      subst h
      exact ⟨_, .ok { data := errorDocument errors }, rfl, rfl, fun m _ _ _ _ => .done (m.refl _), fun _ _ _ _ _ => .done rfl⟩
    | other what =>
      simp only [hp, Outcome.done.injEq] at h
      subst h
      exact ⟨_, .error (.other what), rfl, rfl, fun m _ _ _ _ => .done (m.refl _), fun _ _ _ _ _ => .done rfl⟩
  | ok ready =>
    simp only [hp] at h ⊢
    cases ho : q.service.operations (operationType ready.op) with
    | none => simp [ho] at h
    | some root =>
      cases root with
      | none => simp [ho] at h
      | some root =>
        simp only [ho] at h ⊢
        cases hx : expand ready.fragments ready.op.sub with
        | none => simp [hx] at h
        | some xs =>
          simp only [hx, Outcome.done.injEq] at h ⊢
          subst h
          refine ⟨_, (deferredOperation q.service.impl ⟨ready.variables, q.service.atoiOverflow⟩ root ready xs).result, rfl, ?_,
            fun m hl ha hs vals => ?_, fun hm rules hf ha vals => ?_⟩
          · unfold deferredOperation
            cases hr : (Exec.execute q.service.impl ⟨ready.variables, q.service.atoiOverflow⟩ root
              (rootParams (contextOf ready.op) ready.directives) xs).result <;> simp [Run.bind, Run.pure, hr, Except.map]
          · have := (runOperation_sim (vals := vals) hl ha (hs.imp_right fun h => h.1)
              (hs.imp_right fun h => h.2 ready xs hp hx) root ready).den
            have e : (deferredOperation q.service.impl ⟨ready.variables, q.service.atoiOverflow⟩ root ready xs).trace =
                ((Exec.execute q.service.impl ⟨ready.variables, q.service.atoiOverflow⟩ root
                  (rootParams (contextOf ready.op) ready.directives) xs).bind fun r => .pure (document r)).trace := by
              unfold deferredOperation
              cases hr : (Exec.execute q.service.impl ⟨ready.variables, q.service.atoiOverflow⟩ root
                (rootParams (contextOf ready.op) ready.directives) xs).result <;> simp [Run.bind, Run.pure, hr]
            rw [e] at this
            exact this
          · have e : (deferredOperation q.service.impl ⟨ready.variables, q.service.atoiOverflow⟩ root ready xs).trace =
                ((Exec.execute q.service.impl ⟨ready.variables, q.service.atoiOverflow⟩ root
                  (rootParams (contextOf ready.op) ready.directives) xs).bind fun r => .pure (document r)).trace := by
              unfold deferredOperation
              cases hr : (Exec.execute q.service.impl ⟨ready.variables, q.service.atoiOverflow⟩ root
                (rootParams (contextOf ready.op) ready.directives) xs).result <;> simp [Run.bind, Run.pure, hr]
            obtain ⟨op, h1, h2⟩ := hm
            rw [prepare_op hp] at h1
            cases h1
            have := mutation_den (launch := launch) hf ha (env := ⟨ready.variables, q.service.atoiOverflow⟩) (xs := xs) root h2 (vals := vals)
            rw [e] at this
            exact this

/-! ## Theorems -/

/-- The call is defined with a launch policy if it is with `std::launch::deferred`. -/
theorem defined_iff (q : Call E O) (launch : Launch) : (∃ p, q.program launch = .done p) ↔ ∃ run, q.deferred = .done run := by
  constructor
  · rintro ⟨p, h⟩
    unfold Call.program resolve at h
    unfold Call.deferred Request.resolve
    repeat' split at h
    all_goals first | cases h; done | (simp only [*]; exact ⟨_, rfl⟩)
  · rintro ⟨run, h⟩
    obtain ⟨p, _, hp, _⟩ := program_den q h launch
    exact ⟨p, hp⟩

/-- Every execution ends: there is no infinite schedule. -/
theorem schedules_end (p : Proc E O) : ¬ ∃ f : Nat → Config E O, f 0 = start p ∧ ∀ n, ∃ l, Step (f n) l (f (n + 1)) := by
  rintro ⟨f, _, h⟩
  have := step_wf (E := E) (O := O)
  have key : ∀ c : Config E O, ∀ n, f n ≠ c := by
    intro c
    induction c using this.induction with
    | _ c ih =>
      rintro n rfl
      exact ih (f (n + 1)) (h n) (n + 1) rfl
  exact key (f 0) 0 rfl

theorem Steps.cons {c d e : Config E O} {l : Option (Nat × E)} {t : List (Nat × E)} (h : Steps d t e) (s : Step c l d) :
    Steps c (l.toList ++ t) e := by
  induction h with
  | refl => simpa using Steps.step (.refl c) s
  | step _ s' ih => simpa [← List.append_assoc] using ih.step s'

section
variable {q : Call E O} {launch : Launch} {t : List (Nat × E)} {c : Config E O} {r : Except Exn Resp} {run : Run E Resp}

/-- What is known of a configuration which a call reaches, with any events. -/
theorem reaches_good [DecidableEq O] (hr : q.Reaches launch t c) (hd : q.deferred = .done run) :
    ∃ v, v.map (·.data) = run.result ∧ Good (Rules.silent True) v (fun x => ∃ y, (run.trace ++ y).Perm x) c (events t) := by
  obtain ⟨p, hp, hs⟩ := hr
  obtain ⟨p', v, hp', hv, h1, _⟩ := program_den q hd launch
  cases hp.symm.trans hp'
  refine ⟨v, hv, ?_⟩
  have := good_start (h1 (.atLeast (.silent True) trivial) (.inr trivial) (silent_allows _ rfl _) (.inl (.inl trivial)) [v])
  exact this.steps hs

/-- There is no deadlock: when no thread can go on, all have ended, and the caller has an answer. -/
theorem no_deadlock (hr : q.Reaches launch t c) (hs : Stopped c) : Ended c ∧ ∃ r, Answered c r := by
  classical
  obtain ⟨p, hp, _⟩ := id hr
  obtain ⟨run, hd⟩ := (defined_iff q launch).1 ⟨p, hp⟩
  obtain ⟨v, _, g⟩ := reaches_good hr hd
  have he := g.progress hs
  exact ⟨he, _, v, (g.finished he).1, rfl⟩

/-- When the caller has the answer, all threads have ended, and no object is locked. -/
theorem answered_ended (hr : q.Reaches launch t c) (ha : Answered c r) : Ended c ∧ c.locks = [] := by
  classical
  obtain ⟨p, hp, _⟩ := id hr
  obtain ⟨run, hd⟩ := (defined_iff q launch).1 ⟨p, hp⟩
  obtain ⟨v, _, g⟩ := reaches_good hr hd
  obtain ⟨w, hw, _⟩ := ha
  have he := g.main_last hw
  exact ⟨he, g.unlocked he⟩

/-- The answer is that of deferred execution, in every schedule. -/
theorem answer_same (hr : q.Reaches launch t c) (hd : q.deferred = .done run) (ha : Answered c r) : r = run.result := by
  classical
  obtain ⟨v, hv, g⟩ := reaches_good hr hd
  obtain ⟨w, hw, rfl⟩ := ha
  have := (g.finished (g.main_last hw)).1
  rw [hw] at this
  cases this
  exact hv

/-- However far an execution has come, it can be continued until the caller has the answer. -/
theorem answer_comes (hr : q.Reaches launch t c) (hd : q.deferred = .done run) : ∃ t' d, Steps c t' d ∧ Answered d run.result := by
  classical
  induction c using (step_wf (E := E) (O := O)).induction generalizing t with
  | _ c ih =>
    by_cases hs : Stopped c
    · obtain ⟨_, r, ha⟩ := no_deadlock hr hs
      exact ⟨[], c, .refl c, answer_same hr hd ha ▸ ha⟩
    · unfold Stopped at hs
      push Not at hs
      obtain ⟨l, d, hs⟩ := hs
      obtain ⟨p, hp, h⟩ := hr
      obtain ⟨t', d', h1, h3⟩ := ih d ⟨l, hs⟩ (t := t ++ l.toList) ⟨p, hp, h.step hs⟩
      exact ⟨_, d', h1.cons hs, h3⟩

/-- Everything which happens in deferred execution has happened, in some order. -/
theorem events_all (hr : q.Reaches launch t c) (hd : q.deferred = .done run) (ha : Answered c r) :
    ∃ more, (run.trace ++ more).Perm (events t) := by
  classical
  obtain ⟨v, hv, g⟩ := reaches_good hr hd
  obtain ⟨w, hw, rfl⟩ := ha
  exact (g.finished (g.main_last hw)).2

/-- If no selection set fails as a whole, nothing else has happened. -/
theorem events_same (hr : q.Reaches launch t c) (hd : q.deferred = .done run) (ha : Answered c r) (hs : q.SetsSucceed) :
    run.trace.Perm (events t) := by
  classical
  obtain ⟨p, hp, hst⟩ := hr
  obtain ⟨p', v, hp', hv, h1, _⟩ := program_den q hd launch
  cases hp.symm.trans hp'
  have g := (good_start (h1 (.same (.silent True) trivial) (.inr trivial) (silent_allows _ rfl _) (.inr hs) [v])).steps hst
  obtain ⟨w, hw, rfl⟩ := ha
  simpa [events, Mode.same] using (g.finished (g.main_last hw)).2

/-- With `std::launch::deferred` everything happens in the thread of the caller, in order. -/
theorem deferred_order (hr : q.Reaches .deferred t c) (hd : q.deferred = .done run) :
    c.threads.length = 1 ∧ (∀ x ∈ t, x.1 = 0) ∧ ((∃ r, Answered c r) → events t = run.trace) := by
  classical
  obtain ⟨p, hp, hst⟩ := hr
  obtain ⟨p', v, hp', hv, h1, _⟩ := program_den q hd .deferred
  cases hp.symm.trans hp'
  have g := good_start (h1 (.exact (.silent False)) (.inl rfl) (silent_allows _ rfl _) (.inl (.inr id)) [v])
  refine ⟨g.single id hst, ?_, ?_⟩
  · induction hst with
    | refl => simp
    | step s1 s2 ih =>
      intro x hx
      rcases List.mem_append.1 hx with hx | hx
      · exact ih x hx
      · have hlen := g.single id s1
        cases s2 with
        | emit h =>
          simp only [Option.toList_some, List.mem_singleton] at hx
          subst hx
          have := lt_of_get h
          simp only [start, List.length_cons, List.length_nil] at hlen
          omega
        | _ => simp at hx
  · rintro ⟨r, w, hw, rfl⟩
    have g := g.steps hst
    have := (g.finished (g.main_last hw)).2
    simpa [events, Mode.exact, eq_comm] using this

/-- Mutations run in order, whatever the policy. -/
theorem mutation_order (hr : q.Reaches launch t c) (hd : q.deferred = .done run) (ha : Answered c r) (hm : q.IsMutation) :
    events t = run.trace := by
  classical
  obtain ⟨p, hp, hst⟩ := hr
  obtain ⟨p', v, hp', hv, _, h2⟩ := program_den q hd launch
  cases hp.symm.trans hp'
  have g := (good_start (h2 hm (.silent True) trivial (silent_allows _ rfl _) [v])).steps hst
  obtain ⟨w, hw, rfl⟩ := ha
  have := (g.finished (g.main_last hw)).2
  simpa [events, eq_comm] using this

/-- The accessors of an object are called one after the other, in any schedule: the events of the object are those of complete calls, and
perhaps of the beginning of one more. -/
theorem accessors_serial [DecidableEq O] {owner : E → Option O} (hl : Labels q.service.impl owner) (hr : q.Reaches launch t c) (o : O) :
    ∃ (calls : List (List E)) (last : List E), ((events t).filter fun e => owner e = some o) = calls.flatten ++ last ∧
      (∀ w ∈ calls, AccessorCall q.service.impl o w) ∧ (last = [] ∨ ∃ rest, AccessorCall q.service.impl o (last ++ rest)) ∧
      (∀ r, Answered c r → last = []) := by
  obtain ⟨p, hp, hst⟩ := hr
  obtain ⟨run, hd⟩ := (defined_iff q launch).1 ⟨p, hp⟩
  obtain ⟨p', v, hp', hv, h1, _⟩ := program_den q hd launch
  cases hp.symm.trans hp'
  have g := (good_start (h1 (.atLeast (.labelled q.service.impl owner) trivial) (.inr trivial) (labelled_allows _ rfl hl)
    (.inl (.inl trivial)) [v])).steps hst
  obtain ⟨calls, last, h2, h3, h4, h5⟩ := g.serial trivial o
  refine ⟨calls, last, h2, h3, h4, ?_⟩
  rintro r ⟨w, hw, rfl⟩
  exact h5 (g.main_last hw)

/-- An event of an accessor of an object happens in the one thread which has the lock of the object. -/
theorem accessor_locked [DecidableEq O] {owner : E → Option O} (hl : Labels q.service.impl owner) (hr : q.Reaches launch t c)
    {i : Nat} {e : E} {d : Config E O} {o : O} (hs : Step c (some (i, e)) d) (ho : owner e = some o) :
    (o, i) ∈ c.locks ∧ ∀ j, (o, j) ∈ c.locks → j = i := by
  obtain ⟨p, hp, hst⟩ := hr
  obtain ⟨run, hd⟩ := (defined_iff q launch).1 ⟨p, hp⟩
  obtain ⟨p', v, hp', hv, h1, _⟩ := program_den q hd launch
  cases hp.symm.trans hp'
  have g := (good_start (h1 (.atLeast (.labelled q.service.impl owner) trivial) (.inr trivial) (labelled_allows _ rfl hl)
    (.inl (.inl trivial)) [v])).steps hst
  have h2 := g.holds_lock trivial hs ho
  refine ⟨h2, fun j hj => ?_⟩
  have := List.inj_on_of_nodup_map g.exclusive hj h2 rfl
  exact (Prod.ext_iff.1 this).2

end

end Verif.Async
