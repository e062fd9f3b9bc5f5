import Verif.Async.DeliverSim
import Verif.Async.Behaves

/-!
# Subscriptions with threads: theorems
-/
namespace Verif.Async
open Verif.Value Verif.Resp Verif.Errors Verif.Ast Verif.Exec Verif.Request

variable {E O C : Type}

/-! ## deliver -/

theorem runAll_calls (react : C → Reaction E) (calls : List (Subs.Call E C)) :
    (runAll (calls.map (callFut react))).trace = (callAll react calls).trace ∧
      (runAll (calls.map (callFut react))).result.map (fun _ => ()) = (callAll react calls).result := by
  induction calls with
  | nil => exact ⟨rfl, rfl⟩
  | cons c cs ih =>
    simp only [List.map_cons, runAll, callAll]
    cases hr : ((react c.callback).run c.document).result with
    | ok x => simp [Run.bind, callFut, hr, Except.map, ih.1, ← ih.2]
    | error e => simp [Run.bind, callFut, hr, Except.map]

theorem runAll_ok (react : C → Reaction E) (calls : List (Subs.Call E C)) (h : ∃ x, (callAll react calls).result = .ok x) :
    ∀ run ∈ calls.map (callFut react), ∃ x, run.result = .ok x := by
  induction calls with
  | nil => simp
  | cons c cs ih =>
    obtain ⟨x, h⟩ := h
    simp only [callAll] at h
    cases hr : ((react c.callback).run c.document).result with
    | error e => simp [Run.bind, hr] at h
    | ok y =>
      simp only [Run.bind, hr] at h
      intro run hrun
      simp only [List.map_cons, List.mem_cons] at hrun
      rcases hrun with rfl | hrun
      · exact ⟨{}, by simp [callFut, hr, Except.map]⟩
      · exact ih ⟨x, h⟩ run hrun

/-- What is known of a delivery. -/
theorem Delivery.behaves (q : Delivery E O C) {run : Run E Unit} (h : q.deferred = .done run) (launch : Launch) :
    ∃ p v, q.program launch = .done p ∧ v.map (fun _ => ()) = run.result ∧
      Behaves q.service.impl q.Labelled (q.Clean ∧ ∃ x, run.result = .ok x) launch p v run.trace := by
  unfold Delivery.deferred Subs.deliver at h
  unfold Delivery.program deliver
  cases ho : q.service.operations (str "subscription") with
  | none =>
    simp only [ho, Outcome.done.injEq] at h
    subst h
    exact ⟨_, .error (.other (str "Subscriptions not supported")), rfl, rfl, fun m _ _ _ _ _ => .done (m.refl _)⟩
  | some object =>
    simp only [ho] at h ⊢
    cases hob : q.object.or object with
    | none =>
      simp only [hob, Outcome.done.injEq] at h
      subst h
      exact ⟨_, .error (.other (str "Missing subscriptionObject")), rfl, rfl, fun m _ _ _ _ _ => .done (m.refl _)⟩
    | some o =>
      simp only [hob] at h ⊢
      cases hl : SortedMap.find Subs.nameLess q.state.listeners q.name with
      | none =>
        simp only [hl, Outcome.done.injEq] at h
        subst h
        exact ⟨_, .ok {}, rfl, rfl, fun m _ _ _ _ _ => .done (m.refl _)⟩
      | some e =>
        obtain ⟨_, keys⟩ := e
        simp only [hl] at h ⊢
        cases hk : Subs.deliverKeys q.service q.state o q.applyArguments q.applyDirectives keys with
        | undefined => simp [hk] at h
        | done run₀ =>
          simp only [hk, Outcome.done.injEq] at h
          subst h
          obtain ⟨p, hp, _⟩ := deliverKeys_sim (m := Mode.atLeast (Rules.silent True) trivial) (launch := launch) (react := q.react)
            (.inr trivial) (silent_allows _ rfl _) (fun _ _ _ _ h => h.elim) (.inl (.inl trivial)) (.inl (.inl trivial)) (.inl (.inl trivial)) o
            q.applyArguments q.applyDirectives keys hk (.inl (.inl trivial))
          simp only [hp]
          generalize hw : (run₀.bind fun calls => runAll (calls.map (callFut q.react)) : Fut E) = w
          have hwt : w.trace = (run₀.bind fun calls => callAll q.react calls).trace ∧
              w.result.map (fun _ => ()) = (run₀.bind fun calls => callAll q.react calls).result := by
            rw [← hw]
            cases hr : run₀.result with
            | ok calls => simp [Run.bind, hr, (runAll_calls q.react calls).1, (runAll_calls q.react calls).2]
            | error e => simp [Run.bind, hr, Except.map]
          refine ⟨_, w.result, rfl, hwt.2, fun m hl ha hq hc vals => ?_⟩
          rw [← hwt.1]
          have hcalls : Loses m ∨ ∃ calls, run₀.result = .ok calls := by
            refine hc.imp_right fun h => ?_
            obtain ⟨x, hx⟩ := h.2
            cases hr : run₀.result with
            | ok calls => exact ⟨calls, rfl⟩
            | error e => simp [Run.bind, hr] at hx
          obtain ⟨p', hp', hsim⟩ := deliverKeys_sim hl ha (react := q.react) (st := q.state) (fun e he x hx hk => hq hk e he x hx)
            (hc.imp_right fun h => h.1.sets) (hc.imp_right fun h => h.1.evaluate) (hc.imp_right fun h => h.1.reads) o
            q.applyArguments q.applyDirectives keys hk hcalls
          cases hp.symm.trans hp'
          refine Sim.den ?_
          rw [← hw]
          refine (hsim (vals := vals) (.nil)).bind fun vals' K fs calls s hv hr hf => ?_
          obtain ⟨rest, hf⟩ := hf
          refine getAll_sim ?_ hf
          refine hc.imp_right fun h => ?_
          obtain ⟨x, hx⟩ := h.2
          refine runAll_ok q.react calls ⟨x, ?_⟩
          simpa [Run.bind, hr] using hx

/-- A delivery is defined with a launch policy if it is with `std::launch::deferred`. -/
theorem deliver_defined_iff (q : Delivery E O C) (launch : Launch) :
    (∃ p, q.program launch = .done p) ↔ ∃ run, q.deferred = .done run := by
  constructor
  · rintro ⟨p, h⟩
    have keys (o : O) (ks : List Nat) (p) (h : deliverKeys q.service launch q.react q.state o q.applyArguments q.applyDirectives ks = .done p) :
        ∃ run, Subs.deliverKeys q.service q.state o q.applyArguments q.applyDirectives ks = .done run := by
      induction ks generalizing p with
      | nil => exact ⟨_, rfl⟩
      | cons k ks ih =>
        unfold deliverKeys at h
        unfold Subs.deliverKeys
        repeat' split at h
        all_goals first
          | cases h; done
          | (simp only [*]; exact ⟨_, rfl⟩)
          | (simp only [*]; exact ih _ h)
          | exact ih _ h
          | (rename_i h' ; obtain ⟨r, hr⟩ := ih _ h'; simp only [*]; exact ⟨_, rfl⟩)
    unfold Delivery.program deliver at h
    unfold Delivery.deferred Subs.deliver
    repeat' split at h
    all_goals first
      | cases h; done
      | (simp only [*]; exact ⟨_, rfl⟩)
      | (rename_i h'; obtain ⟨r, hr⟩ := keys _ _ _ h'; simp only [*]; exact ⟨_, rfl⟩)
  · rintro ⟨run, h⟩
    obtain ⟨p, _, hp, _⟩ := q.behaves h launch
    exact ⟨p, hp⟩

section
variable {q : Delivery E O C} {launch : Launch} {t : List (Nat × E)} {c : Config E O} {r : Except Exn Unit} {run : Run E Unit}

/-- There is no deadlock: when no thread can go on, all have ended, and the call has returned or thrown. -/
theorem deliver_no_deadlock (hr : q.Reaches launch t c) (hs : Stopped c) : Ended c ∧ ∃ r, Returned c r := by
  obtain ⟨p, hp, hst⟩ := hr
  obtain ⟨run, hd⟩ := (deliver_defined_iff q launch).1 ⟨p, hp⟩
  obtain ⟨p', v, hp', hv, b⟩ := q.behaves hd launch
  cases hp.symm.trans hp'
  obtain ⟨h1, h2⟩ := b.no_deadlock hst hs
  exact ⟨h1, _, v, h2, rfl⟩

/-- When the call returns or throws, all threads have ended, also those of all callbacks, and no object is locked. -/
theorem deliver_ended (hr : q.Reaches launch t c) (ha : Returned c r) : Ended c ∧ c.locks = [] := by
  obtain ⟨p, hp, hst⟩ := hr
  obtain ⟨run, hd⟩ := (deliver_defined_iff q launch).1 ⟨p, hp⟩
  obtain ⟨p', v, hp', hv, b⟩ := q.behaves hd launch
  cases hp.symm.trans hp'
  obtain ⟨w, hw, _⟩ := ha
  obtain ⟨_, h1, h2, _⟩ := b.returned hst hw
  exact ⟨h1, h2⟩

/-- The call returns or throws what it does with `std::launch::deferred`: the exception of the first callback which throws, in the order
of the keys. -/
theorem deliver_same (hr : q.Reaches launch t c) (hd : q.deferred = .done run) (ha : Returned c r) : r = run.result := by
  obtain ⟨p, hp, hst⟩ := hr
  obtain ⟨p', v, hp', hv, b⟩ := q.behaves hd launch
  cases hp.symm.trans hp'
  obtain ⟨w, hw, rfl⟩ := ha
  obtain ⟨rfl, _⟩ := b.returned hst hw
  exact hv

/-- However far an execution has come, it can be continued until the call returns or throws. -/
theorem deliver_comes (hr : q.Reaches launch t c) (hd : q.deferred = .done run) : ∃ t' d, Steps c t' d ∧ Returned d run.result := by
  obtain ⟨p, hp, hst⟩ := hr
  obtain ⟨p', v, hp', hv, b⟩ := q.behaves hd launch
  cases hp.symm.trans hp'
  obtain ⟨t', d, h1, h2⟩ := b.comes hst
  exact ⟨t', d, h1, v, h2, hv⟩

/-- Everything which happens in deferred execution has happened, in some order: every callback which is called there is called. -/
theorem deliver_events_all (hr : q.Reaches launch t c) (hd : q.deferred = .done run) (ha : Returned c r) :
    ∃ more, (run.trace ++ more).Perm (events t) := by
  obtain ⟨p, hp, hst⟩ := hr
  obtain ⟨p', v, hp', hv, b⟩ := q.behaves hd launch
  cases hp.symm.trans hp'
  obtain ⟨w, hw, rfl⟩ := ha
  exact (b.returned hst hw).2.2.2

/-- If the call returns, the callbacks call `get()` and no selection set fails as a whole, nothing else has happened. -/
theorem deliver_events_same (hr : q.Reaches launch t c) (hd : q.deferred = .done run) (ha : Returned c (.ok ())) (hc : q.Clean) :
    run.trace.Perm (events t) := by
  have hok := deliver_same hr hd ha
  obtain ⟨p, hp, hst⟩ := hr
  obtain ⟨p', v, hp', hv, b⟩ := q.behaves hd launch
  cases hp.symm.trans hp'
  obtain ⟨w, hw, _⟩ := ha
  exact b.same hst hw ⟨hc, _, hok.symm⟩

/-- With `std::launch::deferred` everything happens in the thread of the caller, in order. -/
theorem deliver_deferred_order (hr : q.Reaches .deferred t c) (hd : q.deferred = .done run) :
    c.threads.length = 1 ∧ (∀ x ∈ t, x.1 = 0) ∧ ((∃ r, Returned c r) → events t = run.trace) := by
  obtain ⟨p, hp, hst⟩ := hr
  obtain ⟨p', v, hp', hv, b⟩ := q.behaves hd .deferred
  cases hp.symm.trans hp'
  obtain ⟨h1, h2, h3⟩ := b.deferred hst
  refine ⟨h1, h2, ?_⟩
  rintro ⟨r, w, hw, _⟩
  exact h3 ⟨w, hw⟩

/-- The accessors of an object are called one after the other, in any schedule, also those for different subscriptions. -/
theorem deliver_accessors_serial [DecidableEq O] {owner : E → Option O} (hl : Labels q.service.impl owner) (hq : q.Labelled owner)
    (hr : q.Reaches launch t c) (o : O) :
    ∃ (calls : List (List E)) (last : List E), ((events t).filter fun e => owner e = some o) = calls.flatten ++ last ∧
      (∀ w ∈ calls, AccessorCall q.service.impl o w) ∧ (last = [] ∨ ∃ rest, AccessorCall q.service.impl o (last ++ rest)) ∧
      (∀ r, Returned c r → last = []) := by
  obtain ⟨p, hp, hst⟩ := hr
  obtain ⟨run, hd⟩ := (deliver_defined_iff q launch).1 ⟨p, hp⟩
  obtain ⟨p', v, hp', hv, b⟩ := q.behaves hd launch
  cases hp.symm.trans hp'
  obtain ⟨calls, last, h1, h2, h3, h4⟩ := b.serial hl hq hst o
  refine ⟨calls, last, h1, h2, h3, ?_⟩
  rintro r ⟨w, hw, _⟩
  exact h4 w hw

/-- An event of an accessor of an object happens in the one thread which has the lock of the object. -/
theorem deliver_accessor_locked [DecidableEq O] {owner : E → Option O} (hl : Labels q.service.impl owner) (hq : q.Labelled owner)
    (hr : q.Reaches launch t c) {i : Nat} {e : E} {d : Config E O} {o : O} (hs : Step c (some (i, e)) d) (ho : owner e = some o) :
    (o, i) ∈ c.locks ∧ ∀ j, (o, j) ∈ c.locks → j = i := by
  obtain ⟨p, hp, hst⟩ := hr
  obtain ⟨run, hd⟩ := (deliver_defined_iff q launch).1 ⟨p, hp⟩
  obtain ⟨p', v, hp', hv, b⟩ := q.behaves hd launch
  cases hp.symm.trans hp'
  exact b.locked hl hq hst hs ho

end

/-! ## subscribe and unsubscribe -/

theorem at_mem {m : SortedMap.SMap Nat (Subs.Registration C)} {key : Nat} {r : Subs.Registration C}
    (h : SortedMap.at? Subs.keyLess m key = some r) : ∃ e ∈ m, e.2 = r := by
  unfold SortedMap.at? at h
  dsimp only at h
  split at h
  · cases h
  · rw [Option.map_eq_some_iff] at h
    obtain ⟨e, he, rfl⟩ := h
    exact ⟨e, List.mem_of_getElem? he, rfl⟩

theorem notify_behaves (S : Service E O) (launch : Launch) (context : Context) (o : O) (r : Subs.Registration C) :
    Behaves S.impl (fun _ => True) (SetsSucceed S.impl ∧ EvaluateAll ⟨r.variables, S.atoiOverflow⟩ r.selection) launch
      (notify S launch context o r) (Subs.notify S context o r).result (Subs.notify S context o r).trace := by
  intro m hl ha _ hc vals
  refine Sim.den ?_
  have e : Subs.notify S context o r = (Run.pure (Subs.notify S context o r)).bind fun f => f := by simp [Run.pure, Run.bind]
  rw [e]
  exact SimA.bind (Sim.async hl fun vals' _ => execute_sim hl ha (hc.imp_right (·.1)) (hc.imp_right (·.2)) o _)
    fun vals₂ K f run'' s _ _ hf => hf.choose_spec.get

theorem Behaves.outcome {I : Impl E O} {quiet : (E → Option O) → Prop} {clean : Prop} {launch : Launch} {p : Proc E O} {v : Val}
    {trace : List E} {t : List (Nat × E)} {c : Config E O} (b : Behaves I quiet clean launch p v trace) (hs : Steps (start p) t c) :
    (Stopped c → ∃ v, c.threads[0]? = some (.done v)) ∧ (∃ t' d v, Steps c t' d ∧ d.threads[0]? = some (.done v)) ∧
      ∀ w, c.threads[0]? = some (.done w) → w = v ∧ Ended c ∧ c.locks = [] ∧ (∃ more, (trace ++ more).Perm (events t)) ∧
        (clean → trace.Perm (events t)) ∧ (launch = .deferred → events t = trace) := by
  refine ⟨fun h => ⟨v, (b.no_deadlock hs h).2⟩, ?_, fun w hw => ?_⟩
  · obtain ⟨t', d, h1, h2⟩ := b.comes hs
    exact ⟨t', d, v, h1, h2⟩
  · obtain ⟨h1, h2, h3, h4⟩ := b.returned hs hw
    refine ⟨h1, h2, h3, h4, b.same hs hw, ?_⟩
    rintro rfl
    exact (b.deferred hs).2.2 ⟨w, hw⟩

theorem behaves_done (I : Impl E O) (quiet : (E → Option O) → Prop) (clean : Prop) (launch : Launch) (v : Val) :
    Behaves I quiet clean launch (.done v) v [] := fun m _ _ _ _ _ => .done (m.refl _)

/-- What the caller of `subscribe` or `unsubscribe` sees: no deadlock; when the call returns or throws all threads have ended, the
subscriptions and what is returned are those of deferred execution, and everything has happened which happens there; nothing else if no
selection set fails. -/
def SameAs {α : Type} (launch : Launch) (clean : Prop) (n : Notified E O C α) (t : List (Nat × E)) (c : Config E O)
    (deferred : List E × Subs.State C × α) : Prop :=
  (Stopped c → ∃ v, c.threads[0]? = some (.done v)) ∧ (∃ t' d v, Steps c t' d ∧ d.threads[0]? = some (.done v)) ∧
    ∀ v, c.threads[0]? = some (.done v) →
      n.finish v = deferred.2 ∧ Ended c ∧ c.locks = [] ∧ (∃ more, (deferred.1 ++ more).Perm (events t)) ∧
        (clean → deferred.1.Perm (events t)) ∧ (launch = .deferred → events t = deferred.1)

theorem Behaves.sameAs {α : Type} {I : Impl E O} {quiet : (E → Option O) → Prop} {clean : Prop} {launch : Launch} {n : Notified E O C α}
    {v : Val} {trace : List E} {t : List (Nat × E)} {c : Config E O} (b : Behaves I quiet clean launch n.program v trace)
    (hs : Steps (start n.program) t c) {r : Subs.State C × α} (hf : n.finish v = r) : SameAs launch clean n t c (trace, r) := by
  obtain ⟨h1, h2, h3⟩ := b.outcome hs
  refine ⟨h1, h2, fun w hw => ?_⟩
  obtain ⟨rfl, h⟩ := h3 w hw
  exact ⟨hf, h⟩

/-- No selection set fails as a whole when the object is told about the subscription. -/
def SubscribeClean (S : Service E O) (st : Subs.State C) (p : Subs.Params C) : Prop :=
  SetsSucceed S.impl ∧ ∀ st' key r, Subs.subscribe S st p = .ok (st', key) →
    SortedMap.at? Subs.keyLess st'.subscriptions key = some r → EvaluateAll ⟨r.variables, S.atoiOverflow⟩ r.selection

/-- `subscribe` with any launch policy, in any schedule. -/
theorem subscribe_same (S : Service E O) (launch : Launch) (st : Subs.State C) (p : Subs.Params C) {n : Notified E O C (Option Nat)}
    (hn : subscribe S launch st p = .done n) {t : List (Nat × E)} {c : Config E O} (hs : Steps (start n.program) t c) :
    ∃ deferred, Subs.subscribeAsync S st p = .done deferred ∧
      SameAs launch (SubscribeClean S st p)
        n t c deferred := by
  unfold subscribe at hn
  unfold Subs.subscribeAsync
  cases hsub : Subs.subscribe S st p with
  | error e =>
    cases e with
    | undefined => simp [hsub] at hn
    | exn e =>
      simp only [hsub, Outcome.done.injEq] at hn ⊢
      subst hn
      exact ⟨_, rfl, (behaves_done S.impl (fun _ => True) _ _ _).sameAs hs rfl⟩
  | ok x =>
    obtain ⟨st', key⟩ := x
    simp only [hsub] at hn ⊢
    cases ho : S.operations (str "subscription") with
    | none =>
      simp only [ho, Outcome.done.injEq] at hn ⊢
      subst hn
      exact ⟨_, rfl, (behaves_done S.impl (fun _ => True) _ _ _).sameAs hs rfl⟩
    | some object =>
      cases object with
      | none => simp [ho] at hn
      | some o =>
        simp only [ho] at hn ⊢
        cases hat : SortedMap.at? Subs.keyLess st'.subscriptions key with
        | none =>
          simp only [hat, Outcome.done.injEq] at hn ⊢
          subst hn
          exact ⟨_, rfl, (behaves_done S.impl (fun _ => True) _ _ _).sameAs hs rfl⟩
        | some r =>
          simp only [hat, Outcome.done.injEq] at hn ⊢
          subst hn
          have b : Behaves S.impl (fun _ => True)
              (SubscribeClean S st p) launch
              (notify S launch .notifySubscribe o r) (Subs.notify S .notifySubscribe o r).result (Subs.notify S .notifySubscribe o r).trace := by
            intro m hl ha hq hc
            refine notify_behaves S launch _ o r m hl ha hq (hc.imp_right fun h => ⟨h.1, h.2 st' key r hsub hat⟩)
          cases hr : (Subs.notify S .notifySubscribe o r).result with
          | ok x => exact ⟨(_, st', some key), rfl, b.sameAs hs (by simp [hr])⟩
          | error e =>
            rcases Option.eq_none_or_eq_some (Subs.unsubscribe st' key) with hu | ⟨st'', hu⟩
            · exact ⟨(_, st', none), by simp only [hu], b.sameAs hs (by simp [hr, hu])⟩
            · exact ⟨(_, st'', none), by simp only [hu], b.sameAs hs (by simp [hr, hu])⟩

/-- `unsubscribe` with any launch policy, in any schedule. -/
theorem unsubscribe_same (S : Service E O) (launch : Launch) (st : Subs.State C) (key : Nat) {n : Notified E O C Bool}
    (hn : unsubscribe S launch st key = .done n) {t : List (Nat × E)} {c : Config E O} (hs : Steps (start n.program) t c) :
    ∃ deferred, Subs.unsubscribeAsync S st key = .done deferred ∧
      SameAs launch (SetsSucceed S.impl ∧ ∀ e ∈ st.subscriptions, EvaluateAll ⟨e.2.variables, S.atoiOverflow⟩ e.2.selection)
        n t c deferred := by
  unfold unsubscribe at hn
  unfold Subs.unsubscribeAsync
  dsimp only at hn ⊢
  cases ho : S.operations (str "subscription") with
  | none =>
    simp only [ho, Outcome.done.injEq] at hn ⊢
    subst hn
    rcases Option.eq_none_or_eq_some (Subs.unsubscribe st key) with hu | ⟨st', hu⟩
    · exact ⟨([], st, false), by simp only [hu], (behaves_done S.impl (fun _ => True) _ _ _).sameAs hs (by simp [hu])⟩
    · exact ⟨([], st', true), by simp only [hu], (behaves_done S.impl (fun _ => True) _ _ _).sameAs hs (by simp [hu])⟩
  | some object =>
    simp only [ho] at hn ⊢
    cases hat : SortedMap.at? Subs.keyLess st.subscriptions key with
    | none =>
      simp only [hat, Outcome.done.injEq] at hn ⊢
      subst hn
      exact ⟨_, rfl, (behaves_done S.impl (fun _ => True) _ _ _).sameAs hs rfl⟩
    | some r =>
      cases object with
      | none => simp [hat] at hn
      | some o =>
        simp only [hat, Outcome.done.injEq] at hn ⊢
        subst hn
        have b : Behaves S.impl (fun _ => True)
            (SetsSucceed S.impl ∧ ∀ e ∈ st.subscriptions, EvaluateAll ⟨e.2.variables, S.atoiOverflow⟩ e.2.selection) launch
            (notify S launch .notifyUnsubscribe o r) (Subs.notify S .notifyUnsubscribe o r).result (Subs.notify S .notifyUnsubscribe o r).trace := by
          intro m hl ha hq hc
          refine notify_behaves S launch _ o r m hl ha hq (hc.imp_right fun h => ⟨h.1, ?_⟩)
          obtain ⟨x, hx, rfl⟩ := at_mem hat
          exact h.2 x hx
        cases hr : (Subs.notify S .notifyUnsubscribe o r).result with
        | ok x =>
          rcases Option.eq_none_or_eq_some (Subs.unsubscribe st key) with hu | ⟨st', hu⟩
          · exact ⟨(_, st, false), by simp only [hu], b.sameAs hs (by simp [hr, hu])⟩
          · exact ⟨(_, st', true), by simp only [hu], b.sameAs hs (by simp [hr, hu])⟩
        | error e => exact ⟨(_, st, false), rfl, b.sameAs hs (by simp [hr])⟩

end Verif.Async
