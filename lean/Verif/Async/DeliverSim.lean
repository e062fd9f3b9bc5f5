import Verif.Async.DeliverSpec

/-!
# Subscriptions with threads, compared with deferred execution
-/
namespace Verif.Async
open Verif.Value Verif.Resp Verif.Errors Verif.Ast Verif.Exec Verif.Request

variable {E O C α β : Type} {m : Mode E O} {vals vals' : List Val} {K K' : Multiset Nat}
  {fs : List (Future E O)} {runs : List (Fut E)} {s rest : List E}

/-- The future of a document which `Verif.Subs` has. -/
def documentFut (d : Run E Resp) : Fut E := ⟨d.trace, d.result.map fun v => { data := v }⟩

/-- The future of a callback. -/
def callFut (react : C → Reaction E) (c : Subs.Call E C) : Fut E :=
  ⟨((react c.callback).run c.document).trace, ((react c.callback).run c.document).result.map fun _ => {}⟩

/-- One future after the other. -/
def runAll : List (Fut E) → Fut E
  | [] => .pure {}
  | run :: runs => run.bind fun _ => runAll runs

/-- The events of a callback belong to no object. -/
def ReactionAllowed (m : Mode E O) (reaction : Reaction E) : Prop := ∀ e, reaction.Has e → m.rules.known → m.rules.owner e = none

/-- Events which do not belong to objects, before a computation. -/
theorem Tri.emits {c : Comp E O α} {es : List E} {Q : List Val → Multiset Nat → Except Exn α → List E → Prop}
    (ha : ∀ e ∈ es, m.rules.known → m.rules.owner e = none) (h : Tri m vals K c fun v k a s => Q v k a (es ++ s)) :
    Tri m vals K (fun k => Comp.emits es (c k)) Q := by
  intro vals₀ hv κ r T F hT hκ
  refine den_emits ha (h vals₀ hv κ r _ F (hT.after es) fun vals' K' a s hv' hq => ?_)
  have := hκ vals' K' a _ hv' hq
  simpa [List.append_assoc] using this

/-- Waiting for threads which are there. -/
theorem Tri.waitAll {c : Comp E O α} {is : List Nat} {Q : List Val → Multiset Nat → Except Exn α → List E → Prop}
    (hi : ∀ i ∈ is, i < vals.length) (h : Tri m vals K c Q) : Tri m vals (↑is + K) (fun k => Comp.waitAll is (c k)) Q := by
  intro vals₀ hv κ r T F hT hκ
  rw [add_assoc]
  exact den_waitAll (h vals₀ hv κ r T F hT hκ) fun i hi' => Nat.lt_of_lt_of_le (hi i hi') hv.length_le

theorem map_data (r : Except Exn Resp) : (r.map fun v => ({ data := v } : Result)).map (·.data) = r := by
  cases r <;> rfl

/-- `std::async` of a callback. -/
theorem callBack_sim {launch : Launch} (hl : launch = .deferred ∨ m.threads) (react : C → Reaction E) {c : C} {f : Future E O} {d : Run E Resp}
    (ha : ReactionAllowed m (react c)) (hr : Loses m ∨ (react c).Reads) (h : FutSim m vals K f (documentFut d) s rest) :
    SimA m vals K s (async launch (callBack (react c) f) f.owned) (Run.pure (callFut react ⟨c, d⟩)) (IsFut m) := by
  obtain ⟨hK, ho⟩ := h.owned
  unfold callBack callFut
  dsimp only
  cases hc : react c with
  | reads before after =>
    rw [hc] at ha
    have ha : (∀ e ∈ before, m.rules.known → m.rules.owner e = none) ∧
        ∀ r, ∀ e ∈ (after r).trace, m.rules.known → m.rules.owner e = none :=
      ⟨fun e he => ha e (.inl he), fun r e he => ha e (.inr ⟨r, he⟩)⟩
    subst hK
    refine SimA.async (rest := before ++ (rest ++ (after d.result).trace)) hl ho ?_ h.early ?_
    · have e1 : m.eqv (before ++ d.trace ++ (after d.result).trace) (before ++ (s ++ rest) ++ (after d.result).trace) :=
        Mode.eqv.append (.append (.inl rfl) h.trace) (.inl rfl)
      have e2 := Mode.eqv_swap (m := m) (a := []) (c := before) (d := rest ++ (after d.result).trace) h.early
      simp only [List.nil_append, List.append_assoc] at e1 e2
      simp only [Reaction.run, List.append_assoc]
      exact e1.trans e2
    · refine Tri.emits ha.1 ?_
      refine Tri.next h.get_does fun vals' K' a s' hv hq => ?_
      obtain ⟨rfl, rfl, hle⟩ := hq
      have e : ((documentFut d).result.map (·.data)) = d.result := map_data _
      rw [e]
      refine Tri.bind (Tri.user (Q := fun _ k a s => k = 0 ∧ a = (after d.result).result ∧ s = (after d.result).trace) (ha.2 _)
        fun _ _ => ⟨rfl, rfl, rfl⟩) (fun vals'' K'' a s'' hv' hq => ?_) fun vals'' K'' e s'' hv' hq => ?_
      · obtain ⟨rfl, h1, rfl⟩ := hq
        refine Tri.pure fun _ _ => ⟨rfl, ?_, ?_⟩
        · simp [Reaction.run, ← h1, Except.map]
        · simpa using m.append (m.refl _) (m.append hle (m.refl _))
      · obtain ⟨rfl, h1, rfl⟩ := hq
        exact ⟨rfl, by simp [Reaction.run, ← h1, Except.map], m.append (m.refl _) (m.append hle (m.refl _))⟩
  | drops run =>
    rw [hc] at ha hr
    have ha : ∀ e ∈ run.trace, m.rules.known → m.rules.owner e = none := fun e he => ha e he
    have hlose : Loses m := hr.resolve_right fun h => h
    have hv : InVain m s := by simpa using (FutSims.cons h .nil).lost hlose
    subst hK
    have := SimA.async (m := m) (vals := vals) (launch := launch) (owned := f.owned) (s := []) (rest := run.trace)
      (run := ⟨run.trace, run.result.map fun _ => ({} : Result)⟩)
      (c := fun k => Comp.emits run.trace (Comp.waitAll f.owned (k (run.result.map fun _ => {})))) hl ho (.inl rfl) (.inr rfl) ?_
    · refine Tri.weaken this fun vals' K' a t _ hq => ?_
      simp only [Ret, Run.pure] at hq ⊢
      obtain ⟨x, s₁, h1, h2, h3⟩ := hq
      refine ⟨x, s₁, h1, h2, ?_⟩
      simp only [List.nil_append] at h3 ⊢
      exact m.trans h3 (hv _)
    · refine Tri.emits ha ?_
      have := Tri.waitAll (m := m) (K := 0) ho (Tri.lift (a := run.result.map fun _ => ({} : Result))
        (Q := fun v k a s => Does m (run.result.map fun _ => ({} : Result)) run.trace v k a (run.trace ++ s))
        fun _ _ => ⟨rfl, rfl, by simpa using m.refl _⟩)
      rw [add_zero] at this
      exact this

variable {S : Service E O} {launch : Launch}

/-- The future of a document. -/
theorem eventFuture_sim (hl : launch = .deferred ∨ m.threads) (ha : Allows m S.impl) (hs : Loses m ∨ SetsSucceed S.impl) (o : O)
    (r : Subs.Registration C) (he : Loses m ∨ EvaluateAll ⟨r.variables, S.atoiOverflow⟩ r.selection) :
    Sim m vals (eventFuture S launch o r) (Subs.eventDocument S o r) fun v k f d s => IsFut m v k f (documentFut d) s := by
  refine Tri.next (f := documentOf launch) (resolveObject_sim hl ha hs (visitAll_sim hl ha hs r.selection he) o (rootParams .subscription r.directives))
    fun vals' K a s hv hq => ?_
  unfold Subs.eventDocument
  dsimp only
  generalize Exec.resolveObject S.impl (Exec.visitAll S.impl ⟨r.variables, S.atoiOverflow⟩ r.selection) o
    (rootParams .subscription r.directives) = started at hq ⊢
  unfold Ret at hq
  cases hr : started.result with
  | ok f =>
    simp only [hr] at hq ⊢
    obtain ⟨operation, s₁, rfl, ⟨rest, hf⟩, hle⟩ := hq
    simp only [documentOf]
    obtain ⟨hK, ho⟩ := hf.owned
    subst hK
    have := SimA.async (run := documentFut (f.bind fun result => .pure (document result))) (rest := rest) hl ho
      (c := operation.get.bind fun r => .pure { data := document r }) ?_ hf.early ?_
    · refine Tri.weaken this fun vals'' K'' a t _ hq => ?_
      simp only [Ret, Run.pure] at hq
      obtain ⟨x, s₂, h1, h2, h3⟩ := hq
      refine ⟨x, s₂, h1, h2, ?_⟩
      simp only [List.nil_append] at h3 hle ⊢
      refine m.trans (m.append (m.refl _) h3) ?_
      rw [← List.append_assoc]
      exact m.append hle (m.refl _)
    · have ht := hf.trace
      cases hr : f.result <;> simpa [documentFut, Run.bind, Run.pure, hr] using ht
    · refine hf.get_does.bind (fun vals' K' a s hv hq => ?_) fun vals' K' e s hv hq => ?_
      · obtain ⟨rfl, ha, hl⟩ := hq
        exact Tri.pure fun _ _ => ⟨rfl, by simp [documentFut, Run.bind, Run.pure, ← ha, Except.map], by simpa using hl⟩
      · obtain ⟨rfl, ha, hl⟩ := hq
        exact ⟨rfl, by simp [documentFut, Run.bind, ← ha, Except.map], hl⟩
  | error e =>
    simp only [hr] at hq
    obtain ⟨rfl, rfl, hle⟩ := hq
    cases e with
    | schema errors =>
      refine Tri.pure (a := Future.ready (.ok { data := errorDocument errors })) fun _ _ => ⟨_, [], rfl, ⟨[], ?_⟩, by simpa using hle⟩
      exact FutSim.ready _
    | other what => exact Tri.throw fun _ _ => ⟨rfl, rfl, by simpa using hle⟩

/-- Getting one future after the other. -/
theorem getAll_sim : {fs : List (Future E O)} → {runs : List (Fut E)} → {vals : List Val} → {K : Multiset Nat} → {s rest : List E} →
    (Loses m ∨ ∀ run ∈ runs, ∃ x, run.result = .ok x) → FutSims m vals K fs runs s rest →
    SimA m vals K s (getAll fs) (runAll runs) (Plain Eq)
  | [], _, _, _, _, _, _, h => by
    cases h
    exact Tri.pure fun _ _ => ret_iff.2 ⟨rfl, rfl, by simpa [runAll, Run.pure] using m.refl _⟩
  | f :: fs, _, vals, _, _, _, hd, h => by
    rcases h with _ | @⟨K₁, K₂, _, run, _, runs, s₁, s₂, r₁, _, h, t⟩
    unfold getAll runAll
    have step : Tri m vals (K₁ + K₂) (unwind fs f.get) fun v k a s => a = run.result ∧ vals <+: v ∧ m.le r₁ s ∧
        k = if a.isOk then K₂ else 0 := by
      intro vals₀ hv κ r T F hT hκ
      rw [add_assoc]
      refine h.get_does vals₀ hv _ r T (K₂ + F) hT fun vals' K' a s hv' hq => ?_
      obtain ⟨rfl, rfl, hle⟩ := hq
      rw [zero_add]
      cases ha : run.result with
      | ok x => exact hκ vals' K₂ (.ok x) s hv' ⟨ha.symm, hv.trans hv', hle, by simp [Except.isOk, Except.toBool]⟩
      | error e =>
        have h1 := hκ vals' 0 (.error e) s hv' ⟨ha.symm, hv.trans hv', hle, by simp [Except.isOk, Except.toBool]⟩
        obtain ⟨h2, h3⟩ := (t.mono (hv.trans hv')).owned
        simp only [zero_add] at h1
        rw [h2]
        exact den_waitAll h1 h3
    refine Tri.bind step (fun vals' K' a s hv hq => ?_) fun vals' K' e s hv hq => ?_
    · obtain ⟨ha, _, hle, hk⟩ := hq
      simp only [Except.isOk, Except.toBool, if_true] at hk
      subst hk
      have ih := getAll_sim (hd.imp_right fun h x hx => h x (by simp [hx])) (t.mono hv)
      refine Tri.weaken ih fun vals'' K'' b s' hv' hq => ?_
      obtain ⟨rfl, rfl, hle'⟩ := ret_iff.1 hq
      refine ret_iff.2 ⟨rfl, by simp [Run.bind, ← ha], ?_⟩
      have e : (run.bind fun _ => runAll runs).trace = run.trace ++ (runAll runs).trace := by simp [Run.bind, ← ha]
      rw [e]
      refine m.trans (m.append (m.trans h.trace.le (m.append (m.refl s₁) hle)) hle') ?_
      exact (Mode.eqv_swap t.early).le
    · obtain ⟨ha, _, hle, hk⟩ := hq
      simp only [Except.isOk, Except.toBool] at hk
      subst hk
      refine ret_iff.2 ⟨rfl, by simp [Run.bind, ← ha], ?_⟩
      have e : (run.bind fun _ => runAll runs).trace = run.trace := by simp [Run.bind, ← ha]
      rw [e]
      rcases hd with hd | hd
      · refine m.trans h.trace.le ?_
        rw [List.append_assoc]
        exact m.append (m.refl _) (m.trans (t.lost hd r₁) (m.append (m.refl _) hle))
      · obtain ⟨x, hx⟩ := hd run (by simp)
        rw [hx] at ha
        cases ha

/-- A change of the result in deferred execution only. -/
theorem SimA.map {γ : Type} {c : Comp E O α} {run : Run E β} {R : List Val → Multiset Nat → α → β → List E → Prop}
    {R' : List Val → Multiset Nat → α → γ → List E → Prop} {g : β → γ} (h : SimA m vals K s c run R)
    (hr : ∀ v k x b t, R v k x b t → R' v k x (g b) t) : SimA m vals K s c (run.bind fun b => .pure (g b)) R' := by
  refine Tri.weaken h fun vals' K' a t _ hq => ?_
  unfold Ret at hq ⊢
  cases hb : run.result with
  | error e => simpa [Run.bind, hb] using hq
  | ok b =>
    simp only [Run.bind, hb, Run.pure, List.append_nil] at hq ⊢
    obtain ⟨x, s₁, h1, h2, h3⟩ := hq
    exact ⟨x, s₁, h1, hr _ _ _ _ _ h2, h3⟩

theorem find_mem {m : SortedMap.SMap Nat (Subs.Registration C)} {key : Nat} {e : Nat × Subs.Registration C}
    (h : SortedMap.find Subs.keyLess m key = some e) : e ∈ m := by
  unfold SortedMap.find at h
  dsimp only at h
  split at h
  · cases h
  · exact List.mem_of_getElem? h

/-- A computation which does not throw, in presence of other futures. -/
theorem SimA.frame_left {c : Comp E O α} {run : Run E β} {R : List Val → Multiset Nat → α → β → List E → Prop} {s' : List E}
    (hc : SimA m vals K' s' c run R) (hr : ∃ b, run.result = .ok b) (hs : m.threads ∨ s = []) :
    SimA m vals (K + K') (s ++ s') c run fun v k x b t => ∃ k' t', k = K + k' ∧ t = s ++ t' ∧ vals <+: v ∧ R v k' x b t' := by
  obtain ⟨b, hr⟩ := hr
  have := Tri.frame hc K
  rw [add_comm K' K] at this
  refine this.weaken fun vals' k a t hv hq => ?_
  obtain ⟨k', rfl, hq⟩ := hq
  simp only [Ret, hr] at hq ⊢
  obtain ⟨x, s₁, h1, h2, h3⟩ := hq
  refine ⟨x, s ++ s₁, h1, ⟨k', s₁, add_comm _ _, rfl, hv, h2⟩, ?_⟩
  have e := Mode.eqv_swap (m := m) (a := []) (c := run.trace) (d := s₁) hs
  simp only [List.nil_append] at e
  rw [List.append_assoc]
  exact m.trans e.le (m.append (m.refl _) h3)

/-- The loop over the listeners. -/
theorem deliverKeys_sim (hl : launch = .deferred ∨ m.threads) (ha : Allows m S.impl) {react : C → Reaction E} {st : Subs.State C}
    (hr : ∀ e ∈ st.subscriptions, ReactionAllowed m (react e.2.callback)) (hs : Loses m ∨ SetsSucceed S.impl)
    (he : Loses m ∨ ∀ e ∈ st.subscriptions, EvaluateAll ⟨e.2.variables, S.atoiOverflow⟩ e.2.selection)
    (hd : Loses m ∨ ∀ e ∈ st.subscriptions, (react e.2.callback).Reads) (o : O)
    (applyArguments applyDirectives : Subs.Filter) :
    (keys : List Nat) → {run : Run E (List (Subs.Call E C))} →
    Subs.deliverKeys S st o applyArguments applyDirectives keys = .done run → (Loses m ∨ ∃ calls, run.result = .ok calls) →
    ∃ p, deliverKeys S launch react st o applyArguments applyDirectives keys = .done p ∧
      ∀ {fs : List (Future E O)} {runs : List (Fut E)} {vals : List Val} {K : Multiset Nat} {s rest : List E},
        FutSims m vals K fs runs s rest →
        SimA m vals K s (p fs) run fun v k fs' calls s' => ∃ rest', FutSims m v k fs' (runs ++ calls.map (callFut react)) s' rest'
  | [], run, h, _ => by
    simp only [Subs.deliverKeys, Outcome.done.injEq] at h
    subst h
    refine ⟨_, rfl, fun hf => ?_⟩
    exact SimA.pure fun vals' hv => ⟨_, by simpa using hf.mono hv⟩
  | key :: keys, run, h, hok => by
    unfold Subs.deliverKeys at h
    unfold deliverKeys
    cases hfind : SortedMap.find Subs.keyLess st.subscriptions key with
    | none => simp [hfind] at h
    | some e =>
      obtain ⟨_, r⟩ := e
      have hmem := find_mem hfind
      have thrown : run = .throw Subs.notAnObject → ∀ {fs : List (Future E O)} {runs : List (Fut E)} {vals : List Val} {K : Multiset Nat}
          {s rest : List E}, FutSims m vals K fs runs s rest →
          SimA m vals K s (unwind fs (.throw Subs.notAnObject)) run fun v k fs' calls s' =>
            ∃ rest', FutSims m v k fs' (runs ++ calls.map (callFut react)) s' rest' := by
        rintro rfl fs runs vals K s rest hf
        have h0 : Sim m vals (Comp.throw Subs.notAnObject : Comp E O (List (Future E O)))
          (Run.throw Subs.notAnObject : Run E (List (Subs.Call E C))) (fun _ _ _ _ _ => False) := Sim.throw
        refine (SimA.unwind h0 hf (hok.imp hf.lost ?_)).weaken ?_
        · rintro ⟨x, hx⟩
          cases hx
        · rintro _ _ _ _ _ _ hx
          cases hx
      simp only [hfind] at h ⊢
      cases ha' : Subs.allPass applyArguments r.arguments with
      | none =>
        simp only [ha', Outcome.done.injEq] at h ⊢
        exact ⟨_, rfl, thrown h.symm⟩
      | some b =>
        cases b with
        | false =>
          simp only [ha'] at h ⊢
          exact deliverKeys_sim hl ha hr hs he hd o _ _ keys h hok
        | true =>
          simp only [ha'] at h ⊢
          cases hb' : Subs.allPass applyDirectives r.fieldDirectives with
          | none =>
            simp only [hb', Outcome.done.injEq] at h ⊢
            exact ⟨_, rfl, thrown h.symm⟩
          | some b =>
            cases b with
            | false =>
              simp only [hb'] at h ⊢
              exact deliverKeys_sim hl ha hr hs he hd o _ _ keys h hok
            | true =>
              simp only [hb'] at h ⊢
              cases hrest : Subs.deliverKeys S st o applyArguments applyDirectives keys with
              | undefined => simp [hrest] at h
              | done rest =>
                simp only [hrest, Outcome.done.injEq] at h
                have hev : Loses m ∨ ∃ d, (Subs.eventDocument S o r).result = .ok d := by
                  refine hok.imp_right fun ⟨calls, hcalls⟩ => ?_
                  rw [← h] at hcalls
                  cases hd : (Subs.eventDocument S o r).result with
                  | ok d => exact ⟨d, rfl⟩
                  | error e => simp [Run.bind, hd] at hcalls
                have hok' : Loses m ∨ ∃ calls, rest.result = .ok calls := by
                  rcases hok with hok | ⟨calls, hcalls⟩
                  · exact .inl hok
                  · refine .inr ?_
                    rw [← h] at hcalls
                    cases hd : (Subs.eventDocument S o r).result with
                    | error e => simp [Run.bind, hd] at hcalls
                    | ok d =>
                      cases hr : rest.result with
                      | ok calls => exact ⟨calls, rfl⟩
                      | error e => simp [Run.bind, hd, hr] at hcalls
                obtain ⟨p, hp, hsim⟩ := deliverKeys_sim hl ha hr hs he hd o applyArguments applyDirectives keys hrest hok'
                simp only [hp]
                refine ⟨_, rfl, ?_⟩
                intro fs runs vals K s rest' hf
                rw [← h]
                refine (SimA.unwind (eventFuture_sim hl ha hs o r
                  (he.imp_right fun h => h _ hmem)) hf (hev.imp_left hf.lost)).bind fun vals₁ K₁ d d' s₁ hv₁ _ hd' => ?_
                obtain ⟨k', s'', rfl, rfl, hv, restd, hd'⟩ := hd'
                have hcb := callBack_sim hl react (hr _ hmem) (hd.imp_right fun h => h _ hmem) hd'
                have hcb := SimA.frame_left (K := K) (s := s) hcb ⟨_, rfl⟩ hf.early
                have hrun : (rest.bind fun calls => Run.pure (⟨r.callback, d'⟩ :: calls)) =
                    (Run.pure (callFut react ⟨r.callback, d'⟩)).bind fun _ => rest.bind fun calls => Run.pure (⟨r.callback, d'⟩ :: calls) := by
                  simp [Run.pure, Run.bind]
                rw [hrun]
                refine hcb.bind fun vals₂ K₂ cb run' s₂ hv₂ hrun' hcb => ?_
                obtain ⟨k₂, t₂, rfl, rfl, _, restc, hcb⟩ := hcb
                cases hrun'
                have := hsim ((hf.mono (hv₁.trans hv₂)).snoc hcb)
                refine this.map fun v k x calls t hx => ?_
                simpa [List.append_assoc] using hx

end Verif.Async
