import Verif.Subs.Lemmas

/-!
# C24-C27: subscriptions
-/
namespace Verif.Subs
open Verif.Value Verif.Resp Verif.Errors Verif.Ast Verif.Exec Verif.Request Verif.SortedMap Verif.Subs.Spec

variable {E O C : Type}

/-! ## The invariant -/

theorem keysOf_append (a : Active C) (key : Nat) (r : Registration C) (name : Str) :
    keysOf (a ++ [(key, r)]) name = if r.field = name then keysOf a name ++ [key] else keysOf a name := by
  unfold keysOf
  by_cases h : r.field = name
  · simp [List.filter_append, h]
  · simp [List.filter_append, h]

theorem keysOf_filter (a : Active C) (key : Nat) (name : Str) :
    keysOf (a.filter fun e => e.1 ≠ key) name = (keysOf a name).filter (· ≠ key) := by
  unfold keysOf
  rw [List.filter_map, List.filter_filter, List.filter_filter]
  congr 1
  apply List.filter_congr
  intro x _
  simp [Bool.and_comm]

theorem nodup_map_inj {α β : Type} {f : α → β} {l : List α} (h : (l.map f).Nodup) {a b : α} (ha : a ∈ l) (hb : b ∈ l)
    (hab : f a = f b) : a = b := by
  induction l with
  | nil => cases ha
  | cons x xs ih =>
    simp only [List.map_cons, List.nodup_cons] at h
    rcases List.mem_cons.mp ha with rfl | ha' <;> rcases List.mem_cons.mp hb with rfl | hb'
    · rfl
    · exact absurd (List.mem_map.mpr ⟨b, hb', hab.symm⟩) h.1
    · exact absurd (List.mem_map.mpr ⟨a, ha', hab⟩) h.1
    · exact ih h.2 ha' hb'

theorem add_eq {st : State C} (h : Ok st) (r : Registration C) :
    (add st r).1.subscriptions = st.subscriptions ++ [(fresh st.subscriptions, r)] ∧ (add st r).2 = fresh st.subscriptions := by
  constructor
  · simp only [add, h.next]
    exact emplace_last _ _ _ (fresh_lt _ h.keys)
  · simp only [add, h.next]

theorem add_ok {st : State C} (h : Ok st) (r : Registration C) : Ok (add st r).1 := by
  obtain ⟨h1, h2⟩ := add_eq h r
  have hl := listeners_index st.listeners h.sorted r.field (fun keys => (setEmplace keyLess keys (fresh st.subscriptions)).1)
  refine ⟨?_, ?_, ?_, ?_⟩
  · rw [h1, List.map_append, Increasing, List.pairwise_append]
    refine ⟨h.keys, by simp, ?_⟩
    intro a ha b hb
    simp at hb; subst hb
    obtain ⟨e, he, rfl⟩ := List.mem_map.mp ha
    exact fresh_lt _ h.keys e he
  · rw [h1]; simp [add, h.next, fresh]
  · simp only [add, h.next]; exact hl.1
  · intro name
    rw [h1, keysOf_append]
    simp only [add, h.next]
    rw [hl.2]
    have hs : ∀ k ∈ keysOf st.subscriptions r.field, k < fresh st.subscriptions := by
      intro k hk
      obtain ⟨e, he, rfl⟩ := List.mem_map.mp hk
      exact fresh_lt _ h.keys e (List.mem_filter.mp he).1
    by_cases hn : name = r.field
    · subst hn
      simp only [if_true]
      have : ((listenersOf st.listeners r.field).getD []) = keysOf st.subscriptions r.field := by
        rw [h.listeners]
        split
        · rename_i he; simp [he]
        · rfl
      rw [this, setEmplace_last _ _ hs]
      simp
    · rw [if_neg hn, h.listeners]
      simp only [show ¬r.field = name from fun hc => hn hc.symm, if_false]

theorem unsubscribe_eq {st : State C} (h : Ok st) (key : Nat) :
    ∃ st', unsubscribe st key = some st' ∧ Ok st' ∧
      st'.subscriptions = st.subscriptions.filter (fun e => e.1 ≠ key) ∧
      ((∀ e ∈ st.subscriptions, e.1 ≠ key) → st' = st) := by
  unfold unsubscribe
  rw [find_key _ h.keys]
  cases hf : st.subscriptions.find? (fun e => e.1 == key) with
  | none =>
    rw [List.find?_eq_none] at hf
    refine ⟨st, rfl, h, ?_, fun _ => rfl⟩
    rw [eq_comm, List.filter_eq_self]
    intro e he
    have := hf e he
    simpa using this
  | some e =>
    obtain ⟨k, r⟩ := e
    have hk : k = key := by simpa using List.find?_some hf
    subst hk
    have hmem := List.mem_of_find?_eq_some hf
    have hkeys : k ∈ keysOf st.subscriptions r.field :=
      List.mem_map.mpr ⟨(k, r), List.mem_filter.mpr ⟨hmem, by simp⟩, rfl⟩
    have hne : keysOf st.subscriptions r.field ≠ [] := by intro hc; rw [hc] at hkeys; cases hkeys
    have hat : at? nameLess st.listeners r.field = some (keysOf st.subscriptions r.field) := by
      rw [listeners_at _ h.sorted, h.listeners, if_neg hne]
    simp only [hat]
    have hse : setErase keyLess (keysOf st.subscriptions r.field) k = (keysOf st.subscriptions r.field).filter (· ≠ k) :=
      setErase_eq _ (keysOf_increasing _ h.keys _) _
    have her : erase keyLess st.subscriptions k = st.subscriptions.filter (fun e => e.1 ≠ k) := erase_eq _ h.keys _
    have hi := listeners_index st.listeners h.sorted r.field (fun _ => (keysOf st.subscriptions r.field).filter (· ≠ k))
    refine ⟨_, rfl, ⟨?_, ?_, ?_, ?_⟩, ?_, ?_⟩
    · simp only [her]
      exact List.Pairwise.sublist (List.Sublist.map _ List.filter_sublist) h.keys
    · simp only [nextKeyOf, fresh]
      rfl
    · simp only [hse]
      split
      · exact (listeners_erase _ hi.1 _).1
      · exact hi.1
    · intro name
      simp only [hse, her, keysOf_filter]
      have other : name ≠ r.field → (if keysOf st.subscriptions name = [] then none else some (keysOf st.subscriptions name)) =
          if List.filter (fun x => decide (x ≠ k)) (keysOf st.subscriptions name) = [] then none
          else some (List.filter (fun x => decide (x ≠ k)) (keysOf st.subscriptions name)) := by
        intro hn
        have : List.filter (fun x => decide (x ≠ k)) (keysOf st.subscriptions name) = keysOf st.subscriptions name := by
          rw [List.filter_eq_self]
          intro x hx
          simp only [ne_eq, decide_eq_true_eq]
          intro hc
          subst hc
          obtain ⟨e, he, hek⟩ := List.mem_map.mp hx
          obtain ⟨he1, he2⟩ := List.mem_filter.mp he
          -- both entries have the same key, so they are the same
          have hnd : (st.subscriptions.map Prod.fst).Nodup := List.Pairwise.imp (fun h => Nat.ne_of_lt h) h.keys
          have : e = (x, r) := by
            exact nodup_map_inj hnd he1 hmem hek
          subst this
          exact hn (by simpa using he2 : r.field = name).symm
        rw [this]
      split
      · rename_i hemp
        rw [(listeners_erase _ hi.1 _).2, hi.2]
        by_cases hn : name = r.field
        · subst hn
          simp only [List.isEmpty_iff] at hemp
          rw [if_pos rfl, if_pos hemp]
        · simp only [hn, if_false]
          rw [h.listeners]; exact other hn
      · rename_i hemp
        rw [hi.2]
        by_cases hn : name = r.field
        · subst hn
          simp only [List.isEmpty_iff] at hemp
          simp only [if_true]
          rw [if_neg hemp]
        · simp only [hn, if_false]
          rw [h.listeners]; exact other hn
    · exact her
    · intro hall; exact absurd rfl (hall _ hmem)

/-! ## C27 -/

theorem State.ext_ok {st st' : State C} (h : Ok st) (h' : Ok st') (hs : st.subscriptions = st'.subscriptions) : st = st' := by
  have hl : st.listeners = st'.listeners := by
    apply listeners_ext _ _ h.sorted h'.sorted
    intro x
    rw [h.listeners, h'.listeners, hs]
  have hn : st.nextKey = st'.nextKey := by rw [h.next, h'.next, hs]
  cases st; cases st'
  simp_all

/-- Removing a subscription which was just added restores the state exactly. -/
theorem add_unsubscribe {st : State C} (h : Ok st) (r : Registration C) :
    unsubscribe (add st r).1 (add st r).2 = some st := by
  obtain ⟨h1, h2⟩ := add_eq h r
  obtain ⟨st', e1, e2, e3, _⟩ := unsubscribe_eq (add_ok h r) (add st r).2
  rw [e1]
  congr 1
  apply State.ext_ok e2 h
  rw [e3, h1, h2, List.filter_append]
  have : st.subscriptions.filter (fun e => e.1 ≠ fresh st.subscriptions) = st.subscriptions := by
    rw [List.filter_eq_self]
    intro e he
    have := fresh_lt _ h.keys e he
    simp; omega
  rw [this]
  simp

/-- What the asynchronous `subscribe` does to the state. -/
theorem subscribeAsync_cases {S : Service E O} {st : State C} {p : Params C} {t : List E} {st' : State C} {k : Option Nat}
    (h : Ok st) (hd : subscribeAsync S st p = .done (t, st', k)) :
    (k = none ∧ st' = st) ∨ ∃ r, registration S p = .ok r ∧ st' = (add st r).1 ∧ k = some (add st r).2 := by
  unfold subscribeAsync subscribe at hd
  cases hr : registration S p with
  | error e =>
    cases e with
    | undefined => simp [hr] at hd
    | exn e => simp only [hr, Outcome.done.injEq, Prod.mk.injEq] at hd; exact .inl ⟨hd.2.2.symm, hd.2.1.symm⟩
  | ok r =>
    simp only [hr] at hd
    rcases ho : S.operations (str "subscription") with _ | _ | o
    · simp only [ho, Outcome.done.injEq, Prod.mk.injEq] at hd
      exact .inr ⟨r, rfl, hd.2.1.symm, hd.2.2.symm⟩
    · simp [ho] at hd
    · simp only [ho] at hd
      have hat : at? keyLess (add st r).1.subscriptions (add st r).2 = some r := by
        rw [at_key _ (add_ok h r).keys, (add_eq h r).1, (add_eq h r).2, List.find?_append]
        have : st.subscriptions.find? (fun e => e.1 == fresh st.subscriptions) = none := by
          rw [List.find?_eq_none]
          intro e he
          have := fresh_lt _ h.keys e he
          simp; omega
        simp [this]
      rw [hat] at hd
      simp only at hd
      cases hrun : (notify S .notifySubscribe o r).result with
      | ok x =>
        simp only [hrun, Outcome.done.injEq, Prod.mk.injEq] at hd
        exact .inr ⟨r, rfl, hd.2.1.symm, hd.2.2.symm⟩
      | error x =>
        simp only [hrun, add_unsubscribe h r, Outcome.done.injEq, Prod.mk.injEq] at hd
        exact .inl ⟨hd.2.2.symm, hd.2.1.symm⟩

theorem unsubscribeAsync_cases {S : Service E O} {st : State C} {key : Nat} {t : List E} {st' : State C} {b : Bool}
    (h : Ok st) (hd : unsubscribeAsync S st key = .done (t, st', b)) :
    (b = false ∧ st' = st) ∨ (b = true ∧ unsubscribe st key = some st') := by
  obtain ⟨st1, e1, _⟩ := unsubscribe_eq h key
  unfold unsubscribeAsync at hd
  simp only [e1] at hd
  cases ho : S.operations (str "subscription") with
  | none =>
    simp only [ho, Outcome.done.injEq, Prod.mk.injEq] at hd
    exact .inr ⟨hd.2.2.symm, by rw [e1, hd.2.1]⟩
  | some object =>
    simp only [ho] at hd
    cases hat : at? keyLess st.subscriptions key with
    | none => simp only [hat, Outcome.done.injEq, Prod.mk.injEq] at hd; exact .inl ⟨hd.2.2.symm, hd.2.1.symm⟩
    | some r =>
      simp only [hat] at hd
      cases object with
      | none => simp at hd
      | some o =>
        simp only at hd
        cases hrun : (notify S .notifyUnsubscribe o r).result with
        | ok x =>
          simp only [hrun, Outcome.done.injEq, Prod.mk.injEq] at hd
          exact .inr ⟨hd.2.2.symm, by rw [e1, hd.2.1]⟩
        | error x => simp only [hrun, Outcome.done.injEq, Prod.mk.injEq] at hd; exact .inl ⟨hd.2.2.symm, hd.2.1.symm⟩

theorem Step.ok {S : Service E O} {s s' : Sys C} {e : Event C} (h : Step S s e s') (hs : Ok s.st) : Ok s'.st := by
  cases h with
  | subscribe _ p r st' key hr h =>
    simp only [Subs.subscribe, hr, Except.ok.injEq] at h
    have := add_ok hs r
    rw [h] at this; exact this
  | subscribeAsync _ p r t st' key hr h =>
    rcases subscribeAsync_cases hs h with ⟨hk, _⟩ | ⟨r, _, h2, _⟩
    · cases hk
    · simp only [h2]; exact add_ok hs r
  | subscribeAsyncFails _ p t st' h =>
    rcases subscribeAsync_cases hs h with ⟨_, hst⟩ | ⟨r, _, _, hk⟩
    · simp only [hst]; exact hs
    · cases hk
  | unsubscribe _ key st' h =>
    obtain ⟨st1, e1, e2, _⟩ := unsubscribe_eq hs key
    rw [e1] at h; cases h; exact e2
  | unsubscribeAsync _ key t st' h =>
    rcases unsubscribeAsync_cases hs h with ⟨hb, _⟩ | ⟨_, h2⟩
    · cases hb
    · obtain ⟨st1, e1, e2, _⟩ := unsubscribe_eq hs key
      rw [e1] at h2; cases h2; exact e2
  | unsubscribeAsyncFails _ key t st' h =>
    rcases unsubscribeAsync_cases hs h with ⟨_, hst⟩ | ⟨hb, _⟩
    · simp only [hst]; exact hs
    · cases hb
  | deliver _ name a d o t calls h => exact hs
  | call st c cs rest => exact hs
  | finish st cs rest => exact hs

theorem Steps.ok {S : Service E O} {s s' : Sys C} {es : List (Event C)} (h : Steps S s es s') (hs : Ok s.st) : Ok s'.st := by
  induction h with
  | refl s => exact hs
  | step h _ ih => exact ih (Step.ok h hs)

theorem Reachable.ok {S : Service E O} {s : Sys C} (h : Reachable S s) : Ok s.st := by
  obtain ⟨es, h⟩ := h
  exact Steps.ok h Ok.init

theorem Step.active {S : Service E O} {s s' : Sys C} {e : Event C} (h : Step S s e s') (hs : Ok s.st) :
    s'.st.subscriptions = apply s.st.subscriptions e := by
  cases h with
  | subscribe _ p r st' key hr h =>
    simp only [Subs.subscribe, hr, Except.ok.injEq] at h
    obtain ⟨h1, h2⟩ := add_eq hs r
    rw [h] at h1 h2
    simp only at h1 h2 ⊢
    rw [h1, h2]; rfl
  | subscribeAsync _ p r t st' key hr h =>
    rcases subscribeAsync_cases hs h with ⟨hk, _⟩ | ⟨r', hr', h2, h3⟩
    · cases hk
    · rw [hr] at hr'; cases hr'
      simp only [Option.some.injEq] at h3
      obtain ⟨e1, e2⟩ := add_eq hs r
      simp only [h2, h3, e1, e2, apply]
  | subscribeAsyncFails _ p t st' h =>
    rcases subscribeAsync_cases hs h with ⟨_, hst⟩ | ⟨r, _, _, hk⟩
    · simp only [hst, apply]
    · cases hk
  | unsubscribe _ key st' h =>
    obtain ⟨st1, e1, _, e2, _⟩ := unsubscribe_eq hs key
    rw [e1] at h; cases h; exact e2
  | unsubscribeAsync _ key t st' h =>
    rcases unsubscribeAsync_cases hs h with ⟨hb, _⟩ | ⟨_, h2⟩
    · cases hb
    · obtain ⟨st1, e1, _, e2, _⟩ := unsubscribe_eq hs key
      rw [e1] at h2; cases h2; exact e2
  | unsubscribeAsyncFails _ key t st' h =>
    rcases unsubscribeAsync_cases hs h with ⟨_, hst⟩ | ⟨hb, _⟩
    · simp only [hst, apply]
    · cases hb
  | deliver _ name a d o t calls h => rfl
  | call st c cs rest => rfl
  | finish st cs rest => rfl

theorem Steps.active_gen {S : Service E O} {s s' : Sys C} {es : List (Event C)} (h : Steps S s es s') (hs : Ok s.st) :
    s'.st.subscriptions = es.foldl apply s.st.subscriptions := by
  induction h with
  | refl s => rfl
  | step h _ ih =>
    rw [ih (Step.ok h hs), List.foldl_cons, Step.active h hs]

/-- The table of subscriptions is exactly what the history of calls says. -/
theorem history_active {S : Service E O} {s : Sys C} {es : List (Event C)} (h : Steps S {} es s) :
    s.st.subscriptions = active es := Steps.active_gen h Ok.init

/-! ## C24 -/

/-- C24: after any history of calls, all the active subscriptions have different keys, in increasing order. -/
theorem C24_keys_distinct {S : Service E O} {s : Sys C} {es : List (Event C)} (h : Steps S {} es s) :
    ((active es).map Prod.fst).Pairwise (· < ·) := by
  rw [← history_active h]; exact (Steps.ok h Ok.init).keys

/-- C24: a new subscription never gets the key of an active one. -/
theorem C24_new_key {S : Service E O} {s s' : Sys C} {es : List (Event C)} {key : Nat} {r : Registration C}
    (h : Steps S {} es s) (hn : Step S s (.subscribed key r) s') : ∀ e ∈ active es, e.1 < key := by
  have h2 : Steps S s [.subscribed key r] s' := .step hn (.refl _)
  have hok := Steps.ok h Ok.init
  have ha := Step.active hn hok
  have hk := (Step.ok hn hok).keys
  rw [ha] at hk
  simp only [apply, List.map_append, List.map_cons, List.map_nil] at hk
  rw [history_active h] at hk
  have := (List.pairwise_append.mp hk).2.2
  intro e he
  exact this e.1 (List.mem_map_of_mem he) key (by simp)

/-- `unsubscribe` never throws, for any key. -/
theorem C24_unsubscribe_total {S : Service E O} {s : Sys C} (h : Reachable S s) (key : Nat) :
    ∃ s', Step S s (.unsubscribed key) s' := by
  obtain ⟨st', e, _⟩ := unsubscribe_eq (Reachable.ok h) key
  exact ⟨_, .unsubscribe s key st' e⟩

/-! ## What `deliver` calls -/

theorem visitRootField_field {env : Env} {f : Field} {v v' : Visited} (h : visitRootField env f v = .ok v')
    (hv : v.arguments.isSome ∧ v.fieldDirectives.isSome ∨ v.field = []) :
    v'.arguments.isSome ∧ v'.fieldDirectives.isSome ∨ v'.field = [] := by
  unfold visitRootField at h
  split at h
  · simp at h
  · split at h
    · simp at h
    · split at h
      · simp at h
      · simp only [Except.ok.injEq] at h; subst h; exact hv
      · split at h
        · simp at h
        · simp only [Except.ok.injEq] at h; subst h; exact .inl ⟨rfl, rfl⟩

theorem visitRoot_field {types : Option (Str → Bool)} {env : Env} {fragments : FragmentMap} (ss : List Selection) {v v' : Visited}
    (h : visitRoot types env fragments ss v = .ok v')
    (hv : v.arguments.isSome ∧ v.fieldDirectives.isSome ∨ v.field = []) :
    v'.arguments.isSome ∧ v'.fieldDirectives.isSome ∨ v'.field = [] := by
  induction ss generalizing v with
  | nil => simp only [visitRoot, Except.ok.injEq] at h; subst h; exact hv
  | cons s ss ih =>
    cases s with
    | leaf f =>
      simp only [visitRoot] at h
      cases hf : visitRootField env f v with
      | error e => simp [hf] at h
      | ok w => simp only [hf] at h; exact ih h (visitRootField_field hf hv)
    | node f pos sub =>
      simp only [visitRoot] at h
      cases hf : visitRootField env f v with
      | error e => simp [hf] at h
      | ok w => simp only [hf] at h; exact ih h (visitRootField_field hf hv)
    | spread pos name ds =>
      simp only [visitRoot] at h
      cases hf : fragments.find name with
      | none => simp [hf] at h
      | some fragment =>
        simp only [hf] at h
        cases types with
        | none => simp at h
        | some types =>
          simp only at h
          cases hr : visitRootFragment (types fragment.info.type) env ds v with
          | error e => simp [hr] at h
          | ok w =>
            simp only [hr] at h
            have : w = v := by
              unfold visitRootFragment at hr
              split at hr
              · simp only [Except.ok.injEq] at hr; exact hr.symm
              · split at hr
                · simp at hr
                · split at hr
                  · simp at hr
                  · simp only [Except.ok.injEq] at hr; exact hr.symm
                  · simp at hr
            subst this
            exact ih h hv
    | inline pos t ds sub =>
      simp only [visitRoot] at h
      cases hd : evalDirectives env ds with
      | error e => simp [hd] at h
      | ok evaluated =>
        simp only [hd] at h
        cases hs : shouldSkip evaluated with
        | error e => simp [hs] at h
        | ok b =>
          cases b with
          | true => simp only [hs] at h; exact ih h hv
          | false =>
            simp only [hs] at h
            cases t with
            | none => simp at h
            | some t =>
              cases types with
              | none => simp at h
              | some types =>
                simp only at h
                split at h
                · simp at h
                · exact ih h hv

/-- A registration under a name has its arguments and directives. -/
theorem registration_fields {S : Service E O} {p : Params C} {r : Registration C} (h : registration S p = .ok r) :
    (r.arguments.isSome ∧ r.fieldDirectives.isSome ∨ r.field = []) ∧ r.callback = p.callback := by
  unfold registration at h
  split at h
  · simp at h
  · simp only at h
    split at h
    · simp at h
    · split at h
      · simp at h
      · split at h
        · simp at h
        · split at h
          · simp at h
          · unfold register at h
            split at h
            · simp at h
            · split at h
              · simp at h
              · rename_i v hv
                split at h
                · simp at h
                · split at h
                  · simp at h
                  · split at h
                    · simp at h
                    · simp only [Except.ok.injEq] at h
                      subst h
                      exact ⟨visitRoot_field _ hv (.inr rfl), rfl⟩

theorem active_fields {S : Service E O} {s : Sys C} {es : List (Event C)} (h : Steps S {} es s) :
    ∀ e ∈ s.st.subscriptions, e.2.arguments.isSome ∧ e.2.fieldDirectives.isSome ∨ e.2.field = [] := by
  suffices gen : ∀ (s0 s : Sys C) (es : List (Event C)), Steps S s0 es s → Ok s0.st →
      (∀ e ∈ s0.st.subscriptions, e.2.arguments.isSome ∧ e.2.fieldDirectives.isSome ∨ e.2.field = []) →
      ∀ e ∈ s.st.subscriptions, e.2.arguments.isSome ∧ e.2.fieldDirectives.isSome ∨ e.2.field = [] from
    gen {} s es h Ok.init (by simp)
  intro s0 s es h
  induction h with
  | refl s => exact fun _ h => h
  | step h _ ih =>
    intro hok h0
    refine ih (Step.ok h hok) ?_
    rw [Step.active h hok]
    intro e he
    cases h with
    | subscribe _ p r st' key hr h =>
      simp only [apply, List.mem_append, List.mem_singleton] at he
      rcases he with he | rfl
      · exact h0 e he
      · exact (registration_fields hr).1
    | subscribeAsync _ p r t st' key hr h =>
      simp only [apply, List.mem_append, List.mem_singleton] at he
      rcases he with he | rfl
      · exact h0 e he
      · exact (registration_fields hr).1
    | unsubscribe _ key st' h => exact h0 e (List.mem_filter.mp he).1
    | unsubscribeAsync _ key t st' h => exact h0 e (List.mem_filter.mp he).1
    | subscribeAsyncFails _ p t st' h => exact h0 e he
    | unsubscribeAsyncFails _ key t st' h => exact h0 e he
    | deliver _ name a d o t calls h => exact h0 e he
    | call st c cs rest => exact h0 e he
    | finish st cs rest => exact h0 e he

end Verif.Subs
