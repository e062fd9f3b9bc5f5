import Verif.Subs.Props
import Verif.Request.Props
import Verif.Exec.SelectionProps

/-!
# C24-C27: what `deliver` calls, and what stays unchanged
-/
namespace Verif.Subs
open Verif.Value Verif.Resp Verif.Errors Verif.Ast Verif.Exec Verif.Request Verif.SortedMap Verif.Subs.Spec

variable {E O C : Type}

/-! ## Whatever is thrown by a selection set itself is a `schema_exception` -/

theorem skipArguments_schema (d : Str) (args : Members) (acc : Bool × Bool) (x : Exn)
    (h : skipArguments d args acc = .error x) : IsSchema x := by
  induction args generalizing acc with
  | nil => simp [skipArguments] at h
  | cons a rest ih =>
    obtain ⟨n, v⟩ := a
    obtain ⟨t, f⟩ := acc
    simp only [skipArguments] at h
    split at h
    · split at h
      · simp only [Except.error.injEq] at h; subst h; exact ⟨_, by simp, rfl⟩
      · exact ih _ h
    · simp only [Except.error.injEq] at h; subst h; exact ⟨_, by simp, rfl⟩

theorem skipEntry_schema (ms : Members) (s : Bool) (n : Str) (x : Exn) (h : skipEntry ms s n = .error x) : IsSchema x := by
  unfold skipEntry at h
  split at h
  · simp at h
  · split at h
    · rename_i e hs
      simp only [Except.error.injEq] at h; subst h
      exact skipArguments_schema _ _ _ _ hs
    · simp at h
    · simp at h
    · simp only [Except.error.injEq] at h; subst h; exact ⟨_, by simp, rfl⟩
  · simp only [Except.error.injEq] at h; subst h; exact ⟨_, by simp, rfl⟩

theorem skips_schema (env : Env) (ds : Option (List Directive)) (x : Exn) (h : skips env ds = .error x) : IsSchema x := by
  unfold skips at h
  cases hd : evalDirectives env ds with
  | error e => simp only [hd, Except.error.injEq] at h; subst h; exact evalDirectives_schema _ _ _ hd
  | ok ms =>
    simp only [hd, shouldSkip] at h
    split at h
    · rename_i e hs; simp only [Except.error.injEq] at h; subst h; exact skipEntry_schema _ _ _ _ hs
    · simp at h
    · split at h
      · rename_i e hs; simp only [Except.error.injEq] at h; subst h; exact skipEntry_schema _ _ _ _ hs
      · simp at h
      · simp at h

mutual
theorem flatten1_schema (types : Str → Bool) (env : Env) (path : Option FieldPath) :
    (x : XSelection) → (dirs : FragDirs) → ∀ e, (flatten1 types env path x dirs).2 = some e → IsSchema e
  | .leaf f, dirs, e, h => by simp [flatten1] at h
  | .node f pos sub, dirs, e, h => by simp [flatten1] at h
  | .unknownSpread pos name, dirs, e, h => by
    simp only [flatten1, Option.some.injEq] at h; subst h; exact ⟨_, by simp, rfl⟩
  | .spread fragment ds sub, dirs, e, h => by
    simp only [flatten1] at h
    split at h
    · split at h
      · rename_i x hs; simp only [Option.some.injEq] at h; subst h; exact skips_schema _ _ _ hs
      · simp at h
      · exact flatten_schema types env path sub _ e h
    · simp at h
  | .inline t ds sub, dirs, e, h => by
    simp only [flatten1] at h
    split at h
    · rename_i x hs; simp only [Option.some.injEq] at h; subst h; exact skips_schema _ _ _ hs
    · simp at h
    · split at h
      · exact flatten_schema types env path sub _ e h
      · simp at h
theorem flatten_schema (types : Str → Bool) (env : Env) (path : Option FieldPath) :
    (xs : List XSelection) → (dirs : FragDirs) → ∀ e, (flatten types env path xs dirs).2 = some e → IsSchema e
  | [], dirs, e, h => by simp [flatten] at h
  | x :: xs, dirs, e, h => by
    rcases hx : flatten1 types env path x dirs with ⟨vs, _ | e'⟩
    · simp only [flatten, hx] at h
      exact flatten_schema types env path xs dirs e h
    · simp only [flatten, hx, Option.some.injEq] at h
      subst h
      exact flatten1_schema types env path x dirs e' (by rw [hx])
end

/-- Executing a selection set fails with a `schema_exception`, or with what the callbacks around it throw. -/
theorem execute_schema {I : Impl E O} {env : Env} {o : O} {params : SetParams} {xs : List XSelection} {e : Exn}
    (h : (execute I env o params xs).result = .error e) :
    IsSchema e ∨ (I.beginSet o params).result = .error e ∨ (I.endSet o params).result = .error e := by
  rcases C14_contained h with h | ⟨v, _, h | h⟩ | h | h
  · exact .inl (flatten_schema _ _ _ _ _ _ h)
  · exact .inl (skips_schema _ _ _ h)
  · exact .inl (evalOptArgs_schema _ _ _ h)
  · exact .inr (.inl h)
  · exact .inr (.inr h)

theorem collectFields_ok (vals : List (Str × Fut E)) (ms : Members) (errors : List SchemaError) :
    ∃ r, (collectFields vals ms errors).result = .ok r := by
  induction vals generalizing ms errors with
  | nil => exact ⟨_, rfl⟩
  | cons x vals ih =>
    obtain ⟨n, f⟩ := x
    obtain ⟨r, hr⟩ := ih (collectField ms errors n f.result).1 (collectField ms errors n f.result).2
    exact ⟨r, by simp only [collectFields, Run.bind, Run.emit]; exact hr⟩

theorem resolveObject_ok {I : Impl E O} {visit : SetVisitor E O} {o : O} {params : SetParams} {f : Fut E}
    (h : (resolveObject I visit o params).result = .ok f) : ∃ r, f.result = .ok r := by
  unfold resolveObject at h
  rw [Run.bind_eq_ok] at h
  obtain ⟨_, _, h⟩ := h
  rw [Run.bind_eq_ok] at h
  obtain ⟨st, _, h⟩ := h
  rw [Run.bind_eq_ok] at h
  obtain ⟨_, _, h⟩ := h
  simp only [Run.pure, Except.ok.injEq] at h
  subst h
  exact collectFields_ok _ _ _

/-- The document of an event is the response of executing the registered selection; making it does not throw. -/
theorem eventDocument_eq (S : Service E O) (o : O) (hq : Quiet S o) (r : Registration C) :
    ∃ early later d, eventDocument S o r = ⟨early, .ok ⟨later, .ok d⟩⟩ ∧ EventResponse S o r d ∧
      (eventRun S o r).trace = early ++ later := by
  have hx : eventRun S o r = (resolveObject S.impl (visitAll S.impl ⟨r.variables, S.atoiOverflow⟩ r.selection) o
      (rootParams .subscription r.directives)).bind fun f => f := rfl
  unfold eventDocument EventResponse
  simp only
  generalize hs : resolveObject S.impl (visitAll S.impl ⟨r.variables, S.atoiOverflow⟩ r.selection) o
      (rootParams .subscription r.directives) = started at hx
  cases hr : started.result with
  | ok f =>
    obtain ⟨x, hf⟩ := resolveObject_ok (by rw [hs]; exact hr)
    refine ⟨started.trace, f.trace, document x, ?_, .inl ⟨x, ?_, document_eq x⟩, ?_⟩
    · simp [Run.bind, hf, Run.pure]
    · rw [hx]; simp [Run.bind, hr, hf]
    · rw [hx]; simp [Run.bind, hr]
  | error e =>
    have : (eventRun S o r).result = .error e := by rw [hx]; simp [Run.bind, hr]
    have : ∃ es, e = .schema es := by
      rcases execute_schema this with ⟨es, _, h⟩ | h | h
      · exact ⟨es, h⟩
      · cases e with
        | schema es => exact ⟨es, rfl⟩
        | other what => exact absurd h (hq _ what).1
      · cases e with
        | schema es => exact ⟨es, rfl⟩
        | other what => exact absurd h (hq _ what).2
    obtain ⟨es, rfl⟩ := this
    have : (eventRun S o r).result = .error (.schema es) := by rw [hx]; simp [Run.bind, hr]
    refine ⟨started.trace, [], errorDocument es, rfl, .inr ⟨es, this, rfl⟩, ?_⟩
    rw [hx]; simp [Run.bind, hr]

/-! ## C25 -/

theorem deliverKeys_eq (S : Service E O) (st : State C) (o : O) (hq : Quiet S o) (arguments directives : Filter) (l : Active C)
    (hf : ∀ e ∈ l, find keyLess st.subscriptions e.1 = some e)
    (hs : ∀ e ∈ l, e.2.arguments.isSome ∧ e.2.fieldDirectives.isSome) :
    ∃ t calls, deliverKeys S st o arguments directives (l.map Prod.fst) = .done ⟨t, .ok calls⟩ ∧
      List.Forall₂ (fun e c => Notified S o e.2 c)
        (l.filter fun e => (e.2.arguments.getD []).all arguments && (e.2.fieldDirectives.getD []).all directives) calls := by
  induction l with
  | nil => exact ⟨[], [], rfl, .nil⟩
  | cons e l ih =>
    obtain ⟨t, calls, h1, h2⟩ := ih (fun x hx => hf x (by simp [hx])) (fun x hx => hs x (by simp [hx]))
    obtain ⟨key, r⟩ := e
    have hfe := hf (key, r) (by simp)
    obtain ⟨ha, hd⟩ := hs (key, r) (by simp)
    obtain ⟨as, has⟩ := Option.isSome_iff_exists.mp ha
    obtain ⟨ds, hds⟩ := Option.isSome_iff_exists.mp hd
    simp only at has hds hfe
    simp only [List.map_cons, deliverKeys, hfe, has, hds, allPass, List.filter_cons, Option.getD_some]
    cases has' : as.all arguments with
    | false => simp only [Bool.false_and]; exact ⟨t, calls, h1, h2⟩
    | true =>
      cases hds' : ds.all directives with
      | false => simp only [Bool.and_false]; exact ⟨t, calls, h1, h2⟩
      | true =>
        simp only [h1, Bool.and_self, if_true]
        obtain ⟨early, later, d, e1, e2, e3⟩ := eventDocument_eq S o hq r
        refine ⟨early ++ (t ++ []), ⟨r.callback, ⟨later, .ok d⟩⟩ :: calls, ?_, ?_⟩
        · simp only [Run.bind, e1, Run.pure]
        · exact .cons ⟨rfl, d, rfl, e2⟩ h2

/-- C25: after any history, an event calls exactly the callbacks of the active subscriptions to the field whose
registered arguments and directives all pass the filters, each once, in the order of their keys, with the response of
executing the selection of the subscription on the given object, or on the default object. The callbacks of that object
around a selection set must not throw anything but a `schema_exception`: then the event fails as a whole. -/
theorem C25_deliver {S : Service E O} {s : Sys C} {es : List (Event C)} (h : Steps S {} es s) (name : Str) (hn : name ≠ [])
    (arguments directives : Filter) {object given : Option O} {o : O} (ho : S.operations (str "subscription") = some object)
    (hg : given.or object = some o) (hq : Quiet S o) :
    ∃ t calls, deliver S s.st name arguments directives given = .done ⟨t, .ok calls⟩ ∧
      List.Forall₂ (fun e c => Notified S o e.2 c) ((active es).filter fun e => wants name arguments directives e.2) calls := by
  have hok := Steps.ok h Ok.init
  have hact := history_active h
  have hfields := active_fields h
  have hw : (active es).filter (fun e => wants name arguments directives e.2) =
      ((active es).filter fun e => e.2.field == name).filter
        fun e => (e.2.arguments.getD []).all arguments && (e.2.fieldDirectives.getD []).all directives := by
    rw [List.filter_filter]
    apply List.filter_congr
    intro e _
    simp only [wants]
    cases (e.2.field == name) <;> simp
  rw [hw, ← hact]
  simp only [deliver, ho, hg]
  have hl := listeners_find s.st.listeners hok.sorted name
  rw [hok.listeners] at hl
  by_cases he : keysOf s.st.subscriptions name = []
  · rw [if_pos he, Option.map_eq_none_iff] at hl
    simp only [hl]
    have : s.st.subscriptions.filter (fun e => e.2.field == name) = [] := by simpa [keysOf] using he
    rw [this]
    exact ⟨[], [], rfl, .nil⟩
  · rw [if_neg he] at hl
    obtain ⟨⟨n, keys⟩, h1, h2⟩ := Option.map_eq_some_iff.mp hl
    simp only at h2
    subst h2
    simp only [h1]
    apply deliverKeys_eq S s.st o hq
    · intro e hm
      have hm' := (List.mem_filter.mp hm).1
      rw [find_key _ hok.keys]
      have hnd : (s.st.subscriptions.map Prod.fst).Nodup := List.Pairwise.imp (fun h => Nat.ne_of_lt h) hok.keys
      cases hq : s.st.subscriptions.find? (fun x => x.1 == e.1) with
      | none =>
        rw [List.find?_eq_none] at hq
        exact absurd (beq_self_eq_true e.1) (hq e hm')
      | some y =>
        have hy := List.mem_of_find?_eq_some hq
        have : y.1 = e.1 := by simpa using List.find?_some hq
        rw [nodup_map_inj hnd hy hm' this]
    · intro e hm
      obtain ⟨hm1, hm2⟩ := List.mem_filter.mp hm
      rcases hfields e hm1 with hf | hf
      · exact hf
      · rw [beq_iff_eq] at hm2
        exact absurd (hm2.symm.trans hf) hn

/-- C25: without subscriptions in the schema, or without an object to execute them on, the event fails. -/
theorem C25_not_supported {S : Service E O} (st : State C) (name : Str) (arguments directives : Filter) (given : Option O) :
    (S.operations (str "subscription") = none →
      deliver S st name arguments directives given = .done (.throw (.other (str "Subscriptions not supported")))) ∧
    (S.operations (str "subscription") = some none → given = none →
      deliver S st name arguments directives given = .done (.throw (.other (str "Missing subscriptionObject")))) := by
  constructor
  · intro h; simp [deliver, h]
  · intro h hg; simp [deliver, h, hg]

/-- C25: an event never dereferences a listener which is gone, whatever the name. -/
theorem C25_defined {S : Service E O} {s : Sys C} {es : List (Event C)} (h : Steps S {} es s) (name : Str)
    (arguments directives : Filter) (given : Option O) :
    deliver S s.st name arguments directives given ≠ .undefined := by
  have hok := Steps.ok h Ok.init
  have keys : ∀ (o : O) (l : List Nat), (∀ k ∈ l, k ∈ s.st.subscriptions.map Prod.fst) →
      deliverKeys S s.st o arguments directives l ≠ .undefined := by
    intro o l hl
    induction l with
    | nil => simp [deliverKeys]
    | cons k l ih =>
      have ih := ih fun x hx => hl x (by simp [hx])
      simp only [deliverKeys]
      have hk := hl k (by simp)
      rw [find_key _ hok.keys]
      cases hq : s.st.subscriptions.find? (fun x => x.1 == k) with
      | none =>
        rw [List.find?_eq_none] at hq
        obtain ⟨e, he, rfl⟩ := List.mem_map.mp hk
        exact absurd (beq_self_eq_true e.1) (hq e he)
      | some y =>
        obtain ⟨k', r⟩ := y
        simp only
        split
        · simp
        · exact ih
        · split
          · simp
          · exact ih
          · cases hd : deliverKeys S s.st o arguments directives l with
            | undefined => exact absurd hd ih
            | done x => simp
  unfold deliver
  split
  · simp
  · split
    · simp
    · split
      · simp
      · rename_i n ks hfind
        apply keys
        have hl := listeners_find s.st.listeners hok.sorted name
        rw [hok.listeners, hfind] at hl
        simp only [Option.map_some] at hl
        split at hl
        · simp at hl
        · simp only [Option.some.injEq] at hl
          subst hl
          intro k hk
          obtain ⟨e, he, rfl⟩ := List.mem_map.mp hk
          exact List.mem_map_of_mem (List.mem_filter.mp he).1

/-! ## C24: no calls after `unsubscribe` -/

theorem deliverKeys_callbacks {S : Service E O} {st : State C} (hk : Increasing (st.subscriptions.map Prod.fst)) {o : O}
    {arguments directives : Filter} (l : List Nat) {t : List E} {calls : List (Call E C)}
    (h : deliverKeys S st o arguments directives l = .done ⟨t, .ok calls⟩) :
    ∀ c ∈ calls, ∃ e ∈ st.subscriptions, e.2.callback = c.callback := by
  induction l generalizing t calls with
  | nil => simp only [deliverKeys, Run.pure, Outcome.done.injEq, Run.mk.injEq, Except.ok.injEq] at h; rw [← h.2]; simp
  | cons k l ih =>
    simp only [deliverKeys] at h
    rw [find_key _ hk] at h
    cases hq : st.subscriptions.find? (fun x => x.1 == k) with
    | none => simp [hq] at h
    | some y =>
      obtain ⟨k', r⟩ := y
      simp only [hq] at h
      split at h
      · simp [Run.throw] at h
      · exact ih h
      · split at h
        · simp [Run.throw] at h
        · exact ih h
        · cases hd : deliverKeys S st o arguments directives l with
          | undefined => simp [hd] at h
          | done x =>
            simp only [hd, Outcome.done.injEq] at h
            have h' := congrArg Run.result h
            simp only at h'
            obtain ⟨doc, _, h'⟩ := Run.bind_eq_ok.mp h'
            simp only [Run.bind] at h'
            obtain ⟨tx, x⟩ := x
            cases x with
            | error e => simp at h'
            | ok cs =>
              simp only [Run.pure, Except.ok.injEq] at h'
              subst h'
              intro c hc
              rcases List.mem_cons.mp hc with rfl | hc
              · exact ⟨_, List.mem_of_find?_eq_some hq, rfl⟩
              · exact ih hd c hc

theorem deliver_callbacks {S : Service E O} {st : State C} (hk : Increasing (st.subscriptions.map Prod.fst)) {name : Str}
    {arguments directives : Filter} {given : Option O} {t : List E} {calls : List (Call E C)}
    (h : deliver S st name arguments directives given = .done ⟨t, .ok calls⟩) :
    ∀ c ∈ calls, ∃ e ∈ st.subscriptions, e.2.callback = c.callback := by
  unfold deliver at h
  split at h
  · simp [Run.throw] at h
  · split at h
    · simp [Run.throw] at h
    · split at h
      · simp only [Run.pure, Outcome.done.injEq, Run.mk.injEq, Except.ok.injEq] at h; rw [← h.2]; simp
      · exact deliverKeys_callbacks hk _ h

/-- A callback which no active subscription has, and which no running event will still call, is not called, unless it is
subscribed again. -/
theorem Steps.not_called {S : Service E O} {s s' : Sys C} {es : List (Event C)} (h : Steps S s es s') (hok : Ok s.st)
    {c : C} (ha : ∀ e ∈ s.st.subscriptions, e.2.callback ≠ c) (hp : ∀ l ∈ s.pending, c ∉ l)
    (hn : ∀ key r, .subscribed key r ∈ es → r.callback ≠ c) : .called c ∉ es := by
  induction h with
  | refl s => simp
  | @step s s1 s2 e es h _ ih =>
    have hok1 := Step.ok h hok
    have hact := Step.active h hok
    have key : (∀ e ∈ s1.st.subscriptions, e.2.callback ≠ c) ∧ (∀ l ∈ s1.pending, c ∉ l) ∧ e ≠ .called c := by
      refine ⟨?_, ?_, ?_⟩
      · rw [hact]
        intro x hx
        cases e with
        | subscribed k r =>
          simp only [apply, List.mem_append, List.mem_singleton] at hx
          rcases hx with hx | rfl
          · exact ha x hx
          · exact hn k r (by simp)
        | unsubscribed k => exact ha x (List.mem_filter.mp hx).1
        | called _ => exact ha x hx
        | silent => exact ha x hx
      · cases h with
        | deliver _ name a d o t calls h =>
          intro l hl
          simp only [List.mem_cons] at hl
          rcases hl with rfl | hl
          · intro hc
            obtain ⟨x, hx, rfl⟩ := List.mem_map.mp hc
            obtain ⟨e, he, hec⟩ := deliver_callbacks hok.keys h x hx
            exact ha e he hec
          · exact hp l hl
        | call st d cs rest =>
          intro l hl
          simp only [List.mem_cons] at hl
          rcases hl with rfl | hl
          · intro hc; exact hp (d :: l) (by simp) (by simp [hc])
          · exact hp l (by simp [hl])
        | finish st cs rest => intro l hl; exact hp l (by simp only at hl; simp [hl])
        | _ => exact hp
      · intro hc
        subst hc
        cases h with
        | call st _ cs rest => exact hp (c :: cs) (by simp) (by simp)
    have := ih hok1 key.1 key.2.1 (fun k r hm => hn k r (by simp [hm]))
    intro hc
    rcases List.mem_cons.mp hc with hc | hc
    · exact key.2.2 hc.symm
    · exact this hc

/-- C24: after `unsubscribe(key)` (either overload), the callback which was registered only under `key` is never called
again, whatever happens afterwards, unless it is subscribed again; except by an event which had already selected it when
`unsubscribe` was called (from a callback of that event). -/
theorem C24_no_calls {S : Service E O} {s s1 s2 : Sys C} {es es' : List (Event C)} {key : Nat} {c : C}
    (h : Steps S {} es s) (honly : ∀ e ∈ active es, e.2.callback = c → e.1 = key) (hidle : ∀ l ∈ s.pending, c ∉ l)
    (hu : Step S s (.unsubscribed key) s1) (h' : Steps S s1 es' s2)
    (hnew : ∀ k r, .subscribed k r ∈ es' → r.callback ≠ c) : .called c ∉ es' := by
  have hok := Steps.ok h Ok.init
  refine Steps.not_called h' (Step.ok hu hok) ?_ ?_ hnew
  · rw [Step.active hu hok, history_active h]
    intro e he hc
    simp only [apply, List.mem_filter, ne_eq, decide_eq_true_eq] at he
    exact he.2 (honly e he.1 hc)
  · cases hu with
    | unsubscribe _ _ st' h => exact hidle
    | unsubscribeAsync _ _ t st' h => exact hidle

/-! ## C26 -/

/-- C26: with an event which has maps of arguments and directives, a subscription gets the event iff it is to that field
and all the arguments and directives it was registered with are in the maps, with an equal value. What else is in the
maps does not matter. -/
theorem C26_literal (name : Str) (arguments directives : List (Str × Resp)) (r : Registration C) :
    wants name (literalFilter arguments) (literalFilter directives) r = true ↔
      r.field = name ∧
      (∀ n v, (n, v) ∈ r.arguments.getD [] → ∃ w, arguments.lookup n = some w ∧ Resp.eq w v = true) ∧
      (∀ n v, (n, v) ∈ r.fieldDirectives.getD [] → ∃ w, directives.lookup n = some w ∧ Resp.eq w v = true) := by
  have key : ∀ (given : List (Str × Resp)) (n : Str) (v : Resp), literalFilter given (n, v) = true ↔
      ∃ w, given.lookup n = some w ∧ Resp.eq w v = true := by
    intro given n v
    unfold literalFilter
    induction given with
    | nil => simp
    | cons x xs ih =>
      obtain ⟨m, w⟩ := x
      simp only [List.find?_cons, List.lookup_cons]
      by_cases hmn : m = n
      · subst hmn; simp
      · have h1 : (m == n) = false := by simp [hmn]
        have h2 : (n == m) = false := by simp [Ne.symm hmn]
        simp only [h1, h2]
        exact ih
  simp only [wants, Bool.and_eq_true, beq_iff_eq, List.all_eq_true, Prod.forall, key, and_assoc]

/-- C26: with a filter for the arguments, a subscription gets the event iff it is to that field and all the arguments it
was registered with pass the filter; its directives do not matter. -/
theorem C26_filtered (name : Str) (filter : Filter) (r : Registration C) :
    wants name filter (fun _ => true) r = true ↔ r.field = name ∧ ∀ a ∈ r.arguments.getD [], filter a = true := by
  simp [wants]

/-- C26: the overload with maps delivers to the subscriptions of `C26_literal`. -/
theorem C26_deliver_literal {S : Service E O} {s : Sys C} {es : List (Event C)} (h : Steps S {} es s) (name : Str)
    (hn : name ≠ []) (arguments directives : List (Str × Resp)) {object given : Option O} {o : O}
    (ho : S.operations (str "subscription") = some object) (hg : given.or object = some o) (hq : Quiet S o) :
    ∃ t calls, deliverLiteral S s.st name arguments directives given = .done ⟨t, .ok calls⟩ ∧
      List.Forall₂ (fun e c => Notified S o e.2 c)
        ((active es).filter fun e => wants name (literalFilter arguments) (literalFilter directives) e.2) calls :=
  C25_deliver h name hn _ _ ho hg hq

/-- C26: the overload with a filter delivers to the subscriptions of `C26_filtered`. -/
theorem C26_deliver_filtered {S : Service E O} {s : Sys C} {es : List (Event C)} (h : Steps S {} es s) (name : Str)
    (hn : name ≠ []) (filter : Filter) {object given : Option O} {o : O}
    (ho : S.operations (str "subscription") = some object) (hg : given.or object = some o) (hq : Quiet S o) :
    ∃ t calls, deliverFiltered S s.st name filter given = .done ⟨t, .ok calls⟩ ∧
      List.Forall₂ (fun e c => Notified S o e.2 c) ((active es).filter fun e => wants name filter (fun _ => true) e.2) calls :=
  C25_deliver h name hn _ _ ho hg hq

/-! ## C27 -/

/-- C27: if the asynchronous `subscribe` fails, because the document is invalid or because telling the subscription
object fails, the `Request` is in exactly the state it was in before. -/
theorem C27_subscribe_fails {S : Service E O} {s : Sys C} (h : Reachable S s) {p : Params C} {t : List E} {st' : State C}
    (hf : subscribeAsync S s.st p = .done (t, st', none)) : st' = s.st := by
  rcases subscribeAsync_cases (Reachable.ok h) hf with ⟨_, h⟩ | ⟨_, _, _, h⟩
  · exact h
  · simp at h

/-- C27: and if telling the subscription object fails, the asynchronous `subscribe` does fail. -/
theorem C27_notification_fails {S : Service E O} {s : Sys C} (h : Reachable S s) {p : Params C} {r : Registration C} {o : O}
    {e : Exn} (hr : registration S p = .ok r) (ho : S.operations (str "subscription") = some (some o))
    (he : (notify S .notifySubscribe o r).result = .error e) :
    subscribeAsync S s.st p = .done ((notify S .notifySubscribe o r).trace, s.st, none) := by
  have hok := Reachable.ok h
  have hat : at? keyLess (add s.st r).1.subscriptions (add s.st r).2 = some r := by
    rw [at_key _ (add_ok hok r).keys, (add_eq hok r).1, (add_eq hok r).2, List.find?_append]
    have : s.st.subscriptions.find? (fun e => e.1 == fresh s.st.subscriptions) = none := by
      rw [List.find?_eq_none]
      intro e he
      have := fresh_lt _ hok.keys e he
      simp; omega
    simp [this]
  simp only [subscribeAsync, subscribe, hr, ho, hat, he, add_unsubscribe hok r]

/-- C27: unsubscribing a key which is not active changes nothing; the asynchronous overload fails if the schema has
subscriptions. -/
theorem C27_unknown_key {S : Service E O} {s : Sys C} {es : List (Event C)} (h : Steps S {} es s) {key : Nat}
    (hk : key ∉ (active es).map Prod.fst) :
    unsubscribe s.st key = some s.st ∧
    unsubscribeAsync S s.st key = .done ([], s.st, (S.operations (str "subscription")).isNone) := by
  have hok := Steps.ok h Ok.init
  rw [← history_active h] at hk
  have hall : ∀ e ∈ s.st.subscriptions, e.1 ≠ key := by
    intro e he hc; exact hk (List.mem_map.mpr ⟨e, he, hc⟩)
  obtain ⟨st', e1, _, _, e4⟩ := unsubscribe_eq hok key
  rw [e4 hall] at e1
  refine ⟨e1, ?_⟩
  unfold unsubscribeAsync
  cases ho : S.operations (str "subscription") with
  | none => simp [e1]
  | some object =>
    have : s.st.subscriptions.find? (fun e => e.1 == key) = none := by
      rw [List.find?_eq_none]
      intro e he
      simpa using hall e he
    simp [at_key _ hok.keys, this]

/-- C27: if telling the subscription object that the subscription ends fails, the asynchronous `unsubscribe` fails and the
subscription stays active. -/
theorem C27_unsubscribe_fails {S : Service E O} {s : Sys C} (h : Reachable S s) {key : Nat} {t : List E} {st' : State C}
    (hf : unsubscribeAsync S s.st key = .done (t, st', false)) : st' = s.st := by
  rcases unsubscribeAsync_cases (Reachable.ok h) hf with ⟨_, h⟩ | ⟨h, _⟩
  · exact h
  · simp at h

end Verif.Subs
