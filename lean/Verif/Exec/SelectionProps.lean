import Verif.Exec.Fields
import Verif.Errors.Props
import Mathlib.Data.List.Forall2

/-!
# C13, C14: the fields of a selection set
-/
namespace Verif.Exec
open Verif.Value Verif.Resp Verif.Errors Verif.Ast
variable {E O : Type}

/-! ## What `firsts` means -/

theorem firsts_eq_find (vs : List Visit) (seen : List Str) (v : Visit) :
    v ∈ firsts seen vs ↔ v.name ∉ seen ∧ vs.find? (fun w => w.name == v.name) = some v := by
  induction vs generalizing seen with
  | nil => simp [firsts]
  | cons w vs ih =>
    rw [firsts, List.find?_cons]
    by_cases h : w.name ∈ seen
    · rw [if_pos h, ih]
      constructor
      · rintro ⟨h1, h2⟩
        refine ⟨h1, ?_⟩
        have : (w.name == v.name) = false := by
          rw [beq_eq_false_iff_ne]; intro hc; exact h1 (hc ▸ h)
        rw [this]; exact h2
      · rintro ⟨h1, h2⟩
        have : (w.name == v.name) = false := by
          rw [beq_eq_false_iff_ne]; intro hc; exact h1 (hc ▸ h)
        rw [this] at h2
        exact ⟨h1, h2⟩
    · rw [if_neg h, List.mem_cons, ih]
      constructor
      · rintro (rfl | ⟨h1, h2⟩)
        · simp [h]
        · have : (w.name == v.name) = false := by
            rw [beq_eq_false_iff_ne]; intro hc; exact h1 (by simp [hc])
          rw [this]
          exact ⟨fun hc => h1 (List.mem_cons_of_mem _ hc), h2⟩
      · rintro ⟨h1, h2⟩
        cases hb : (w.name == v.name) with
        | true => rw [hb] at h2; left; simpa using h2.symm
        | false =>
          rw [hb] at h2
          right
          refine ⟨?_, h2⟩
          rw [List.mem_cons, not_or]
          exact ⟨fun hc => (beq_eq_false_iff_ne.mp hb) hc.symm, h1⟩

theorem firsts_filter (vs : List Visit) (seen : List Str) :
    (firsts seen vs).map Visit.name = ((vs.map Visit.name).filter fun n => !seen.contains n).eraseDups := by
  induction vs generalizing seen with
  | nil => simp [firsts]
  | cons v vs ih =>
    rw [firsts, List.map_cons, List.filter_cons]
    by_cases h : v.name ∈ seen
    · simp [h, ih]
    · simp only [h, if_false, List.contains_eq_mem, decide_false, Bool.not_false, if_true, List.map_cons,
        List.eraseDups_cons, ih, List.filter_filter]
      congr 2
      apply List.filter_congr
      intro n _
      by_cases hn : n = v.name <;> simp [hn]

/-- `firsts` takes of the selected fields the first one with each response name, in order of first occurrence. -/
theorem firsts_spec (vs : List Visit) :
    (firsts [] vs).map Visit.name = (vs.map Visit.name).eraseDups ∧
      ∀ v, v ∈ firsts [] vs ↔ vs.find? (fun w => w.name == v.name) = some v := by
  refine ⟨?_, fun v => ?_⟩
  · rw [firsts_filter]; congr 1; simp
  · rw [firsts_eq_find]; simp

/-! ## Starting fields -/

theorem start_some_iff {I : Impl E O} {env : Env} {o : O} {params : SetParams} {v : Visit} {r : Option (Fut E)}
    (h : (start I env o params v).result = .ok r) : r.isSome = present I env o v := by
  unfold start at h
  unfold present
  cases hr : I.resolver o v.field.name with
  | none => rw [hr] at h; simp only [Run.pure, Except.ok.injEq] at h; subst h; rfl
  | some res =>
    rw [hr] at h
    simp only at h
    cases hs : skips env v.field.directives with
    | error e => rw [hs] at h; simp [Run.throw] at h
    | ok b =>
      rw [hs] at h
      cases b with
      | true => simp only [Run.pure, Except.ok.injEq] at h; subst h; rfl
      | false =>
        simp only at h
        cases ha : evalOptArgs env v.field.arguments with
        | error e => rw [ha] at h; simp [Run.throw] at h
        | ok args =>
          rw [ha] at h
          simp only at h
          obtain ⟨f, _, h2⟩ := Run.bind_eq_ok.mp h
          simp only [Run.pure, Except.ok.injEq] at h2
          subst h2
          rfl

theorem starts_names {I : Impl E O} {env : Env} {o : O} {params : SetParams} (vs : List Visit) {vals}
    (h : (starts I env o params vs).result = .ok vals) :
    vals.map Prod.fst = (vs.filter (present I env o)).map Visit.name := by
  induction vs generalizing vals with
  | nil => simp only [starts, Run.pure, Except.ok.injEq] at h; subst h; rfl
  | cons v vs ih =>
    rw [starts] at h
    obtain ⟨r, h1, h2⟩ := Run.bind_eq_ok.mp h
    obtain ⟨rest, h3, h4⟩ := Run.bind_eq_ok.mp h2
    simp only [Run.pure, Except.ok.injEq] at h4
    subst h4
    have hp := start_some_iff h1
    rw [List.filter_cons]
    cases r with
    | none => simp [← hp, ih h3]
    | some f => simp [← hp, ih h3]

theorem starts_nodup {I : Impl E O} {env : Env} {o : O} {params : SetParams} (vs : List Visit) {vals}
    (h : (starts I env o params (firsts [] vs)).result = .ok vals) : (vals.map Prod.fst).Nodup :=
  (starts_sublist _ h).nodup (firsts_nodup vs [])

/-- The outcome of `execute`. -/
theorem execute_ok_iff {I : Impl E O} {env : Env} {o : O} {params : SetParams} {xs : List XSelection} {r : Result} :
    (execute I env o params xs).result = .ok r ↔ Brackets I o params ∧ (selected I env o params xs).2 = none ∧
      ∃ vals, (starts I env o params (firsts [] (selected I env o params xs).1)).result = .ok vals ∧
        r = { data := .map (vals.map fun x => (x.1, dataOf x.2.result)),
              errors := vals.flatMap fun x => errorsOf x.1 x.2.result } := by
  rw [execute_eq, Run.bind_eq_ok]
  constructor
  · rintro ⟨_, hb, h⟩
    rw [Run.bind_eq_ok] at h
    obtain ⟨vals, h1, h2⟩ := h
    cases hs : (selected I env o params xs).2 with
    | some e => rw [hs] at h2; simp [finish] at h2; simp [Run.throw] at h2
    | none =>
      rw [hs] at h2
      simp only [finish, Run.pure_bind] at h2
      rw [Run.bind_eq_ok] at h2
      obtain ⟨_, he, h2⟩ := h2
      rw [collectFields_eq _ _ _ (by simpa using starts_nodup _ h1)] at h2
      simp only [Except.ok.injEq, List.nil_append] at h2
      exact ⟨⟨hb, he⟩, rfl, vals, h1, h2.symm⟩
  · rintro ⟨⟨hb, he⟩, hs, vals, h1, h2⟩
    refine ⟨(), hb, Run.bind_eq_ok.mpr ⟨vals, h1, ?_⟩⟩
    rw [hs]
    simp only [finish, Run.pure_bind]
    rw [Run.bind_eq_ok]
    refine ⟨(), he, ?_⟩
    rw [collectFields_eq _ _ _ (by simpa using starts_nodup _ h1), h2]
    simp

theorem executeAlone_ok_iff {I : Impl E O} {env : Env} {o : O} {params : SetParams} {v : Visit} {x : Result} :
    (executeAlone I env o params v).result = .ok x ↔ Brackets I o params ∧
      ∃ r, (start I env o params v).result = .ok r ∧
        x = { data := .map ((r.map fun f => (v.name, dataOf f.result)).toList),
              errors := (r.map fun f => errorsOf v.name f.result).getD [] } := by
  rw [executeAlone_eq, Run.bind_eq_ok]
  have key : ∀ r : Option (Fut E),
      ((collectFields ((r.map fun f => (v.name, f)).toList) [] []) : Fut E).result = .ok {
          data := .map ((r.map fun f => (v.name, dataOf f.result)).toList)
          errors := (r.map fun f => errorsOf v.name f.result).getD [] } := by
    intro r
    rw [collectFields_eq]
    · cases r <;> simp
    · cases r <;> simp
  constructor
  · rintro ⟨_, hb, h⟩
    rw [Run.bind_eq_ok] at h
    obtain ⟨r, h1, h2⟩ := h
    rw [Run.bind_eq_ok] at h2
    obtain ⟨_, he, h2⟩ := h2
    rw [key, Except.ok.injEq] at h2
    exact ⟨⟨hb, he⟩, r, h1, h2.symm⟩
  · rintro ⟨⟨hb, he⟩, r, h1, rfl⟩
    exact ⟨(), hb, Run.bind_eq_ok.mpr ⟨r, h1, Run.bind_eq_ok.mpr ⟨(), he, key r⟩⟩⟩

/-! ## C13 -/

/-- C13: if a selection set is executed, its data is an object whose members are the first occurrences of the response
names among the selected fields, in document order, without those which are skipped by their own directives. -/
theorem C13_members {I : Impl E O} {env : Env} {o : O} {params : SetParams} {xs : List XSelection} {r : Result}
    (h : (execute I env o params xs).result = .ok r) :
    ∃ ms : Members, r.data = .map ms ∧
      ms.map Prod.fst = ((firsts [] (selected I env o params xs).1).filter (present I env o)).map Visit.name := by
  obtain ⟨_, _, vals, h1, rfl⟩ := execute_ok_iff.mp h
  refine ⟨_, rfl, ?_⟩
  rw [← starts_names _ h1, List.map_map]
  rfl

/-- C13: every response name occurs once. -/
theorem C13_once {I : Impl E O} {env : Env} {o : O} {params : SetParams} {xs : List XSelection} {r : Result} {ms}
    (h : (execute I env o params xs).result = .ok r) (hd : r.data = .map ms) : (ms.map Prod.fst).Nodup := by
  obtain ⟨ms', h1, h2⟩ := C13_members h
  rw [hd] at h1
  cases h1
  rw [h2]
  exact (List.filter_sublist.map _).nodup (firsts_nodup _ _)

/-- C13, when no selected field is itself skipped: the members are the response names of the selected fields, each once,
in order of first occurrence. -/
theorem C13_all_names {I : Impl E O} {env : Env} {o : O} {params : SetParams} {xs : List XSelection} {r : Result}
    (h : (execute I env o params xs).result = .ok r)
    (hs : ∀ v ∈ (selected I env o params xs).1, skips env v.field.directives = .ok false) :
    ∃ ms : Members, r.data = .map ms ∧ ms.map Prod.fst = ((selected I env o params xs).1.map Visit.name).eraseDups := by
  obtain ⟨ms, h1, h2⟩ := C13_members h
  refine ⟨ms, h1, ?_⟩
  rw [h2, ← (firsts_spec _).1, List.filter_eq_self.mpr]
  intro v hv
  have hm := List.mem_of_find?_eq_some ((firsts_spec _).2 v |>.mp hv)
  simp [present, hs v hm]

/-! ## C14 -/

theorem starts_forall {I : Impl E O} {env : Env} {o : O} {params : SetParams} (vs : List Visit) {vals} :
    (starts I env o params vs).result = .ok vals ↔
      ∃ rs : List (Option (Fut E)), List.Forall₂ (fun v r => (start I env o params v).result = .ok r) vs rs ∧
        vals = (List.zip vs rs).flatMap fun x => (x.2.map fun f => (x.1.name, f)).toList := by
  induction vs generalizing vals with
  | nil =>
    simp only [starts, Run.pure, Except.ok.injEq, List.zip_nil_left, List.flatMap_nil]
    constructor
    · rintro rfl; exact ⟨[], .nil, rfl⟩
    · rintro ⟨_, _, rfl⟩; rfl
  | cons v vs ih =>
    rw [starts, Run.bind_eq_ok]
    constructor
    · rintro ⟨r, h1, h2⟩
      obtain ⟨rest, h3, h4⟩ := Run.bind_eq_ok.mp h2
      obtain ⟨rs, h5, h6⟩ := ih.mp h3
      simp only [Run.pure, Except.ok.injEq] at h4
      exact ⟨r :: rs, .cons h1 h5, by simp [← h4, h6]⟩
    · rintro ⟨rs, h, rfl⟩
      cases h with
      | cons h1 h2 =>
        rename_i r rs
        exact ⟨r, h1, Run.bind_eq_ok.mpr ⟨_, ih.mpr ⟨rs, h2, rfl⟩, by simp [Run.pure]⟩⟩

/-- C14: the result of a selection set is put together from the results its fields have when each of them is executed
alone: the members and the errors, all of them and in document order. No field can change, add, drop or duplicate a
member or an error of another. (`executeAlone` also fixes what happens when the field fails: C14_failure.) -/
theorem C14_siblings {I : Impl E O} {env : Env} {o : O} {params : SetParams} {xs : List XSelection} {r : Result} :
    (execute I env o params xs).result = .ok r ↔ Brackets I o params ∧ (selected I env o params xs).2 = none ∧
      ∃ rs : List Result,
        List.Forall₂ (fun v x => (executeAlone I env o params v).result = .ok x)
          (firsts [] (selected I env o params xs).1) rs ∧
        r = { data := .map (rs.flatMap fun x => members x.data), errors := rs.flatMap fun x => x.errors } := by
  rw [execute_ok_iff]
  refine and_congr_right fun hbr => and_congr_right fun _ => ?_
  generalize firsts [] (selected I env o params xs).1 = vs
  have aux : ∀ (vs : List Visit) (fs : List (Option (Fut E))),
      List.Forall₂ (fun v r => (start I env o params v).result = .ok r) vs fs → ∃ rs : List Result,
        List.Forall₂ (fun v x => (executeAlone I env o params v).result = .ok x) vs rs ∧
        (((List.zip vs fs).flatMap fun x => (x.2.map fun f => (x.1.name, f)).toList).map fun x => (x.1, dataOf x.2.result))
          = rs.flatMap (fun x => members x.data) ∧
        (((List.zip vs fs).flatMap fun x => (x.2.map fun f => (x.1.name, f)).toList).flatMap
          fun x => errorsOf x.1 x.2.result) = rs.flatMap (fun x => x.errors) := by
    intro vs fs hf
    induction hf with
    | nil => exact ⟨[], .nil, rfl, rfl⟩
    | cons h1 ht ih =>
      rename_i v f vs fs
      obtain ⟨rs, i1, i2, i3⟩ := ih
      refine ⟨_ :: rs, .cons (executeAlone_ok_iff.mpr ⟨hbr, f, h1, rfl⟩) i1, ?_, ?_⟩
      · simp only [List.zip_cons_cons, List.flatMap_cons, List.map_append, i2]
        cases f <;> simp [members]
      · simp only [List.zip_cons_cons, List.flatMap_cons, List.flatMap_append, i3]
        cases f <;> simp
  constructor
  · rintro ⟨vals, h1, rfl⟩
    obtain ⟨fs, h2, rfl⟩ := (starts_forall vs).mp h1
    obtain ⟨rs, i1, i2, i3⟩ := aux vs fs h2
    exact ⟨rs, i1, by rw [i2, i3]⟩
  · rintro ⟨rs, h1, rfl⟩
    have : ∃ fs, List.Forall₂ (fun v r => (start I env o params v).result = .ok r) vs fs := by
      clear aux
      induction h1 with
      | nil => exact ⟨[], .nil⟩
      | cons h _ ih =>
        obtain ⟨fs, ih⟩ := ih
        obtain ⟨_, f, hf, _⟩ := executeAlone_ok_iff.mp h
        exact ⟨f :: fs, .cons hf ih⟩
    obtain ⟨fs, h2⟩ := this
    obtain ⟨rs', i1, i2, i3⟩ := aux vs fs h2
    have hr : rs = rs' := by
      clear aux h2 i2 i3
      induction h1 generalizing rs' with
      | nil => cases i1; rfl
      | cons h _ ih =>
        cases i1 with
        | cons h' t' => rw [h] at h'; cases h'; rw [ih _ t']
    subst hr
    exact ⟨_, (starts_forall vs).mpr ⟨fs, h2, rfl⟩, by rw [i2, i3]⟩

theorem forall₂_mem_right {α β : Type} {R : α → β → Prop} {as : List α} {bs : List β} (h : List.Forall₂ R as bs) {b : β}
    (hb : b ∈ bs) : ∃ a ∈ as, R a b := by
  induction h with
  | nil => simp at hb
  | cons h _ ih =>
    rcases List.mem_cons.mp hb with rfl | hb
    · exact ⟨_, by simp, h⟩
    · obtain ⟨a, ha, h⟩ := ih hb
      exact ⟨a, List.mem_cons_of_mem _ ha, h⟩

theorem members_map (ms : Members) : members (.map ms) = ms := rfl

/-- C14: the value of each selected field is the one it has alone. -/
theorem C14_value_alone {I : Impl E O} {env : Env} {o : O} {params : SetParams} {xs : List XSelection} {r : Result}
    (h : (execute I env o params xs).result = .ok r) (v : Visit) (hv : v ∈ firsts [] (selected I env o params xs).1) :
    ∃ x, (executeAlone I env o params v).result = .ok x ∧
      (members r.data).find v.name = (members x.data).find v.name ∧ ∀ e ∈ x.errors, e ∈ r.errors := by
  obtain ⟨_, _, rs, h1, rfl⟩ := C14_siblings.mp h
  have hnd := firsts_nodup (selected I env o params xs).1 []
  generalize firsts [] (selected I env o params xs).1 = vs at h1 hv hnd
  clear h
  -- the members of a field alone have its name
  have own : ∀ w x, (executeAlone I env o params w).result = .ok x → ∀ m ∈ members x.data, m.1 = w.name := by
    intro w x hx m hm
    obtain ⟨_, f, _, rfl⟩ := executeAlone_ok_iff.mp hx
    cases f with
    | none => simp [members] at hm
    | some f => simp [members] at hm; rw [hm]
  induction h1 with
  | nil => simp at hv
  | cons hx hrest ih =>
    rename_i w x ws xs'
    rw [List.map_cons, List.nodup_cons] at hnd
    have find_append : ∀ (a b : Members) (n : Str), (a ++ b : Members).find n = (a.find n).or (b.find n) := by
      intro a b n
      unfold Members.find
      simp only [List.find?_append]
      cases List.find? (fun e => e.1 == n) a <;> simp
    have find_none : ∀ (a : Members) (n : Str), (∀ m ∈ a, m.1 ≠ n) → a.find n = none := by
      intro a n ha
      unfold Members.find
      rw [List.find?_eq_none.mpr]
      · rfl
      · intro m hm; simpa using ha m hm
    rcases List.mem_cons.mp hv with rfl | hv
    · refine ⟨x, hx, ?_, ?_⟩
      · simp only [members_map, List.flatMap_cons]
        rw [find_append, find_none (xs'.flatMap fun x => members x.data)]
        · simp only [Option.or_none]
        · intro m hm hc
          obtain ⟨y, hy, hm⟩ := List.mem_flatMap.mp hm
          have := forall₂_mem_right hrest hy
          obtain ⟨w, hw, h⟩ := this
          have := own w y h m hm
          exact hnd.1 (List.mem_map.mpr ⟨w, hw, by rw [← this, hc]⟩)
      · intro e he; simp [he]
    · obtain ⟨y, hy, i1, i2⟩ := ih hv hnd.2
      refine ⟨y, hy, ?_, ?_⟩
      · rw [← i1]
        simp only [members_map, List.flatMap_cons]
        rw [find_append, find_none (members x.data)]
        · simp
        · intro m hm hc
          have := own w x hx m hm
          exact hnd.1 (List.mem_map.mpr ⟨v, hv, by rw [← this, hc]⟩)
      · intro e he
        simp only [List.flatMap_cons, List.mem_append]
        right
        exact i2 e he

/-- What a field whose accessor throws reports: the user's errors, with the position and path of the field where they
have none, or one error with the text of the exception. -/
def failureErrors (v : Visit) (path : List Seg) : Exn → List SchemaError
  | .schema errors => errors.map fun e => {
      message := e.message
      location := if e.location.line = 0 then v.field.pos else e.location
      path := if e.path = [] then path else e.path }
  | .other what => [{
      message := str "Field error name: " ++ v.name ++ str " unknown error: " ++ what
      location := v.field.pos
      path := path }]

/-- C14: when the accessor of a field throws, exactly that field is null, with its errors; the errors carry the position
of the field and the path to it. -/
theorem C14_failure {I : Impl E O} {env : Env} {o : O} {params : SetParams} {v : Visit} {resolver : Resolver E O}
    {args : Members} {e : Exn} (hb : Brackets I o params) (hr : I.resolver o v.field.name = some resolver)
    (hs : skips env v.field.directives = .ok false) (ha : evalOptArgs env v.field.arguments = .ok args)
    (he : (resolver.access {
      set := { params with
        fragmentDirectives := v.dirs, errorPath := some (.extend params.errorPath (.name v.name)) }
      fieldDirectives := directivesOf env v.field.directives, arguments := args }).result = .error e) :
    (executeAlone I env o params v).result = .ok {
      data := .map [(v.name, .null)]
      errors := failureErrors v (buildErrorPath params.errorPath ++ [.name v.name]) e } := by
  rw [executeAlone_ok_iff]
  refine ⟨hb, some (.throw (fieldException v.field.pos v.name (buildErrorPath params.errorPath ++ [.name v.name]) e)), ?_, ?_⟩
  · unfold start
    rw [hr]
    simp only [hs, ha]
    rw [Run.bind_eq_ok]
    refine ⟨.throw (fieldException v.field.pos v.name (buildErrorPath params.errorPath ++ [.name v.name]) e), ?_, rfl⟩
    unfold Run.handle
    rw [Run.bind_eq_error.mpr (.inl he)]
    rw [buildErrorPath_extend]
  · cases e with
    | other what => simp [dataOf, errorsOf, Run.throw, fieldException, failureErrors]
    | schema es =>
      simp only [dataOf, errorsOf, Run.throw, fieldException, failureErrors, Option.map_some, Option.getD_some,
        Option.toList_some, Result.mk.injEq, true_and]
      apply List.map_congr_left
      intro x _
      obtain ⟨m, ⟨l, c⟩, p⟩ := x
      cases l <;> cases p <;> simp

/-- C14: only malformed directives or arguments, or unknown fragments, of the selection set itself make it fail as a
whole, or an exception of the callbacks around it; no exception of a resolver, and none from a nested selection set,
does. -/
theorem C14_contained {I : Impl E O} {env : Env} {o : O} {params : SetParams} {xs : List XSelection} {e : Exn}
    (h : (execute I env o params xs).result = .error e) :
    (selected I env o params xs).2 = some e ∨
      (∃ v ∈ firsts [] (selected I env o params xs).1,
        skips env v.field.directives = .error e ∨ evalOptArgs env v.field.arguments = .error e) ∨
      (I.beginSet o params).result = .error e ∨ (I.endSet o params).result = .error e := by
  rw [execute_eq, Run.bind_eq_error] at h
  rcases h with h | ⟨_, _, h⟩
  · exact .inr (.inr (.inl h))
  rw [Run.bind_eq_error] at h
  rcases h with h | ⟨vals, h1, h2⟩
  · right; left
    generalize firsts [] (selected I env o params xs).1 = vs at h
    induction vs with
    | nil => simp [starts, Run.pure] at h
    | cons v vs ih =>
      rw [starts, Run.bind_eq_error] at h
      rcases h with h | ⟨r, _, h⟩
      · refine ⟨v, by simp, ?_⟩
        unfold start at h
        cases hr : I.resolver o v.field.name with
        | none => rw [hr] at h; simp [Run.pure] at h
        | some res =>
          rw [hr] at h
          simp only at h
          cases hs : skips env v.field.directives with
          | error e' => rw [hs] at h; simp only [Run.throw, Except.error.injEq] at h; subst h; exact .inl rfl
          | ok b =>
            rw [hs] at h
            cases b with
            | true => simp [Run.pure] at h
            | false =>
              simp only at h
              cases ha : evalOptArgs env v.field.arguments with
              | error e' => rw [ha] at h; simp only [Run.throw, Except.error.injEq] at h; subst h; exact .inr rfl
              | ok args =>
                rw [ha] at h
                simp only at h
                rw [Run.bind_eq_error] at h
                rcases h with h | ⟨f, _, h⟩
                · unfold Run.handle at h
                  split at h <;> simp at h
                · simp [Run.pure] at h
      · rw [Run.bind_eq_error] at h
        rcases h with h | ⟨rest, _, h⟩
        · obtain ⟨w, hw, hh⟩ := ih h
          exact ⟨w, List.mem_cons_of_mem _ hw, hh⟩
        · simp [Run.pure] at h
  · rw [Run.bind_eq_error] at h2
    rcases h2 with h2 | ⟨vals', _, h2⟩
    · left
      cases hs : (selected I env o params xs).2 with
      | none => rw [hs] at h2; simp [finish, Run.pure] at h2
      | some e' => rw [hs] at h2; simp only [finish, Run.throw, Except.error.injEq] at h2; rw [h2]
    · rename_i hf
      have hv : vals' = vals := by
        cases hs : (selected I env o params xs).2 with
        | none => rw [hs] at hf; simpa [finish, Run.pure] using hf.symm
        | some e' => rw [hs] at hf; simp [finish, Run.throw] at hf
      subst hv
      rw [Run.bind_eq_error] at h2
      rcases h2 with h2 | ⟨_, _, h2⟩
      · exact .inr (.inr (.inr h2))
      · rw [collectFields_eq _ _ _ (by simpa using starts_nodup _ h1)] at h2
        simp at h2

end Verif.Exec
