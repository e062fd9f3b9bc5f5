import Verif.Exec.Lemmas

/-!
# The fields of a selection set

`execute` in terms of the selected fields: every first occurrence of a response name is started in order, then the
results are collected in order.
-/
namespace Verif.Exec
open Verif.Value Verif.Resp Verif.Errors Verif.Ast
variable {E O : Type}

theorem Run.bind_eq_ok {α β : Type} {x : Run E α} {f : α → Run E β} {b : β} :
    (x.bind f).result = .ok b ↔ ∃ a, x.result = .ok a ∧ (f a).result = .ok b := by
  constructor
  · intro h
    obtain ⟨a, h1, h2, _⟩ := Run.bind_ok h
    exact ⟨a, h1, h2⟩
  · rintro ⟨a, h1, h2⟩
    rw [(Run.bind_result_ok h1).1, h2]

theorem Run.bind_eq_error {α β : Type} {x : Run E α} {f : α → Run E β} {e : Exn} :
    (x.bind f).result = .error e ↔ x.result = .error e ∨ ∃ a, x.result = .ok a ∧ (f a).result = .error e := by
  constructor
  · exact Run.bind_error
  · rintro (h | ⟨a, h1, h2⟩)
    · simp [Run.bind, h]
    · rw [(Run.bind_result_ok h1).1, h2]

/-- Starting fields in order; the names and futures of those which are not skipped. -/
def starts (I : Impl E O) (env : Env) (o : O) (params : SetParams) : List Visit → Run E (List (Str × Fut E))
  | [] => .pure []
  | v :: vs => (start I env o params v).bind fun r =>
    (starts I env o params vs).bind fun rest => .pure ((r.map fun f => (v.name, f)).toList ++ rest)

theorem visitFields_eq (I : Impl E O) (env : Env) (o : O) (params : SetParams) (vs : List Visit) (st : St E) :
    visitFields I env vs o params st =
      (starts I env o params (firsts st.names vs)).bind fun vals => .pure
        { names := ((firsts st.names vs).map Visit.name).reverse ++ st.names, values := st.values ++ vals } := by
  induction vs generalizing st with
  | nil => simp [visitFields, firsts, starts]
  | cons v vs ih =>
    rw [visitFields, visitOne_eq, firsts]
    by_cases h : v.name ∈ st.names
    · rw [if_pos h, if_pos h, Run.pure_bind, ih]
    · rw [if_neg h, if_neg h]
      simp only [Run.bind_assoc, Run.pure_bind, starts]
      congr 1
      funext r
      rw [ih]
      simp [Run.bind_assoc]

/-- The value of a finished field; an exception is null. -/
def dataOf (f : Except Exn Result) : Resp :=
  match f with
  | .ok r => r.data
  | .error _ => .null

/-- The errors of a finished field. -/
def errorsOf (name : Str) (f : Except Exn Result) : List SchemaError :=
  match f with
  | .ok r => r.errors
  | .error (.schema es) => es
  | .error (.other what) => [{ message := str "Field error name: " ++ name ++ str " unknown error: " ++ what }]

theorem emplace_new {ms : Members} {n : Str} (v : Resp) (h : n ∉ ms.map Prod.fst) : ms.emplace n v = ms ++ [(n, v)] := by
  unfold Members.emplace
  rw [if_neg]
  rw [Bool.not_eq_true, List.any_eq_false]
  intro x hx hc
  exact h (List.mem_map.mpr ⟨x, hx, by simpa using hc⟩)

theorem isNew_iff {ms : Members} {n : Str} : ms.isNew n = true ↔ n ∉ ms.map Prod.fst := by
  unfold Members.isNew
  simp only [Bool.not_eq_true', List.any_eq_false, List.mem_map, not_exists, not_and]
  constructor
  · intro h x hx hc
    exact h x hx (by simp [hc])
  · intro h x hx hc
    exact h x hx (by simpa using hc)

theorem collectField_new {ms : Members} {n : Str} (errors : List SchemaError) (f : Except Exn Result)
    (h : n ∉ ms.map Prod.fst) : collectField ms errors n f = (ms ++ [(n, dataOf f)], errors ++ errorsOf n f) := by
  unfold collectField
  cases f with
  | ok r => simp only [emplace_new _ h, isNew_iff.mpr h]; simp [dataOf, errorsOf]
  | error e => cases e <;> simp [emplace_new _ h, dataOf, errorsOf]

theorem collectFields_eq (vals : List (Str × Fut E)) (ms : Members) (errors : List SchemaError)
    (h : (ms.map Prod.fst ++ vals.map Prod.fst).Nodup) :
    collectFields vals ms errors = ⟨vals.flatMap fun x => x.2.trace, .ok
      { data := .map (ms ++ vals.map fun x => (x.1, dataOf x.2.result)),
        errors := errors ++ vals.flatMap fun x => errorsOf x.1 x.2.result }⟩ := by
  induction vals generalizing ms errors with
  | nil => simp [collectFields, Run.pure]
  | cons x vals ih =>
    obtain ⟨n, f⟩ := x
    have hn : n ∉ ms.map Prod.fst := by
      intro hc
      rw [List.nodup_append] at h
      exact h.2.2 n hc n (by simp) rfl
    rw [collectFields, collectField_new _ _ hn, ih]
    · apply Run.ext' <;> simp
    · simpa using h

theorem firsts_notin (vs : List Visit) (seen : List Str) : ∀ v ∈ firsts seen vs, v.name ∉ seen := by
  induction vs generalizing seen with
  | nil => simp [firsts]
  | cons v vs ih =>
    intro w hw
    rw [firsts] at hw
    by_cases h : v.name ∈ seen
    · rw [if_pos h] at hw; exact ih _ w hw
    · rw [if_neg h] at hw
      rcases List.mem_cons.mp hw with rfl | hw
      · exact h
      · intro hc
        exact ih _ w hw (List.mem_cons_of_mem _ hc)

theorem firsts_nodup (vs : List Visit) (seen : List Str) : ((firsts seen vs).map Visit.name).Nodup := by
  induction vs generalizing seen with
  | nil => simp [firsts]
  | cons v vs ih =>
    rw [firsts]
    by_cases h : v.name ∈ seen
    · rw [if_pos h]; exact ih _
    · rw [if_neg h, List.map_cons, List.nodup_cons]
      refine ⟨?_, ih _⟩
      intro hc
      obtain ⟨w, hw, he⟩ := List.mem_map.mp hc
      exact firsts_notin _ _ w hw (by simp [he])

theorem starts_sublist {I : Impl E O} {env : Env} {o : O} {params : SetParams} (vs : List Visit) {vals}
    (h : (starts I env o params vs).result = .ok vals) : (vals.map Prod.fst).Sublist (vs.map Visit.name) := by
  induction vs generalizing vals with
  | nil => simp only [starts, Run.pure, Except.ok.injEq] at h; subst h; simp
  | cons v vs ih =>
    rw [starts] at h
    obtain ⟨r, _, h2⟩ := Run.bind_eq_ok.mp h
    obtain ⟨rest, h3, h4⟩ := Run.bind_eq_ok.mp h2
    simp only [Run.pure, Except.ok.injEq] at h4
    subst h4
    cases r with
    | none => simpa using (ih h3).cons v.name
    | some f => simpa using (ih h3).cons_cons v.name

/-- `execute` in terms of the selected fields. -/
theorem execute_eq (I : Impl E O) (env : Env) (o : O) (params : SetParams) (xs : List XSelection) :
    execute I env o params xs =
      (I.beginSet o params).bind fun _ =>
      (starts I env o params (firsts [] (selected I env o params xs).1)).bind fun vals =>
      (finish (selected I env o params xs).2 vals).bind fun vals =>
      (I.endSet o params).bind fun _ => collectFields vals [] [] := by
  unfold execute resolveObject selected
  simp only [Run.bind_assoc]
  congr 1
  funext _
  rw [visitAll_eq, visitFields_params, visitFields_eq]
  simp only [Run.bind_assoc, Run.pure_bind]
  congr 1
  funext vals
  cases (flatten (matchesType I o) env params.errorPath xs {}).2 <;> simp [finish]

theorem executeAlone_eq (I : Impl E O) (env : Env) (o : O) (params : SetParams) (v : Visit) :
    executeAlone I env o params v =
      (I.beginSet o params).bind fun _ =>
      (start I env o params v).bind fun r =>
      (I.endSet o params).bind fun _ => collectFields ((r.map fun f => (v.name, f)).toList) [] [] := by
  unfold executeAlone resolveObject
  simp only [Run.bind_assoc]
  congr 1
  funext _
  rw [visitOne_eq]
  simp only [Run.bind_assoc, Run.pure_bind, List.not_mem_nil, if_false, List.nil_append]
  rfl

end Verif.Exec
