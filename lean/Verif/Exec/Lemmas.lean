import Verif.Exec.Spec

namespace Verif.Exec
open Verif.Value Verif.Resp Verif.Errors Verif.Ast

namespace Run
variable {E α β γ : Type}

theorem ext' {x y : Run E α} (h1 : x.trace = y.trace) (h2 : x.result = y.result) : x = y := by
  cases x; cases y; simp_all

@[simp] theorem pure_bind (a : α) (f : α → Run E β) : (Run.pure a).bind f = f a := by
  apply ext' <;> simp [Run.bind, Run.pure]

@[simp] theorem throw_bind (e : Exn) (f : α → Run E β) : (Run.throw e : Run E α).bind f = Run.throw e := by
  apply ext' <;> simp [Run.bind, Run.throw]

theorem bind_assoc (x : Run E α) (f : α → Run E β) (g : β → Run E γ) :
    (x.bind f).bind g = x.bind fun a => (f a).bind g := by
  obtain ⟨t, r⟩ := x
  cases r with
  | error e => rfl
  | ok a =>
    cases hr : (f a).result with
    | error e => apply ext' <;> simp [Run.bind, hr]
    | ok b => apply ext' <;> simp [Run.bind, hr]

@[simp] theorem bind_pure (x : Run E α) : x.bind Run.pure = x := by
  obtain ⟨t, r⟩ := x
  cases r <;> apply ext' <;> simp [Run.bind, Run.pure]

theorem bind_ok {x : Run E α} {f : α → Run E β} {b : β} (h : (x.bind f).result = .ok b) :
    ∃ a, x.result = .ok a ∧ (f a).result = .ok b ∧ (x.bind f).trace = x.trace ++ (f a).trace := by
  obtain ⟨t, r⟩ := x
  cases r with
  | error e => simp [Run.bind] at h
  | ok a => exact ⟨a, rfl, by simpa [Run.bind] using h, rfl⟩

theorem bind_error {x : Run E α} {f : α → Run E β} {e : Exn} (h : (x.bind f).result = .error e) :
    x.result = .error e ∨ ∃ a, x.result = .ok a ∧ (f a).result = .error e := by
  obtain ⟨t, r⟩ := x
  cases r with
  | error e' => left; simpa [Run.bind] using h
  | ok a => right; exact ⟨a, rfl, by simpa [Run.bind] using h⟩

theorem bind_result_ok {x : Run E α} {f : α → Run E β} {a : α} (h : x.result = .ok a) :
    (x.bind f).result = (f a).result ∧ (x.bind f).trace = x.trace ++ (f a).trace := by
  simp [Run.bind, h]

@[simp] theorem emit_bind_result (t : List E) (f : Unit → Run E β) : ((Run.emit t).bind f).result = (f ()).result := by
  simp [Run.bind, Run.emit]

@[simp] theorem emit_bind_trace (t : List E) (f : Unit → Run E β) :
    ((Run.emit t).bind f).trace = t ++ (f ()).trace := by
  simp [Run.bind, Run.emit]

end Run

variable {E O : Type}

/-! ## visiting = flattening, then visiting the fields -/

/-- Visiting the fields one after another. -/
def visitFields (I : Impl E O) (env : Env) : List Visit → SetVisitor E O
  | [], _, _, st => .pure st
  | v :: vs, o, params, st => (visitOne I env v o params st).bind fun st => visitFields I env vs o params st

/-- Ending with an exception, or not. -/
def finish {α : Type} (e : Option Exn) (a : α) : Run E α :=
  match e with
  | none => .pure a
  | some e => .throw e

theorem visitFields_append (I : Impl E O) (env : Env) (as bs : List Visit) (o : O) (params : SetParams) (st : St E) :
    visitFields I env (as ++ bs) o params st =
      (visitFields I env as o params st).bind fun st => visitFields I env bs o params st := by
  induction as generalizing st with
  | nil => simp [visitFields]
  | cons a as ih => simp [visitFields, ih, Run.bind_assoc]

theorem visitFields_params (I : Impl E O) (env : Env) (vs : List Visit) (o : O) (params : SetParams) (d : FragDirs)
    (st : St E) : visitFields I env vs o { params with fragmentDirectives := d } st = visitFields I env vs o params st := by
  induction vs generalizing st with
  | nil => rfl
  | cons v vs ih => simp only [visitFields, ih]; rfl

theorem lift_skip (env : Env) (ds : Option (List Directive)) (f : Members → Bool → Run E α) :
    ((Run.lift (evalDirectives env ds)).bind fun ms => (Run.lift (shouldSkip ms)).bind fun skip => f ms skip) =
      match skips env ds with
      | .error e => .throw e
      | .ok b => f (directivesOf env ds) b := by
  unfold skips directivesOf
  cases hd : evalDirectives env ds with
  | error e => rfl
  | ok ms =>
    cases hs : shouldSkip ms with
    | error e => apply Run.ext' <;> simp [Run.bind, Run.lift, Run.throw, hs]
    | ok b => apply Run.ext' <;> simp [Run.bind, Run.lift, hs]

mutual
theorem visit_eq (I : Impl E O) (env : Env) : (x : XSelection) → (o : O) → (params : SetParams) → (st : St E) →
    visit I env x o params st =
      (visitFields I env (flatten1 (matchesType I o) env params.errorPath x params.fragmentDirectives).1 o params st).bind
        (finish (flatten1 (matchesType I o) env params.errorPath x params.fragmentDirectives).2)
  | .leaf f, o, params, st => by
    simp [visit, flatten1, visitFields, visitOne]
    rw [show finish (E := E) (α := St E) none = Run.pure from rfl, Run.bind_pure]
  | .node f pos sub, o, params, st => by
    simp [visit, flatten1, visitFields, visitOne]
    rw [show finish (E := E) (α := St E) none = Run.pure from rfl, Run.bind_pure]
  | .unknownSpread pos name, o, params, st => by
    simp [visit, flatten1, visitFields, finish]
  | .spread fragment ds sub, o, params, st => by
    rw [visit, flatten1, lift_skip]
    by_cases ht : matchesType I o fragment.type = true
    · simp only [ht, Bool.not_true, Bool.false_eq_true, if_false, if_true]
      cases hs : skips env ds with
      | error e => simp [visitFields, finish]
      | ok b =>
        cases b with
        | true => simp [visitFields, finish]
        | false =>
          simp only [Bool.false_eq_true, if_false]
          rw [visitAll_eq I env sub]
          rw [visitFields_params]
    · simp only [ht, Bool.not_false, if_true, if_false, Bool.false_eq_true]
      simp [visitFields, finish]
  | .inline tc ds sub, o, params, st => by
    unfold visit flatten1
    rw [lift_skip]
    cases hs : skips env ds with
    | error e => simp [visitFields, finish]
    | ok b =>
      cases b with
      | true => simp [visitFields, finish]
      | false =>
        simp only [Bool.false_eq_true, if_false]
        by_cases ht : tc.all (matchesType I o) = true
        · rw [if_pos ht, if_pos ht, visitAll_eq I env sub]
          rw [visitFields_params]
        · rw [if_neg ht, if_neg ht]
          simp [visitFields, finish]
theorem visitAll_eq (I : Impl E O) (env : Env) : (xs : List XSelection) → (o : O) → (params : SetParams) → (st : St E) →
    visitAll I env xs o params st =
      (visitFields I env (flatten (matchesType I o) env params.errorPath xs params.fragmentDirectives).1 o params st).bind
        (finish (flatten (matchesType I o) env params.errorPath xs params.fragmentDirectives).2)
  | [], o, params, st => by simp [visitAll, flatten, visitFields, finish]
  | x :: xs, o, params, st => by
    rw [visitAll, visit_eq I env x, flatten]
    obtain ⟨vs, e⟩ := flatten1 (matchesType I o) env params.errorPath x params.fragmentDirectives
    cases e with
    | some e =>
      simp only [Run.bind_assoc]
      congr 1
    | none =>
      simp only [Run.bind_assoc, visitFields_append]
      congr 1
      funext st'
      simp only [finish, Run.pure_bind]
      rw [visitAll_eq I env xs]
end

/-! ## one field -/

/-- The future of a visited field, `none` if it is skipped. -/
def start (I : Impl E O) (env : Env) (o : O) (params : SetParams) (v : Visit) : Run E (Option (Fut E)) :=
  match I.resolver o v.field.name with
  | none => .pure (some (.throw (.schema [{
        message := str "Unknown field name: " ++ v.field.name
        location := v.field.pos
        path := buildErrorPath params.errorPath }])))
  | some resolver =>
    match skips env v.field.directives with
    | .error e => .throw e
    | .ok true => .pure none
    | .ok false =>
      match evalOptArgs env v.field.arguments with
      | .error e => .throw e
      | .ok arguments =>
        let set : SetParams :=
          { params with fragmentDirectives := v.dirs, errorPath := some (.extend params.errorPath (.name v.name)) }
        let field : FieldParams :=
          { set := set, fieldDirectives := directivesOf env v.field.directives, arguments := arguments }
        let resolver' : ResolverParams E O :=
          { set := set, pos := v.field.pos, fieldName := v.name,
            selection := v.sub.map fun s => (s.1, visitAll I env s.2) }
        let resolve : Run E (Fut E) := (resolver.access field).bind fun r => convert I resolver.type resolver' r
        (resolve.handle fun e =>
          .throw (fieldException v.field.pos v.name (buildErrorPath set.errorPath) e)).bind fun f => .pure (some f)

theorem visitOne_eq (I : Impl E O) (env : Env) (v : Visit) (o : O) (params : SetParams) (st : St E) :
    visitOne I env v o params st =
      if v.name ∈ st.names then .pure st
      else (start I env o params v).bind fun r => .pure
        { names := v.name :: st.names, values := st.values ++ (r.map fun f => (v.name, f)).toList } := by
  unfold visitOne visitField start
  simp only [List.contains_eq_mem, decide_eq_true_eq]
  by_cases h : responseName v.field ∈ st.names
  · rw [if_pos h, if_pos (show v.name ∈ st.names from h)]
  · rw [if_neg h, if_neg (show ¬ v.name ∈ st.names from h)]
    simp only [Visit.name]
    cases I.resolver o v.field.name with
    | none => simp
    | some resolver =>
      simp only
      rw [lift_skip]
      cases skips env v.field.directives with
      | error e => simp
      | ok b =>
        cases b with
        | true => simp
        | false =>
          simp only [Bool.false_eq_true, if_false]
          cases evalOptArgs env v.field.arguments with
          | error e => rfl
          | ok args =>
            rw [show (Run.lift (Except.ok args) : Run E Members) = Run.pure args from rfl]
            simp only [Run.pure_bind, Run.bind_assoc]
            simp

end Verif.Exec
