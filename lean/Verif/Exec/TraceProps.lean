import Verif.Exec.ConvertProps

/-!
# C21: the order in which user code runs
-/
namespace Verif.Exec
open Verif.Value Verif.Resp Verif.Errors Verif.Ast
variable {E O : Type}

/-! ## Specification -/

/-- What runs when the field is visited: its accessor, and what is resolved at once. -/
def now (I : Impl E O) (env : Env) (o : O) (params : SetParams) (v : Visit) : List E :=
  (start I env o params v).trace

/-- What runs when the result of the field is collected. -/
def later (I : Impl E O) (env : Env) (o : O) (params : SetParams) (v : Visit) : List E :=
  match (start I env o params v).result with
  | .ok (some f) => f.trace
  | _ => []

/-- The parameters with which the accessor of a field is called. -/
def accessParams (env : Env) (params : SetParams) (v : Visit) (args : Members) : FieldParams :=
  { set := { params with
      fragmentDirectives := v.dirs, errorPath := some (.extend params.errorPath (.name v.name)) }
    fieldDirectives := directivesOf env v.field.directives
    arguments := args }

/-- The events of the accessor of a field, if it is called: if the field is known, not skipped, and its arguments can be
evaluated. -/
def accessed (I : Impl E O) (env : Env) (o : O) (params : SetParams) (v : Visit) : List E :=
  match I.resolver o v.field.name, skips env v.field.directives, evalOptArgs env v.field.arguments with
  | some resolver, .ok false, .ok args => (resolver.access (accessParams env params v args)).trace
  | _, _, _ => []

/-- All work of the field is done when it is visited: the accessor returns a value (not a future), and either no objects,
or directly an object of an interface or union type. -/
def Immediate (I : Impl E O) (o : O) (name : Str) : Prop :=
  ∀ resolver, I.resolver o name = some resolver →
    (resolver.type.isObject = false ∨ resolver.type = .object true) ∧
    ∀ params r, (resolver.access params).result = .ok r → r.isFuture = false

/-! ## Proof -/

theorem starts_trace {I : Impl E O} {env : Env} {o : O} {params : SetParams} (vs : List Visit) {vals}
    (h : (starts I env o params vs).result = .ok vals) :
    (starts I env o params vs).trace = vs.flatMap (now I env o params) ∧
    vals.flatMap (fun x => x.2.trace) = vs.flatMap (later I env o params) := by
  induction vs generalizing vals with
  | nil => simp only [starts, Run.pure, Except.ok.injEq] at h; subst h; exact ⟨rfl, rfl⟩
  | cons v vs ih =>
    rw [starts] at h ⊢
    obtain ⟨r, h1, h2⟩ := Run.bind_eq_ok.mp h
    obtain ⟨rest, h3, h4⟩ := Run.bind_eq_ok.mp h2
    simp only [Run.pure, Except.ok.injEq] at h4
    subst h4
    obtain ⟨i1, i2⟩ := ih h3
    constructor
    · rw [(Run.bind_result_ok h1).2, (Run.bind_result_ok h3).2, i1]
      simp [Run.pure, now]
    · simp only [List.flatMap_append, i2, List.flatMap_cons]
      cases r <;> simp [later, h1]

/-- C21: user code runs in this order: the callback before the selection set, the accessors of the fields in document
order (each with what it resolves at once), the callback after the selection set, and then the deferred rest of every
field, again in document order. -/
theorem C21_order (I : Impl E O) (env : Env) (o : O) (params : SetParams) (xs : List XSelection) (r : Result)
    (h : (execute I env o params xs).result = .ok r) :
    (execute I env o params xs).trace = (I.beginSet o params).trace ++
      (firsts [] (selected I env o params xs).1).flatMap (now I env o params) ++ (I.endSet o params).trace ++
      (firsts [] (selected I env o params xs).1).flatMap (later I env o params) := by
  obtain ⟨⟨hb, he⟩, hs, vals, h1, _⟩ := execute_ok_iff.mp h
  obtain ⟨t1, t2⟩ := starts_trace _ h1
  rw [execute_eq, (Run.bind_result_ok hb).2, (Run.bind_result_ok h1).2, hs]
  simp only [finish, Run.pure_bind]
  rw [(Run.bind_result_ok he).2, collectFields_eq _ _ _ (by simpa using starts_nodup _ h1), t1, t2]
  simp

/-- The same for one field. -/
theorem C21_order_alone (I : Impl E O) (env : Env) (o : O) (params : SetParams) (v : Visit) (r : Result)
    (h : (executeAlone I env o params v).result = .ok r) :
    (executeAlone I env o params v).trace =
      (I.beginSet o params).trace ++ now I env o params v ++ (I.endSet o params).trace ++ later I env o params v := by
  obtain ⟨⟨hb, he⟩, f, h1, _⟩ := executeAlone_ok_iff.mp h
  rw [executeAlone_eq, (Run.bind_result_ok hb).2, (Run.bind_result_ok h1).2, (Run.bind_result_ok he).2]
  rw [collectFields_eq _ _ _ (by cases f <;> simp)]
  cases f <;> simp [now, later, h1]

theorem Run.handle_trace {α : Type} (x : Run E α) (f : Exn → α) : (x.handle f).trace = x.trace := by
  unfold Run.handle; split <;> rfl

theorem Run.bind_pure_trace {α β : Type} (x : Run E α) (f : α → β) : (x.bind fun a => Run.pure (f a)).trace = x.trace := by
  unfold Run.bind; split <;> simp [Run.pure]

/-- C21: what runs when a field is visited begins with its accessor. -/
theorem C21_accessor_first (I : Impl E O) (env : Env) (o : O) (params : SetParams) (v : Visit) :
    accessed I env o params v <+: now I env o params v := by
  unfold accessed now start accessParams
  cases I.resolver o v.field.name with
  | none => simp
  | some res =>
    cases skips env v.field.directives with
    | error e => simp
    | ok b =>
      cases b with
      | true => simp
      | false =>
        cases evalOptArgs env v.field.arguments with
        | error e => simp
        | ok args =>
          simp only
          rw [Run.bind_pure_trace, Run.handle_trace]
          unfold Run.bind
          split
          · exact List.prefix_refl _
          · exact List.prefix_append _ _

theorem convert_quiet (I : Impl E O) : (t : OutType) → (params : ResolverParams E O) → (r : FieldResult E O) →
    t.isObject = false → r.get.trace = [] →
    (convert I t params r).trace = [] ∧ ∀ f, (convert I t params r).result = .ok f → f.trace = []
  | .leaf, params, r, _, hr => by
    rw [convert]
    unfold convertLeaf blockSubFields
    cases params.selection with
    | some s => simp [Run.throw, Run.bind]
    | none =>
      rw [Run.pure_bind]
      cases r with
      | value x => simp [resolveLeaf, Run.pure]
      | future l out => simp only [FieldResult.get] at hr; simp [resolveLeaf, Run.pure, hr]
  | .enum, params, r, _, hr => by
    rw [convert]
    cases r with
    | value x => simp [resolveLeaf, Run.pure]
    | future l out => simp only [FieldResult.get] at hr; simp [resolveLeaf, Run.pure, hr]
  | .object _, _, _, h, _ => by simp [OutType.isObject] at h
  | .nullable t, params, r, ht, hr => by
    rw [convert]
    refine ⟨rfl, ?_⟩
    intro f hf
    simp only [Run.pure, Except.ok.injEq] at hf
    subst hf
    cases hg : r.get.result with
    | error e => simp [Run.bind, hg, hr]
    | ok x =>
      rw [(Run.bind_result_ok hg).2, hr]
      cases x with
      | present y =>
        obtain ⟨h1, h2⟩ := convert_quiet I t params (.future [] (.ok y)) ht rfl
        simp only [List.nil_append]
        cases hc : (convert I t params (.future [] (.ok y))).result with
        | error e => simp [Run.bind, hc, h1]
        | ok g => rw [(Run.bind_result_ok hc).2, h1, h2 g hc]; rfl
      | leaf _ => rfl
      | object _ => rfl
      | absent => rfl
      | list _ => rfl
  | .list t, params, r, ht, hr => by
    rw [convert]
    refine ⟨rfl, ?_⟩
    intro f hf
    simp only [Run.pure, Except.ok.injEq] at hf
    subst hf
    have hce : ∀ (xs : List (Out O)) (i : Nat), (convertElements (convert I t) params i xs).trace = [] ∧
        ∀ cs, (convertElements (convert I t) params i xs).result = .ok cs → ∀ c ∈ cs, c.trace = [] := by
      intro xs
      induction xs with
      | nil => intro i; simp [convertElements, Run.pure]
      | cons x xs ih =>
        intro i
        rw [convertElements]
        obtain ⟨h1, h2⟩ := convert_quiet I t (params.atIndex i) (.value x) ht rfl
        obtain ⟨h3, h4⟩ := ih (i + 1)
        cases hc : (convert I t (params.atIndex i) (.value x)).result with
        | error e => simp [Run.bind, hc, h1]
        | ok c =>
          rw [(Run.bind_result_ok hc).1, (Run.bind_result_ok hc).2, h1, Run.bind_pure_trace, h3]
          refine ⟨rfl, ?_⟩
          intro cs hcs
          obtain ⟨cs', i1, i2⟩ := Run.bind_eq_ok.mp hcs
          simp only [Run.pure, Except.ok.injEq] at i2
          subst i2
          simp only [List.forall_mem_cons]
          exact ⟨h2 c hc, h4 cs' i1⟩
    have hco : ∀ (cs : List (Fut E)) (i : Nat) data errors, (∀ c ∈ cs, c.trace = []) →
        (collectElements params i cs data errors).trace = [] := by
      intro cs
      induction cs with
      | nil => intros; simp [collectElements, Run.pure]
      | cons c cs ih =>
        intro i data errors h
        rw [collectElements, Run.emit_bind_trace, ih _ _ _ (fun c hc => h c (List.mem_cons_of_mem _ hc)), h c (by simp)]
        rfl
    cases hg : r.get.result with
    | error e => simp [Run.bind, hg, hr]
    | ok x =>
      rw [(Run.bind_result_ok hg).2, hr]
      obtain ⟨h1, h2⟩ := hce x.elements 0
      simp only [List.nil_append]
      cases hc : (convertElements (convert I t) params 0 x.elements).result with
      | error e => simp [Run.bind, hc, h1]
      | ok cs => rw [(Run.bind_result_ok hc).2, h1, hco cs 0 [] [] (h2 cs hc)]; rfl

/-- C21: nothing is deferred for a field whose accessor returns a value of a leaf type (with any modifiers) or of an
interface or union type. -/
theorem C21_immediate (I : Impl E O) (env : Env) (o : O) (params : SetParams) (v : Visit)
    (h : Immediate I o v.field.name) : later I env o params v = [] := by
  unfold later start
  cases hr : I.resolver o v.field.name with
  | none => simp [Run.pure, Run.throw]
  | some res =>
    obtain ⟨ht, hf⟩ := h res hr
    cases skips env v.field.directives with
    | error e => simp [Run.throw]
    | ok b =>
      cases b with
      | true => simp [Run.pure]
      | false =>
        cases evalOptArgs env v.field.arguments with
        | error e => simp [Run.throw]
        | ok args =>
          simp only
          generalize hp : ({ set := _, pos := v.field.pos, fieldName := v.name, selection := _ } :
            ResolverParams E O) = rp
          generalize hx : ((res.access _).bind _ : Run E (Fut E)) = x
          have hq : ∀ f, x.result = .ok f → f.trace = [] := by
            intro f hxf
            rw [← hx] at hxf
            obtain ⟨r, h1, h2⟩ := Run.bind_eq_ok.mp hxf
            have hnf := hf _ _ h1
            have hget : r.get.trace = [] := by
              cases r with
              | value x => rfl
              | future l out => simp [FieldResult.isFuture] at hnf
            rcases ht with ht | ht
            · exact (convert_quiet I res.type rp r ht hget).2 f h2
            · rw [ht, convert, convertObject] at h2
              cases hs : rp.selection with
              | none => rw [hs] at h2; simp [Run.throw] at h2
              | some s =>
                rw [hs] at h2
                simp only [hnf, Bool.not_false, Bool.and_true, if_true] at h2
                obtain ⟨y, _, h3⟩ := Run.bind_eq_ok.mp h2
                simp only [Run.pure, Except.ok.injEq] at h3
                rw [← h3]
          cases hxr : x.result with
          | ok f => simp only [Run.handle, hxr, Run.bind, Run.pure]; exact hq f hxr
          | error e => simp [Run.handle, hxr, Run.bind, Run.pure, Run.throw]

/-- C21: if all the root fields are immediate then they run one after the other: each is completed before the next one is
started. -/
theorem C21_serial (I : Impl E O) (env : Env) (o : O) (params : SetParams) (xs : List XSelection) (r : Result)
    (h : (execute I env o params xs).result = .ok r)
    (hi : ∀ v ∈ firsts [] (selected I env o params xs).1, Immediate I o v.field.name) :
    (execute I env o params xs).trace = (I.beginSet o params).trace ++
      (firsts [] (selected I env o params xs).1).flatMap (now I env o params) ++ (I.endSet o params).trace ∧
    ∀ v ∈ firsts [] (selected I env o params xs).1, later I env o params v = [] := by
  have hl : ∀ v ∈ firsts [] (selected I env o params xs).1, later I env o params v = [] :=
    fun v hv => C21_immediate I env o params v (hi v hv)
  refine ⟨?_, hl⟩
  rw [C21_order I env o params xs r h]
  have : (firsts [] (selected I env o params xs).1).flatMap (later I env o params) = [] := by
    rw [List.flatMap_eq_nil_iff]; exact hl
  rw [this, List.append_nil]

end Verif.Exec
