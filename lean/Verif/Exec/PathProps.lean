import Verif.Exec.ConvertProps

/-!
# C11: the paths of errors
-/
namespace Verif.Exec
open Verif.Value Verif.Resp Verif.Errors Verif.Ast
variable {E O : Type}

/-! ## Specification -/

/-- The error has no path, or one which begins with `base`. -/
def Anchored (base : List Seg) (e : SchemaError) : Prop := e.path = [] ∨ base <+: e.path

/-- All the errors of an exception. -/
def ExnAll (P : SchemaError → Prop) : Exn → Prop
  | .schema es => ∀ e ∈ es, P e
  | .other _ => True

/-- The service leaves it to the library to add paths: no exception of an accessor, or of the callbacks around a selection
set, has errors with a path. -/
structure NoUserPaths (I : Impl E O) : Prop where
  accessors : ∀ o name resolver, I.resolver o name = some resolver → ∀ params,
    match (resolver.access params).result with
    | .error e => ExnAll (fun e => e.path = []) e
    | .ok (.future _ (.error e)) => ExnAll (fun e => e.path = []) e
    | .ok _ => True
  begins : ∀ o params e, (I.beginSet o params).result = .error e → ExnAll (fun e => e.path = []) e
  ends : ∀ o params e, (I.endSet o params).result = .error e → ExnAll (fun e => e.path = []) e

/-! ## Proof -/

theorem Anchored.shorter {p q : List Seg} {e : SchemaError} (hpq : p <+: q) (h : Anchored q e) : Anchored p e :=
  h.imp id hpq.trans

theorem ExnAll.imp {P Q : SchemaError → Prop} (h : ∀ e, P e → Q e) : {x : Exn} → ExnAll P x → ExnAll Q x
  | .schema _, hx => fun e he => h e (hx e he)
  | .other _, _ => trivial

/-- The outcome of a future. -/
def Good (P : SchemaError → Prop) (f : Fut E) : Prop :=
  match f.result with
  | .ok r => ∀ e ∈ r.errors, P e
  | .error e => ExnAll P e

theorem Good.imp {P Q : SchemaError → Prop} (h : ∀ e, P e → Q e) {f : Fut E} (hf : Good P f) : Good Q f := by
  unfold Good at hf ⊢
  cases hr : f.result with
  | ok r => rw [hr] at hf; exact fun e he => h e (hf e he)
  | error x => rw [hr] at hf; exact ExnAll.imp h hf

theorem Good.pure {P : SchemaError → Prop} {r : Result} (h : ∀ e ∈ r.errors, P e) : Good P (Run.pure r : Fut E) := h

theorem Good.bind {P : SchemaError → Prop} {α : Type} {x : Run E α} {f : α → Fut E}
    (h1 : ∀ e, x.result = .error e → ExnAll P e) (h2 : ∀ a, x.result = .ok a → Good P (f a)) : Good P (x.bind f) := by
  unfold Good
  cases hx : x.result with
  | error e => simp only [Run.bind, hx]; exact h1 e hx
  | ok a => rw [(Run.bind_result_ok hx).1]; exact h2 a hx

/-- The outcome of starting something. -/
def GoodStart (P : SchemaError → Prop) (x : Run E (Fut E)) : Prop :=
  match x.result with
  | .ok f => Good P f
  | .error e => ExnAll P e

theorem GoodStart.join {P : SchemaError → Prop} {x : Run E (Fut E)} (h : GoodStart P x) : Good P (x.bind fun f => f) := by
  unfold GoodStart at h
  apply Good.bind
  · intro e he; rw [he] at h; exact h
  · intro a ha; rw [ha] at h; exact h

theorem GoodStart.pure {P : SchemaError → Prop} {f : Fut E} (h : Good P f) : GoodStart P (Run.pure f) := h

theorem GoodStart.bind {P : SchemaError → Prop} {α : Type} {x : Run E α} {f : α → Run E (Fut E)}
    (h1 : ∀ e, x.result = .error e → ExnAll P e) (h2 : ∀ a, x.result = .ok a → GoodStart P (f a)) :
    GoodStart P (x.bind f) := by
  unfold GoodStart
  cases hx : x.result with
  | error e => simp only [Run.bind, hx]; exact h1 e hx
  | ok a => rw [(Run.bind_result_ok hx).1]; exact h2 a hx

/-- A visitor reports errors below its path. -/
def GoodVisitor (visit : SetVisitor E O) : Prop :=
  ∀ o params st, (∀ x ∈ st.values, Good (Anchored (buildErrorPath params.errorPath)) x.2) →
    match (visit o params st).result with
    | .ok st' => ∀ x ∈ st'.values, Good (Anchored (buildErrorPath params.errorPath)) x.2
    | .error e => ExnAll (Anchored (buildErrorPath params.errorPath)) e

mutual
theorem evalLit_bare (env : Env) : (l : Lit) → ∀ x, evalLit env l = .error x → ExnAll (fun e => e.path = []) x
  | .variable pos name, x, h => by
    simp only [evalLit, visitVariable] at h
    split at h
    · simp at h
    · simp only [Except.error.injEq] at h; subst h; simp [ExnAll]
  | .int n, x, h => by simp [evalLit] at h
  | .float n, x, h => by simp [evalLit] at h
  | .string n, x, h => by simp [evalLit] at h
  | .boolean n, x, h => by simp [evalLit] at h
  | .null, x, h => by simp [evalLit] at h
  | .enumValue n, x, h => by simp [evalLit] at h
  | .list xs, x, h => by
    simp only [evalLit] at h
    cases hl : evalList env xs [] with
    | ok vs => rw [hl] at h; simp at h
    | error e =>
      rw [hl] at h
      simp only [Except.error.injEq] at h
      subst h
      exact evalList_bare env xs [] e hl
  | .object fields, x, h => by
    simp only [evalLit] at h
    cases hl : evalArgs env fields [] with
    | ok vs => rw [hl] at h; simp at h
    | error e =>
      rw [hl] at h
      simp only [Except.error.injEq] at h
      subst h
      exact evalArgs_bare env fields [] e hl
theorem evalList_bare (env : Env) : (xs : List Lit) → (acc : List Resp) → ∀ x, evalList env xs acc = .error x →
    ExnAll (fun e => e.path = []) x
  | [], acc, x, h => by simp [evalList] at h
  | l :: xs, acc, x, h => by
    simp only [evalList] at h
    cases hl : evalLit env l with
    | error e =>
      rw [hl] at h
      simp only [Except.error.injEq] at h
      subst h
      exact evalLit_bare env l e hl
    | ok v => rw [hl] at h; exact evalList_bare env xs _ x h
theorem evalArgs_bare (env : Env) : (xs : List (Str × Lit)) → (acc : Members) → ∀ x, evalArgs env xs acc = .error x →
    ExnAll (fun e => e.path = []) x
  | [], acc, x, h => by simp [evalArgs] at h
  | (n, l) :: xs, acc, x, h => by
    simp only [evalArgs] at h
    cases hl : evalLit env l with
    | error e =>
      rw [hl] at h
      simp only [Except.error.injEq] at h
      subst h
      exact evalLit_bare env l e hl
    | ok v => rw [hl] at h; exact evalArgs_bare env xs _ x h
end

theorem evalOptArgs_bare (env : Env) (a : Option Args) (x : Exn) (h : evalOptArgs env a = .error x) :
    ExnAll (fun e => e.path = []) x := by
  cases a with
  | none => simp [evalOptArgs] at h
  | some args => exact evalArgs_bare env args [] x h

theorem visitDirectives_bare (env : Env) (ds : List Directive) (acc : Members) (x : Exn)
    (h : visitDirectives env ds acc = .error x) : ExnAll (fun e => e.path = []) x := by
  induction ds generalizing acc with
  | nil => simp [visitDirectives] at h
  | cons d ds ih =>
    simp only [visitDirectives] at h
    split at h
    · exact ih _ h
    · cases ha : evalOptArgs env d.arguments with
      | error e =>
        rw [ha] at h
        simp only [Except.error.injEq] at h
        subst h
        exact evalOptArgs_bare env _ _ ha
      | ok args => rw [ha] at h; exact ih _ h

theorem skipArguments_bare (d : Str) (args : Members) (acc : Bool × Bool) (x : Exn)
    (h : skipArguments d args acc = .error x) : ExnAll (fun e => e.path = []) x := by
  induction args generalizing acc with
  | nil => simp [skipArguments] at h
  | cons a rest ih =>
    obtain ⟨n, v⟩ := a
    obtain ⟨t, f⟩ := acc
    simp only [skipArguments] at h
    split at h
    · split at h
      · simp only [Except.error.injEq] at h; subst h; simp [ExnAll, Exn.message]
      · exact ih _ h
    · simp only [Except.error.injEq] at h; subst h; simp [ExnAll, Exn.message]

theorem skipEntry_bare (ms : Members) (s : Bool) (n : Str) (x : Exn) (h : skipEntry ms s n = .error x) :
    ExnAll (fun e => e.path = []) x := by
  unfold skipEntry at h
  split at h
  · simp at h
  · split at h
    · rename_i e hs
      simp only [Except.error.injEq] at h; subst h
      exact skipArguments_bare _ _ _ _ hs
    · simp at h
    · simp at h
    · simp only [Except.error.injEq] at h; subst h; simp [ExnAll, Exn.message]
  · simp only [Except.error.injEq] at h; subst h; simp [ExnAll, Exn.message]

theorem skips_bare (env : Env) (ds : Option (List Directive)) (x : Exn) (h : skips env ds = .error x) :
    ExnAll (fun e => e.path = []) x := by
  unfold skips at h
  cases hd : evalDirectives env ds with
  | error e =>
    rw [hd] at h
    simp only [Except.error.injEq] at h
    subst h
    cases ds with
    | none => simp [evalDirectives] at hd
    | some ds => exact visitDirectives_bare env ds [] e hd
  | ok ms =>
    rw [hd] at h
    simp only [shouldSkip] at h
    split at h
    · rename_i e hs
      simp only [Except.error.injEq] at h; subst h
      exact skipEntry_bare _ _ _ _ hs
    · simp at h
    · split at h
      · rename_i e hs
        simp only [Except.error.injEq] at h; subst h
        exact skipEntry_bare _ _ _ _ hs
      · simp at h
      · simp at h

theorem collectFields_good (P : SchemaError → Prop) (hP : ∀ e, e.path = [] → P e) (vals : List (Str × Fut E))
    (ms : Members) (errors : List SchemaError) (he : ∀ e ∈ errors, P e) (hv : ∀ x ∈ vals, Good P x.2) :
    Good P (collectFields vals ms errors) := by
  induction vals generalizing ms errors with
  | nil => exact he
  | cons x rest ih =>
    obtain ⟨name, child⟩ := x
    rw [collectFields]
    have hc : Good P child := hv (name, child) (by simp)
    have hr : ∀ x ∈ rest, Good P x.2 := fun x hx => hv x (List.mem_cons_of_mem _ hx)
    unfold Good
    rw [Run.emit_bind_result]
    refine ih _ _ ?_ hr
    unfold Good at hc
    intro e hm
    unfold collectField at hm
    cases hres : child.result with
    | ok r =>
      rw [hres] at hc hm
      simp only [List.mem_append] at hm
      rcases hm with (hm | hm) | hm
      · exact he e hm
      · split at hm
        · simp at hm
        · simp only [List.mem_singleton] at hm; exact hP e (by rw [hm])
      · exact hc e hm
    | error x =>
      rw [hres] at hc hm
      cases x with
      | schema es =>
        simp only [List.mem_append] at hm
        exact hm.elim (he e) (hc e)
      | other what =>
        simp only [List.mem_append, List.mem_singleton] at hm
        exact hm.elim (he e) (fun h => hP e (by rw [h]))

theorem resolveObject_good (I : Impl E O) (hu : NoUserPaths I) {visit : SetVisitor E O} (hv : GoodVisitor visit) (o : O) (set : SetParams) :
    Good (Anchored (buildErrorPath set.errorPath)) ((resolveObject I visit o set).bind fun f => f) := by
  unfold resolveObject
  simp only [Run.bind_assoc, Run.pure_bind]
  have h := hv o { set with fragmentDirectives := {} } { names := [], values := [] } (by simp)
  apply Good.bind
  · intro e he; exact ExnAll.imp (fun _ h => .inl h) (hu.begins _ _ _ he)
  · intro _ _
    apply Good.bind
    · intro e he; rw [he] at h; exact h
    · intro st hst
      rw [hst] at h
      apply Good.bind
      · intro e he; exact ExnAll.imp (fun _ h => .inl h) (hu.ends _ _ _ he)
      · intro _ _
        exact collectFields_good _ (fun e he => .inl he) _ _ _ (by simp) h

/-- What the conversion is given. -/
def GoodResult : FieldResult E O → Prop
  | .future _ (.error e) => ExnAll (fun e => e.path = []) e
  | _ => True

theorem get_good {r : FieldResult E O} (hr : GoodResult r) (base : List Seg) (e : Exn) (he : r.get.result = .error e) :
    ExnAll (Anchored base) e := by
  cases r with
  | value x => simp [FieldResult.get, Run.pure] at he
  | future later outcome =>
    simp only [FieldResult.get] at he
    subst he
    exact ExnAll.imp (fun e he => .inl he) hr

theorem convertElements_good {t : OutType} (I : Impl E O) (params : ResolverParams E O)
    (ih : ∀ (params : ResolverParams E O) (r : FieldResult E O),
      (∀ s, params.selection = some s → GoodVisitor s.2) → GoodResult r →
      GoodStart (Anchored (buildErrorPath params.set.errorPath)) (convert I t params r))
    (hs : ∀ s, params.selection = some s → GoodVisitor s.2) (i : Nat) (xs : List (Out O)) :
    match (convertElements (convert I t) params i xs).result with
    | .ok children => ∀ c ∈ children, Good (Anchored (buildErrorPath params.set.errorPath)) c
    | .error e => ExnAll (Anchored (buildErrorPath params.set.errorPath)) e := by
  induction xs generalizing i with
  | nil => simp [convertElements, Run.pure]
  | cons x xs ihx =>
    rw [convertElements]
    have h1 := ih (params.atIndex i) (.value x) hs trivial
    have h2 := ihx (i + 1)
    unfold GoodStart at h1
    cases hc : (convert I t (params.atIndex i) (.value x)).result with
    | error e =>
      rw [hc] at h1
      simp only [Run.bind, hc]
      exact ExnAll.imp (fun e he => he.shorter (path_atIndex params i)) h1
    | ok c =>
      rw [hc] at h1
      rw [(Run.bind_result_ok hc).1]
      cases hr : (convertElements (convert I t) params (i + 1) xs).result with
      | error e => rw [hr] at h2; simp only [Run.bind, hr]; exact h2
      | ok children =>
        rw [hr] at h2
        rw [(Run.bind_result_ok hr).1]
        simp only [Run.pure, List.forall_mem_cons]
        exact ⟨Good.imp (fun e he => he.shorter (path_atIndex params i)) h1, h2⟩

theorem collectElements_good (params : ResolverParams E O) (i : Nat) (children : List (Fut E)) (data : List Resp)
    (errors : List SchemaError) (he : ∀ e ∈ errors, Anchored (buildErrorPath params.set.errorPath) e)
    (hc : ∀ c ∈ children, Good (Anchored (buildErrorPath params.set.errorPath)) c) :
    Good (Anchored (buildErrorPath params.set.errorPath)) (collectElements params i children data errors) := by
  induction children generalizing i data errors with
  | nil => exact he
  | cons c rest ih =>
    rw [collectElements]
    have h1 := hc c (by simp)
    have h2 : ∀ c ∈ rest, Good (Anchored (buildErrorPath params.set.errorPath)) c :=
      fun c h => hc c (List.mem_cons_of_mem _ h)
    unfold Good
    rw [Run.emit_bind_result]
    refine ih _ _ _ ?_ h2
    unfold Good at h1
    intro e hm
    cases hr : c.result with
    | ok r =>
      rw [hr] at h1 hm
      simp only [List.mem_append] at hm
      exact hm.elim (he e) (h1 e)
    | error x =>
      rw [hr] at h1 hm
      cases x with
      | schema es =>
        simp only [List.mem_append] at hm
        exact hm.elim (he e) (h1 e)
      | other what =>
        simp only [List.mem_append, List.mem_singleton] at hm
        refine hm.elim (he e) fun h => ?_
        rw [h]
        exact .inr (path_atIndex params i)

theorem resolveLeaf_good (params : ResolverParams E O) (r : FieldResult E O) (hr : GoodResult r) :
    GoodStart (Anchored (buildErrorPath params.set.errorPath)) (resolveLeaf params r) := by
  have hl : ∀ out : Except Exn (Out O), (match out with
      | .error e => ExnAll (fun e => e.path = []) e
      | .ok _ => True) → ∀ e ∈ (leafResult params out).errors, Anchored (buildErrorPath params.set.errorPath) e := by
    intro out hout e he
    unfold leafResult at he
    split at he
    · simp at he
    · simp at he
    · exact .inl (hout e he)
    · simp only [List.mem_singleton] at he
      rw [he]
      exact .inr (List.prefix_refl _)
  cases r with
  | value x => exact hl (.ok x) trivial
  | future later out =>
    apply hl out
    cases out with
    | ok x => trivial
    | error e => exact hr

theorem convert_good (I : Impl E O) (hu : NoUserPaths I) : (t : OutType) → (params : ResolverParams E O) → (r : FieldResult E O) →
    (∀ s, params.selection = some s → GoodVisitor s.2) → GoodResult r →
    GoodStart (Anchored (buildErrorPath params.set.errorPath)) (convert I t params r)
  | .leaf, params, r, hs, hr => by
    rw [convert]
    unfold convertLeaf
    apply GoodStart.bind
    · intro e he
      unfold blockSubFields at he
      cases hsel : params.selection with
      | none => rw [hsel] at he; simp [Run.pure] at he
      | some s =>
        rw [hsel] at he
        simp only [Run.throw, Except.error.injEq] at he
        subst he
        simp [ExnAll, Anchored]
    · intro _ _
      exact resolveLeaf_good params r hr
  | .enum, params, r, _, hr => by
    rw [convert]
    exact resolveLeaf_good params r hr
  | .object direct, params, r, hs, hr => by
    rw [convert, convertObject]
    cases hsel : params.selection with
    | none => simp [GoodStart, Run.throw, missingSubFields, ExnAll, Anchored]
    | some s =>
      have hobj : Good (Anchored (buildErrorPath params.set.errorPath)) (objectResult I params s.2 r) := by
        unfold objectResult
        apply Good.bind
        · exact get_good hr _
        · intro x _
          split
          · exact resolveObject_good I hu (hs s hsel) _ _
          · exact Good.pure (by simp)
      simp only
      split
      · apply GoodStart.bind
        · intro e he
          unfold Good at hobj
          rw [he] at hobj
          exact hobj
        · intro x hx
          unfold Good at hobj
          rw [hx] at hobj
          exact hobj
      · exact hobj
  | .nullable t, params, r, hs, hr => by
    rw [convert]
    apply GoodStart.pure
    apply Good.bind
    · exact get_good hr _
    · intro x hx
      clear hx
      split
      · rename_i y
        exact (convert_good I hu t params (.future [] (.ok y)) hs trivial).join
      · exact Good.pure (by simp)
  | .list t, params, r, hs, hr => by
    rw [convert]
    apply GoodStart.pure
    apply Good.bind
    · exact get_good hr _
    · intro x _
      have hce := convertElements_good I params (fun p r h1 h2 => convert_good I hu t p r h1 h2) hs 0 x.elements
      apply Good.bind
      · intro e he; rw [he] at hce; exact hce
      · intro children hc
        rw [hc] at hce
        exact collectElements_good params 0 children [] [] (by simp) hce

theorem fieldException_good (pos : Loc) (name : Str) (path : List Seg) (e : Exn) (h : ExnAll (Anchored path) e) :
    ExnAll (fun e => path <+: e.path) (fieldException pos name path e) := by
  cases e with
  | other what => simp [fieldException, ExnAll]
  | schema es =>
    intro e he
    simp only [fieldException, List.mem_map] at he
    obtain ⟨x, hx, rfl⟩ := he
    have := h x hx
    obtain ⟨m, ⟨l, c⟩, p⟩ := x
    rcases this with h | h
    · simp only at h; subst h; cases l <;> simp
    · cases l <;> cases p <;> simp_all

/-- The errors of one field: below the path of the field, except that an unknown field is reported for its parent. -/
def FieldPathOk (I : Impl E O) (o : O) (params : SetParams) (v : Visit) (e : SchemaError) : Prop :=
  e.path = [] ∨ buildErrorPath params.errorPath ++ [.name v.name] <+: e.path ∨
    (I.resolver o v.field.name = none ∧ e.path = buildErrorPath params.errorPath)

theorem FieldPathOk.anchored {I : Impl E O} {o : O} {params : SetParams} {v : Visit} {e : SchemaError}
    (h : FieldPathOk I o params v e) : Anchored (buildErrorPath params.errorPath) e := by
  rcases h with h | h | ⟨_, h⟩
  · exact .inl h
  · exact .inr ((List.prefix_append _ _).trans h)
  · exact .inr (by rw [h]; exact List.prefix_refl _)

theorem start_good (I : Impl E O) (hu : NoUserPaths I) (env : Env) (o : O) (params : SetParams) (v : Visit)
    (hs : ∀ s, v.sub = some s → GoodVisitor (visitAll I env s.2)) :
    match (start I env o params v).result with
    | .ok none => True
    | .ok (some f) => Good (FieldPathOk I o params v) f
    | .error e => ExnAll (fun e => e.path = []) e := by
  unfold start
  cases hr : I.resolver o v.field.name with
  | none =>
    simp only [Run.pure]
    intro e he
    simp only [Run.throw, ExnAll, List.mem_singleton] at he
    rw [he]
    exact .inr (.inr ⟨hr, rfl⟩)
  | some res =>
    simp only
    cases hsk : skips env v.field.directives with
    | error e => exact skips_bare env _ e hsk
    | ok b =>
      cases b with
      | true => trivial
      | false =>
        simp only
        cases ha : evalOptArgs env v.field.arguments with
        | error e => exact evalOptArgs_bare env _ e ha
        | ok args =>
          simp only
          have hacc := hu.accessors o v.field.name res hr {
            set := { params with
              fragmentDirectives := v.dirs, errorPath := some (.extend params.errorPath (.name v.name)) }
            fieldDirectives := directivesOf env v.field.directives, arguments := args }
          generalize hx : ((res.access _).bind _ : Run E (Fut E)) = x
          have hgood : GoodStart (Anchored (buildErrorPath params.errorPath ++ [.name v.name])) x := by
            rw [← hx]
            apply GoodStart.bind
            · intro e he
              rw [he] at hacc
              exact ExnAll.imp (fun e h => .inl h) hacc
            · intro r hres
              rw [hres] at hacc
              have hconv := convert_good I hu res.type
                { set := { params with
                    fragmentDirectives := v.dirs, errorPath := some (.extend params.errorPath (.name v.name)) },
                  pos := v.field.pos, fieldName := v.name,
                  selection := v.sub.map fun s => (s.1, visitAll I env s.2) } r ?_ ?_
              · simp only [buildErrorPath_extend] at hconv
                exact hconv
              · intro s hsel
                simp only [Option.map_eq_some_iff] at hsel
                obtain ⟨s', h1, h2⟩ := hsel
                rw [← h2]
                exact hs s' h1
              · unfold GoodResult
                split
                · exact hacc
                · trivial
          unfold GoodStart at hgood
          cases hxr : x.result with
          | error e =>
            rw [hxr] at hgood
            simp only [Run.handle, hxr, Run.bind, Run.pure, Good, Run.throw, buildErrorPath_extend]
            exact ExnAll.imp (fun e h => .inr (.inl h)) (fieldException_good _ _ _ _ hgood)
          | ok f =>
            rw [hxr] at hgood
            simp only [Run.handle, hxr, Run.bind, Run.pure]
            exact Good.imp (fun e h => h.elim .inl (fun h => .inr (.inl h))) hgood

theorem visitOne_good (I : Impl E O) (hu : NoUserPaths I) (env : Env) (v : Visit)
    (hs : ∀ s, v.sub = some s → GoodVisitor (visitAll I env s.2)) : GoodVisitor (visitOne I env v) := by
  intro o params st hst
  rw [visitOne_eq]
  by_cases h : v.name ∈ st.names
  · rw [if_pos h]; exact hst
  · rw [if_neg h]
    have hg := start_good I hu env o params v hs
    cases hr : (start I env o params v).result with
    | error e =>
      rw [hr] at hg
      simp only [Run.bind, hr]
      exact ExnAll.imp (fun e h => .inl h) hg
    | ok r =>
      rw [hr] at hg
      rw [(Run.bind_result_ok hr).1]
      intro x hx
      simp only [List.mem_append] at hx
      rcases hx with hx | hx
      · exact hst x hx
      · cases r with
        | none => simp at hx
        | some f =>
          simp only [Option.map_some, Option.toList_some, List.mem_singleton] at hx
          rw [hx]
          exact Good.imp (fun e h => h.anchored) hg

theorem GoodVisitor.dirs {visit : SetVisitor E O} (h : GoodVisitor visit) (o : O) (params : SetParams) (d : FragDirs)
    (st : St E) (hst : ∀ x ∈ st.values, Good (Anchored (buildErrorPath params.errorPath)) x.2) :
    match (visit o { params with fragmentDirectives := d } st).result with
    | .ok st' => ∀ x ∈ st'.values, Good (Anchored (buildErrorPath params.errorPath)) x.2
    | .error e => ExnAll (Anchored (buildErrorPath params.errorPath)) e :=
  h o { params with fragmentDirectives := d } st hst

mutual
theorem visit_good (I : Impl E O) (hu : NoUserPaths I) (env : Env) : (x : XSelection) → GoodVisitor (visit I env x)
  | .leaf f => fun o params st hst => by
    rw [visit]
    exact visitOne_good I hu env ⟨f, none, params.fragmentDirectives⟩ (by simp) o params st hst
  | .node f pos sub => fun o params st hst => by
    rw [visit]
    exact visitOne_good I hu env ⟨f, some (pos, sub), params.fragmentDirectives⟩ (by
      intro s hs
      simp only [Option.some.injEq] at hs
      subst hs
      exact visitAll_good I hu env sub) o params st hst
  | .unknownSpread pos name => fun o params st hst => by
    rw [visit]
    simp [Run.throw, ExnAll, Anchored]
  | .spread fragment ds sub => fun o params st hst => by
    rw [visit, lift_skip]
    by_cases ht : (!matchesType I o fragment.type) = true
    · rw [if_pos ht]; exact hst
    · rw [if_neg ht]
      cases hs : skips env ds with
      | error e => exact ExnAll.imp (fun e h => .inl h) (skips_bare env ds e hs)
      | ok b =>
        cases b with
        | true => exact hst
        | false => exact (visitAll_good I hu env sub).dirs o params _ st hst
  | .inline tc ds sub => fun o params st hst => by
    unfold visit
    rw [lift_skip]
    cases hs : skips env ds with
    | error e => exact ExnAll.imp (fun e h => .inl h) (skips_bare env ds e hs)
    | ok b =>
      cases b with
      | true => exact hst
      | false =>
        simp only [Bool.false_eq_true, if_false]
        by_cases ht : tc.all (matchesType I o) = true
        · rw [if_pos ht]; exact (visitAll_good I hu env sub).dirs o params _ st hst
        · rw [if_neg ht]; exact hst
theorem visitAll_good (I : Impl E O) (hu : NoUserPaths I) (env : Env) :
    (xs : List XSelection) → GoodVisitor (visitAll I env xs)
  | [] => fun o params st hst => by rw [visitAll]; exact hst
  | x :: xs => fun o params st hst => by
    rw [visitAll]
    have h1 := visit_good I hu env x o params st hst
    cases hr : (visit I env x o params st).result with
    | error e => rw [hr] at h1; simp only [Run.bind, hr]; exact h1
    | ok st' =>
      rw [hr] at h1
      rw [(Run.bind_result_ok hr).1]
      exact visitAll_good I hu env xs o params st' h1
end

/-- C11: every error which a field reports, itself or at any depth below, has the path of that field (the path of the
selection set and the response name) as the beginning of its path. The exceptions: errors without a path, and an unknown
field, which is reported with the path of its parent. -/
theorem C11_field_paths (I : Impl E O) (hu : NoUserPaths I) (env : Env) (o : O) (params : SetParams) (v : Visit)
    (x : Result) (h : (executeAlone I env o params v).result = .ok x) :
    ∀ e ∈ x.errors, e.path = [] ∨ buildErrorPath params.errorPath ++ [.name v.name] <+: e.path ∨
      (I.resolver o v.field.name = none ∧ e.path = buildErrorPath params.errorPath) := by
  obtain ⟨_, r, h1, rfl⟩ := executeAlone_ok_iff.mp h
  have hg := start_good I hu env o params v (fun s _ => visitAll_good I hu env s.2)
  rw [h1] at hg
  cases r with
  | none => simp
  | some f =>
    intro e he
    simp only [Option.map_some, Option.getD_some] at he
    simp only [Good] at hg
    cases hf : f.result with
    | ok r => rw [hf] at hg he; exact hg e he
    | error x =>
      rw [hf] at hg he
      cases x with
      | schema es => exact hg e he
      | other what => simp only [errorsOf, List.mem_singleton] at he; left; rw [he]

/-- C11: every error of a selection set is below the path of the selection set, or has no path. -/
theorem C11_set_paths (I : Impl E O) (hu : NoUserPaths I) (env : Env) (o : O) (params : SetParams)
    (xs : List XSelection) (r : Result) (h : (execute I env o params xs).result = .ok r) :
    ∀ e ∈ r.errors, e.path = [] ∨ buildErrorPath params.errorPath <+: e.path := by
  have := resolveObject_good I hu (visitAll_good I hu env xs) o params
  unfold execute at h
  simp only [Good, h] at this
  exact this

end Verif.Exec
