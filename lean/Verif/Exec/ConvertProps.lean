import Verif.Exec.SelectionProps

/-!
# C18, C19: converting the values of accessors
-/
namespace Verif.Exec
open Verif.Value Verif.Resp Verif.Errors Verif.Ast
variable {E O : Type}

/-! ## Specification -/

/-- Converting the value of an accessor and waiting for the result. -/
def complete (I : Impl E O) (t : OutType) (params : ResolverParams E O) (x : Out O) : Fut E :=
  (convert I t params (.value x)).bind fun f => f

mutual
/-- The C++ types of values. A non-null object pointer type can still hold a null pointer. -/
def HasType : OutType → Out O → Prop
  | .leaf, .leaf _ => True
  | .enum, .leaf _ => True
  | .object _, .object _ => True
  | .nullable _, .absent => True
  | .nullable t, .present x => HasType t x
  | .list t, .list xs => HasTypes t xs
  | _, _ => False
/-- All elements have the type. -/
def HasTypes : OutType → List (Out O) → Prop
  | _, [] => True
  | t, x :: xs => HasType t x ∧ HasTypes t xs
end

/-- Is the innermost type an object type? -/
def OutType.isObject : OutType → Bool
  | .leaf => false
  | .enum => false
  | .object _ => true
  | .nullable t => t.isObject
  | .list t => t.isObject

/-- Is the innermost type an enum type? -/
def OutType.isEnum : OutType → Bool
  | .leaf => false
  | .enum => true
  | .object _ => false
  | .nullable t => t.isEnum
  | .list t => t.isEnum

mutual
/-- The expected result of a value, given the result of each object at its path: null exactly for absent values, and a
list with one element per element of the vector, in order; the errors in the same order. -/
def expected (objects : O → SetParams → Result) : OutType → SetParams → Out O → Result
  | _, _, .leaf v => { data := v }
  | _, set, .object (some o) => objects o set
  | _, _, .object none => {}
  | _, _, .absent => {}
  | .nullable t, set, .present x => expected objects t set x
  | .list t, set, .list xs =>
    { data := .list (expecteds objects t set 0 xs).1, errors := (expecteds objects t set 0 xs).2 }
  | _, _, _ => {}
/-- The expected results of the elements of a list, which are numbered from `i`. -/
def expecteds (objects : O → SetParams → Result) : OutType → SetParams → Nat → List (Out O) →
    List Resp × List SchemaError
  | _, _, _, [] => ([], [])
  | t, set, i, x :: xs =>
    let r := expected objects t { set with errorPath := some (.extend set.errorPath (.index i)) } x
    let rest := expecteds objects t set (i + 1) xs
    (r.data :: rest.1, r.errors ++ rest.2)
end

/-- A value of nothing but nulls and lists. -/
inductive Blank : Resp → Prop
  | null : Blank .null
  | list {xs : List Resp} : (∀ x ∈ xs, Blank x) → Blank (.list xs)

mutual
/-- Does the value hold a leaf or an object anywhere? -/
def holds : Out O → Bool
  | .leaf _ => true
  | .object _ => true
  | .absent => false
  | .present x => holds x
  | .list xs => holdsAny xs
/-- Does one of the values? -/
def holdsAny : List (Out O) → Bool
  | [] => false
  | x :: xs => holds x || holdsAny xs
end

/-! ## Lemmas -/

theorem Run.mk_ok_bind_result {α β : Type} (t : List E) (a : α) (f : α → Run E β) :
    ((⟨t, .ok a⟩ : Run E α).bind f).result = (f a).result := rfl

theorem Run.mk_nil_ok_bind {α β : Type} (a : α) (f : α → Run E β) : (⟨[], .ok a⟩ : Run E α).bind f = f a :=
  Run.pure_bind a f

theorem convert_future (I : Impl E O) (t : OutType) (params : ResolverParams E O) (x : Out O) :
    ((convert I t params (.future [] (.ok x))).bind fun f => f) = complete I t params x := by
  unfold complete
  cases t with
  | leaf =>
    simp only [convert, convertLeaf, Run.bind_assoc, Run.pure_bind]
    rfl
  | enum => simp only [convert, resolveLeaf, Run.pure_bind]; rfl
  | object direct =>
    simp only [convert, convertObject]
    cases params.selection with
    | none => rfl
    | some s =>
      simp only [FieldResult.isFuture]
      cases direct with
      | false => rfl
      | true =>
        simp only [Bool.not_true, Bool.and_false, Bool.not_false, Bool.and_true, if_true, Bool.false_eq_true, if_false,
          Run.pure_bind, Run.bind_assoc]
        rw [show (fun a : Result => (Run.pure a : Fut E)) = Run.pure from rfl, Run.bind_pure]
        simp only [objectResult, FieldResult.get]
        rfl
  | nullable t =>
    simp only [convert, Run.pure_bind]
    rfl
  | list t =>
    simp only [convert, Run.pure_bind]
    rfl

theorem complete_list (I : Impl E O) (t : OutType) (params : ResolverParams E O) (xs : List (Out O)) :
    complete I (.list t) params (.list xs) =
      (convertElements (convert I t) params 0 xs).bind fun children => collectElements params 0 children [] [] := by
  simp [complete, convert, FieldResult.get, Out.elements]

theorem complete_present (I : Impl E O) (t : OutType) (params : ResolverParams E O) (x : Out O) :
    complete I (.nullable t) params (.present x) = complete I t params x := by
  rw [← convert_future I t params x, complete]
  simp only [convert, FieldResult.get, Run.pure_bind]

theorem complete_absent (I : Impl E O) (t : OutType) (params : ResolverParams E O) :
    complete I (.nullable t) params .absent = .pure {} := by
  simp [complete, convert, FieldResult.get]

theorem complete_leaf (I : Impl E O) (params : ResolverParams E O) (v : Resp) :
    complete I .leaf params (.leaf v) = (blockSubFields params).bind fun _ => .pure { data := v } := by
  simp only [complete, convert, convertLeaf, resolveLeaf, Run.bind_assoc, Run.pure_bind, leafResult]

theorem complete_enum (I : Impl E O) (params : ResolverParams E O) (v : Resp) :
    complete I .enum params (.leaf v) = .pure { data := v } := by
  simp only [complete, convert, resolveLeaf, Run.pure_bind, leafResult]

theorem complete_object (I : Impl E O) (direct : Bool) (params : ResolverParams E O) (x : Option O) :
    complete I (.object direct) params (.object x) =
      match params.selection with
      | none => .throw (missingSubFields params)
      | some (_, visit) =>
        match x with
        | none => .pure {}
        | some o => (resolveObject I visit o params.set).bind fun f => f := by
  simp only [complete, convert, convertObject]
  cases params.selection with
  | none => simp
  | some s =>
    have : objectResult I params s.2 (.value (.object x)) =
      match x with
        | none => .pure {}
        | some o => (resolveObject I s.2 o params.set).bind fun f => f := by
      cases x <;> simp [objectResult, FieldResult.get]
    simp only [FieldResult.isFuture]
    cases direct with
    | false => simp only [Bool.false_and, Bool.false_eq_true, if_false, Run.pure_bind, this]
    | true =>
      simp only [Bool.not_false, Bool.and_true, if_true, Run.bind_assoc, Run.pure_bind]
      rw [show (fun a : Result => (Run.pure a : Fut E)) = Run.pure from rfl, Run.bind_pure, this]

/-- The second loop over the elements when none of them throws. -/
theorem collectElements_ok {params : ResolverParams E O} (i : Nat) (children : List (Fut E)) (rs : List Result)
    (data : List Resp) (errors : List SchemaError) (h : List.Forall₂ (fun c r => c.result = .ok r) children rs) :
    (collectElements params i children data errors).result =
      .ok { data := .list (data ++ rs.map fun r => r.data), errors := errors ++ rs.flatMap fun r => r.errors } := by
  induction h generalizing i data errors with
  | nil => simp [collectElements, Run.pure]
  | cons h _ ih => simp [collectElements, h, ih]

theorem convertElements_ok (I : Impl E O) (t : OutType) (params : ResolverParams E O) (i : Nat) (xs : List (Out O))
    (rs : List Result)
    (h : List.Forall₂ (fun x r => (complete I t (params.atIndex x.2) x.1).result = .ok r) (xs.zipIdx i) rs) :
    ∃ children, (convertElements (convert I t) params i xs).result = .ok children ∧
      List.Forall₂ (fun (c : Fut E) r => c.result = .ok r) children rs := by
  induction xs generalizing i rs with
  | nil => cases h; exact ⟨[], by simp [convertElements, Run.pure], .nil⟩
  | cons x xs ih =>
    rw [List.zipIdx_cons] at h
    cases h with
    | cons h1 h2 =>
      obtain ⟨children, i1, i2⟩ := ih _ _ h2
      obtain ⟨c, c1, c2⟩ := Run.bind_eq_ok.mp h1
      refine ⟨c :: children, ?_, .cons c2 i2⟩
      rw [convertElements]
      exact Run.bind_eq_ok.mpr ⟨c, c1, Run.bind_eq_ok.mpr ⟨children, i1, rfl⟩⟩

mutual
theorem expected_none : (t : OutType) → (set : SetParams) → (x : Out O) →
    (expected (fun _ _ => {}) t set x).errors = []
  | .nullable t, set, .present x => by rw [expected]; exact expected_none t set x
  | .list t, set, .list xs => by rw [expected]; exact expecteds_none t set 0 xs
  | t, _, .leaf _ | t, _, .object (some _) | t, _, .object none | t, _, .absent => by cases t <;> simp only [expected]
  | .leaf, _, .present _ | .leaf, _, .list _ | .enum, _, .present _ | .enum, _, .list _ | .object _, _, .present _
  | .object _, _, .list _ | .nullable _, _, .list _ | .list _, _, .present _ => by simp only [expected]
theorem expecteds_none : (t : OutType) → (set : SetParams) → (i : Nat) → (xs : List (Out O)) →
    (expecteds (fun _ _ => {}) t set i xs).2 = []
  | t, set, i, [] => by simp only [expecteds]
  | t, set, i, x :: xs => by simp only [expecteds, expected_none t, expecteds_none t, List.append_nil]
end

/-! ## C18 -/

/-- C18: a list of values, all of which are converted, becomes the list of the converted values, in order and with the
index of each in its path; the errors are those of the elements in order. -/
theorem C18_list (I : Impl E O) (t : OutType) (params : ResolverParams E O) (xs : List (Out O)) (rs : List Result)
    (h : List.Forall₂ (fun x r => (complete I t (params.atIndex x.2) x.1).result = .ok r) xs.zipIdx rs) :
    (complete I (.list t) params (.list xs)).result =
      .ok { data := .list (rs.map fun r => r.data), errors := rs.flatMap fun r => r.errors } := by
  obtain ⟨children, h1, h2⟩ := convertElements_ok I t params 0 xs rs h
  rw [complete_list, (Run.bind_result_ok h1).1, collectElements_ok 0 children rs [] [] h2]
  rfl

mutual
theorem complete_expected (I : Impl E O) (objects : O → SetParams → Result) : (t : OutType) →
    (params : ResolverParams E O) → (x : Out O) → HasType t x →
    (t.isObject = true → ∃ pos visit, params.selection = some (pos, visit) ∧
      ∀ o set, ((resolveObject I visit o set).bind fun f => f).result = .ok (objects o set)) →
    (t.isObject = false → params.selection = none) →
    (complete I t params x).result = .ok (expected objects t params.set x)
  | .leaf, params, .leaf v, _, _, hl => by
    rw [complete_leaf]
    simp only [blockSubFields, hl rfl, Run.pure_bind, expected]
    rfl
  | .enum, params, .leaf v, _, _, _ => by
    rw [complete_enum]
    simp only [expected]
    rfl
  | .object direct, params, .object x, _, ho, _ => by
    obtain ⟨pos, visit, h1, h2⟩ := ho rfl
    rw [complete_object, h1]
    cases x with
    | none => simp [Run.pure, expected]
    | some o => simp [h2, expected]
  | .nullable t, params, .absent, _, _, _ => by
    rw [complete_absent]; simp [Run.pure, expected]
  | .nullable t, params, .present x, ht, ho, hl => by
    rw [complete_present, complete_expected I objects t params x (by simpa [HasType] using ht) ho hl, expected]
  | .list t, params, .list xs, ht, ho, hl => by
    obtain ⟨rs, h1, h2, h3⟩ := completes_expected I objects t params 0 xs (by simpa [HasType] using ht) ho hl
    rw [C18_list I t params xs rs h1, expected, ← h2, ← h3]
  | .enum, _, .object _, h, _, _ | .enum, _, .absent, h, _, _ | .enum, _, .present _, h, _, _
  | .enum, _, .list _, h, _, _
  | .leaf, _, .object _, h, _, _ | .leaf, _, .absent, h, _, _ | .leaf, _, .present _, h, _, _
  | .leaf, _, .list _, h, _, _ | .object _, _, .leaf _, h, _, _ | .object _, _, .absent, h, _, _
  | .object _, _, .present _, h, _, _ | .object _, _, .list _, h, _, _ | .nullable _, _, .leaf _, h, _, _
  | .nullable _, _, .object _, h, _, _ | .nullable _, _, .list _, h, _, _ | .list _, _, .leaf _, h, _, _
  | .list _, _, .object _, h, _, _ | .list _, _, .absent, h, _, _ | .list _, _, .present _, h, _, _ => by
    simp [HasType] at h
theorem completes_expected (I : Impl E O) (objects : O → SetParams → Result) : (t : OutType) →
    (params : ResolverParams E O) → (i : Nat) → (xs : List (Out O)) → HasTypes t xs →
    (t.isObject = true → ∃ pos visit, params.selection = some (pos, visit) ∧
      ∀ o set, ((resolveObject I visit o set).bind fun f => f).result = .ok (objects o set)) →
    (t.isObject = false → params.selection = none) →
    ∃ rs, List.Forall₂ (fun x r => (complete I t (params.atIndex x.2) x.1).result = .ok r) (xs.zipIdx i) rs ∧
      rs.map (fun r => r.data) = (expecteds objects t params.set i xs).1 ∧
      rs.flatMap (fun r => r.errors) = (expecteds objects t params.set i xs).2
  | t, params, i, [], _, _, _ => ⟨[], .nil, by simp [expecteds], by simp [expecteds]⟩
  | t, params, i, x :: xs, ht, ho, hl => by
    obtain ⟨rs, h1, h2, h3⟩ := completes_expected I objects t params (i + 1) xs
      (by simp only [HasTypes] at ht; exact ht.2) ho hl
    refine ⟨_ :: rs, .cons (complete_expected I objects t (params.atIndex i) x
      (by simp only [HasTypes] at ht; exact ht.1) ho hl) h1, ?_, ?_⟩
    · simp [expecteds, h2, ResolverParams.atIndex]
    · simp [expecteds, h3, ResolverParams.atIndex]
end

/-- C18: converting a value of any stack of nullable and list modifiers gives null exactly where the value is absent (or
a null object pointer), and lists with one element per element of the vector, in order. The hypotheses: the selection
set fits the type (C19), and the objects in the value are executed without failing as a whole (C14_contained). -/
theorem C18_shape (I : Impl E O) (objects : O → SetParams → Result) (t : OutType) (params : ResolverParams E O)
    (x : Out O) (ht : HasType t x)
    (ho : t.isObject = true → ∃ pos visit, params.selection = some (pos, visit) ∧
      ∀ o set, ((resolveObject I visit o set).bind fun f => f).result = .ok (objects o set))
    (hl : t.isObject = false → params.selection = none) :
    (complete I t params x).result = .ok (expected objects t params.set x) :=
  complete_expected I objects t params x ht ho hl

/-- C18: a value which the accessor returns later is converted in the same way. -/
theorem C18_future (I : Impl E O) (t : OutType) (params : ResolverParams E O) (later : List E) (x : Out O) :
    ((convert I t params (.future later (.ok x))).bind fun f => f).result = (complete I t params x).result := by
  rw [← convert_future]
  cases t with
  | leaf =>
    simp only [convert, convertLeaf, Run.bind_assoc, Run.pure_bind, blockSubFields]
    cases params.selection with
    | none => simp [resolveLeaf]
    | some s => rfl
  | enum => simp only [convert, resolveLeaf, Run.pure_bind]
  | object direct =>
    simp only [convert, convertObject]
    cases params.selection with
    | none => rfl
    | some s =>
      simp only [FieldResult.isFuture, Bool.not_true, Bool.and_false, Bool.false_eq_true, if_false, Run.pure_bind]
      rfl
  | nullable t => simp only [convert, Run.pure_bind, FieldResult.get, Run.mk_ok_bind_result]
  | list t => simp only [convert, Run.pure_bind, FieldResult.get, Run.mk_ok_bind_result]

/-! ## C19 -/

/-- The error for a field whose selection set does not fit its type; `none` if it does. -/
def subFieldError (isObject : Bool) (params : ResolverParams E O) : Option (Str × Loc) :=
  match isObject, params.selection with
  | true, none => some (str "Field must have sub-fields name: " ++ params.fieldName, params.pos)
  | false, some (pos, _) => some (str "Field may not have sub-fields name: " ++ params.fieldName, pos)
  | _, _ => none

/-- What a value whose selection set does not fit becomes. -/
def Mismatch (m : Str) (pos : Loc) (path : List Seg) (held : Bool) (r : Run E Result) : Prop :=
  r.trace = [] ∧
  match r.result with
  | .ok r => Blank r.data ∧ (∀ e ∈ r.errors, e.message = m ∧ e.location = pos ∧ path <+: e.path) ∧
      (r.errors = [] ↔ held = false)
  | .error e => held = true ∧ ∃ p, e = .schema [{ message := m, location := pos, path := p }] ∧ path <+: p

theorem subFieldError_atIndex (b : Bool) (params : ResolverParams E O) (i : Nat) :
    subFieldError b (params.atIndex i) = subFieldError b params := rfl

theorem path_atIndex (params : ResolverParams E O) (i : Nat) :
    buildErrorPath params.set.errorPath <+: buildErrorPath (params.atIndex i).set.errorPath := by
  simp only [ResolverParams.atIndex]
  rw [buildErrorPath_extend]
  exact List.prefix_append _ _

theorem Mismatch.shorter {m : Str} {pos : Loc} {p q : List Seg} {held : Bool} {r : Run E Result} (hpq : p <+: q)
    (h : Mismatch m pos q held r) : Mismatch m pos p held r := by
  unfold Mismatch at h ⊢
  refine ⟨h.1, ?_⟩
  cases hr : r.result with
  | ok x =>
    rw [hr] at h
    exact ⟨h.2.1, fun e he => ⟨(h.2.2.1 e he).1, (h.2.2.1 e he).2.1, hpq.trans (h.2.2.1 e he).2.2⟩, h.2.2.2⟩
  | error e =>
    rw [hr] at h
    obtain ⟨h1, h2, p', h3, h4⟩ := h
    exact ⟨h2, p', h3, hpq.trans h4⟩

/-- The elements of a list. -/
theorem collectElements_mismatch {m : Str} {pos : Loc} {path : List Seg} (params : ResolverParams E O) (i : Nat)
    (children : List (Fut E)) (held : Bool) (data : List Resp) (errors : List SchemaError)
    (hd : ∀ x ∈ data, Blank x) (he : ∀ e ∈ errors, e.message = m ∧ e.location = pos ∧ path <+: e.path)
    (hc : ∀ c ∈ children, ∃ h, Mismatch m pos path h c)
    (hh : held = false ↔ errors = [] ∧ ∀ c ∈ children, Mismatch m pos path false c) :
    Mismatch m pos path held (collectElements params i children data errors) := by
  induction children generalizing i data errors with
  | nil =>
    simp only [collectElements, Mismatch, Run.pure, true_and]
    exact ⟨.list hd, he, by simpa using hh.symm⟩
  | cons c rest ih =>
    obtain ⟨h, hm⟩ := hc c (by simp)
    have ht : c.trace = [] := hm.1
    have hc' : ∀ c ∈ rest, ∃ h, Mismatch m pos path h c := fun c hcm => hc c (List.mem_cons_of_mem _ hcm)
    rw [collectElements]
    simp only [ht]
    have emit_nil : ∀ f : Unit → Run E Result, (Run.emit []).bind f = f () := by
      intro f; apply Run.ext' <;> simp
    rw [emit_nil]
    cases hr : c.result with
    | ok r =>
      have hm' := hm
      simp only [Mismatch, hr] at hm'
      refine ih (i + 1) (data ++ [r.data]) (errors ++ r.errors) ?_ ?_ hc' ?_
      · intro x hx
        rcases List.mem_append.mp hx with hx | hx
        · exact hd x hx
        · simp only [List.mem_singleton] at hx; rw [hx]; exact hm'.2.1
      · intro e hx
        rcases List.mem_append.mp hx with hx | hx
        · exact he e hx
        · exact hm'.2.2.1 e hx
      · rw [hh, List.append_eq_nil_iff]
        constructor
        · rintro ⟨h1, h2⟩
          have := h2 c (by simp)
          simp only [Mismatch, hr] at this
          exact ⟨⟨h1, this.2.2.2.mpr trivial⟩, fun c hcm => h2 c (List.mem_cons_of_mem _ hcm)⟩
        · rintro ⟨⟨h1, h2⟩, h3⟩
          refine ⟨h1, ?_⟩
          intro d hdm
          rcases List.mem_cons.mp hdm with rfl | hdm
          · have hf := hm'.2.2.2.mp h2
            rw [hf] at hm; exact hm
          · exact h3 d hdm
    | error e =>
      have hm' := hm
      simp only [Mismatch, hr] at hm'
      obtain ⟨_, hheld, p, rfl, hp⟩ := hm'
      refine ih (i + 1) data (errors ++ _) hd ?_ hc' ?_
      · intro e hx
        rcases List.mem_append.mp hx with hx | hx
        · exact he e hx
        · simp only [List.mem_singleton] at hx; rw [hx]; exact ⟨rfl, rfl, hp⟩
      · rw [hh]
        constructor
        · rintro ⟨_, h2⟩
          have := h2 c (by simp)
          simp [Mismatch, hr] at this
        · rintro ⟨h1, _⟩
          simp at h1

mutual
theorem complete_mismatch (I : Impl E O) (m : Str) (pos : Loc) : (t : OutType) → (params : ResolverParams E O) →
    (x : Out O) → HasType t x → t.isEnum = false → subFieldError t.isObject params = some (m, pos) →
    Mismatch m pos (buildErrorPath params.set.errorPath) (holds x) (complete I t params x)
  | .leaf, params, .leaf v, _, _, hm => by
    rw [complete_leaf]
    simp only [subFieldError, OutType.isObject] at hm
    cases hs : params.selection with
    | none => rw [hs] at hm; simp at hm
    | some s =>
      rw [hs] at hm
      simp only [Option.some.injEq, Prod.mk.injEq] at hm
      simp only [blockSubFields, hs, Run.throw_bind]
      simp [Mismatch, Run.throw, holds, hm.1, hm.2]
  | .object direct, params, .object x, _, _, hm => by
    rw [complete_object]
    simp only [subFieldError, OutType.isObject] at hm
    cases hs : params.selection with
    | some s => rw [hs] at hm; simp at hm
    | none =>
      rw [hs] at hm
      simp only [Option.some.injEq, Prod.mk.injEq] at hm
      simp [Mismatch, Run.throw, holds, missingSubFields, hm.1, hm.2]
  | .nullable t, params, .absent, _, _, _ => by
    rw [complete_absent]
    simp only [Mismatch, Run.pure, holds]
    exact ⟨trivial, .null, by simp, by simp⟩
  | .nullable t, params, .present x, ht, hn, hm => by
    rw [complete_present, holds]
    exact complete_mismatch I m pos t params x (by simpa [HasType] using ht) hn hm
  | .list t, params, .list xs, ht, hn, hm => by
    rw [complete_list, holds]
    obtain ⟨htr, hok, herr⟩ := completes_mismatch I m pos t params 0 xs (by simpa [HasType] using ht) hn hm
    cases hc : (convertElements (convert I t) params 0 xs).result with
    | error e =>
      obtain ⟨h1, p, h2, h3⟩ := herr e hc
      refine ⟨by simp [Run.bind, hc, htr], ?_⟩
      simp only [Run.bind, hc]
      exact ⟨h1, p, h2, h3⟩
    | ok children =>
      obtain ⟨h1, h2⟩ := hok children hc
      have := collectElements_mismatch (m := m) (pos := pos) (path := buildErrorPath params.set.errorPath) params 0
        children (holdsAny xs) [] [] (by simp) (by simp) h1 (by rw [h2]; simp)
      have hb := Run.bind_result_ok (f := fun children => collectElements params 0 children [] []) hc
      rw [htr] at hb
      rw [Run.ext' (y := collectElements params 0 children [] []) (by simpa using hb.2) hb.1]
      exact this
  | .enum, _, .leaf _, _, h, _ => by simp [OutType.isEnum] at h
  | .enum, _, .object _, h, _, _ | .enum, _, .absent, h, _, _ | .enum, _, .present _, h, _, _
  | .enum, _, .list _, h, _, _
  | .leaf, _, .object _, h, _, _ | .leaf, _, .absent, h, _, _ | .leaf, _, .present _, h, _, _
  | .leaf, _, .list _, h, _, _ | .object _, _, .leaf _, h, _, _ | .object _, _, .absent, h, _, _
  | .object _, _, .present _, h, _, _ | .object _, _, .list _, h, _, _ | .nullable _, _, .leaf _, h, _, _
  | .nullable _, _, .object _, h, _, _ | .nullable _, _, .list _, h, _, _ | .list _, _, .leaf _, h, _, _
  | .list _, _, .object _, h, _, _ | .list _, _, .absent, h, _, _ | .list _, _, .present _, h, _, _ => by
    simp [HasType] at h
theorem completes_mismatch (I : Impl E O) (m : Str) (pos : Loc) : (t : OutType) → (params : ResolverParams E O) →
    (i : Nat) → (xs : List (Out O)) → HasTypes t xs → t.isEnum = false → subFieldError t.isObject params = some (m, pos) →
    (convertElements (convert I t) params i xs).trace = [] ∧
    (∀ children, (convertElements (convert I t) params i xs).result = .ok children →
      (∀ c ∈ children, ∃ h, Mismatch m pos (buildErrorPath params.set.errorPath) h c) ∧
      (holdsAny xs = false ↔ ∀ c ∈ children, Mismatch m pos (buildErrorPath params.set.errorPath) false c)) ∧
    (∀ e, (convertElements (convert I t) params i xs).result = .error e →
      holdsAny xs = true ∧ ∃ p, e = .schema [{ message := m, location := pos, path := p }] ∧
        buildErrorPath params.set.errorPath <+: p)
  | t, params, i, [], _, _, _ => by
    simp only [convertElements, Run.pure, Except.ok.injEq, reduceCtorEq, false_implies, implies_true, and_true, true_and,
      holdsAny]
    rintro children rfl
    simp
  | t, params, i, x :: xs, ht, hn, hm => by
    simp only [HasTypes] at ht
    obtain ⟨htr, hok, herr⟩ := completes_mismatch I m pos t params (i + 1) xs ht.2 hn hm
    have hx := complete_mismatch I m pos t (params.atIndex i) x ht.1 hn hm
    have hx := hx.shorter (path_atIndex params i)
    rw [convertElements, holdsAny]
    unfold complete at hx
    cases hc : (convert I t (params.atIndex i) (.value x)).result with
    | error e =>
      simp only [Run.bind, hc, Mismatch] at hx
      simp only [Run.bind, hc]
      refine ⟨hx.1, by simp, ?_⟩
      rintro e' h
      simp only [Except.error.injEq] at h
      subst h
      obtain ⟨_, h1, h2⟩ := hx
      exact ⟨by simp [h1], h2⟩
    | ok c =>
      have hb := Run.bind_result_ok (f := fun f : Fut E => f) hc
      have hct : (convert I t (params.atIndex i) (.value x)).trace = [] ∧ c.trace = [] := by
        have := hx.1; rw [hb.2] at this; simpa using this
      rw [Run.ext' (y := c) (by rw [hb.2, hct.1]; rfl) hb.1] at hx
      have hb2 := Run.bind_result_ok (f := fun child => (convertElements (convert I t) params (i + 1) xs).bind
        fun children => Run.pure (child :: children)) hc
      rw [hb2.1, hb2.2, hct.1]
      cases hr : (convertElements (convert I t) params (i + 1) xs).result with
      | error e =>
        simp only [Run.bind, hr]
        refine ⟨by simp [htr], by simp, ?_⟩
        rintro e' h
        simp only [Except.error.injEq] at h
        subst h
        obtain ⟨h1, h2⟩ := herr e hr
        exact ⟨by simp [h1], h2⟩
      | ok children =>
        obtain ⟨h1, h2⟩ := hok children hr
        simp only [Run.bind, hr]
        refine ⟨by simp [htr, Run.pure], ?_, by simp [Run.pure]⟩
        intro cs h
        simp only [Run.pure, Except.ok.injEq] at h
        subst h
        constructor
        · intro d hd
          rcases List.mem_cons.mp hd with rfl | hd
          · exact ⟨_, hx⟩
          · exact h1 d hd
        · rw [Bool.or_eq_false_iff]
          constructor
          · rintro ⟨a, b⟩ d hd
            rcases List.mem_cons.mp hd with rfl | hd
            · rw [a] at hx; exact hx
            · exact h2.mp b d hd
          · intro h
            refine ⟨?_, h2.mpr fun d hd => h d (List.mem_cons_of_mem _ hd)⟩
            have h' := h c (by simp)
            unfold Mismatch at h' hx
            cases hcr : c.result with
            | ok r => rw [hcr] at h' hx; exact hx.2.2.2.mp (h'.2.2.2.mpr rfl)
            | error e => rw [hcr] at h'; simp at h'
end

/-- C19: if the selection set of a field does not fit its type, then no user code is run below the field and no value
appears: the field becomes an error, or null or lists of nulls, with errors which all name the field and its position (of
the selection set for a leaf field), and with an error exactly if there was a leaf or an object. Not so for enums. -/
theorem C19_mismatch (I : Impl E O) (t : OutType) (params : ResolverParams E O) (x : Out O) (ht : HasType t x)
    (hn : t.isEnum = false) (m : Str) (pos : Loc) (hm : subFieldError t.isObject params = some (m, pos)) :
    Mismatch m pos (buildErrorPath params.set.errorPath) (holds x) (complete I t params x) :=
  complete_mismatch I m pos t params x ht hn hm

theorem convert_enum (I : Impl E O) (params params' : ResolverParams E O) (h1 : params.set = params'.set)
    (h2 : params.pos = params'.pos) (h3 : params.fieldName = params'.fieldName) (t : OutType) (hn : t.isEnum = true)
    (r : FieldResult E O) : convert I t params r = convert I t params' r := by
  induction t generalizing params params' r with
  | leaf => simp [OutType.isEnum] at hn
  | object direct => simp [OutType.isEnum] at hn
  | enum =>
    have : leafResult params = leafResult params' := by
      funext x
      rcases x with (_ | _) | x
      · rfl
      · simp only [leafResult, h1, h2, h3]
      · cases x <;> rfl
    cases r <;> simp only [convert, resolveLeaf, this]
  | nullable t ih =>
    simp only [convert]
    congr 2
    funext x
    cases x with
    | present y => simp only [ih params params' h1 h2 h3 hn]
    | _ => rfl
  | list t ih =>
    have he : ∀ i xs, convertElements (convert I t) params i xs = convertElements (convert I t) params' i xs := by
      intro i xs
      induction xs generalizing i with
      | nil => rfl
      | cons x xs ihx =>
        rw [convertElements, convertElements, ihx, ih (params.atIndex i) (params'.atIndex i)
          (by simp only [ResolverParams.atIndex, h1]) h2 h3 hn]
    have hc : ∀ i children data errors, collectElements params i children data errors =
        collectElements params' i children data errors := by
      intro i children
      induction children generalizing i with
      | nil => intros; rfl
      | cons c cs ihc =>
        intro data errors
        simp only [collectElements, ihc, ResolverParams.atIndex, h1, h2, h3]
    simp only [convert]
    congr 2
    funext x
    rw [he]
    congr 1
    funext children
    exact hc 0 children [] []

/-- C19 fails for enums: the value of an enum field (or of a list of them) is returned whether or not the field has a
selection set, and without an error. -/
theorem C19_finding_enum (I : Impl E O) (t : OutType) (params : ResolverParams E O) (x : Out O) (ht : HasType t x)
    (hn : t.isEnum = true) :
    (complete I t params x).result = .ok (expected (fun _ _ => {}) t params.set x) ∧
    (expected (fun _ _ => {}) t params.set x).errors = [] := by
  have ho : t.isObject = false := by
    clear ht
    induction t with
    | nullable t ih => exact ih hn
    | list t ih => exact ih hn
    | _ => first | rfl | simp [OutType.isEnum] at hn
  have h := C18_shape I (fun _ _ => {}) t { params with selection := none } x ht (by simp [ho]) (fun _ => rfl)
  refine ⟨?_, expected_none t params.set x⟩
  rw [← h]
  unfold complete
  rw [convert_enum I params { params with selection := none } rfl rfl rfl t hn]

end Verif.Exec
