import Verif.Gen.LoaderSpec
import Verif.Gen.OrderProps
import Mathlib.Logic.Basic

/-!
# Loading a schema document: C53
-/
namespace Verif.Gen
open Verif.Value Verif.Resp Verif.Ast Verif.Modifiers Verif.Exec

/-! ## Default values -/

mutual
theorem evalLit_const {env : Env} : ∀ {x : Lit}, Constant x → evalLit env x = .ok (defaultValue env.atoi x)
  | .variable _ _, h => nomatch h
  | .int _, _ => by simp [evalLit, defaultValue]
  | .float _, _ => by simp [evalLit, defaultValue]
  | .string _, _ => by simp [evalLit, defaultValue]
  | .boolean _, _ => by simp [evalLit, defaultValue]
  | .null, _ => by simp [evalLit, defaultValue]
  | .enumValue _, _ => by simp [evalLit, defaultValue]
  | .list xs, h => by
    have hx : ∀ x ∈ xs, Constant x := by cases h; assumption
    simp [evalLit, defaultValue, evalList_const hx]
  | .object fields, h => by
    have hx : ∀ f ∈ fields, Constant f.2 := by cases h; assumption
    simp [evalLit, defaultValue, evalArgs_const hx]
theorem evalList_const {env : Env} : ∀ {xs : List Lit} {acc}, (∀ x ∈ xs, Constant x) →
    evalList env xs acc = .ok (defaultList env.atoi xs acc)
  | [], _, _ => by simp [evalList, defaultList]
  | x :: xs, _, h => by
    simp only [evalList, defaultList]
    rw [evalLit_const (h x (by simp))]
    exact evalList_const fun y hy => h y (by simp [hy])
theorem evalArgs_const {env : Env} : ∀ {xs : List (Str × Lit)} {acc}, (∀ f ∈ xs, Constant f.2) →
    evalArgs env xs acc = .ok (defaultObject env.atoi xs acc)
  | [], _, _ => by simp [evalArgs, defaultObject]
  | (n, x) :: xs, _, h => by
    simp only [evalArgs, defaultObject]
    rw [evalLit_const (h (n, x) (by simp))]
    exact evalArgs_const fun y hy => h y (by simp [hy])
end

/-- **C53.** A default value without variables is the value which the same text has in a request. -/
theorem C53_default {env : Env} {x : Lit} (h : Constant x) : evalLit env x = .ok (defaultValue env.atoi x) :=
  evalLit_const h

/-! ## Fields -/

theorem visit_cons : ∀ (τ : TypeRef) (v : TypeVisitor) (m : Mod) (ms : List Mod), v.modifiers = m :: ms →
    ∃ ms', (TypeVisitor.visit v τ).modifiers = m :: ms' := by
  intro τ
  induction τ with
  | named n => intro v m ms h; cases hn : v.nonNull <;> simp [TypeVisitor.visit, h, hn]
  | nonNull τ ih => intro v m ms h; simp only [TypeVisitor.visit]; exact ih _ m ms h
  | list τ ih =>
    intro v m ms h
    simp only [TypeVisitor.visit, h]
    cases hn : v.nonNull
    · exact ih _ m (ms ++ [.nullable, .list]) (by simp)
    · exact ih _ m (ms ++ [.list]) (by simp)

theorem visit_nonNull : ∀ (τ : TypeRef) (v : TypeVisitor), v.modifiers = [] → v.nonNull = true →
    (TypeVisitor.visit v τ).modifiers.head? ≠ some .nullable := by
  intro τ
  induction τ with
  | named n => intro v hv hn; simp [TypeVisitor.visit, hv, hn]
  | nonNull τ ih => intro v hv hn; simp only [TypeVisitor.visit]; exact ih _ hv rfl
  | list τ ih =>
    intro v hv hn
    simp only [TypeVisitor.visit, hn, hv, if_true, List.nil_append]
    obtain ⟨ms', e⟩ := visit_cons τ { type := v.type, modifiers := [.list], nonNull := false } _ _ rfl
    rw [e]
    simp

theorem getType_head (τ : TypeRef) : (getType τ).2.head? = some .nullable ↔ ∀ σ, τ ≠ .nonNull σ := by
  cases τ with
  | named n => simp [getType, TypeVisitor.visit]
  | nonNull τ =>
    simp only [getType, TypeVisitor.visit, ne_eq, TypeRef.nonNull.injEq, forall_eq', iff_false]
    exact visit_nonNull τ _ rfl rfl
  | list τ =>
    simp only [getType, TypeVisitor.visit, ne_eq, reduceCtorEq, not_false_eq_true, implies_true, iff_true]
    obtain ⟨ms', e⟩ := visit_cons τ { type := [], modifiers := [.nullable, .list], nonNull := false } _ _ rfl
    simp [e]

theorem defaultValue_null {atoi : Int → Int} {x : Lit} :
    (defaultValue atoi x).type = .null ↔ x = .null ∨ ∃ p n, x = .variable p n := by
  cases x <;> simp [defaultValue, Resp.type]

/-- The test for a null default. -/
theorem nullDefault_iff {atoi : Int → Int} {d : InputValueDef} :
    ((inputFieldOf atoi d).defaultValueString ≠ [] ∧ (inputFieldOf atoi d).defaultValue.type = .null ∧
      (inputFieldOf atoi d).modifiers.head? ≠ some .nullable) ↔ NullDefault d := by
  have h1 := getType_head d.type
  unfold inputFieldOf NullDefault
  cases hd : d.default with
  | none => simp
  | some v =>
    have h2 := defaultValue_null (atoi := atoi) (x := v.value)
    simp only [Option.some.injEq, ↓existsAndEq, true_and, ne_eq, h1, h2, not_forall, not_not]
    constructor
    · rintro ⟨ht, hn, σ, hσ⟩
      exact ⟨σ, ht, hn, hσ⟩
    · rintro ⟨σ, ht, hn, hσ⟩
      exact ⟨ht, hn, σ, hσ⟩

theorem getInputField_null {atoi : Int → Int} {d : InputValueDef} (h : NullDefault d) :
    getInputField atoi d = .error (.nullDefault d.name) := if_pos (nullDefault_iff.2 h)

theorem getInputField_ok {atoi : Int → Int} {d : InputValueDef} (h : ¬ NullDefault d) :
    getInputField atoi d = .ok (inputFieldOf atoi d) := if_neg fun h' => h (nullDefault_iff.1 h')

theorem inputFieldOf_spec (atoi : Int → Int) (d : InputValueDef) : IsInputField atoi d (inputFieldOf atoi d) :=
  ⟨rfl, rfl, fun hp => C41_modifiers hp, rfl, rfl, rfl⟩

/-- The loop over input fields: either all are loaded, or the first one with a null default is reported. -/
theorem getInputFields_cases (atoi : Int → Int) (ds : List InputValueDef) :
    (∃ fs, getInputFields atoi ds = .ok fs ∧ List.Forall₂ (IsInputField atoi) ds fs ∧ ∀ d ∈ ds, ¬ NullDefault d) ∨
    ∃ as a bs, ds = as ++ a :: bs ∧ (∀ b ∈ as, ¬ NullDefault b) ∧ NullDefault a ∧
      getInputFields atoi ds = .error (.nullDefault a.name) := by
  induction ds with
  | nil => exact .inl ⟨[], rfl, .nil, by simp⟩
  | cons d ds ih =>
    simp only [getInputFields]
    by_cases hd : NullDefault d
    · right
      exact ⟨[], d, ds, rfl, by simp, hd, by rw [getInputField_null hd]⟩
    · rw [getInputField_ok hd]
      simp only
      rcases ih with ⟨fs, h1, h2, h3⟩ | ⟨as, a, bs, rfl, h2, h3, h4⟩
      · left
        refine ⟨_ :: fs, by rw [h1], .cons (inputFieldOf_spec atoi d) h2, ?_⟩
        simpa [hd] using h3
      · right
        refine ⟨d :: as, a, bs, rfl, ?_, h3, by rw [h4]⟩
        simpa [hd] using h2

/-- The reason which is found. -/
theorem reasonArgument_iff {d : Directive} {s : Str} : reasonArgument d = some s ↔ GivesReason d s := by
  unfold reasonArgument GivesReason
  split
  · rename_i name r rest heq
    constructor
    · intro h
      split at h
      · rename_i hn
        cases h
        exact ⟨rest, by rw [heq, hn]⟩
      · cases h
    · rintro ⟨rest', h⟩
      rw [heq] at h
      simp only [Option.some.injEq, List.cons.injEq, Prod.mk.injEq, Lit.string.injEq] at h
      simp [h]
  · rename_i hne
    constructor
    · intro h; cases h
    · rintro ⟨rest, h⟩
      exact (hne _ _ _ h).elim

theorem reasonArgument_none {d : Directive} : reasonArgument d = none ↔ ∀ r, ¬ GivesReason d r := by
  rw [Option.eq_none_iff_forall_ne_some]
  exact forall_congr' fun r => by rw [ne_eq, reasonArgument_iff]

theorem fieldDeprecation_spec (ds : List Directive) : IsFieldDeprecation ds (fieldDeprecation ds) := by
  induction ds using List.reverseRecOn with
  | nil => intro d hd; cases hd
  | append_singleton ds d ih =>
    unfold fieldDeprecation
    rw [List.foldl_append]
    simp only [List.foldl_cons, List.foldl_nil]
    split
    · rename_i hd
      refine ⟨ds, d, [], rfl, hd, by simp, ?_⟩
      cases h : reasonArgument d with
      | none => exact .inr ⟨reasonArgument_none.1 h, rfl⟩
      | some s => exact .inl (reasonArgument_iff.1 h)
    · rename_i hd
      change IsFieldDeprecation (ds ++ [d]) (fieldDeprecation ds)
      revert ih
      generalize fieldDeprecation ds = r
      cases r with
      | none =>
        intro ih e he
        rcases List.mem_append.1 he with he | he
        · exact ih e he
        · rw [List.mem_singleton.1 he]; exact hd
      | some s =>
        rintro ⟨pre, e, post, rfl, h1, h2, h3⟩
        refine ⟨pre, e, post ++ [d], by simp, h1, ?_, h3⟩
        intro e' he'
        rcases List.mem_append.1 he' with he' | he'
        · exact h2 e' he'
        · rw [List.mem_singleton.1 he']; exact hd

theorem enumDeprecation_spec (ds : List Directive) : IsEnumDeprecation ds (enumDeprecation ds) := by
  induction ds using List.reverseRecOn with
  | nil => intro d hd; cases hd
  | append_singleton ds d ih =>
    have skip : (d.name = str "deprecated" → ∀ r, ¬ GivesReason d r) →
        IsEnumDeprecation (ds ++ [d]) (enumDeprecation ds) := by
      intro hd
      revert ih
      generalize enumDeprecation ds = r
      cases r with
      | none =>
        intro ih e he
        rcases List.mem_append.1 he with he | he
        · exact ih e he
        · rw [List.mem_singleton.1 he]; exact hd
      | some s =>
        rintro ⟨pre, e, post, rfl, h1, h2, h3⟩
        refine ⟨pre, e, post ++ [d], by simp, h1, h2, ?_⟩
        intro e' he'
        rcases List.mem_append.1 he' with he' | he'
        · exact h3 e' he'
        · rw [List.mem_singleton.1 he']; exact hd
    unfold enumDeprecation
    rw [List.foldl_append]
    simp only [List.foldl_cons, List.foldl_nil]
    split
    · rename_i hd
      cases h : reasonArgument d with
      | none => exact skip fun _ => reasonArgument_none.1 h
      | some s => exact ⟨ds, d, [], rfl, hd, reasonArgument_iff.1 h, by simp⟩
    · rename_i hd
      exact skip fun h => (hd h).elim

/-- The loop over fields: either all are loaded, or the first null default is reported. -/
theorem getOutputFields_cases (atoi : Int → Int) (ds : List FieldDef) :
    (∃ fs, getOutputFields atoi ds = .ok fs ∧ List.Forall₂ (IsOutputField atoi) ds fs ∧
      ∀ a ∈ ds.flatMap (·.arguments), ¬ NullDefault a) ∨
    ∃ as a bs, ds.flatMap (·.arguments) = as ++ a :: bs ∧ (∀ b ∈ as, ¬ NullDefault b) ∧ NullDefault a ∧
      getOutputFields atoi ds = .error (.nullDefault a.name) := by
  induction ds with
  | nil => exact .inl ⟨[], rfl, .nil, by simp⟩
  | cons d ds ih =>
    simp only [getOutputFields, getOutputField]
    rcases getInputFields_cases atoi d.arguments with ⟨as, h1, h2, h3⟩ | ⟨as, a, bs, e, h2, h3, h4⟩
    · rw [h1]
      simp only
      rcases ih with ⟨fs, i1, i2, i3⟩ | ⟨as', a, bs, e, i2, i3, i4⟩
      · left
        rw [i1]
        refine ⟨_, rfl, .cons ⟨rfl, rfl, fun hp => C41_modifiers hp, h2, fieldDeprecation_spec _, rfl, rfl, rfl, rfl⟩ i2,
          ?_⟩
        intro a ha
        rw [List.flatMap_cons, List.mem_append] at ha
        rcases ha with ha | ha
        · exact h3 a ha
        · exact i3 a ha
      · right
        refine ⟨d.arguments ++ as', a, bs, by rw [List.flatMap_cons, e]; simp, ?_, i3, by rw [i4]⟩
        intro b hb
        rcases List.mem_append.1 hb with hb | hb
        · exact h3 b hb
        · exact i2 b hb
    · right
      refine ⟨as, a, bs ++ ds.flatMap (·.arguments), by rw [List.flatMap_cons, e]; simp, h2, h3, ?_⟩
      rw [h4]

end Verif.Gen
