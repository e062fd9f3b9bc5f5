import Verif.Validation.InputSpec
import Verif.Validation.Inputs
import Mathlib.Data.List.Forall2

/-!
# Accepted literals evaluate to values of the type
-/
namespace Verif.Validation.Spec
open Verif.Value Verif.Resp Verif.Errors Verif.Ast Verif.Validation Verif.Exec

variable {S : Schema}

theorem evalList_ok {env : Env} : ∀ (xs : List Lit) (acc vs : List Resp), evalList env xs acc = .ok vs →
    ∃ new, vs = acc ++ new ∧ List.Forall₂ (fun x v => evalLit env x = .ok v) xs new := by
  intro xs
  induction xs with
  | nil => intro acc vs h; unfold evalList at h; cases h; exact ⟨[], by simp, .nil⟩
  | cons x xs ih =>
    intro acc vs h
    unfold evalList at h
    cases hx : evalLit env x with
    | error e => rw [hx] at h; cases h
    | ok v =>
      rw [hx] at h
      obtain ⟨new, hn, hf⟩ := ih _ _ h
      exact ⟨v :: new, by simp [hn], .cons hx hf⟩

theorem evalArgs_ok {env : Env} : ∀ (xs : List (Str × Lit)) (acc ms : Members), evalArgs env xs acc = .ok ms →
    (xs.map (·.1)).Nodup → (∀ x ∈ xs, x.1 ∉ acc.map (·.1)) →
    ∃ new, ms = acc ++ new ∧ List.Forall₂ (fun x m => m.1 = x.1 ∧ evalLit env x.2 = .ok m.2) xs new := by
  intro xs
  induction xs with
  | nil => intro acc ms h _ _; unfold evalArgs at h; cases h; exact ⟨[], by simp, .nil⟩
  | cons x xs ih =>
    intro acc ms h hn hd
    unfold evalArgs at h
    cases hx : evalLit env x.2 with
    | error e => rw [hx] at h; cases h
    | ok v =>
      rw [hx] at h
      have hnew : acc.emplace x.1 v = acc ++ [(x.1, v)] := by
        unfold Members.emplace
        have := hd x (by simp)
        have hb : (acc.any fun e => e.1 == x.1) = false := by
          rw [List.any_eq_false]
          intro e he hc
          exact this (List.mem_map.mpr ⟨e, he, by simpa using hc⟩)
        simp [hb]
      simp only [hnew] at h
      simp only [List.map_cons, List.nodup_cons] at hn
      obtain ⟨new, hn', hf⟩ := ih _ _ h hn.2 (by
        intro y hy hc
        rw [List.map_append, List.mem_append] at hc
        rcases hc with hc | hc
        · exact hd y (by simp [hy]) hc
        · simp only [List.map_cons, List.map_nil, List.mem_singleton] at hc
          exact hn.1 (hc ▸ List.mem_map_of_mem hy))
      exact ⟨(x.1, v) :: new, by simp [hn'], .cons ⟨rfl, hx⟩ hf⟩

theorem Inhabits.mono {v : Resp} {t : TypeRef} {d d' : Bool} (h : Inhabits S d v t) (hd : d = true → d' = true) :
    Inhabits S d' v t := by
  cases h with
  | null h => exact .null fun hr => hd (h hr)
  | scalar hn ht hdef hk h => exact .scalar hn ht hdef hk h
  | enum ht hdef hk h => exact .enum ht hdef hk h
  | jsonEnum ht hdef hk h => exact .jsonEnum ht hdef hk h
  | list ht h => exact .list ht h
  | object ht hdef hk h1 h2 h3 => exact .object ht hdef hk h1 h2 h3

/-- A value which is not null is one of the type with or without the non-null wrapper. -/
theorem Inhabits.nullable {v : Resp} {t t' : TypeRef} {d d' : Bool} (h : Inhabits S d v t) (hn : v ≠ .null)
    (ht' : Spec.nullable t = Spec.nullable t') : Inhabits S d' v t' := by
  cases h with
  | null h => exact absurd rfl hn
  | scalar hn ht hdef hk h => exact .scalar hn (ht' ▸ ht) hdef hk h
  | enum ht hdef hk h => exact .enum (ht' ▸ ht) hdef hk h
  | jsonEnum ht hdef hk h => exact .jsonEnum (ht' ▸ ht) hdef hk h
  | list ht h => exact .list (ht' ▸ ht) h
  | object ht hdef hk h1 h2 h3 => exact .object (ht' ▸ ht) hdef hk h1 h2 h3

theorem Inhabits.nonNull {v : Resp} {t : TypeRef} (h : Inhabits S false v (.nonNull t)) : v ≠ .null := by
  rintro rfl
  cases h with
  | null h => exact absurd (h ⟨t, rfl⟩) (by simp)
  | scalar hn _ _ _ _ => exact hn rfl

theorem Compatible.inhabits {vt lt : TypeRef} (h : Compatible vt lt) {v : Resp} (hv : Inhabits S false v vt) :
    Inhabits S false v lt := by
  induction h generalizing v with
  | bothNonNull h ih =>
    have hn := hv.nonNull
    exact (ih (hv.nullable hn rfl)).nullable hn rfl
  | variableNonNull hl h ih => exact ih (hv.nullable hv.nonNull rfl)
  | @list a b h ih =>
    cases hv with
    | null h => exact .null (by rintro ⟨_, ⟨⟩⟩)
    | scalar _ ht _ _ _ => cases ht
    | enum ht _ _ _ => cases ht
    | jsonEnum ht _ _ _ => cases ht
    | object ht _ _ _ _ _ => cases ht
    | list ht hx =>
      cases ht
      exact .list rfl fun x hm => ih (hx x hm)
  | named => exact hv

theorem Allowed.inhabits {d nn : Bool} {vt lt : TypeRef} (h : Allowed (d || nn) vt lt) {v : Resp} (hv : Inhabits S false v vt)
    (hn : nn = true → v ≠ .null) : Inhabits S d v lt := by
  cases h with
  | compatible h => exact (Compatible.inhabits h hv).mono (by simp)
  | default hd _ h =>
    have := Compatible.inhabits h hv
    by_cases hnull : v = .null
    · subst hnull
      refine .null fun _ => ?_
      cases d with
      | true => rfl
      | false => simp only [Bool.false_or] at hd; exact absurd rfl (hn hd)
    · exact this.nullable hnull rfl

theorem ScalarLiteral.value {env : Env} {name : Str} {l : Lit} (h : ScalarLiteral name l) {v : Resp} (hv : evalLit env l = .ok v) :
    ScalarValue name v := by
  obtain ⟨h1, h2, h3, h4, h5⟩ := h
  refine ⟨fun e => ?_, fun e => ?_, fun e => ?_, fun e => ?_, fun e => ?_⟩
  · obtain ⟨n, rfl⟩ := h1 e; unfold evalLit at hv; cases hv; exact ⟨_, rfl⟩
  · rcases h2 e with ⟨n, rfl⟩ | ⟨n, rfl⟩
    · unfold evalLit at hv; cases hv; exact .inl ⟨_, rfl⟩
    · unfold evalLit at hv; cases hv; exact .inr ⟨_, rfl⟩
  · obtain ⟨n, rfl⟩ := h3 e; unfold evalLit at hv; cases hv; exact ⟨_, _, rfl⟩
  · obtain ⟨s, b, rfl, hb⟩ := h4 e; unfold evalLit at hv; cases hv; exact ⟨_, _, b, rfl, hb⟩
  · obtain ⟨n, rfl⟩ := h5 e; unfold evalLit at hv; cases hv; exact ⟨_, rfl⟩

theorem Proper.notNull {env : Env} {l : Lit} (h : Proper l) {v : Resp} (hv : evalLit env l = .ok v) : v ≠ .null := by
  rintro rfl
  cases l with
  | «variable» pos name => exact h.1 _ _ rfl
  | null => exact h.2 rfl
  | list xs =>
    unfold evalLit at hv
    cases hl : evalList env xs [] <;> rw [hl] at hv <;> cases hv
  | object fields =>
    unfold evalLit at hv
    cases hl : evalArgs env fields [] <;> rw [hl] at hv <;> cases hv
  | _ => unfold evalLit at hv; cases hv

theorem defaultValue_of_nonNull {args : List InputValue} {name : Str} {a : Argument} (h : findArgument args name = some a) :
    a.nonNullDefaultValue = true → a.defaultValue = true := by
  unfold findArgument at h
  obtain ⟨v, _, rfl⟩ := Option.map_eq_some_iff.mp h
  unfold InputValue.argument
  simp only [Bool.and_eq_true]
  exact fun h => h.1

/-- A literal which fits evaluates to a value of the type. -/
theorem Fits.inhabits {vs : VariableTypes} {env : Env} (henv : VariablesInhabit S vs env.variables) {d : Bool} {l : Lit}
    {t : TypeRef} (h : Fits S (some vs) d l t) : Unique l → ∀ v, evalLit env l = .ok v → Inhabits S d v t := by
  generalize hvars : some vs = vars at h
  induction h with
  | @declared d pos name t vs' a hv hd h =>
    intro _ v he
    subst hv
    cases hvars
    unfold evalLit visitVariable at he
    cases hf : env.variables.find name with
    | none => rw [hf] at he; cases he
    | some w =>
      rw [hf] at he
      cases he
      have := henv name a _ hd hf
      exact Allowed.inhabits h this.1 this.2
  | any hv => rw [hv] at hvars; cases hvars
  | null h =>
    intro _ v he
    unfold evalLit at he
    cases he
    exact .null h
  | scalar hp ht hdef hk h =>
    intro _ v he
    exact .scalar (Proper.notNull hp he) ht hdef hk (ScalarLiteral.value h he)
  | enum ht hdef hk h =>
    intro _ v he
    unfold evalLit at he
    cases he
    exact .enum ht hdef hk h
  | @list d values t of ht h ih =>
    intro hu v he
    unfold evalLit at he
    cases hl : evalList env values [] with
    | error e => rw [hl] at he; cases he
    | ok ws =>
      rw [hl] at he
      cases he
      obtain ⟨new, hnew, hf⟩ := evalList_ok _ _ _ hl
      simp only [List.nil_append] at hnew
      subst hnew
      cases hu with
      | list hu =>
        refine .list ht fun w hw => ?_
        obtain ⟨i, hi, rfl⟩ := List.getElem_of_mem hw
        have hi' : i < values.length := hf.length_eq ▸ hi
        exact ih values[i] (List.getElem_mem _) (hu _ (List.getElem_mem _)) _ ((List.forall₂_iff_get.mp hf).2 i hi' hi)
  | @object d values t name def_ ht hdef hk hknown hvalues hrequired ih =>
    intro hu v he
    unfold evalLit at he
    cases hl : evalArgs env values [] with
    | error e => rw [hl] at he; cases he
    | ok ms =>
      rw [hl] at he
      cases he
      cases hu with
      | object hn hu =>
        obtain ⟨new, hnew, hf⟩ := evalArgs_ok _ _ _ hl hn (by simp)
        simp only [List.nil_append] at hnew
        subst hnew
        have hnames : ms.map (·.1) = values.map (·.1) := by
          clear ih hknown hvalues hrequired hl hn hu
          induction hf with
          | nil => rfl
          | cons h _ ih => simp [h.1, ih]
        have pick : ∀ m ∈ ms, ∃ e ∈ values, m.1 = e.1 ∧ evalLit env e.2 = .ok m.2 := by
          intro m hm
          obtain ⟨i, hi, rfl⟩ := List.getElem_of_mem hm
          have hi' : i < values.length := hf.length_eq ▸ hi
          exact ⟨values[i], List.getElem_mem _, (List.forall₂_iff_get.mp hf).2 i hi' hi⟩
        refine .object ht hdef hk ?_ ?_ ?_
        · intro m hm
          obtain ⟨e, hem, hn, _⟩ := pick m hm
          rw [hn]; exact hknown e hem
        · intro m hm field hfield
          obtain ⟨e, hem, hn, hev⟩ := pick m hm
          rw [hn] at hfield
          by_cases hnull : e.2 = .null ∧ field.defaultValue = true
          · rw [hnull.1] at hev
            unfold evalLit at hev
            rw [hnull.2, ← Except.ok.inj hev]
            exact .null fun _ => rfl
          · exact (ih e hem field hfield hnull (hu e hem) _ hev).mono (defaultValue_of_nonNull hfield)
        · intro n field h1 h2
          rw [hnames]
          exact hrequired n field h1 h2

end Verif.Validation.Spec
