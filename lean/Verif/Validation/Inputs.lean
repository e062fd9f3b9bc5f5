import Verif.Validation.Values

/-!
# `validateInputValue` accepts the literals which fit (C29)
-/
namespace Verif.Validation
open Verif.Value Verif.Resp Verif.Errors Verif.Ast Spec

/-- A type which may be expected somewhere: its named type is there. -/
def KnownType (S : Schema) (t : TypeRef) : Prop := (S.find (baseName t)).isSome ∧ WellFormed t

/-- The variables have input types. -/
def VarsOk (S : Schema) (vars : Option VariableTypes) : Prop :=
  ∀ vs, vars = some vs → ∀ name d, findVariable vs name = some d → ∃ k, S.kind (baseName d.type) = some k ∧ k.isInput = true

/-- The variables used in a literal, as far as they count. -/
def litVariables (S : Schema) (vars : Option VariableTypes) (l : Lit) (t : TypeRef) : Set Str :=
  {v | vars.isSome ∧ Mentions S l t v}

/-- The result of the check of a literal. -/
structure Input (S : Schema) (d : Bool) (l : Lit) (t : TypeRef) (st : State) (r : State × Bool) : Prop where
  step : Step (Fits S st.operationVariables d l t) (litVariables S st.operationVariables l t) st r.1
  result : r.2 = true ↔ Fits S st.operationVariables d l t

theorem Input.fail {S : Schema} {d : Bool} {l : Lit} {t : TypeRef} {st : State} (m : Str)
    (h : ¬ Fits S st.operationVariables d l t) : Input S d l t st (st.fail m, false) :=
  ⟨.fail _ _ _ h, by simp [h]⟩

theorem Input.done {S : Schema} {d : Bool} {l : Lit} {t : TypeRef} {st : State} (h : Fits S st.operationVariables d l t)
    (hm : ∀ v, ¬ Mentions S l t v) : Input S d l t st (st, true) := by
  refine ⟨(Step.refl st).congr (by simp [h]) ?_, by simp [h]⟩
  intro _
  unfold litVariables
  ext v; simp [hm]

theorem Input.check {S : Schema} {d : Bool} {l : Lit} {t : TypeRef} {st : State} {m : Option Str}
    (h : m = none ↔ Fits S st.operationVariables d l t)
    (hm : ∀ v, ¬ Mentions S l t v) : Input S d l t st (st.check m) := by
  cases m with
  | none => exact .done (h.mp rfl) hm
  | some m => exact .fail _ (fun hc => by simpa using h.mpr hc)

theorem unwrapNonNull_eq {S : Schema} (t : TypeRef) (h : (S.find (baseName t)).isSome) :
    unwrapNonNull S t = some (nullable t) := by
  induction t with
  | named n => rfl
  | list t _ => rfl
  | nonNull t ih =>
    simp only [baseName] at h
    simp only [unwrapNonNull, valid_isNone h, Bool.false_eq_true, if_false, ih h, nullable]

theorem enumError_none {n : Str} {vals : List Str} {l : Lit} (hn : n ≠ []) :
    enumError n vals l = none ↔ ∃ v, l = .enumValue v ∧ v ∈ vals := by
  have : n.isEmpty = false := by cases n with | nil => exact absurd rfl hn | cons => rfl
  unfold enumError
  rw [this]
  simp only [Bool.false_eq_true, if_false]
  cases l <;> simp

theorem scalarError_none {n : Str} {l : Lit} (hn : n ≠ []) : scalarError n l = none ↔ ScalarLiteral n l := by
  have he : n.isEmpty = false := by cases n with | nil => exact absurd rfl hn | cons => rfl
  unfold scalarError ScalarLiteral
  rw [he]
  simp only [Bool.false_eq_true, if_false]
  have ne : ∀ a b : String, decide (str a = str b) = false → str a ≠ str b := fun a b h => of_decide_eq_false h
  by_cases h1 : n = str "Int"
  · subst h1
    rw [if_pos rfl]
    simp only [true_implies, ne "Int" "Float" rfl, ne "Int" "String" rfl, ne "Int" "ID" rfl, ne "Int" "Boolean" rfl,
      false_implies, and_true]
    cases l <;> simp
  rw [if_neg h1]
  by_cases h2 : n = str "Float"
  · subst h2
    rw [if_pos rfl]
    simp only [true_implies, h1, ne "Float" "String" rfl, ne "Float" "ID" rfl, ne "Float" "Boolean" rfl,
      false_implies, and_true, true_and]
    cases l <;> simp
  rw [if_neg h2]
  by_cases h3 : n = str "String"
  · subst h3
    rw [if_pos rfl]
    simp only [true_implies, h1, h2, ne "String" "ID" rfl, ne "String" "Boolean" rfl, false_implies, and_true, true_and]
    cases l <;> simp
  rw [if_neg h3]
  by_cases h4 : n = str "ID"
  · subst h4
    rw [if_pos rfl]
    simp only [true_implies, h1, h2, h3, ne "ID" "Boolean" rfl, false_implies, and_true, true_and]
    cases l with
    | string s =>
      simp only [Lit.string.injEq]
      cases hb : Verif.Base64.fromBase64 s with
      | ok b => simp only [true_iff]; exact ⟨s, b, rfl, hb⟩
      | error e => 
        simp only [reduceCtorEq, false_iff]
        rintro ⟨s', b, rfl, h⟩
        rw [hb] at h; cases h
    | _ => simp
  rw [if_neg h4]
  by_cases h5 : n = str "Boolean"
  · subst h5
    rw [if_pos rfl]
    simp only [true_implies, h1, h2, h3, h4, false_implies, true_and]
    cases l <;> simp
  rw [if_neg h5]
  simp [h1, h2, h3, h4, h5]

/-- A value which is checked as a whole. -/
theorem validateNamed_input {S : Schema} (he : S.find [] = none) {l : Lit} {t : TypeRef} (hp : Proper l)
    (hk : (S.find (baseName t)).isSome)
    (hlist : ∀ values of, l = .list values → nullable t ≠ .list of)
    (hobj : ∀ values n, l = .object values → nullable t = .named n → S.kind n ≠ some .inputObject)
    (d : Bool) (st : State) : Input S d l t st (validateNamed S (nullable t) l st) := by
  have hm : ∀ v, ¬ Mentions S l t v := by
    intro v h
    cases h with
    | «variable» => exact hp.1 _ _ rfl
    | list ht _ _ => exact hlist _ _ rfl ht
    | object ht hdef hk _ _ _ => exact hobj _ _ rfl ht (by simp [Schema.kind, hdef, hk])
  rw [← baseName_nullable] at hk
  unfold validateNamed
  cases hn : nullable t with
  | list of =>
    refine .fail _ fun h => ?_
    cases h with
    | declared => exact hp.1 _ _ rfl
    | any => exact hp.1 _ _ rfl
    | null => exact hp.2 rfl
    | scalar _ ht => rw [hn] at ht; cases ht
    | enum ht => rw [hn] at ht; cases ht
    | list ht _ => exact hlist _ _ rfl ht
    | object ht => rw [hn] at ht; cases ht
  | nonNull u => exact absurd hn (nullable_ne t u)
  | named n =>
    rw [hn, baseName] at hk
    have hne : n ≠ [] := by rintro rfl; rw [he] at hk; simp at hk
    cases hf : S.find n with
    | none => rw [hf] at hk; simp at hk
    | some td =>
      -- what fits a named type
      have fits : Fits S st.operationVariables d l t ↔
          (td.kind = .scalar ∧ ScalarLiteral n l) ∨ (td.kind = .enum ∧ ∃ v, l = .enumValue v ∧ v ∈ td.enumValues) := by
        constructor
        · intro h
          cases h with
          | declared => exact absurd rfl (hp.1 _ _)
          | any => exact absurd rfl (hp.1 _ _)
          | null => exact absurd rfl hp.2
          | scalar _ ht hdef hk h =>
            rw [hn] at ht; cases ht; rw [hf] at hdef; cases hdef; exact .inl ⟨hk, h⟩
          | enum ht hdef hk h =>
            rw [hn] at ht; cases ht; rw [hf] at hdef; cases hdef; exact .inr ⟨hk, _, rfl, h⟩
          | list ht _ => exact absurd ht (hlist _ _ rfl)
          | object ht hdef hk _ _ _ => exact absurd (by simp [Schema.kind, hdef, hk]) (hobj _ _ rfl ht)
        · rintro (⟨hk, h⟩ | ⟨hk, v, rfl, h⟩)
          · exact .scalar hp hn hf hk h
          · exact .enum hn hf hk h
      simp only [hf]
      cases hkind : td.kind with
      | inputObject =>
        simp only [hkind, reduceCtorEq, false_and, or_self, iff_false] at fits
        simp only
        split <;> exact .fail _ fits
      | enum =>
        simp only [hkind, reduceCtorEq, false_and, true_and, false_or] at fits
        exact .check ((enumError_none hne).trans fits.symm) hm
      | scalar =>
        simp only [hkind, reduceCtorEq, false_and, true_and, or_false] at fits
        exact .check ((scalarError_none hne).trans fits.symm) hm
      | object | interface | union =>
        simp only [hkind, reduceCtorEq, false_and, or_self, iff_false] at fits
        exact .fail _ fits

theorem validateVariable_input {S : Schema} (he : S.find [] = none) {pos : Loc} {name : Str} {t : TypeRef}
    (ht : KnownType S t) (d : Bool) (st : State) (hv : VarsOk S st.operationVariables) :
    Input S d (.variable pos name) t st (validateVariable S d name t st) := by
  have hment : ∀ v, Mentions S (.variable pos name) t v ↔ v = name :=
    fun v => ⟨fun h => by cases h; rfl, fun h => h ▸ .variable⟩
  unfold validateVariable
  split
  · rename_i hn
    refine ⟨(Step.refl st).congr ?_ ?_, ?_⟩
    · simp only [true_iff]; exact .any hn
    · intro _; ext v; simp [litVariables, hn]
    · simp only [true_iff]; exact .any hn
  · rename_i vars hvars
    split
    · rename_i hnone
      refine .fail _ fun h => ?_
      cases h with
      | declared hv hd => rw [hvars] at hv; cases hv; rw [hnone] at hd; cases hd
      | any hv => rw [hvars] at hv; cases hv
      | scalar hp => exact hp.1 _ _ rfl
    · rename_i var hvar
      have fits : Fits S st.operationVariables d (.variable pos name) t ↔
          variableTypeError S (d || var.nonNullDefaultValue) var.type t = none := by
        rw [variableTypeError_none he _ _ _ (hv vars hvars name var hvar) ht.1 ht.2]
        constructor
        · intro h
          cases h with
          | declared hv hd h => rw [hvars] at hv; cases hv; rw [hvar] at hd; cases hd; exact h
          | any hv => rw [hvars] at hv; cases hv
          | scalar hp => exact absurd rfl (hp.1 _ _)
        · exact .declared hvars hvar
      split
      · rename_i hok
        have := fits.mpr hok
        refine ⟨⟨.refer _ _ (by rw [hvars]; rfl), by simp [this], ?_⟩, by simp [this]⟩
        intro _ v
        simp only [List.mem_insert_iff, litVariables, Set.mem_ofPred_eq, hvars, Option.isSome_some, true_and, hment]
        exact or_comm
      · rename_i m hm
        have : ¬ Fits S st.operationVariables d (.variable pos name) t := by rw [fits, hm]; simp
        refine ⟨⟨.trans (.refer _ _ (by rw [hvars]; rfl)) (.fail _ _), by simp [this, State.fail], fun h => absurd h this⟩, by simp [this]⟩

/-! ## Arguments -/

theorem findArgument_some {args : List InputValue} {name : Str} {a : Argument} (h : findArgument args name = some a) :
    ∃ v ∈ args, v.name = name ∧ a = v.argument := by
  unfold findArgument at h
  cases hf : args.reverse.find? (fun a => a.name == name) with
  | none => simp [hf] at h
  | some v =>
    simp only [hf, Option.map_some, Option.some.injEq] at h
    exact ⟨v, List.mem_reverse.mp (List.mem_of_find?_eq_some hf), by simpa using List.find?_some hf, h.symm⟩

theorem findArgument_isSome {args : List InputValue} {name : Str} :
    (findArgument args name).isSome ↔ name ∈ args.map (·.name) := by
  unfold findArgument
  simp only [Option.isSome_map, List.find?_isSome, List.mem_reverse, beq_iff_eq, List.mem_map]

theorem mem_argumentNames {args : List InputValue} {name : Str} :
    name ∈ argumentNames args ↔ (findArgument args name).isSome := by
  rw [findArgument_isSome]
  simp [argumentNames]

theorem argumentNames_nodup (args : List InputValue) : (argumentNames args).Nodup := by
  unfold argumentNames
  exact List.nodup_reverse.mpr (List.nodup_dedup _)

/-- The arguments (or input fields) have known types. -/
def KnownArgs (S : Schema) (args : List InputValue) : Prop := ∀ v ∈ args, KnownType S v.type

theorem KnownArgs.find {S : Schema} {args : List InputValue} (h : KnownArgs S args) {name : Str} {a : Argument}
    (hf : findArgument args name = some a) : KnownType S a.type := by
  obtain ⟨v, hv, _, rfl⟩ := findArgument_some hf
  exact h v hv

theorem missingField_none {S : Schema} {type : Str} {fields : List InputValue} (hk : KnownArgs S fields) (present : List Str)
    (names : List Str) :
    missingField S type fields present names = none ↔
      ∀ name ∈ names, ∀ field, findArgument fields name = some field → Required field.type →
        field.defaultValue = true ∨ name ∈ present := by
  induction names with
  | nil => simp [missingField]
  | cons name names ih =>
    simp only [missingField, List.mem_cons, forall_eq_or_imp]
    cases hf : findArgument fields name with
    | none => simp [ih]
    | some field =>
      simp only [Option.some.injEq, forall_eq']
      by_cases hp : (field.defaultValue || present.contains name) = true
      · rw [if_pos hp, ih]
        simp only [Bool.or_eq_true, List.contains_iff_mem] at hp
        exact ⟨fun h => ⟨fun _ => hp, h⟩, fun h => h.2⟩
      · rw [if_neg hp, valid_isNone (hk.find hf).1]
        simp only [Bool.false_eq_true, if_false]
        simp only [Bool.or_eq_true, List.contains_iff_mem] at hp
        cases ht : field.type with
        | nonNull of =>
          simp only [reduceCtorEq, false_iff]
          rintro ⟨h, _⟩
          exact hp (h ⟨of, rfl⟩)
        | named n =>
          simp only [ih]
          exact ⟨fun h => ⟨(by rintro ⟨of, h⟩; cases h), h⟩, fun h => h.2⟩
        | list n =>
          simp only [ih]
          exact ⟨fun h => ⟨(by rintro ⟨of, h⟩; cases h), h⟩, fun h => h.2⟩

/-- Every input object has known input fields. -/
def KnownInputs (S : Schema) : Prop := ∀ name t, S.find name = some t → KnownArgs S t.inputFields

/-- All the elements fit. -/
def AllFit (S : Schema) (vars : Option VariableTypes) (ls : List Lit) (t : TypeRef) : Prop :=
  ∀ x ∈ ls, Fits S vars false x t

/-- The members fit the input fields. -/
def MembersFit (S : Schema) (vars : Option VariableTypes) (fields : List InputValue) (ms : List (Str × Lit)) : Prop :=
  (∀ e ∈ ms, (findArgument fields e.1).isSome) ∧
  ∀ e ∈ ms, ∀ field, findArgument fields e.1 = some field →
    ¬ (e.2 = .null ∧ field.defaultValue = true) → Fits S vars field.nonNullDefaultValue e.2 field.type

def listVariables (S : Schema) (vars : Option VariableTypes) (ls : List Lit) (t : TypeRef) : Set Str :=
  {v | ∃ x ∈ ls, v ∈ litVariables S vars x t}

def memberVariables (S : Schema) (vars : Option VariableTypes) (fields : List InputValue) (ms : List (Str × Lit)) : Set Str :=
  {v | ∃ e ∈ ms, ∃ field, findArgument fields e.1 = some field ∧ v ∈ litVariables S vars e.2 field.type}

theorem isNull_iff {l : Lit} : l.isNull = true ↔ l = .null := by
  cases l <;> simp [Lit.isNull]

theorem Step.no {P Q : Prop} {U V : Set Str} {a b : State} (h : Step P U a b) (hp : ¬ P) (hq : ¬ Q) : Step Q V a b :=
  h.congr ⟨fun p => absurd p hp, fun q => absurd q hq⟩ fun p => absurd p hp

mutual
theorem validateInputValue_input {S : Schema} (he : S.find [] = none) (hin : KnownInputs S) : (l : Lit) →
    ∀ (d : Bool) (t : TypeRef) (st : State), KnownType S t → VarsOk S st.operationVariables →
    Input S d l t st (validateInputValue S d l t st)
  | .variable pos name, d, t, st, ht, hv => by
    simp only [validateInputValue, valid_isNone ht.1, Bool.false_eq_true, if_false]
    exact validateVariable_input he ht d st hv
  | .null, d, t, st, ht, hv => by
    simp only [validateInputValue, valid_isNone ht.1, Bool.false_eq_true, if_false]
    have hm : ∀ v, ¬ Mentions S .null t v := by intro v h; cases h
    have fits : Fits S st.operationVariables d .null t ↔ (Required t → d = true) := by
      constructor
      · intro h
        cases h with
        | null h => exact h
        | scalar hp => exact absurd rfl hp.2
      · exact .null
    cases t with
    | nonNull of =>
      simp only
      cases d with
      | true => exact .done (fits.mpr fun _ => rfl) hm
      | false => exact .fail _ fun h => by simpa using fits.mp h ⟨of, rfl⟩
    | named n => exact .done (fits.mpr (by rintro ⟨of, h⟩; cases h)) hm
    | list n => exact .done (fits.mpr (by rintro ⟨of, h⟩; cases h)) hm
  | .list values, d, t, st, ht, hv => by
    simp only [validateInputValue, valid_isNone ht.1, Bool.false_eq_true, if_false, unwrapNonNull_eq t ht.1]
    have hp : Proper (.list values) := ⟨by simp, by simp⟩
    cases hn : nullable t with
    | list of =>
      have hof : KnownType S of := by
        refine ⟨?_, ?_⟩
        · have := ht.1; rw [← baseName_nullable, hn] at this; exact this
        · clear hv hp
          have hwf := ht.2
          clear ht
          induction t with
          | named n => cases hn
          | list t _ => cases hn; exact hwf
          | nonNull t ih =>
            cases t with
            | nonNull u => exact absurd hwf (by simp [WellFormed])
            | named n => cases hn
            | list u => cases hn; exact hwf
      have fits : Fits S st.operationVariables d (.list values) t ↔ AllFit S st.operationVariables values of := by
        constructor
        · intro h
          cases h with
          | scalar _ ht => rw [hn] at ht; cases ht
          | list ht h => rw [hn] at ht; cases ht; exact h
        · exact .list hn
      have ment : listVariables S st.operationVariables values of = litVariables S st.operationVariables (.list values) t := by
        ext v
        constructor
        · rintro ⟨x, hx, hs, h⟩; exact ⟨hs, .list hn hx h⟩
        · rintro ⟨hs, h⟩
          cases h with
          | list ht hx h => rw [hn] at ht; cases ht; exact ⟨_, hx, hs, h⟩
      simp only [valid_isNone hof.1, Bool.false_eq_true, if_false]
      have := validateList_input he hin values of st hof hv
      exact ⟨this.1.congr fits.symm fun _ => ment, this.2.trans fits.symm⟩
    | named n =>
      have := validateNamed_input he hp ht.1 (by rw [hn]; simp) (by simp) d st
      rw [hn] at this; exact this
    | nonNull u => exact absurd hn (nullable_ne t u)
  | .object values, d, t, st, ht, hv => by
    simp only [validateInputValue, valid_isNone ht.1, Bool.false_eq_true, if_false, unwrapNonNull_eq t ht.1]
    have hp : Proper (.object values) := ⟨by simp, by simp⟩
    have hk := ht.1
    rw [← baseName_nullable] at hk
    cases hn : nullable t with
    | list of =>
      have := validateNamed_input he hp ht.1 (by simp) (by rw [hn]; simp) d st
      rw [hn] at this; exact this
    | nonNull u => exact absurd hn (nullable_ne t u)
    | named n =>
      rw [hn, baseName] at hk
      have hne : n ≠ [] := by rintro rfl; rw [he] at hk; simp at hk
      cases hf : S.find n with
      | none => rw [hf] at hk; simp at hk
      | some td =>
        simp only [hf]
        by_cases hkind : td.kind = .inputObject
        · have hempty : n.isEmpty = false := by cases n with | nil => exact absurd rfl hne | cons => rfl
          simp only [hkind, hempty, Bool.false_eq_true, if_false]
          have fits : Fits S st.operationVariables d (.object values) t ↔
              MembersFit S st.operationVariables td.inputFields values ∧
              missingField S n td.inputFields (values.map (·.1)) (argumentNames td.inputFields) = none := by
            rw [missingField_none (hin n td hf)]
            constructor
            · intro h
              cases h with
              | scalar _ ht hdef hk _ =>
                rw [hn] at ht; cases ht; rw [hf] at hdef; cases hdef; rw [hkind] at hk; cases hk
              | object ht hdef hk h1 h2 h3 =>
                rw [hn] at ht; cases ht; rw [hf] at hdef; cases hdef
                exact ⟨⟨h1, h2⟩, fun name _ => h3 name⟩
            · rintro ⟨⟨h1, h2⟩, h3⟩
              refine .object hn hf hkind h1 h2 fun name field hfield => h3 name ?_ field hfield
              rw [mem_argumentNames, hfield]; rfl
          have ment : memberVariables S st.operationVariables td.inputFields values =
              litVariables S st.operationVariables (.object values) t := by
            ext v
            constructor
            · rintro ⟨e, he, field, hfield, hs, h⟩; exact ⟨hs, .object hn hf hkind he hfield h⟩
            · rintro ⟨hs, h⟩
              cases h with
              | object ht hdef _ he hfield h =>
                rw [hn] at ht; cases ht; rw [hf] at hdef; cases hdef; exact ⟨_, he, _, hfield, hs, h⟩
          have hm := validateMembers_input he hin n td.inputFields (hin n td hf) values st hv
          obtain ⟨hstep, hres⟩ := hm
          cases hr : validateMembers S n td.inputFields values st with
          | mk st' b =>
            rw [hr] at hstep hres
            cases b with
            | false =>
              have hno : ¬ MembersFit S st.operationVariables td.inputFields values := by
                rw [← hres]; simp
              have hnf : ¬ Fits S st.operationVariables d (.object values) t := fun h => hno (fits.mp h).1
              exact ⟨hstep.no hno hnf, by simp [hnf]⟩
            | true =>
              have hyes := hres.mp rfl
              simp only
              cases hmiss : missingField S n td.inputFields (values.map (·.1)) (argumentNames td.inputFields) with
              | none =>
                have hfit := fits.mpr ⟨hyes, hmiss⟩
                exact ⟨hstep.congr (by simp [hyes, hfit]) fun _ => ment, by simp [State.check, hfit]⟩
              | some m =>
                have hnf : ¬ Fits S st.operationVariables d (.object values) t := by
                  intro h; have := (fits.mp h).2; rw [hmiss] at this; cases this
                refine ⟨?_, by simp [State.check, hnf]⟩
                have := hstep.trans (Step.fail (P := False) ∅ st' m (by simp))
                exact this.no (by simp) hnf
        · have := validateNamed_input he hp ht.1 (by simp)
            (by intro _ n' _ hn'; rw [hn] at hn'; cases hn'; simp [Schema.kind, hf, hkind]) d st
          rw [hn] at this
          cases hk' : td.kind with
          | inputObject => exact absurd hk' hkind
          | scalar | object | interface | union | enum => exact this
  | .int n, d, t, st, ht, hv => by
    simp only [validateInputValue, valid_isNone ht.1, Bool.false_eq_true, if_false, unwrapNonNull_eq t ht.1]
    exact validateNamed_input he ⟨by simp, by simp⟩ ht.1 (by simp) (by simp) d st
  | .float n, d, t, st, ht, hv => by
    simp only [validateInputValue, valid_isNone ht.1, Bool.false_eq_true, if_false, unwrapNonNull_eq t ht.1]
    exact validateNamed_input he ⟨by simp, by simp⟩ ht.1 (by simp) (by simp) d st
  | .string n, d, t, st, ht, hv => by
    simp only [validateInputValue, valid_isNone ht.1, Bool.false_eq_true, if_false, unwrapNonNull_eq t ht.1]
    exact validateNamed_input he ⟨by simp, by simp⟩ ht.1 (by simp) (by simp) d st
  | .boolean n, d, t, st, ht, hv => by
    simp only [validateInputValue, valid_isNone ht.1, Bool.false_eq_true, if_false, unwrapNonNull_eq t ht.1]
    exact validateNamed_input he ⟨by simp, by simp⟩ ht.1 (by simp) (by simp) d st
  | .enumValue n, d, t, st, ht, hv => by
    simp only [validateInputValue, valid_isNone ht.1, Bool.false_eq_true, if_false, unwrapNonNull_eq t ht.1]
    exact validateNamed_input he ⟨by simp, by simp⟩ ht.1 (by simp) (by simp) d st
theorem validateList_input {S : Schema} (he : S.find [] = none) (hin : KnownInputs S) : (ls : List Lit) →
    ∀ (t : TypeRef) (st : State), KnownType S t → VarsOk S st.operationVariables →
    Step (AllFit S st.operationVariables ls t) (listVariables S st.operationVariables ls t) st (validateList S ls t st).1 ∧
      ((validateList S ls t st).2 = true ↔ AllFit S st.operationVariables ls t)
  | [], t, st, ht, hv => by
    simp only [validateList]
    refine ⟨(Step.refl st).congr (by simp [AllFit]) ?_, by simp [AllFit]⟩
    intro _; ext v; simp [listVariables]
  | l :: ls, t, st, ht, hv => by
    have h1 := validateInputValue_input he hin l false t st ht hv
    have all : AllFit S st.operationVariables (l :: ls) t ↔
        Fits S st.operationVariables false l t ∧ AllFit S st.operationVariables ls t := by simp [AllFit]
    have vars : listVariables S st.operationVariables (l :: ls) t =
        litVariables S st.operationVariables l t ∪ listVariables S st.operationVariables ls t := by
      ext v; simp [listVariables]
    simp only [validateList]
    cases hr : validateInputValue S false l t st with
    | mk st' b =>
      rw [hr] at h1
      have hov := h1.step.operationVariables
      simp only at hov
      cases b with
      | false =>
        have hno : ¬ Fits S st.operationVariables false l t := by rw [← h1.result]; simp
        have hno' : ¬ AllFit S st.operationVariables (l :: ls) t := fun h => hno (all.mp h).1
        exact ⟨h1.step.no hno hno', by simp [hno']⟩
      | true =>
        have hyes : Fits S st.operationVariables false l t := h1.result.mp rfl
        have h2 := validateList_input he hin ls t st' ht (by rw [hov]; exact hv)
        rw [hov] at h2
        exact ⟨(h1.step.trans h2.1).congr all.symm fun _ => vars.symm, h2.2.trans (by simp [all, hyes])⟩
theorem validateMembers_input {S : Schema} (he : S.find [] = none) (hin : KnownInputs S) (type : Str)
    (fields : List InputValue) (hk : KnownArgs S fields) : (ms : List (Str × Lit)) →
    ∀ (st : State), VarsOk S st.operationVariables →
    Step (MembersFit S st.operationVariables fields ms) (memberVariables S st.operationVariables fields ms) st
        (validateMembers S type fields ms st).1 ∧
      ((validateMembers S type fields ms st).2 = true ↔ MembersFit S st.operationVariables fields ms)
  | [], st, hv => by
    simp only [validateMembers]
    refine ⟨(Step.refl st).congr (by simp [MembersFit]) ?_, by simp [MembersFit]⟩
    intro _; ext v; simp [memberVariables]
  | (name, l) :: ms, st, hv => by
    simp only [validateMembers]
    cases hf : findArgument fields name with
    | none =>
      have hno : ¬ MembersFit S st.operationVariables fields ((name, l) :: ms) := by
        intro h; have := h.1 (name, l) (by simp); rw [hf] at this; simp at this
      exact ⟨.fail _ _ _ hno, by simp [hno]⟩
    | some field =>
      have all : MembersFit S st.operationVariables fields ((name, l) :: ms) ↔
          (¬ (l = .null ∧ field.defaultValue = true) → Fits S st.operationVariables field.nonNullDefaultValue l field.type) ∧
            MembersFit S st.operationVariables fields ms := by
        unfold MembersFit
        simp only [List.mem_cons, forall_eq_or_imp, hf, Option.isSome_some, true_and, Option.some.injEq, forall_eq']
        exact ⟨fun h => ⟨h.2.1, h.1, h.2.2⟩, fun h => ⟨h.2.1, h.1, h.2.2⟩⟩
      have vars : memberVariables S st.operationVariables fields ((name, l) :: ms) =
          litVariables S st.operationVariables l field.type ∪ memberVariables S st.operationVariables fields ms := by
        ext v; simp [memberVariables, hf]
      simp only
      by_cases hcond : l = .null ∧ field.defaultValue = true
      · have hc : (!l.isNull || !field.defaultValue) = false := by
          rw [hcond.2, isNull_iff.mpr hcond.1]; rfl
        simp only [hc, Bool.false_eq_true, if_false]
        have h2 := validateMembers_input he hin type fields hk ms st hv
        have all' : MembersFit S st.operationVariables fields ms ↔
            MembersFit S st.operationVariables fields ((name, l) :: ms) := by
          rw [all]; exact ⟨fun h => ⟨fun hc => absurd hcond hc, h⟩, fun h => h.2⟩
        have vars' : memberVariables S st.operationVariables fields ms =
            memberVariables S st.operationVariables fields ((name, l) :: ms) := by
          rw [vars, hcond.1]
          have : litVariables S st.operationVariables .null field.type = ∅ := by
            ext v; simp only [litVariables, Set.mem_ofPred_eq, Set.mem_empty_iff_false, iff_false]
            rintro ⟨_, h⟩; cases h
          rw [this, Set.empty_union]
        exact ⟨h2.1.congr all' fun _ => vars', h2.2.trans all'⟩
      · have hc : (!l.isNull || !field.defaultValue) = true := by
          rw [Bool.or_eq_true, Bool.not_eq_true', Bool.not_eq_true']
          by_contra hcc
          rw [not_or] at hcc
          exact hcond ⟨isNull_iff.mp (by simpa using hcc.1), by simpa using hcc.2⟩
        simp only [hc, if_true]
        have h1 := validateInputValue_input he hin l field.nonNullDefaultValue field.type st (hk.find hf) hv
        have all' : MembersFit S st.operationVariables fields ((name, l) :: ms) ↔
            Fits S st.operationVariables field.nonNullDefaultValue l field.type ∧
              MembersFit S st.operationVariables fields ms := by
          rw [all]; exact and_congr_left fun _ => ⟨fun h => h hcond, fun h _ => h⟩
        cases hr : validateInputValue S field.nonNullDefaultValue l field.type st with
        | mk st' b =>
          rw [hr] at h1
          have hov := h1.step.operationVariables
          simp only at hov
          cases b with
          | false =>
            have hno : ¬ Fits S st.operationVariables field.nonNullDefaultValue l field.type := by
              rw [← h1.result]; simp
            have hno' : ¬ MembersFit S st.operationVariables fields ((name, l) :: ms) := fun h => hno (all'.mp h).1
            exact ⟨h1.step.no hno hno', by simp [hno']⟩
          | true =>
            have hyes : Fits S st.operationVariables field.nonNullDefaultValue l field.type := h1.result.mp rfl
            have h2 := validateMembers_input he hin type fields hk ms st' (by rw [hov]; exact hv)
            rw [hov] at h2
            exact ⟨(h1.step.trans h2.1).congr all'.symm fun _ => vars.symm, h2.2.trans (by simp [all', hyes])⟩
end

end Verif.Validation
