import Verif.Gen.ValidateSpec

/-!
# Checking a loaded schema: C54
-/
namespace Verif.Gen
open Verif.Value Verif.Resp Verif.Ast Verif.Modifiers

/-! ## Loops -/

theorem mapExcept_ok {ε α β : Type} {f : α → Except ε β} {l : List α} {bs : List β} :
    mapExcept f l = .ok bs ↔ List.Forall₂ (fun a b => f a = .ok b) l bs := by
  induction l generalizing bs with
  | nil => simp [mapExcept, eq_comm]
  | cons a l ih =>
    simp only [mapExcept]
    cases ha : f a with
    | error e =>
      constructor
      · intro h; cases h
      · intro h
        cases h with
        | cons h1 _ => rw [ha] at h1; cases h1
    | ok b =>
      simp only
      cases hl : mapExcept f l with
      | error e =>
        constructor
        · intro h; cases h
        · intro h
          cases h with
          | cons h1 h2 => rw [ih.2 h2] at hl; cases hl
      | ok bs' =>
        simp only [Except.ok.injEq]
        constructor
        · rintro rfl
          exact .cons ha (ih.1 hl)
        · intro h
          cases h with
          | cons h1 h2 =>
            rw [ha] at h1
            cases h1
            rw [ih.2 h2] at hl
            cases hl
            rfl

theorem mapExcept_error {ε α β : Type} {f : α → Except ε β} {l : List α} {e : ε} (h : mapExcept f l = .error e) :
    ∃ a ∈ l, f a = .error e := by
  induction l with
  | nil => cases h
  | cons a l ih =>
    simp only [mapExcept] at h
    split at h
    · rename_i e' ha
      cases h
      exact ⟨a, by simp, ha⟩
    · split at h
      · rename_i e' hl
        cases h
        obtain ⟨b, hb, he⟩ := ih hl
        exact ⟨b, by simp [hb], he⟩
      · cases h

theorem forall₂_mem_left {α β : Type} {R : α → β → Prop} {as : List α} {bs : List β} (h : List.Forall₂ R as bs) :
    ∀ a ∈ as, ∃ b ∈ bs, R a b := by
  induction h with
  | nil => simp
  | cons hab _ ih =>
    intro a ha
    rcases List.mem_cons.1 ha with rfl | ha
    · exact ⟨_, by simp, hab⟩
    · obtain ⟨b, hb, hr⟩ := ih a ha
      exact ⟨b, by simp [hb], hr⟩

theorem forall₂_imp {α β : Type} {R S : α → β → Prop} {as : List α} {bs : List β} (h : List.Forall₂ R as bs)
    (hrs : ∀ a b, a ∈ as → R a b → S a b) : List.Forall₂ S as bs := by
  induction h with
  | nil => exact .nil
  | cons hab _ ih => exact .cons (hrs _ _ (by simp) hab) (ih fun a b ha => hrs a b (by simp [ha]))

/-! ## Fields -/

theorem fixedInput_iff {s : Loader} {f f' : InputField} :
    FixedInput s f f' ↔ ∃ k, InputKind s f.type k ∧ f' = { f with fieldType := k } := by
  constructor
  · rintro ⟨h1, h2⟩
    exact ⟨_, h1, h2⟩
  · rintro ⟨k, h1, rfl⟩
    exact ⟨h1, rfl⟩

theorem fixupInputField_ok {s : Loader} {f f' : InputField} (hf : f.fieldType = .builtin) :
    fixupInputField s f = .ok f' ↔ FixedInput s f f' := by
  rw [fixedInput_iff]
  unfold fixupInputField
  split
  · rename_i hb
    constructor
    · intro h
      cases h
      exact ⟨_, .builtin hb, by rw [← hf]⟩
    · rintro ⟨k, h1, rfl⟩
      cases h1 <;> first | (rw [← hf]; done) | contradiction
  · rename_i hb
    split
    all_goals
      constructor
      · intro h
        first
        | (cases h; done)
        | (cases h
           exact ⟨_, by constructor <;> assumption, rfl⟩)
      · rintro ⟨k, h1, rfl⟩
        cases h1 <;> simp_all

theorem fixupInputField_error {s : Loader} {f : InputField} {e : LoadError} (h : fixupInputField s f = .error e) :
    f.type ∉ builtinTypes ∧ ((e = .unknownArgumentType f.type ∧ s.schemaTypes f.type = none) ∨
      ∃ k, e = .invalidArgumentType f.type ∧ s.schemaTypes f.type = some k ∧
        k ∈ [SchemaType.union, .interface, .object]) := by
  unfold fixupInputField at h
  split at h
  · cases h
  · rename_i hb
    refine ⟨hb, ?_⟩
    split at h
    all_goals first
      | (cases h; done)
      | (rename_i hs
         cases h
         exact .inl ⟨rfl, hs⟩)
      | skip
    rename_i k h1 h2 h3 hs
    cases h
    refine .inr ⟨k, rfl, hs, ?_⟩
    cases k <;> simp_all

/-- Loaded and not yet fixed. -/
def Raw (f : OutputField) : Prop := f.fieldType = .builtin ∧ ∀ a ∈ f.arguments, a.fieldType = .builtin

theorem markField_same (ifs : Option (List Str)) (acc : Option Str) (f : OutputField) :
    (markField ifs acc f).type = f.type ∧ (markField ifs acc f).arguments = f.arguments ∧
    (markField ifs acc f).fieldType = f.fieldType := by
  cases ifs <;> cases acc <;> exact ⟨rfl, rfl, rfl⟩

theorem fixArguments {s : Loader} {as as' : List InputField} (h : ∀ a ∈ as, a.fieldType = .builtin) :
    mapExcept (fixupInputField s) as = .ok as' ↔ List.Forall₂ (FixedInput s) as as' := by
  rw [mapExcept_ok]
  constructor
  · exact fun hf => forall₂_imp hf fun a b ha hab => (fixupInputField_ok (h a ha)).1 hab
  · exact fun hf => forall₂_imp hf fun a b ha hab => (fixupInputField_ok (h a ha)).2 hab

theorem fixupOutputField_ok {s : Loader} {ifs : Option (List Str)} {acc : Option Str} {f f' : OutputField} (hf : Raw f) :
    fixupOutputField s ifs acc f = .ok f' ↔
      ∃ k args, OutputKind s f.type k ∧
        (if f.type ∈ builtinTypes then args = f.arguments else List.Forall₂ (FixedInput s) f.arguments args) ∧
        f' = { markField ifs acc f with fieldType := k, arguments := args } := by
  obtain ⟨m1, m2, m3⟩ := markField_same ifs acc f
  have unmarked : { markField ifs acc f with fieldType := .builtin, arguments := f.arguments } = markField ifs acc f := by
    rw [← m2, ← hf.1, ← m3]
  unfold fixupOutputField
  simp only [m1] at unmarked
  simp only [m1, m2]
  by_cases hb : f.type ∈ builtinTypes
  · simp only [hb, if_true]
    constructor
    · intro h
      cases h
      exact ⟨_, _, .builtin hb, rfl, unmarked.symm⟩
    · rintro ⟨k, args, h1, rfl, rfl⟩
      cases h1 <;> first | exact congrArg _ unmarked.symm | contradiction
  · simp only [hb, if_false]
    have hargs := @fixArguments s f.arguments
    cases ha : mapExcept (fixupInputField s) f.arguments with
    | error e =>
      have no : ∀ args, ¬ List.Forall₂ (FixedInput s) f.arguments args := by
        intro args h
        rw [(hargs hf.2).2 h] at ha
        cases ha
      constructor
      · intro h
        split at h <;> cases h
      · rintro ⟨k, args, _, h2, _⟩
        exact (no args h2).elim
    | ok args =>
      have h2 := (hargs hf.2).1 ha
      have unique : ∀ args', List.Forall₂ (FixedInput s) f.arguments args' → args' = args := by
        intro args' h
        rw [(hargs hf.2).2 h] at ha
        cases ha
        rfl
      constructor
      · intro h
        split at h
        all_goals first
          | (cases h; done)
          | (cases h
             exact ⟨_, args, by constructor <;> assumption, h2, rfl⟩)
      · rintro ⟨k, args', h1, h2', rfl⟩
        rw [unique args' h2']
        cases h1 <;> simp_all

theorem fixupOutputField_error {s : Loader} {ifs : Option (List Str)} {acc : Option Str} {f : OutputField} {e : LoadError}
    (h : fixupOutputField s ifs acc f = .error e) :
    f.type ∉ builtinTypes ∧ ((e = .unknownFieldType f.type ∧ s.schemaTypes f.type = none) ∨
      (e = .invalidFieldType f.type ∧ s.schemaTypes f.type = some .input) ∨
      ∃ a ∈ f.arguments, fixupInputField s a = .error e) := by
  obtain ⟨m1, m2, m3⟩ := markField_same ifs acc f
  unfold fixupOutputField at h
  simp only [m1, m2] at h
  split at h
  · cases h
  · rename_i hb
    refine ⟨hb, ?_⟩
    have args : ∀ (e' : LoadError), mapExcept (fixupInputField s) f.arguments = .error e' →
        ∃ a ∈ f.arguments, fixupInputField s a = .error e' := fun e' h => mapExcept_error h
    split at h
    · rename_i hs
      cases h
      exact .inl ⟨rfl, hs⟩
    all_goals first
      | (rename_i hs
         cases h
         exact .inr (.inl ⟨rfl, hs⟩))
      | (split at h
         · rename_i e' he'
           cases h
           exact .inr (.inr (args _ he'))
         · cases h)

/-- A field is fixed if it is valid. -/
theorem fixupOutputField_valid {s : Loader} {ifs : Option (List Str)} {acc : Option Str} {f : OutputField} (hf : Raw f) :
    (∃ f', fixupOutputField s ifs acc f = .ok f') ↔ ValidField s f := by
  constructor
  · rintro ⟨f', h⟩
    obtain ⟨k, args, h1, h2, _⟩ := (fixupOutputField_ok hf).1 h
    refine ⟨⟨k, h1⟩, ?_⟩
    intro a ha
    unfold checkedArguments at ha
    split at ha
    · cases ha
    · rename_i hb
      rw [if_neg hb] at h2
      obtain ⟨b, _, hab⟩ := forall₂_mem_left h2 a ha
      exact ⟨_, hab.1⟩
  · rintro ⟨⟨k, hk⟩, ha⟩
    cases h : fixupOutputField s ifs acc f with
    | ok f' => exact ⟨f', rfl⟩
    | error e =>
      obtain ⟨hb, h⟩ := fixupOutputField_error h
      rcases h with ⟨_, h⟩ | ⟨_, h⟩ | ⟨a, ham, h⟩
      · cases hk <;> simp_all
      · cases hk <;> simp_all
      · obtain ⟨k', hk'⟩ := ha a (by rw [checkedArguments, if_neg hb]; exact ham)
        obtain ⟨_, h | ⟨k'', _, h, hm⟩⟩ := fixupInputField_error h
        · cases hk' <;> simp_all
        · cases hk' <;> grind

end Verif.Gen
