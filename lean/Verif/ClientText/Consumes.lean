import Verif.ClientText.Spec

/-!
# What is written is never empty
-/
namespace Verif.Text
open Verif.Value Verif.Errors

/-- Every item in a text of less than `n` bytes is one byte or more. -/
def ConsumesBelow (n : Nat) {α : Type} (item : Str → α → Str → Prop) : Prop :=
  ∀ s x t, s.length < n → item s x t → ∃ p, p ≠ [] ∧ s = p ++ t

/-- Every item is one byte or more. -/
def Consumes {α : Type} (item : Str → α → Str → Prop) : Prop := ∀ s x t, item s x t → ∃ p, p ≠ [] ∧ s = p ++ t

theorem Consumes.below {α : Type} {item : Str → α → Str → Prop} (h : Consumes item) (n : Nat) : ConsumesBelow n item :=
  fun s x t _ => h s x t

theorem consumes_of_below {α : Type} {item : Str → α → Str → Prop} (h : ∀ n, ConsumesBelow n item) : Consumes item :=
  fun s x t hi => h (s.length + 1) s x t (Nat.lt_succ_self _) hi

theorem Skip.app {s t : Str} (h : Skip s t) : ∃ p, s = p ++ t := by obtain ⟨g, h, _⟩ := h; exact ⟨g, h⟩

theorem Space.skip {s t : Str} (h : Space s t) : Skip s t := by obtain ⟨g, _, h1, h2⟩ := h; exact ⟨g, h1, h2⟩

theorem consumes_name : Consumes Name := by
  rintro s n t ⟨⟨c, cs, rfl, _⟩, rfl⟩
  exact ⟨c :: cs, by simp, rfl⟩

theorem Consumes.ne {α : Type} {item : Str → α → Str → Prop} (hi : Consumes item) {s x t} (h : item s x t) : s ≠ [] := by
  obtain ⟨p, h1, rfl⟩ := hi _ _ _ h
  cases p <;> simp_all

theorem consumesBelow_sep {n : Nat} {α : Type} {gap : Str → Str → Prop} (hg : ∀ s t, gap s t → ∃ p, s = p ++ t)
    {item : Str → α → Str → Prop} (hi : ConsumesBelow n item) : ConsumesBelow n (Sep gap item) := by
  intro s x t hl h
  induction h with
  | one h => exact hi _ _ _ hl h
  | more h hg' _ ih =>
    obtain ⟨p, h1, rfl⟩ := hi _ _ _ hl h
    obtain ⟨q, rfl⟩ := hg _ _ hg'
    obtain ⟨r, _, rfl⟩ := ih (by simp only [List.length_append] at hl ⊢; omega)
    exact ⟨p ++ (q ++ r), by simp [h1], by simp⟩

theorem consumesBelow_between {n : Nat} {α : Type} {o c : Byte} {item : Str → α → Str → Prop} (hi : ConsumesBelow n item) :
    ConsumesBelow (n + 1) (Between o c item) := by
  rintro s x t hl ⟨h1, h2, h3⟩
  obtain ⟨p, rfl⟩ := h1.app
  obtain ⟨q, _, rfl⟩ := consumesBelow_sep (fun _ _ h => h.skip.app) hi _ _ _
    (by simp only [List.length_append, List.length_cons] at hl ⊢; omega) h2
  obtain ⟨r, rfl⟩ := h3.app
  exact ⟨o :: (p ++ (q ++ (r ++ [c]))), by simp, by simp⟩

theorem consumesBelow_pair {n : Nat} {α : Type} {item : Str → α → Str → Prop} (hi : ConsumesBelow n item) :
    ConsumesBelow n (Pair item) := by
  rintro s x t hl ⟨h1, h2, h3, h4⟩
  obtain ⟨p, hp, rfl⟩ := consumes_name _ _ _ h1
  obtain ⟨q, rfl⟩ := h2.app
  obtain ⟨r, rfl⟩ := h3.app
  obtain ⟨k, _, rfl⟩ := hi _ _ _ (by simp only [List.length_append, List.length_cons] at hl ⊢; omega) h4
  exact ⟨p ++ (q ++ ch ':' :: (r ++ k)), by simp [hp], by simp⟩

theorem consumes_sep {α : Type} {gap : Str → Str → Prop} (hg : ∀ s t, gap s t → ∃ p, s = p ++ t)
    {item : Str → α → Str → Prop} (hi : Consumes item) : Consumes (Sep gap item) :=
  consumes_of_below fun n => consumesBelow_sep hg (hi.below n)

theorem consumes_between {α : Type} {o c : Byte} {item : Str → α → Str → Prop} (hi : Consumes item) :
    Consumes (Between o c item) :=
  fun s x t h => consumesBelow_between (hi.below s.length) s x t (Nat.lt_succ_self _) h

theorem consumes_pair {α : Type} {item : Str → α → Str → Prop} (hi : Consumes item) : Consumes (Pair item) :=
  consumes_of_below fun n => consumesBelow_pair (hi.below n)

theorem opt_app {α : Type} {item : Str → α → Str → Prop} (hi : Consumes item) {s x t} (h : Opt item s x t) :
    ∃ p, s = p ++ t := by
  cases h with
  | none => exact ⟨[], rfl⟩
  | some h1 h2 =>
    obtain ⟨p, rfl⟩ := h1.app
    obtain ⟨q, _, rfl⟩ := hi _ _ _ h2
    exact ⟨p ++ q, by simp⟩

variable {pos : Nat → Loc} {atof : Str → Double}

theorem stringLit_ne {t w v : Str} (h : StringLit t w v) : w ≠ [] := by
  cases h <;> simp [str]

theorem consumes_value : Consumes (ValueText pos atof) := by
  refine consumes_of_below fun n => ?_
  induction n with
  | zero => intro s x t h; omega
  | succ n ih =>
  intro s x t hl h
  cases h with
  | @«variable» _ m _ e hm => exact ⟨ch '$' :: m, by simp, by simpa using e⟩
  | @int w _ hi => exact ⟨w, by cases hi <;> simp [str], rfl⟩
  | @float i f _ hi hf => exact ⟨i ++ f, by cases hi <;> simp [str], rfl⟩
  | string h => exact ⟨_, stringLit_ne h, rfl⟩
  | true => exact ⟨str "true", by decide +kernel, rfl⟩
  | false => exact ⟨str "false", by decide +kernel, rfl⟩
  | null => exact ⟨str "null", by decide +kernel, rfl⟩
  | enum h => exact consumes_name _ _ _ h
  | emptyList h => obtain ⟨p, rfl⟩ := h.app; exact ⟨ch '[' :: (p ++ [ch ']']), by simp, by simp⟩
  | emptyObject h => obtain ⟨p, rfl⟩ := h.app; exact ⟨ch '{' :: (p ++ [ch '}']), by simp, by simp⟩
  | list h => exact consumesBelow_between ih _ _ _ hl h
  | object h => exact consumesBelow_between (consumesBelow_pair ih) _ _ _ hl h

theorem consumes_arguments : Consumes (ArgumentsText pos atof) := consumes_between (consumes_pair consumes_value)

theorem consumes_directive : Consumes (DirectiveText pos atof) := by
  rintro s x t ⟨hn, h⟩
  obtain ⟨p, rfl⟩ := opt_app consumes_arguments h
  exact ⟨ch '@' :: (_ ++ p), by simp, by simp; rfl⟩

theorem consumes_directives : Consumes (DirectivesText pos atof) :=
  consumes_sep (fun _ _ h => h.skip.app) consumes_directive

theorem consumes_type : Consumes TypeText := by
  intro s x t h
  induction h with
  | named h => exact consumes_name _ _ _ h
  | list h1 _ h3 ih =>
    obtain ⟨p, rfl⟩ := h1.app
    obtain ⟨q, _, rfl⟩ := ih
    obtain ⟨r, rfl⟩ := h3.app
    exact ⟨ch '[' :: (p ++ (q ++ (r ++ [ch ']']))), by simp, by simp⟩
  | nonNull _ _ h3 ih =>
    obtain ⟨q, hq, rfl⟩ := ih
    obtain ⟨r, rfl⟩ := h3.app
    exact ⟨q ++ (r ++ [ch '!']), by simp, by simp⟩

theorem consumes_default : Consumes (DefaultText pos atof) := by
  rintro s x t ⟨h1, h2⟩
  obtain ⟨p, rfl⟩ := h1.app
  obtain ⟨q, _, rfl⟩ := consumes_value _ _ _ h2
  exact ⟨ch '=' :: (p ++ q), by simp, by simp⟩

theorem consumes_variable : Consumes (VariableText pos atof) := by
  rintro s x t ⟨hn, h1, h2, h3, h4⟩
  obtain ⟨p, rfl⟩ := h1.app
  obtain ⟨q, rfl⟩ := h2.app
  obtain ⟨r, _, rfl⟩ := consumes_type _ _ _ h3
  obtain ⟨k, rfl⟩ := opt_app consumes_default h4
  exact ⟨ch '$' :: (_ ++ (p ++ ch ':' :: (q ++ (r ++ k)))), by simp, by simp; rfl⟩

theorem alias_app {s a t} (h : AliasText s a t) : ∃ p, s = p ++ t := by
  cases h with
  | none => exact ⟨[], rfl⟩
  | some h1 h2 h3 =>
    obtain ⟨p, _, rfl⟩ := consumes_name _ _ _ h1
    obtain ⟨q, rfl⟩ := h2.app
    obtain ⟨r, rfl⟩ := h3.app
    exact ⟨p ++ (q ++ ch ':' :: r), by simp⟩

theorem consumes_field : Consumes (FieldText pos atof) := by
  rintro s x t ⟨h1, h2, h3, h4⟩
  obtain ⟨p, rfl⟩ := alias_app h1
  obtain ⟨q, hq, rfl⟩ := consumes_name _ _ _ h2
  obtain ⟨r, rfl⟩ := opt_app consumes_arguments h3
  obtain ⟨k, rfl⟩ := opt_app consumes_directives h4
  exact ⟨p ++ (q ++ (r ++ k)), by simp [hq], by simp⟩

theorem consumes_condition : Consumes ConditionText := by
  rintro s x t ⟨h1, h2⟩
  obtain ⟨p, rfl⟩ := h1.skip.app
  obtain ⟨q, _, rfl⟩ := consumes_name _ _ _ h2
  exact ⟨str "on" ++ (p ++ q), by simp [str], by simp⟩

theorem consumes_selection : Consumes (SelectionText pos atof) := by
  refine consumes_of_below fun n => ?_
  induction n with
  | zero => intro s x t h; omega
  | succ n ih =>
  intro s x t hl h
  cases h with
  | leaf h => exact consumes_field _ _ _ h
  | node h1 h2 h3 =>
    obtain ⟨p, hp, rfl⟩ := consumes_field _ _ _ h1
    obtain ⟨q, rfl⟩ := h2.app
    obtain ⟨r, _, rfl⟩ := consumesBelow_between ih _ _ _ (by simp only [List.length_append] at hl ⊢; omega) h3
    exact ⟨p ++ (q ++ r), by simp [hp], by simp⟩
  | spread h1 h2 _ h4 =>
    obtain ⟨p, rfl⟩ := h1.app
    obtain ⟨q, _, rfl⟩ := consumes_name _ _ _ h2
    obtain ⟨r, rfl⟩ := opt_app consumes_directives h4
    exact ⟨str "..." ++ (p ++ (q ++ r)), by simp [str], by simp⟩
  | inline h1 h2 h3 h4 =>
    obtain ⟨p, rfl⟩ := opt_app consumes_condition h1
    obtain ⟨q, rfl⟩ := opt_app consumes_directives h2
    obtain ⟨r, rfl⟩ := h3.app
    obtain ⟨k, _, rfl⟩ := consumesBelow_between ih _ _ _ (by simp only [List.length_append] at hl ⊢; omega) h4
    exact ⟨str "..." ++ (p ++ (q ++ (r ++ k))), by simp [str], by simp⟩

theorem consumes_set : Consumes (SelectionSetText pos atof) := consumes_between consumes_selection

theorem operationName_app {s a t} (h : OperationNameText s a t) : ∃ p, s = p ++ t := by
  cases h with
  | none => exact ⟨[], rfl⟩
  | some h1 h2 =>
    obtain ⟨p, rfl⟩ := h1.skip.app
    obtain ⟨q, _, rfl⟩ := consumes_name _ _ _ h2
    exact ⟨p ++ q, by simp⟩

theorem variables_app {s a t} (h : VariablesText pos atof s a t) : ∃ p, s = p ++ t := by
  cases h with
  | none => exact ⟨[], rfl⟩
  | some h1 h2 =>
    obtain ⟨p, rfl⟩ := h1.app
    obtain ⟨q, _, rfl⟩ := consumes_between consumes_variable _ _ _ h2
    exact ⟨p ++ q, by simp⟩

theorem consumes_definition : Consumes (DefinitionText pos atof) := by
  rintro s x t h
  cases h with
  | operation h =>
    cases h with
    | anonymous h => exact consumes_set _ _ _ h
    | keyword hk h0 h1 h2 h3 h4 h5 =>
      obtain ⟨p, rfl⟩ := operationName_app h1
      obtain ⟨q, rfl⟩ := variables_app h2
      obtain ⟨r, rfl⟩ := opt_app consumes_directives h3
      obtain ⟨k, rfl⟩ := h4.app
      obtain ⟨m, hm, rfl⟩ := consumes_set _ _ _ h5
      exact ⟨_ ++ (p ++ (q ++ (r ++ (k ++ m)))), by simp [hm], by rw [h0]; simp; rfl⟩
  | fragment h =>
    cases h with
    | mk h0 h1 h2 _ h3 h4 h5 h6 h7 =>
      obtain ⟨p, rfl⟩ := h1.skip.app
      obtain ⟨q, _, rfl⟩ := consumes_name _ _ _ h2
      obtain ⟨r, rfl⟩ := h3.skip.app
      obtain ⟨k, _, rfl⟩ := consumes_condition _ _ _ h4
      obtain ⟨a, rfl⟩ := opt_app consumes_directives h5
      obtain ⟨b, rfl⟩ := h6.app
      obtain ⟨m, hm, rfl⟩ := consumes_set _ _ _ h7
      exact ⟨str "fragment" ++ (p ++ (q ++ (r ++ (k ++ (a ++ (b ++ m)))))), by simp [str], by rw [h0]; simp⟩

end Verif.Text
