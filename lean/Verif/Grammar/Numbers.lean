import Verif.Grammar.Lex

/-!
# Numbers

The rules `integer_value` and `float_value` match the tokens of the GraphQL specification, with one exception: a float
with both a fraction and an exponent is only matched up to the exponent.
-/
namespace Verif.Peg
open Verif.Value Verif.Text Rule

variable {sel : R → Sel}

/-- The rule `n` matches a part of `s`, makes the node `x` and leaves `t`. -/
def Matches (sel : R → Sel) (n : R) (s : Str) (x : Node R) (t : Str) : Prop :=
  ∃ fuel, run grammar sel fuel (.ref n) s = some (.ok [x] t)

theorem matches_iff {n : R} {s t : Str} {x : Node R} : Matches sel n s x t ↔ eval sel (.ref n) s = .ok [x] t :=
  eval_iff_run rfl s _

/-- What the text after an integer may not begin with: digits would belong to it, unless it is `0`. -/
def IntEnds (i t : Str) : Prop := i = str "0" ∨ i = str "-0" ∨ Ends isDigit t

theorem sub_one_ok {p : Byte → Bool} {n : R} (hn : sel n = .discard) (hg : grammar n = .one p) {s t : Str}
    {xs : List (Node R)} : eval sel (.ref n) s = .ok xs t ↔ xs = [] ∧ ∃ c, s = c :: t ∧ p c = true := by
  rw [ref_discard_ok hn, hg, one_ok]
  constructor
  · rintro ⟨c, h1, h2, h3⟩; exact ⟨h3, c, h1, h2⟩
  · rintro ⟨h3, c, h1, h2⟩; exact ⟨c, h1, h2, h3⟩

theorem digit_cases : ∀ c : Byte, isDigit c = true → c ≠ 0x30 → (0x31 ≤ c.toNat && c.toNat ≤ 0x39) = true := by
  decide +kernel
theorem nonzero_digit_iff : ∀ c : Byte, (0x31 ≤ c.toNat && c.toNat ≤ 0x39) = true → isDigit c = true ∧ c ≠ 0x30 := by
  decide +kernel

/-- `sor<zero_digit, seq<nonzero_digit, star<digit>>>` -/
theorem unsigned_ok (hs : Sels sel) {s t : Str} {xs : List (Node R)} :
    eval sel (.sor (.ref .zero_digit) (.seq (.ref .nonzero_digit) (.star Rule.digit))) s = .ok xs t ↔
      xs = [] ∧ (s = 0x30 :: t ∨ ∃ c d, s = c :: d ++ t ∧ isDigit c = true ∧ c ≠ 0x30 ∧
        (∀ x ∈ d, isDigit x = true) ∧ Ends isDigit t) := by
  constructor
  · intro h
    rcases sor_ok.1 h with h | ⟨_, h⟩
    · rw [ref_discard_ok (hs.at ⟨rfl, rfl⟩)] at h
      obtain ⟨rfl, rfl⟩ := chr_ok.1 h
      exact ⟨rfl, .inl rfl⟩
    · obtain ⟨_, u, _, h1, h2, rfl⟩ := seq_ok.1 h
      obtain ⟨rfl, c, rfl, hc⟩ := (sub_one_ok (hs.at ⟨rfl, rfl⟩) rfl).1 h1
      obtain ⟨rfl, d, rfl, hd, he⟩ := star_one_ok.1 h2
      obtain ⟨h3, h4⟩ := nonzero_digit_iff c hc
      exact ⟨rfl, .inr ⟨c, d, rfl, h3, h4, hd, he⟩⟩
  · rintro ⟨rfl, rfl | ⟨c, d, rfl, h3, h4, hd, he⟩⟩
    · exact sor_ok.2 (.inl ((ref_discard_ok (hs.at ⟨rfl, rfl⟩)).2 (chr_ok.2 ⟨rfl, rfl⟩)))
    · refine sor_ok.2 (.inr ⟨?_, seq_ok.2 ⟨[], d ++ t, [], ?_, star_one_ok.2 ⟨rfl, d, rfl, hd, he⟩, rfl⟩⟩)
      · refine ref_fail.2 (chr_fail.2 fun u e => ?_)
        cases e; exact h4 rfl
      · exact (sub_one_ok (hs.at ⟨rfl, rfl⟩) rfl).2 ⟨rfl, c, rfl, digit_cases c h3 h4⟩

theorem integer_ok (hs : Sels sel) {s t : Str} {xs : List (Node R)} :
    eval sel G.integer_part s = .ok xs t ↔ xs = [] ∧ ∃ i, s = i ++ t ∧ IntPart i ∧ IntEnds i t := by
  show eval sel (.seq (.opt (.ref .negative_sign)) (.sor (.ref .zero_digit) (.seq (.ref .nonzero_digit) (.star Rule.digit)))) s
    = _ ↔ _
  rw [seq_ok]
  constructor
  · rintro ⟨_, u, _, h1, h2, rfl⟩
    obtain ⟨rfl, h2'⟩ := (unsigned_ok hs).1 h2
    clear h2
    rcases opt_ok.1 h1 with h1 | ⟨_, rfl, rfl⟩
    · rw [ref_discard_ok (hs.at ⟨rfl, rfl⟩)] at h1
      obtain ⟨rfl, rfl⟩ := chr_ok.1 h1
      refine ⟨rfl, ?_⟩
      rcases h2' with rfl | ⟨c, d, rfl, h3, h4, hd, he⟩
      · exact ⟨str "-0", rfl, .negZero, .inr (.inl rfl)⟩
      · exact ⟨0x2D :: c :: d, rfl, .neg h3 h4 hd, .inr (.inr he)⟩
    · refine ⟨rfl, ?_⟩
      rcases h2' with rfl | ⟨c, d, rfl, h3, h4, hd, he⟩
      · exact ⟨str "0", rfl, .zero, .inl rfl⟩
      · exact ⟨c :: d, rfl, .pos h3 h4 hd, .inr (.inr he)⟩
  · rintro ⟨rfl, i, rfl, hi, he⟩
    have hsign : ∀ u, eval sel (.opt (.ref .negative_sign)) (0x2D :: u) = .ok [] u := fun u =>
      opt_ok.2 (.inl ((ref_discard_ok (hs.at ⟨rfl, rfl⟩)).2 (chr_ok.2 ⟨rfl, rfl⟩)))
    have hno : ∀ c u, isDigit c = true → eval sel (.opt (.ref .negative_sign)) (c :: u) = .ok [] (c :: u) := by
      intro c u hc
      refine opt_ok.2 (.inr ⟨ref_fail.2 (chr_fail.2 fun v e => ?_), rfl, rfl⟩)
      cases e
      exact absurd hc (by decide)
    cases hi with
    | zero => exact ⟨[], _, [], hno 0x30 t (by decide), (unsigned_ok hs).2 ⟨rfl, .inl rfl⟩, rfl⟩
    | negZero => exact ⟨[], _, [], hsign (0x30 :: t), (unsigned_ok hs).2 ⟨rfl, .inl rfl⟩, rfl⟩
    | @pos c d h1 h2 h3 =>
      have : Ends isDigit t := by
        rcases he with e | e | e
        · cases e; exact absurd rfl h2
        · cases e
          exact absurd h1 (by decide)
        · exact e
      exact ⟨[], _, [], hno c (d ++ t) h1, (unsigned_ok hs).2 ⟨rfl, .inr ⟨c, d, rfl, h1, h2, h3, this⟩⟩, rfl⟩
    | @neg c d h1 h2 h3 =>
      have : Ends isDigit t := by
        rcases he with e | e | e
        · cases e
        · cases e
          exact absurd rfl h2
        · exact e
      exact ⟨[], _, [], hsign (c :: d ++ t), (unsigned_ok hs).2 ⟨rfl, .inr ⟨c, d, rfl, h1, h2, h3, this⟩⟩, rfl⟩

theorem fraction_ok (hs : Sels sel) {s t : Str} {xs : List (Node R)} :
    eval sel (.ref .fractional_part) s = .ok xs t ↔ xs = [] ∧ ∃ f, s = f ++ t ∧ Fraction f ∧ Ends isDigit t := by
  rw [ref_discard_ok (hs.at ⟨rfl, rfl⟩)]
  show eval sel (.seq (Rule.chr '.') (need .fractional_part_content)) s = _ ↔ _
  rw [seq_ok]
  constructor
  · rintro ⟨_, u, _, h1, h2, rfl⟩
    obtain ⟨rfl, rfl⟩ := chr_ok.1 h1
    rw [need_ok, ref_discard_ok (hs.at ⟨rfl, rfl⟩)] at h2
    obtain ⟨rfl, d, hne, rfl, hd, he⟩ := plus_one_ok.1 h2
    exact ⟨rfl, 0x2E :: d, rfl, ⟨d, ⟨hne, hd⟩, rfl⟩, he⟩
  · rintro ⟨rfl, _, rfl, ⟨d, ⟨hne, hd⟩, rfl⟩, he⟩
    refine ⟨[], d ++ t, [], chr_ok.2 ⟨rfl, rfl⟩, ?_, rfl⟩
    rw [need_ok, ref_discard_ok (hs.at ⟨rfl, rfl⟩)]
    exact plus_one_ok.2 ⟨rfl, d, hne, rfl, hd, he⟩

theorem sign_iff : ∀ c : Byte, (str "+-").contains c = true ↔ c = 0x2B ∨ c = 0x2D := by decide +kernel
theorem exp_iff : ∀ c : Byte, (str "eE").contains c = true ↔ c = 0x65 ∨ c = 0x45 := by decide +kernel

theorem exponent_ok (hs : Sels sel) {s t : Str} {xs : List (Node R)} :
    eval sel (.ref .exponent_part) s = .ok xs t ↔ xs = [] ∧ ∃ e, s = e ++ t ∧ Exponent e ∧ Ends isDigit t := by
  rw [ref_discard_ok (hs.at ⟨rfl, rfl⟩)]
  show eval sel (.seq (.ref .exponent_indicator) (need .exponent_part_content)) s = _ ↔ _
  have hcontent : ∀ {s t : Str} {xs : List (Node R)}, eval sel (need .exponent_part_content) s = .ok xs t ↔
      xs = [] ∧ ∃ sign d, (sign = [] ∨ sign = str "+" ∨ sign = str "-") ∧ Digits d ∧ s = sign ++ d ++ t ∧ Ends isDigit t := by
    intro s t xs
    rw [need_ok, ref_discard_ok (hs.at ⟨rfl, rfl⟩)]
    show eval sel (.seq (.opt (.ref .sign)) (Rule.plus Rule.digit)) s = _ ↔ _
    rw [seq_ok]
    constructor
    · rintro ⟨_, u, _, h1, h2, rfl⟩
      obtain ⟨rfl, d, hne, rfl, hd, he⟩ := plus_one_ok.1 h2
      rcases opt_ok.1 h1 with h1 | ⟨_, rfl, rfl⟩
      · obtain ⟨rfl, c, rfl, hc⟩ := (sub_one_ok (hs.at ⟨rfl, rfl⟩) rfl).1 h1
        rcases (sign_iff c).1 hc with rfl | rfl
        · exact ⟨rfl, str "+", d, .inr (.inl rfl), ⟨hne, hd⟩, rfl, he⟩
        · exact ⟨rfl, str "-", d, .inr (.inr rfl), ⟨hne, hd⟩, rfl, he⟩
      · exact ⟨rfl, [], d, .inl rfl, ⟨hne, hd⟩, rfl, he⟩
    · rintro ⟨rfl, sign, d, hsign, ⟨hne, hd⟩, rfl, he⟩
      refine ⟨[], d ++ t, [], ?_, plus_one_ok.2 ⟨rfl, d, hne, rfl, hd, he⟩, rfl⟩
      rcases hsign with rfl | rfl | rfl
      · refine opt_ok.2 (.inr ⟨ref_fail.2 (one_fail.2 fun c u e => ?_), rfl, rfl⟩)
        cases d with
        | nil => exact absurd rfl hne
        | cons x d =>
          have hx := hd x (by simp)
          have e' : x = c := (List.cons.inj e).1
          subst e'
          clear hd he e hne
          revert hx
          revert x
          decide +kernel
      · exact opt_ok.2 (.inl ((sub_one_ok (hs.at ⟨rfl, rfl⟩) rfl).2 ⟨rfl, 0x2B, rfl, by decide⟩))
      · exact opt_ok.2 (.inl ((sub_one_ok (hs.at ⟨rfl, rfl⟩) rfl).2 ⟨rfl, 0x2D, rfl, by decide⟩))
  rw [seq_ok]
  constructor
  · rintro ⟨_, u, _, h1, h2, rfl⟩
    obtain ⟨rfl, c, rfl, hc⟩ := (sub_one_ok (hs.at ⟨rfl, rfl⟩) rfl).1 h1
    obtain ⟨rfl, sign, d, h3, h4, rfl, he⟩ := hcontent.1 h2
    exact ⟨rfl, c :: sign ++ d, by simp, ⟨c, sign, d, (exp_iff c).1 hc, h3, h4, rfl⟩, he⟩
  · rintro ⟨rfl, _, rfl, ⟨c, sign, d, hc, h3, h4, rfl⟩, he⟩
    refine ⟨[], sign ++ d ++ t, [], ?_, hcontent.2 ⟨rfl, sign, d, h3, h4, rfl, he⟩, rfl⟩
    exact (sub_one_ok (hs.at ⟨rfl, rfl⟩) rfl).2 ⟨rfl, c, by simp, (exp_iff c).2 hc⟩

theorem not_digit_dot : isDigit 0x2E = false := by decide
theorem not_digit_e : ∀ c : Byte, c = 0x65 ∨ c = 0x45 → isDigit c = false := by decide +kernel

theorem fraction_ends {f t : Str} (h : Fraction f) : Ends isDigit (f ++ t) := by
  obtain ⟨d, _, rfl⟩ := h
  intro c u e
  cases e
  exact not_digit_dot

theorem exponent_ends {f t : Str} (h : Exponent f) : Ends isDigit (f ++ t) := by
  obtain ⟨c, sign, d, hc, _, _, rfl⟩ := h
  intro x u e
  cases e
  exact not_digit_e _ hc

theorem float_ok (hs : Sels sel) {s t : Str} {xs : List (Node R)} :
    eval sel (grammar .float_value) s = .ok xs t ↔
      xs = [] ∧ ∃ i f, s = i ++ f ++ t ∧ IntPart i ∧ (Fraction f ∨ Exponent f) ∧ Ends isDigit t := by
  show eval sel (.seq (.ref .integer_part) (.sor (.ref .fractional_part) (.sor (.ref .exponent_part)
    (.seq (.ref .fractional_part) (.ref .exponent_part))))) s = _ ↔ _
  rw [seq_ok]
  constructor
  · rintro ⟨_, u, _, h1, h2, rfl⟩
    rw [ref_discard_ok (hs.at ⟨rfl, rfl⟩)] at h1
    obtain ⟨rfl, i, rfl, hi, _⟩ := (integer_ok hs).1 h1
    rcases sor_ok.1 h2 with h2 | ⟨hf, h2⟩
    · obtain ⟨rfl, f, rfl, h3, h4⟩ := (fraction_ok hs).1 h2
      exact ⟨rfl, i, f, by simp, hi, .inl h3, h4⟩
    · rcases sor_ok.1 h2 with h2 | ⟨_, h2⟩
      · obtain ⟨rfl, f, rfl, h3, h4⟩ := (exponent_ok hs).1 h2
        exact ⟨rfl, i, f, by simp, hi, .inr h3, h4⟩
      · obtain ⟨_, _, _, h3, _, _⟩ := seq_ok.1 h2
        rw [hf] at h3; cases h3
  · rintro ⟨rfl, i, f, rfl, hi, hf, he⟩
    refine ⟨[], f ++ t, [], ?_, ?_, rfl⟩
    · rw [ref_discard_ok (hs.at ⟨rfl, rfl⟩)]
      refine (integer_ok hs).2 ⟨rfl, i, by simp, hi, .inr (.inr ?_)⟩
      rcases hf with hf | hf
      · exact fraction_ends hf
      · exact exponent_ends hf
    · rcases hf with hf | hf
      · exact sor_ok.2 (.inl ((fraction_ok hs).2 ⟨rfl, f, rfl, hf, he⟩))
      · refine sor_ok.2 (.inr ⟨?_, sor_ok.2 (.inl ((exponent_ok hs).2 ⟨rfl, f, rfl, hf, he⟩))⟩)
        obtain ⟨c, sign, d, hc, _, _, rfl⟩ := hf
        refine ref_fail.2 (seq_fail.2 (.inl (chr_fail.2 fun u e => ?_)))
        cases e
        rcases hc with hc | hc <;> cases hc

/-- What makes an integer a float. -/
def floatStart (c : Byte) : Bool := c == 0x2E || c == 0x65 || c == 0x45

theorem store_rule {n : R} {s t : Str} {x : Node R} (hn : sel n = .store) (h : eval sel (.ref n) s = .ok [x] t) :
    x.rule = n := by
  obtain ⟨ys, _, e⟩ := (ref_store_ok hn).1 h
  cases e; rfl

/-- The first byte of a number. -/
theorem number_start {i : Str} (h : IntPart i) (t : Str) : ∃ c u, i ++ t = c :: u ∧ (isDigit c = true ∨ c = 0x2D) := by
  cases h with
  | zero => exact ⟨0x30, t, rfl, .inl (by decide)⟩
  | negZero => exact ⟨0x2D, 0x30 :: t, rfl, .inr rfl⟩
  | pos h1 _ _ => exact ⟨_, _, rfl, .inl h1⟩
  | neg _ _ _ => exact ⟨_, _, rfl, .inr rfl⟩

theorem not_number_dead : ∀ c : Byte, isDigit c = true ∨ c = 0x2D →
    dead 40 (.ref .list_value) [c] false = true ∧ dead 40 (.ref .object_value) [c] false = true ∧
    dead 40 (.ref .variable_value) [c] false = true := by decide +kernel

theorem float_fails (hs : Sels sel) {i t : Str} (hi : IntPart i) (he : IntEnds i t) (ht : Ends floatStart t) :
    eval sel (.ref .float_value) (i ++ t) = .fail := by
  refine ref_fail.2 ?_
  show eval sel (.seq (.ref .integer_part) (.sor (.ref .fractional_part) (.sor (.ref .exponent_part)
    (.seq (.ref .fractional_part) (.ref .exponent_part))))) (i ++ t) = _
  refine seq_fail.2 (.inr ⟨[], t, (ref_discard_ok (hs.at ⟨rfl, rfl⟩)).2 ((integer_ok hs).2 ⟨rfl, i, rfl, hi, he⟩), ?_⟩)
  have h1 : eval sel (.ref .fractional_part) t = .fail := by
    refine ref_fail.2 (seq_fail.2 (.inl (chr_fail.2 ?_)))
    rintro u rfl
    exact absurd (ht _ _ rfl) (by decide)
  have h2 : eval sel (.ref .exponent_part) t = .fail := by
    refine ref_fail.2 (seq_fail.2 (.inl (ref_fail.2 (one_fail.2 ?_))))
    rintro c u rfl
    have := ht _ _ rfl
    clear ht he h1
    revert this
    revert c
    decide +kernel
  exact sor_fail.2 ⟨h1, sor_fail.2 ⟨h2, seq_fail.2 (.inl h1)⟩⟩

/-- The two kinds of numbers as values. -/
theorem integer_value_ok (hs : Sels sel) {s t : Str} {x : Node R} :
    Matches sel .input_value_content s x t ∧ x.rule = .integer_value ↔
      ∃ i, s = i ++ t ∧ x = .mk .integer_value s.length i [] ∧ IntPart i ∧ IntEnds i t ∧ Ends floatStart t := by
  rw [matches_iff, ref_discard_ok (hs.at ⟨rfl, rfl⟩)]
  constructor
  · rintro ⟨h, hx⟩
    rcases sor_ok.1 h with h | ⟨h1, h⟩
    · rw [store_rule (hs.at ⟨rfl, rfl⟩) h] at hx; cases hx
    rcases sor_ok.1 h with h | ⟨h2, h⟩
    · rw [store_rule (hs.at ⟨rfl, rfl⟩) h] at hx; cases hx
    rcases sor_ok.1 h with h | ⟨h3, h⟩
    · rw [store_rule (hs.at ⟨rfl, rfl⟩) h] at hx; cases hx
    rcases sor_ok.1 h with h | ⟨h4, h⟩
    · rw [store_rule (hs.at ⟨rfl, rfl⟩) h] at hx; cases hx
    rcases sor_ok.1 h with h | ⟨h5, h⟩
    · obtain ⟨ys, h6, e⟩ := (ref_store_ok (hs.at ⟨rfl, rfl⟩)).1 h
      obtain ⟨rfl, i, rfl, hi, he⟩ := (integer_ok hs).1 h6
      rw [consumed_append] at e
      refine ⟨i, rfl, List.singleton_inj.1 e, hi, he, ?_⟩
      rintro c u rfl
      by_contra hc
      have h7 := ref_fail.1 h4
      rcases seq_fail.1 h7 with h7 | ⟨_, v, h7, h8⟩
      · have := (ref_discard_ok (sel := sel) (n := .integer_part) (hs.at ⟨rfl, rfl⟩)).2 h6
        rw [h7] at this; cases this
      · rw [ref_discard_ok (hs.at ⟨rfl, rfl⟩)] at h7
        have h9 : eval sel G.integer_part (i ++ c :: u) = .ok [] (c :: u) := h6
        have h10 : eval sel G.integer_part (i ++ c :: u) = .ok _ v := h7
        rw [h9] at h10
        cases h10
        have h11 := (sor_fail.1 h8).1
        have h12 := (sor_fail.1 (sor_fail.1 h8).2).1
        have : c = 0x2E ∨ (str "eE").contains c = true := by
          rw [exp_iff]
          simp only [floatStart, Bool.not_eq_false, Bool.or_eq_true, beq_iff_eq, or_assoc] at hc
          exact hc
        rcases this with rfl | hc
        · rcases seq_fail.1 (ref_fail.1 h11) with h | ⟨_, _, _, h⟩
          · exact chr_fail.1 h u rfl
          · exact must_fail h
        · rcases seq_fail.1 (ref_fail.1 h12) with h | ⟨_, _, _, h⟩
          · have := one_fail.1 (ref_fail.1 h) c u rfl
            rw [hc] at this; cases this
          · exact must_fail h
    rcases sor_ok.1 h with h | ⟨h6, h⟩
    · rw [store_rule (hs.at ⟨rfl, rfl⟩) h] at hx; cases hx
    rcases sor_ok.1 h with h | ⟨h7, h⟩
    · rw [ref_discard_ok (hs.at ⟨rfl, rfl⟩)] at h
      rcases sor_ok.1 h with h | ⟨_, h⟩
      · rw [store_rule (hs.at ⟨rfl, rfl⟩) h] at hx; cases hx
      · rw [store_rule (hs.at ⟨rfl, rfl⟩) h] at hx; cases hx
    rcases sor_ok.1 h with h | ⟨h8, h⟩
    · rw [store_rule (hs.at ⟨rfl, rfl⟩) h] at hx; cases hx
    · rw [store_rule (hs.at ⟨rfl, rfl⟩) h] at hx; cases hx
  · rintro ⟨i, rfl, rfl, hi, he, ht⟩
    obtain ⟨c, u, e, hc⟩ := number_start hi t
    obtain ⟨d1, d2, d3⟩ := not_number_dead c hc
    refine ⟨?_, rfl⟩
    refine sor_ok.2 (.inr ⟨by rw [e]; exact dead_cons d1, sor_ok.2 (.inr ⟨by rw [e]; exact dead_cons d2,
      sor_ok.2 (.inr ⟨by rw [e]; exact dead_cons d3, sor_ok.2 (.inr ⟨float_fails hs hi he ht, sor_ok.2 (.inl ?_)⟩)⟩)⟩)⟩)
    refine (ref_store_ok (hs.at ⟨rfl, rfl⟩)).2 ⟨[], (integer_ok hs).2 ⟨rfl, i, rfl, hi, he⟩, ?_⟩
    rw [consumed_append]

theorem float_value_ok (hs : Sels sel) {s t : Str} {x : Node R} :
    Matches sel .input_value_content s x t ∧ x.rule = .float_value ↔
      ∃ i f, s = i ++ f ++ t ∧ x = .mk .float_value s.length (i ++ f) [] ∧ IntPart i ∧ (Fraction f ∨ Exponent f) ∧
        Ends isDigit t := by
  rw [matches_iff, ref_discard_ok (hs.at ⟨rfl, rfl⟩)]
  constructor
  · rintro ⟨h, hx⟩
    rcases sor_ok.1 h with h | ⟨h1, h⟩
    · rw [store_rule (hs.at ⟨rfl, rfl⟩) h] at hx; cases hx
    rcases sor_ok.1 h with h | ⟨h2, h⟩
    · rw [store_rule (hs.at ⟨rfl, rfl⟩) h] at hx; cases hx
    rcases sor_ok.1 h with h | ⟨h3, h⟩
    · rw [store_rule (hs.at ⟨rfl, rfl⟩) h] at hx; cases hx
    rcases sor_ok.1 h with h | ⟨h4, h⟩
    · obtain ⟨ys, h6, e⟩ := (ref_store_ok (hs.at ⟨rfl, rfl⟩)).1 h
      obtain ⟨rfl, i, f, rfl, hi, hf, he⟩ := (float_ok hs).1 h6
      rw [consumed_append] at e
      exact ⟨i, f, rfl, List.singleton_inj.1 e, hi, hf, he⟩
    rcases sor_ok.1 h with h | ⟨h5, h⟩
    · rw [store_rule (hs.at ⟨rfl, rfl⟩) h] at hx; cases hx
    rcases sor_ok.1 h with h | ⟨h6, h⟩
    · rw [store_rule (hs.at ⟨rfl, rfl⟩) h] at hx; cases hx
    rcases sor_ok.1 h with h | ⟨h7, h⟩
    · rw [ref_discard_ok (hs.at ⟨rfl, rfl⟩)] at h
      rcases sor_ok.1 h with h | ⟨_, h⟩
      · rw [store_rule (hs.at ⟨rfl, rfl⟩) h] at hx; cases hx
      · rw [store_rule (hs.at ⟨rfl, rfl⟩) h] at hx; cases hx
    rcases sor_ok.1 h with h | ⟨h8, h⟩
    · rw [store_rule (hs.at ⟨rfl, rfl⟩) h] at hx; cases hx
    · rw [store_rule (hs.at ⟨rfl, rfl⟩) h] at hx; cases hx
  · rintro ⟨i, f, rfl, rfl, hi, hf, he⟩
    obtain ⟨c, u, e, hc⟩ := number_start hi (f ++ t)
    rw [← List.append_assoc] at e
    obtain ⟨d1, d2, d3⟩ := not_number_dead c hc
    refine ⟨?_, rfl⟩
    refine sor_ok.2 (.inr ⟨by rw [e]; exact dead_cons d1, sor_ok.2 (.inr ⟨by rw [e]; exact dead_cons d2,
      sor_ok.2 (.inr ⟨by rw [e]; exact dead_cons d3, sor_ok.2 (.inl ?_)⟩)⟩)⟩)
    refine (ref_store_ok (hs.at ⟨rfl, rfl⟩)).2 ⟨[], (float_ok hs).2 ⟨rfl, i, f, rfl, hi, hf, he⟩, ?_⟩
    rw [consumed_append]

/-! ## The property -/

/-- What cannot come directly after a number: name characters, digits and `.`. -/
def numberCont (c : Byte) : Bool := nameCont c || c == 0x2E

theorem numberCont_digit : ∀ c : Byte, numberCont c = false → isDigit c = false ∧ floatStart c = false := by
  decide +kernel

theorem Matches.unique {n : R} {s t u : Str} {x y : Node R} (h1 : Matches sel n s x t) (h2 : Matches sel n s y u) :
    x = y ∧ t = u := by
  rw [matches_iff] at h1 h2
  rw [h1] at h2
  cases h2
  exact ⟨rfl, rfl⟩

/-- C35: before any text which cannot continue a number, `w` is read as an integer exactly if it is an `IntValue` of the
specification, and it is read completely. -/
theorem integer_literal (hs : Sels sel) (w t : Str) (ht : Ends numberCont t) :
    IntValue w ↔ ∃ x, Matches sel .input_value_content (w ++ t) x t ∧ x.rule = .integer_value ∧ x.content = w := by
  constructor
  · intro hi
    exact ⟨_, ((integer_value_ok hs).2 ⟨w, rfl, rfl, hi, .inr (.inr fun c u e => (numberCont_digit c (ht c u e)).1),
      fun c u e => (numberCont_digit c (ht c u e)).2⟩).1, rfl, rfl⟩
  · rintro ⟨x, h1, h2, h3⟩
    obtain ⟨i, e, rfl, hi, _, _⟩ := (integer_value_ok hs).1 ⟨h1, h2⟩
    rw [← h3]
    exact hi

/-- C35: before any text which cannot continue a number, `w` is read as a float exactly if it is a `FloatValue` of the
specification which has only a fraction or only an exponent, and it is read completely. -/
theorem float_literal (hs : Sels sel) (w t : Str) (ht : Ends numberCont t) :
    (∃ i f, w = i ++ f ∧ IntPart i ∧ (Fraction f ∨ Exponent f)) ↔
      ∃ x, Matches sel .input_value_content (w ++ t) x t ∧ x.rule = .float_value ∧ x.content = w := by
  constructor
  · rintro ⟨i, f, rfl, hi, hf⟩
    exact ⟨_, ((float_value_ok hs).2 ⟨i, f, rfl, rfl, hi, hf, fun c u e => (numberCont_digit c (ht c u e)).1⟩).1, rfl, rfl⟩
  · rintro ⟨x, h1, h2, h3⟩
    obtain ⟨i, f, e, rfl, hi, hf, _⟩ := (float_value_ok hs).1 ⟨h1, h2⟩
    exact ⟨i, f, h3.symm, hi, hf⟩

/-- C35: the tokens which are read as numbers are tokens of the specification. -/
theorem number_literal_spec (hs : Sels sel) {s t : Str} {x : Node R} (h : Matches sel .input_value_content s x t) :
    (x.rule = .integer_value → s = x.content ++ t ∧ IntValue x.content) ∧
    (x.rule = .float_value → s = x.content ++ t ∧ FloatValue x.content) := by
  constructor
  · intro hx
    obtain ⟨i, rfl, rfl, hi, _, _⟩ := (integer_value_ok hs).1 ⟨h, hx⟩
    exact ⟨rfl, hi⟩
  · intro hx
    obtain ⟨i, f, rfl, rfl, hi, hf, _⟩ := (float_value_ok hs).1 ⟨h, hx⟩
    refine ⟨rfl, ?_⟩
    rcases hf with hf | hf
    · exact .fraction hi hf
    · exact .exponent hi hf

/-- Finding: a float with a fraction and an exponent is never read as one value, whatever comes after it: the exponent is
left over. -/
theorem float_both (hs : Sels sel) {i f e t : Str} (hi : IntPart i) (hf : Fraction f) (he : Exponent e) :
    ∃ x, x.rule = .float_value ∧ x.content = i ++ f ∧
      Matches sel .input_value_content (i ++ f ++ e ++ t) x (e ++ t) ∧
      ¬ ∃ y, Matches sel .input_value_content (i ++ f ++ e ++ t) y t := by
  have h := ((float_value_ok hs).2 ⟨i, f, (by simp : i ++ f ++ e ++ t = i ++ f ++ (e ++ t)), rfl, hi, .inl hf,
    exponent_ends he⟩).1
  refine ⟨_, rfl, rfl, h, ?_⟩
  rintro ⟨y, hy⟩
  have := (h.unique hy).2
  obtain ⟨c, sign, d, _, _, _, rfl⟩ := he
  have := congrArg List.length this
  simp at this
  omega

example : IntValue (str "-120") := .neg (c := 0x31) (d := str "20") (by decide) (by decide) (by decide)
example : Fraction (str ".50") := ⟨str "50", ⟨by decide, by decide⟩, rfl⟩
example : Exponent (str "e-3") := ⟨0x65, str "-", str "3", .inl rfl, .inr (.inr rfl), ⟨by decide, by decide⟩, rfl⟩
example : Ends numberCont (str " }") := by rintro c u e; cases e; decide

end Verif.Peg
