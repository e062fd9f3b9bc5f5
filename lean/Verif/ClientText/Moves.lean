import Verif.ClientText.Consumes

/-!
# Indented text

Every line of a text is moved to the right, except in strings.
-/
namespace Verif.ClientText
open Verif.Value Verif.Errors Verif.Text

/-- Two tabs at the beginning of every line but the first. -/
def indent (s : Str) : Str := s.flatMap fun c => if c = 0x0A then [0x0A, 0x09, 0x09] else [c]

theorem indent_nil : indent [] = [] := rfl
theorem indent_append (s t : Str) : indent (s ++ t) = indent s ++ indent t := List.flatMap_append
theorem indent_cons {c : Byte} (h : c ≠ 0x0A) (s : Str) : indent (c :: s) = c :: indent s := by
  unfold indent
  rw [List.flatMap_cons, if_neg h]
  rfl
theorem indent_lf (s : Str) : indent (0x0A :: s) = 0x0A :: 0x09 :: 0x09 :: indent s := by
  simp [indent]
theorem indent_plain {s : Str} (h : 0x0A ∉ s) : indent s = s := by
  induction s with
  | nil => rfl
  | cons c s ih =>
    simp only [List.mem_cons, not_or] at h
    rw [indent_cons (Ne.symm h.1), ih h.2]

/-- The text `t` after it was indented, where `w'` is in place of its end `w`. -/
def shift (w w' t : Str) : Str := indent (t.take (t.length - w.length)) ++ w'

theorem shift_end (w w' : Str) : shift w w' w = w' := by simp [shift, indent_nil]

variable {w w' full : Str}

theorem shift_append {p t : Str} (h : w.length ≤ t.length) : shift w w' (p ++ t) = indent p ++ shift w w' t := by
  unfold shift
  rw [← List.append_assoc, ← indent_append]
  congr 2
  rw [List.length_append, show p.length + t.length - w.length = p.length + (t.length - w.length) by omega,
    List.take_length_add_append]

theorem shift_plain {p t : Str} (h : w.length ≤ t.length) (hp : 0x0A ∉ p) : shift w w' (p ++ t) = p ++ shift w w' t := by
  rw [shift_append h, indent_plain hp]

theorem shift_cons {c : Byte} {t : Str} (h : w.length ≤ t.length) (hc : c ≠ 0x0A) :
    shift w w' (c :: t) = c :: shift w w' t :=
  shift_plain (p := [c]) h (by simpa using Ne.symm hc)

/-- The places of both texts. -/
structure Shifts (w w' full : Str) (pos pos' : Nat → Loc) (f : Loc → Loc) : Prop where
  quote : ¬ str "\"" <+: w'
  pos : ∀ t, t <:+ full → w.length ≤ t.length → pos' (shift w w' t).length = f (pos t.length)

/-! ## Tokens -/

theorem gap_indent {t t' g : Str} (h : Gap t g) (ht : t ≠ []) : Gap t' (indent g) := by
  induction h with
  | nil => exact .nil
  | @blank c g hc _ ih =>
    by_cases e : c = 0x0A
    · subst e
      rw [indent_lf]
      exact .blank hc (.blank (by decide +kernel) (.blank (by decide +kernel) ih))
    · rw [indent_cons e]
      exact .blank hc ih
  | @comment cs g hc _ ih =>
    rw [indent_append, indent_plain (by simpa using hc), indent_lf]
    exact .comment hc (.blank (by decide +kernel) (.blank (by decide +kernel) ih))
  | last _ h => exact absurd h ht

theorem skip_shift {s t : Str} (h : Skip s t) (ht : t ≠ []) (hl : w.length ≤ t.length) :
    Skip (shift w w' s) (shift w w' t) := by
  obtain ⟨g, rfl, hg⟩ := h
  exact ⟨indent g, shift_append hl, gap_indent hg ht⟩

theorem indent_ne {g : Str} (h : g ≠ []) : indent g ≠ [] := by
  cases g with
  | nil => exact absurd rfl h
  | cons c g =>
    by_cases e : c = 0x0A
    · subst e; rw [indent_lf]; simp
    · rw [indent_cons e]; simp

theorem space_shift {s t : Str} (h : Space s t) (ht : t ≠ []) (hl : w.length ≤ t.length) :
    Space (shift w w' s) (shift w w' t) := by
  obtain ⟨g, hn, rfl, hg⟩ := h
  exact ⟨indent g, indent_ne hn, shift_append hl, gap_indent hg ht⟩

theorem nameCont_lf {n : Str} (h : ∀ d ∈ n, nameCont d = true) : 0x0A ∉ n := fun hm => absurd (h _ hm) (by decide +kernel)

theorem isName_lf {n : Str} (h : IsName n) : 0x0A ∉ n := by
  obtain ⟨c, cs, rfl, hc, hcs⟩ := h
  refine nameCont_lf ?_
  intro d hd
  rcases List.mem_cons.1 hd with rfl | hd
  · simp [nameCont, hc]
  · exact hcs d hd

theorem name_shift {s n t : Str} (h : Name s n t) (hl : w.length ≤ t.length) : Name (shift w w' s) n (shift w w' t) := by
  obtain ⟨hn, rfl⟩ := h
  exact ⟨hn, shift_plain hl (isName_lf hn)⟩

theorem digits_lf {d : Str} (h : ∀ x ∈ d, isDigit x = true) : 0x0A ∉ d := fun hm => absurd (h _ hm) (by decide +kernel)

theorem intPart_lf {i : Str} (h : IntPart i) : 0x0A ∉ i := by
  cases h with
  | zero => decide +kernel
  | negZero => decide +kernel
  | pos h1 _ h3 =>
    intro hm
    rcases List.mem_cons.1 hm with e | hm
    · rw [← e] at h1; revert h1; decide +kernel
    · exact digits_lf h3 hm
  | neg h1 _ h3 =>
    intro hm
    rcases List.mem_cons.1 hm with e | hm
    · revert e; decide +kernel
    rcases List.mem_cons.1 hm with e | hm
    · rw [← e] at h1; revert h1; decide +kernel
    · exact digits_lf h3 hm

theorem fraction_lf {i : Str} (h : Fraction i) : 0x0A ∉ i := by
  obtain ⟨d, hd, rfl⟩ := h
  intro hm
  rcases List.mem_cons.1 hm with e | hm
  · revert e; decide +kernel
  · exact digits_lf hd.2 hm

theorem exponent_lf {i : Str} (h : Exponent i) : 0x0A ∉ i := by
  obtain ⟨c, sign, d, hc, hs, hd, rfl⟩ := h
  intro hm
  rcases List.mem_append.1 hm with hm | hm
  · rcases List.mem_cons.1 hm with e | hm
    · rcases hc with rfl | rfl <;> revert e <;> decide +kernel
    · rcases hs with rfl | rfl | rfl <;> revert hm <;> decide +kernel
  · exact digits_lf hd.2 hm

/-- A byte of the UTF-8 encoding is a line feed only if the character is one. -/
theorem utf8_lf {x : Str} (h : SourceChar x) (hx : x ≠ str "\n") : 0x0A ∉ x := by
  obtain ⟨c, hc, rfl⟩ := h
  have big : ∀ n : Nat, 0x80 ≤ n % 256 → (0x0A : Byte) ≠ BitVec.ofNat 8 n := by
    intro n hn e
    have := congrArg BitVec.toNat e
    simp at this
    omega
  unfold utf8Encode at hx ⊢
  split at hx
  · rename_i h80
    rw [if_pos h80]
    intro hm
    simp only [List.mem_singleton] at hm
    have := congrArg BitVec.toNat hm
    simp at this
    have : c = 10 := by omega
    subst this
    exact hx rfl
  · rename_i h80
    rw [if_neg h80]
    split at hx
    · rename_i h800
      rw [if_pos h800]
      simp only [List.mem_cons, List.not_mem_nil, or_false, not_or]
      exact ⟨big _ (by omega), big _ (by omega)⟩
    · rename_i h800
      rw [if_neg h800]
      simp only [List.mem_cons, List.not_mem_nil, or_false, not_or]
      exact ⟨big _ (by omega), big _ (by omega), big _ (by omega)⟩

theorem hexGroups_lf {hs : Str} (h : HexGroups hs) : 0x0A ∉ hs := by
  have hex : ∀ c, isHex c = true → (0x0A : Byte) ≠ c := by rintro c hc rfl; revert hc; decide +kernel
  induction h with
  | one h1 h2 h3 h4 =>
    simp only [List.mem_cons, List.not_mem_nil, or_false, not_or]
    exact ⟨hex _ h1, hex _ h2, hex _ h3, hex _ h4⟩
  | more h1 h2 h3 h4 _ ih =>
    simp only [List.cons_append, List.mem_cons, List.mem_append, not_or]
    exact ⟨hex _ h1, hex _ h2, hex _ h3, hex _ h4, by decide +kernel, ih⟩

theorem quoted_lf {body value : Str} (h : Quoted body value) : 0x0A ∉ body := by
  induction h with
  | nil => simp
  | char h1 _ _ h2 _ _ ih =>
    simp only [List.mem_append, not_or]
    exact ⟨utf8_lf h1 h2, ih⟩
  | @escape c _ _ h1 _ ih =>
    simp only [List.mem_cons, not_or]
    refine ⟨by decide +kernel, ?_, ih⟩
    rintro rfl
    revert h1; decide +kernel
  | unicode h1 _ _ ih =>
    simp only [List.mem_append, not_or]
    exact ⟨⟨by decide +kernel, hexGroups_lf h1⟩, ih⟩

/-- A string without line feeds is the same after the text was indented. -/
theorem stringLit_shift (hq : ¬ str "\"" <+: w') {t x v : Str} (h : StringLit t x v) (hv : 0x0A ∉ v) (hl : w.length ≤ t.length) :
    StringLit (shift w w' t) x v ∧ shift w w' (x ++ t) = x ++ shift w w' t := by
  cases h with
  | quoted hb he =>
    refine ⟨.quoted hb ?_, shift_plain hl ?_⟩
    · rintro ⟨hn, hp⟩
      refine he ⟨hn, ?_⟩
      by_cases e : t.length = w.length
      · simp only [shift, e, Nat.sub_self, List.take_zero, indent_nil, List.nil_append] at hp
        exact absurd hp hq
      · cases t with
        | nil => simp at hl; simp [hl] at e
        | cons c t =>
          have hl' : w.length ≤ t.length := by simp only [List.length_cons] at hl e; omega
          rw [show c :: t = [c] ++ t from rfl, shift_append hl'] at hp
          by_cases e : c = 0x0A
          · subst e
            rw [show indent [0x0A] = str "\n\t\t" by decide +kernel] at hp
            obtain ⟨r, hr⟩ := hp
            simp [str] at hr
          · rw [indent_cons e] at hp
            obtain ⟨r, hr⟩ := hp
            simp only [str] at hr ⊢
            refine ⟨t, ?_⟩
            have := (List.cons.inj hr).1
            rw [← this]; rfl
    · simp only [List.mem_append, not_or]
      exact ⟨⟨by decide +kernel, quoted_lf hb⟩, by decide +kernel⟩
  | block hb =>
    refine ⟨.block hb, shift_plain hl ?_⟩
    simp only [List.mem_append, not_or]
    exact ⟨⟨by decide +kernel, hv⟩, by decide +kernel⟩

/-! ## Everything else -/

/-- Every item in a text of less than `n` bytes for which `P` holds is, after the text was indented, the item `F` of it. -/
def MovesBelow (n : Nat) (w w' full : Str) {α β : Type} (P : α → Prop) (F : α → β) (item : Str → α → Str → Prop)
    (item' : Str → β → Str → Prop) : Prop :=
  ∀ s x t, s.length < n → item s x t → P x → s <:+ full → w.length ≤ t.length → item' (shift w w' s) (F x) (shift w w' t)

/-- Every item for which `P` holds is, after the text was indented, the item `F` of it. -/
def Moves (w w' full : Str) {α β : Type} (P : α → Prop) (F : α → β) (item : Str → α → Str → Prop)
    (item' : Str → β → Str → Prop) : Prop :=
  ∀ s x t, item s x t → P x → s <:+ full → w.length ≤ t.length → item' (shift w w' s) (F x) (shift w w' t)

variable {α β : Type} {P : α → Prop} {F : α → β} {item : Str → α → Str → Prop} {item' : Str → β → Str → Prop}

theorem Moves.below (h : Moves w w' full P F item item') (n : Nat) : MovesBelow n w w' full P F item item' :=
  fun s x t _ => h s x t

theorem moves_of_below (h : ∀ n, MovesBelow n w w' full P F item item') : Moves w w' full P F item item' :=
  fun s x t hi => h (s.length + 1) s x t (Nat.lt_succ_self _) hi

theorem suffix_app {p t : Str} (h : p ++ t <:+ full) : t <:+ full := (List.suffix_append p t).trans h

theorem length_app {p t : Str} (h : w.length ≤ t.length) : w.length ≤ (p ++ t).length := by
  rw [List.length_append]; omega

theorem sep_moves {n : Nat} {gap : Str → Str → Prop} (hg : ∀ s t, gap s t → ∃ p, s = p ++ t)
    (hgs : ∀ s t, gap s t → t ≠ [] → w.length ≤ t.length → gap (shift w w' s) (shift w w' t))
    (hc : Consumes item) (hi : MovesBelow n w w' full P F item item') :
    MovesBelow n w w' full (fun xs => ∀ x ∈ xs, P x) (·.map F) (Sep gap item) (Sep gap item') := by
  intro s xs t hl h hp hf hw
  induction h with
  | one h => exact .one (hi _ _ _ hl h (hp _ (by simp)) hf hw)
  | @more s x t u xs v h hg' hs ih =>
    obtain ⟨p, _, rfl⟩ := hc _ _ _ h
    obtain ⟨q, rfl⟩ := hg _ _ hg'
    obtain ⟨r, hr, rfl⟩ := consumes_sep hg hc _ _ _ hs
    have hne : r ++ v ≠ [] := by simp [hr]
    refine .more (hi _ _ _ hl h (hp _ (by simp)) hf (length_app (length_app hw))) (hgs _ _ hg' hne (length_app hw)) ?_
    exact ih (by simp only [List.length_append] at hl ⊢; omega) (fun x hx => hp _ (List.mem_cons_of_mem _ hx))
      (suffix_app (suffix_app hf)) hw

theorem between_moves {n : Nat} {o c : Byte} (ho : o ≠ 0x0A) (hc' : c ≠ 0x0A) (hc : Consumes item)
    (hi : MovesBelow n w w' full P F item item') :
    MovesBelow (n + 1) w w' full (fun xs => ∀ x ∈ xs, P x) (·.map F) (Between o c item) (Between o c item') := by
  rintro s xs t hl ⟨h1, h2, h3⟩ hp hf hw
  obtain ⟨p, rfl⟩ := h1.app
  obtain ⟨q, hq, rfl⟩ := consumes_sep (fun _ _ h => h.skip.app) hc _ _ _ h2
  obtain ⟨r, rfl⟩ := h3.app
  have l1 : w.length ≤ (c :: t).length := by simp only [List.length_cons]; omega
  have l2 := length_app (p := r) l1
  have l3 := length_app (p := q) l2
  have l4 := length_app (p := p) l3
  rw [shift_cons l4 ho]
  refine .mk (skip_shift h1 (by simp [hq]) l3)
    (sep_moves (fun _ _ h => h.skip.app) (fun _ _ h a b => space_shift h a b) hc hi _ _ _ ?_ h2 hp ?_ l2) ?_
  · simp only [List.length_append, List.length_cons] at hl ⊢; omega
  · exact suffix_app (p := p) (suffix_app (p := [o]) hf)
  · rw [← shift_cons hw hc']
    exact skip_shift h3 (by simp) l1

theorem pair_moves {n : Nat} (hc : Consumes item) (hi : MovesBelow n w w' full P F item item') :
    MovesBelow n w w' full (fun x => P x.2) (fun x => (x.1, F x.2)) (Pair item) (Pair item') := by
  rintro s x t hl ⟨h1, h2, h3, h4⟩ hp hf hw
  obtain ⟨p, hp', rfl⟩ := consumes_name _ _ _ h1
  obtain ⟨q, rfl⟩ := h2.app
  obtain ⟨r, rfl⟩ := h3.app
  obtain ⟨k, hk, rfl⟩ := hc _ _ _ h4
  have l1 := length_app (p := k) hw
  have l2 := length_app (p := r) l1
  have l3 : w.length ≤ (ch ':' :: (r ++ (k ++ t))).length := by simp only [List.length_cons]; omega
  have l4 := length_app (p := q) l3
  refine .mk (name_shift h1 l4) (v := shift w w' (r ++ (k ++ t))) ?_ (skip_shift h3 (by simp [hk]) l1)
    (hi _ _ _ ?_ h4 hp ?_ hw)
  · rw [← shift_cons l2 (by decide +kernel)]
    exact skip_shift h2 (by simp) l3
  · simp only [List.length_append, List.length_cons] at hl ⊢; omega
  · exact suffix_app (suffix_app (p := [ch ':']) (suffix_app (suffix_app hf)))

theorem opt_moves (hc : Consumes item) (hi : Moves w w' full P F item item') {s x t} (h : Opt item s x t)
    (hp : ∀ y, x = some y → P y) (hf : s <:+ full) (hw : w.length ≤ t.length) :
    Opt item' (shift w w' s) (x.map F) (shift w w' t) := by
  cases h with
  | none => exact .none
  | some h1 h2 =>
    obtain ⟨p, rfl⟩ := h1.app
    obtain ⟨q, hq, rfl⟩ := hc _ _ _ h2
    exact .some (skip_shift h1 (by simp [hq]) (length_app hw)) (hi _ _ _ h2 (hp _ rfl) (suffix_app hf) hw)

variable {pos pos' : Nat → Loc} {atof : Str → Double} {f : Loc → Loc}

/-- There is no line feed in these strings. -/
def Plain (strings : List Str) : Prop := ∀ v ∈ strings, 0x0A ∉ v

theorem Plain.left {a b : List Str} (h : Plain (a ++ b)) : Plain a := fun v hv => h v (List.mem_append_left _ hv)
theorem Plain.right {a b : List Str} (h : Plain (a ++ b)) : Plain b := fun v hv => h v (List.mem_append_right _ hv)

theorem relocateAll_eq (f : Loc → Loc) (xs : List Ast.Lit) : Ast.Lit.relocateAll f xs = xs.map (Ast.Lit.relocate f) := by
  induction xs with
  | nil => rfl
  | cons x xs ih => rw [Ast.Lit.relocateAll, ih]; rfl

theorem relocateFields_eq (f : Loc → Loc) (xs : List (Str × Ast.Lit)) :
    Ast.Lit.relocateFields f xs = xs.map fun x => (x.1, x.2.relocate f) := by
  induction xs with
  | nil => rfl
  | cons x xs ih => rw [Ast.Lit.relocateFields.eq_def]; dsimp only; rw [ih]; rfl

theorem stringsAll_eq (xs : List Ast.Lit) : Ast.Lit.stringsAll xs = xs.flatMap Ast.Lit.strings := by
  induction xs with
  | nil => rfl
  | cons x xs ih => rw [Ast.Lit.stringsAll, ih]; rfl

theorem stringsFields_eq (xs : List (Str × Ast.Lit)) : Ast.Lit.stringsFields xs = xs.flatMap fun x => x.2.strings := by
  induction xs with
  | nil => rfl
  | cons x xs ih => rw [Ast.Lit.stringsFields.eq_def]; dsimp only; rw [ih]; rfl

theorem value_moves (H : Shifts w w' full pos pos' f) :
    Moves w w' full (fun x => Plain x.strings) (Ast.Lit.relocate f) (ValueText pos atof) (ValueText pos' atof) := by
  refine moves_of_below fun n => ?_
  induction n with
  | zero => intro s x t h; omega
  | succ n ih =>
  intro s x t hl h hp hf hw
  cases h with
  | @«variable» _ m _ e hm =>
    rw [Ast.Lit.relocate, ← H.pos _ hf (by
      have := length_app (p := ch '$' :: m) hw
      rw [e]; simpa using this)]
    refine .variable ?_ hm
    rw [e, show ch '$' :: m ++ t = (ch '$' :: m) ++ t from rfl, shift_plain hw]
    simp only [List.mem_cons, not_or]
    exact ⟨by decide +kernel, isName_lf hm⟩
  | int hi => rw [shift_plain hw (intPart_lf hi)]; exact .int hi
  | @float i fr _ hi hfr =>
    have : 0x0A ∉ i ++ fr := by
      simp only [List.mem_append, not_or]
      exact ⟨intPart_lf hi, hfr.elim fraction_lf exponent_lf⟩
    rw [shift_plain hw this]
    exact .float hi hfr
  | @string x v _ h =>
    obtain ⟨h1, h2⟩ := stringLit_shift H.quote h (hp _ (by simp [Ast.Lit.strings])) hw
    rw [h2]
    exact .string h1
  | true => rw [shift_plain hw (by decide +kernel)]; exact .true
  | false => rw [shift_plain hw (by decide +kernel)]; exact .false
  | null => rw [shift_plain hw (by decide +kernel)]; exact .null
  | enum h a b c => exact .enum (name_shift h hw) a b c
  | emptyList h =>
    obtain ⟨p, rfl⟩ := h.app
    have l1 : w.length ≤ (ch ']' :: t).length := by simp only [List.length_cons]; omega
    rw [shift_cons (length_app l1) (by decide +kernel)]
    refine .emptyList ?_
    rw [← shift_cons hw (by decide +kernel)]
    exact skip_shift h (by simp) l1
  | emptyObject h =>
    obtain ⟨p, rfl⟩ := h.app
    have l1 : w.length ≤ (ch '}' :: t).length := by simp only [List.length_cons]; omega
    rw [shift_cons (length_app l1) (by decide +kernel)]
    refine .emptyObject ?_
    rw [← shift_cons hw (by decide +kernel)]
    exact skip_shift h (by simp) l1
  | list h =>
    rw [Ast.Lit.relocate, relocateAll_eq]
    refine .list (between_moves (by decide +kernel) (by decide +kernel) consumes_value ih _ _ _ hl h ?_ hf hw)
    intro y hy v hv
    refine hp v ?_
    rw [Ast.Lit.strings, stringsAll_eq]
    exact List.mem_flatMap.2 ⟨y, hy, hv⟩
  | object h =>
    rw [Ast.Lit.relocate, relocateFields_eq]
    refine .object (between_moves (by decide +kernel) (by decide +kernel) (consumes_pair consumes_value)
      (pair_moves consumes_value ih) _ _ _ hl h ?_ hf hw)
    intro y hy v hv
    refine hp v ?_
    rw [Ast.Lit.strings, stringsFields_eq]
    exact List.mem_flatMap.2 ⟨y, hy, hv⟩

theorem arguments_moves (H : Shifts w w' full pos pos' f) :
    Moves w w' full (fun x : Ast.Args => Plain x.strings) (Ast.Args.relocate f) (ArgumentsText pos atof) (ArgumentsText pos' atof) := by
  intro s x t h hp hf hw
  refine between_moves (by decide +kernel) (by decide +kernel) (consumes_pair consumes_value)
    (pair_moves consumes_value ((value_moves H).below s.length)) _ _ _ (Nat.lt_succ_self _) h ?_ hf hw
  intro y hy v hv
  exact hp v (List.mem_flatMap.2 ⟨y, hy, hv⟩)

theorem directive_moves (H : Shifts w w' full pos pos' f) :
    Moves w w' full (fun x => Plain x.strings) (Ast.Directive.relocate f) (DirectiveText pos atof) (DirectiveText pos' atof) := by
  rintro s x t h hp hf hw
  cases h with
  | @mk n u args _ hn h =>
  obtain ⟨p, rfl⟩ := opt_app consumes_arguments h
  have l1 := length_app (p := p) hw
  rw [show ch '@' :: n ++ (p ++ t) = (ch '@' :: n) ++ (p ++ t) from rfl, shift_plain l1 (by
    simp only [List.mem_cons, not_or]
    exact ⟨by decide +kernel, isName_lf hn⟩)]
  refine .mk hn (opt_moves consumes_arguments (arguments_moves H) h ?_ (suffix_app (p := ch '@' :: n) hf) hw)
  rintro y rfl
  exact hp

theorem directives_moves (H : Shifts w w' full pos pos' f) :
    Moves w w' full (fun x : List Ast.Directive => Plain (x.flatMap (·.strings))) (·.map (Ast.Directive.relocate f))
      (DirectivesText pos atof) (DirectivesText pos' atof) := by
  intro s x t h hp hf hw
  refine sep_moves (fun _ _ h => h.skip.app) (fun _ _ h a b => space_shift h a b) consumes_directive
    ((directive_moves H).below (s.length + 1)) _ _ _ (Nat.lt_succ_self _) h ?_ hf hw
  intro y hy v hv
  exact hp v (List.mem_flatMap.2 ⟨y, hy, hv⟩)

theorem opt_directives_moves (H : Shifts w w' full pos pos' f) {s t : Str} {ds : Option (List Ast.Directive)}
    (h : Opt (DirectivesText pos atof) s ds t) (hp : Plain (Ast.directiveStrings ds)) (hf : s <:+ full)
    (hw : w.length ≤ t.length) :
    Opt (DirectivesText pos' atof) (shift w w' s) (ds.map (·.map (Ast.Directive.relocate f))) (shift w w' t) := by
  refine opt_moves consumes_directives (directives_moves H) h ?_ hf hw
  rintro y rfl
  exact hp

theorem type_moves {s x t} (h : TypeText s x t) (hw : w.length ≤ t.length) : TypeText (shift w w' s) x (shift w w' t) := by
  induction h with
  | named h => exact .named (name_shift h hw)
  | @list u v x z t h1 h2 h3 ih =>
    obtain ⟨p, rfl⟩ := h1.app
    obtain ⟨q, hq, rfl⟩ := consumes_type _ _ _ h2
    obtain ⟨r, rfl⟩ := h3.app
    have l1 : w.length ≤ (ch ']' :: t).length := by simp only [List.length_cons]; omega
    have l2 := length_app (p := r) l1
    have l3 := length_app (p := q) l2
    have l4 := length_app (p := p) l3
    rw [shift_cons l4 (by decide +kernel)]
    refine .list (skip_shift h1 (by simp [hq]) l3) (ih l2) ?_
    rw [← shift_cons hw (by decide +kernel)]
    exact skip_shift h3 (by simp) l1
  | @nonNull s x t u h1 h2 h3 ih =>
    obtain ⟨r, rfl⟩ := h3.app
    have l1 : w.length ≤ (ch '!' :: u).length := by simp only [List.length_cons]; omega
    refine .nonNull (ih (length_app l1)) h2 ?_
    rw [← shift_cons hw (by decide +kernel)]
    exact skip_shift h3 (by simp) l1

theorem default_moves (H : Shifts w w' full pos pos' f) :
    Moves w w' full (fun x => Plain x.strings) (Ast.Lit.relocate f) (DefaultText pos atof) (DefaultText pos' atof) := by
  rintro s x t ⟨h1, h2⟩ hp hf hw
  obtain ⟨p, rfl⟩ := h1.app
  obtain ⟨q, hq, rfl⟩ := consumes_value _ _ _ h2
  have l1 := length_app (p := q) hw
  rw [shift_cons (length_app l1) (by decide +kernel)]
  exact .mk (skip_shift h1 (by simp [hq]) l1) (value_moves H _ _ _ h2 hp (suffix_app (suffix_app (p := [ch '=']) hf)) hw)

theorem variable_moves (H : Shifts w w' full pos pos' f) :
    Moves w w' full (fun x => Plain x.strings) (Ast.VarDef.relocate f) (VariableText pos atof) (VariableText pos' atof) := by
  rintro s x t h hp hf hw
  cases h with
  | @mk n u v z type y default _ hn h1 h2 h3 h4 =>
  obtain ⟨p, rfl⟩ := h1.app
  obtain ⟨q, rfl⟩ := h2.app
  obtain ⟨r, hr, rfl⟩ := consumes_type _ _ _ h3
  obtain ⟨k, rfl⟩ := opt_app consumes_default h4
  have l1 := length_app (p := k) hw
  have l2 := length_app (p := r) l1
  have l3 := length_app (p := q) l2
  have l4 : w.length ≤ (ch ':' :: (q ++ (r ++ (k ++ t)))).length := by simp only [List.length_cons]; omega
  have l5 := length_app (p := p) l4
  rw [show ch '$' :: n ++ (p ++ ch ':' :: (q ++ (r ++ (k ++ t)))) = (ch '$' :: n) ++ (p ++ ch ':' :: (q ++ (r ++ (k ++ t)))) from rfl,
    shift_plain l5 (by
    simp only [List.mem_cons, not_or]
    exact ⟨by decide +kernel, isName_lf hn⟩)]
  refine .mk hn (v := shift w w' (q ++ (r ++ (k ++ t)))) ?_ (skip_shift h2 (by simp [hr]) l2) (type_moves h3 l1)
    (opt_moves consumes_default (default_moves H) h4 ?_ ?_ hw)
  · rw [← shift_cons l3 (by decide +kernel)]
    exact skip_shift h1 (by simp) l4
  · rintro y rfl
    exact hp
  · exact suffix_app (suffix_app (suffix_app (p := [ch ':']) (suffix_app (suffix_app (p := ch '$' :: n) hf))))

theorem alias_moves {s a t} (h : AliasText s a t) (ht : t ≠ []) (hw : w.length ≤ t.length) :
    AliasText (shift w w' s) a (shift w w' t) := by
  cases h with
  | none => exact .none
  | @some _ n u v _ h1 h2 h3 =>
    obtain ⟨q, rfl⟩ := h2.app
    obtain ⟨r, rfl⟩ := h3.app
    have l1 := length_app (p := r) hw
    have l2 : w.length ≤ (ch ':' :: (r ++ t)).length := by simp only [List.length_cons]; omega
    refine .some (name_shift h1 (length_app l2)) (v := shift w w' (r ++ t)) ?_ (skip_shift h3 ht hw)
    rw [← shift_cons l1 (by decide +kernel)]
    exact skip_shift h2 (by simp) l2

theorem field_moves (H : Shifts w w' full pos pos' f) :
    Moves w w' full (fun x => Plain x.strings) (Ast.Field.relocate f) (FieldText pos atof) (FieldText pos' atof) := by
  rintro s x t h hp hf hw
  cases h with
  | @mk _ als u name v args z dirs _ h1 h2 h3 h4 =>
  obtain ⟨p, rfl⟩ := alias_app h1
  obtain ⟨q, hq, rfl⟩ := consumes_name _ _ _ h2
  obtain ⟨r, rfl⟩ := opt_app consumes_arguments h3
  obtain ⟨k, rfl⟩ := opt_app consumes_directives h4
  have l1 := length_app (p := k) hw
  have l2 := length_app (p := r) l1
  have l3 := length_app (p := q) l2
  have l4 := length_app (p := p) l3
  have f1 := suffix_app hf
  have f2 := suffix_app f1
  rw [Ast.Field.relocate, ← H.pos _ hf l4]
  refine .mk (alias_moves h1 (by simp [hq]) l3) (name_shift h2 l2)
    (opt_moves consumes_arguments (arguments_moves H) h3 ?_ f2 l1) (opt_directives_moves H h4 hp.right (suffix_app f2) hw)
  rintro y rfl
  exact hp.left

theorem condition_moves : Moves w w' full (fun _ => True) id ConditionText ConditionText := by
  rintro s x t h - hf hw
  cases h with
  | @mk u v n _ h1 h2 =>
  obtain ⟨p, rfl⟩ := h1.skip.app
  obtain ⟨q, hq, rfl⟩ := consumes_name _ _ _ h2
  have l1 := length_app (p := q) hw
  rw [shift_plain (length_app l1) (by decide +kernel)]
  exact .mk (space_shift h1 (by simp [hq]) l1) (name_shift h2 hw)

theorem selectionsAll_eq (f : Loc → Loc) (xs : List Ast.Selection) :
    Ast.Selection.relocateAll f xs = xs.map (Ast.Selection.relocate f) := by
  induction xs with
  | nil => rfl
  | cons x xs ih => rw [Ast.Selection.relocateAll, ih]; rfl

theorem selectionStrings_eq (xs : List Ast.Selection) : Ast.Selection.stringsAll xs = xs.flatMap Ast.Selection.strings := by
  induction xs with
  | nil => rfl
  | cons x xs ih => rw [Ast.Selection.stringsAll, ih]; rfl

theorem plain_each {sub : List Ast.Selection} (h : Plain (Ast.Selection.stringsAll sub)) : ∀ x ∈ sub, Plain x.strings := by
  intro x hx v hv
  refine h v ?_
  rw [selectionStrings_eq]
  exact List.mem_flatMap.2 ⟨x, hx, hv⟩

theorem selection_moves (H : Shifts w w' full pos pos' f) :
    Moves w w' full (fun x => Plain x.strings) (Ast.Selection.relocate f) (SelectionText pos atof) (SelectionText pos' atof) := by
  refine moves_of_below fun n => ?_
  induction n with
  | zero => intro s x t h; omega
  | succ n ih =>
  intro s x t hl h hp hf hw
  cases h with
  | leaf h => exact .leaf (field_moves H _ _ _ h hp hf hw)
  | @node _ fl z u sub _ h1 h2 h3 =>
    obtain ⟨p, hp', rfl⟩ := consumes_field _ _ _ h1
    obtain ⟨q, rfl⟩ := h2.app
    obtain ⟨r, hr, rfl⟩ := consumes_between consumes_selection _ _ _ h3
    rw [Ast.Selection.strings] at hp
    have l1 := length_app (p := r) hw
    have f1 := suffix_app (suffix_app hf)
    rw [Ast.Selection.relocate, ← H.pos _ f1 l1, selectionsAll_eq]
    refine .node (field_moves H _ _ _ h1 hp.left hf (length_app l1)) (skip_shift h2 (by simp [hr]) l1)
      (between_moves (by decide +kernel) (by decide +kernel) consumes_selection ih _ _ _ ?_ h3 (plain_each hp.right) f1 hw)
    simp only [List.length_append] at hl ⊢; omega
  | @spread u v n z dirs _ h1 h2 h3 h4 =>
    obtain ⟨p, rfl⟩ := h1.app
    obtain ⟨q, hq, rfl⟩ := consumes_name _ _ _ h2
    obtain ⟨r, rfl⟩ := opt_app consumes_directives h4
    have l1 := length_app (p := r) hw
    have l2 := length_app (p := q) l1
    have l3 := length_app (p := p) l2
    have f1 := suffix_app hf
    rw [Ast.Selection.relocate, ← H.pos _ f1 l3, shift_plain l3 (by decide +kernel)]
    exact .spread (skip_shift h1 (by simp [hq]) l2) (name_shift h2 l1) h3
      (opt_directives_moves H h4 hp (suffix_app (suffix_app f1)) hw)
  | @inline u cond v dirs z x sub _ h1 h2 h3 h4 =>
    obtain ⟨p, rfl⟩ := opt_app consumes_condition h1
    obtain ⟨q, rfl⟩ := opt_app consumes_directives h2
    obtain ⟨r, rfl⟩ := h3.app
    obtain ⟨k, hk, rfl⟩ := consumes_between consumes_selection _ _ _ h4
    rw [Ast.Selection.strings] at hp
    have l1 := length_app (p := k) hw
    have l2 := length_app (p := r) l1
    have l3 := length_app (p := q) l2
    have l4 := length_app (p := p) l3
    have f1 := suffix_app hf
    have f2 := suffix_app f1
    have f3 := suffix_app (suffix_app f2)
    rw [Ast.Selection.relocate, ← H.pos _ f1 l4, shift_plain l4 (by decide +kernel), selectionsAll_eq]
    have hcond := opt_moves (w := w) (w' := w') consumes_condition condition_moves h1 (fun _ _ => trivial) f1 l3
    rw [Option.map_id] at hcond
    refine .inline hcond (opt_directives_moves H h2 hp.left f2 l2) (skip_shift h3 (by simp [hk]) l1)
      (between_moves (by decide +kernel) (by decide +kernel) consumes_selection ih _ _ _ ?_ h4 (plain_each hp.right) f3 hw)
    simp only [List.length_append] at hl ⊢; omega

theorem set_moves (H : Shifts w w' full pos pos' f) :
    Moves w w' full (fun x => Plain (Ast.Selection.stringsAll x)) (Ast.Selection.relocateAll f) (SelectionSetText pos atof)
      (SelectionSetText pos' atof) := by
  intro s x t h hp hf hw
  rw [selectionsAll_eq]
  exact between_moves (by decide +kernel) (by decide +kernel) consumes_selection ((selection_moves H).below s.length) _ _ _
    (Nat.lt_succ_self _) h (plain_each hp) hf hw

theorem operationName_moves {s a t} (h : OperationNameText s a t) (hw : w.length ≤ t.length) :
    OperationNameText (shift w w' s) a (shift w w' t) := by
  cases h with
  | none => exact .none
  | some h1 h2 =>
    obtain ⟨p, rfl⟩ := h1.skip.app
    obtain ⟨q, hq, rfl⟩ := consumes_name _ _ _ h2
    exact .some (space_shift h1 (by simp [hq]) (length_app hw)) (name_shift h2 hw)

theorem variables_moves (H : Shifts w w' full pos pos' f) {s xs t} (h : VariablesText pos atof s xs t)
    (hp : Plain (xs.flatMap (·.strings))) (hf : s <:+ full) (hw : w.length ≤ t.length) :
    VariablesText pos' atof (shift w w' s) (xs.map (Ast.VarDef.relocate f)) (shift w w' t) := by
  cases h with
  | none => exact .none
  | some h1 h2 =>
    obtain ⟨p, rfl⟩ := h1.app
    obtain ⟨q, hq, rfl⟩ := consumes_between consumes_variable _ _ _ h2
    refine .some (skip_shift h1 (by simp [hq]) (length_app hw)) (between_moves (by decide +kernel) (by decide +kernel)
      consumes_variable ((variable_moves H).below (q ++ t).length) _ _ _ (Nat.lt_succ_self _) h2 ?_ (suffix_app hf) hw)
    intro y hy v hv
    exact hp v (List.mem_flatMap.2 ⟨y, hy, hv⟩)

theorem definition_moves (H : Shifts w w' full pos pos' f) :
    Moves w w' full (fun x => Plain x.strings) (Ast.Definition.relocate f) (DefinitionText pos atof) (DefinitionText pos' atof) := by
  intro s x t h hp hf hw
  cases h with
  | operation h =>
    rw [Ast.Definition.relocate]
    refine .operation ?_
    rw [Ast.Definition.strings, Ast.Operation.strings] at hp
    cases h with
    | anonymous h =>
      obtain ⟨p, _, rfl⟩ := consumes_set _ _ _ h
      rw [Ast.Operation.relocate, ← H.pos _ hf (length_app hw)]
      exact .anonymous (set_moves H _ _ _ h hp.right hf hw)
    | @keyword _ kind u name v vars z dirs x y sub _ hk h0 h1 h2 h3 h4 h5 =>
      obtain ⟨p, rfl⟩ := operationName_app h1
      obtain ⟨q, rfl⟩ := variables_app h2
      obtain ⟨r, rfl⟩ := opt_app consumes_directives h3
      obtain ⟨k, rfl⟩ := h4.app
      obtain ⟨m, hm, rfl⟩ := consumes_set _ _ _ h5
      subst h0
      have l1 := length_app (p := m) hw
      have l2 := length_app (p := k) l1
      have l3 := length_app (p := r) l2
      have l4 := length_app (p := q) l3
      have l5 := length_app (p := p) l4
      have f1 := suffix_app hf
      have f2 := suffix_app f1
      have f3 := suffix_app f2
      have f4 := suffix_app (suffix_app f3)
      rw [Ast.Operation.relocate, ← H.pos _ hf (length_app l5)]
      exact .keyword hk (shift_plain l5 (by rcases hk with rfl | rfl | rfl <;> decide +kernel)) (operationName_moves h1 l4)
        (variables_moves H h2 hp.left.left f2 l3) (opt_directives_moves H h3 hp.left.right f3 l2)
        (skip_shift h4 (by simp [hm]) l1) (set_moves H _ _ _ h5 hp.right f4 hw)
  | fragment h =>
    rw [Ast.Definition.relocate]
    refine .fragment ?_
    rw [Ast.Definition.strings, Ast.FragmentDef.strings] at hp
    cases h with
    | @mk _ a b n c d cond e dirs g j sub _ h0 h1 h2 hn h3 h4 h5 h6 h7 =>
      obtain ⟨p, rfl⟩ := h1.skip.app
      obtain ⟨q, hq, rfl⟩ := consumes_name _ _ _ h2
      obtain ⟨r, rfl⟩ := h3.skip.app
      obtain ⟨k, hk, rfl⟩ := consumes_condition _ _ _ h4
      obtain ⟨i, rfl⟩ := opt_app consumes_directives h5
      obtain ⟨o, rfl⟩ := h6.app
      obtain ⟨m, hm, rfl⟩ := consumes_set _ _ _ h7
      subst h0
      have l1 := length_app (p := m) hw
      have l2 := length_app (p := o) l1
      have l3 := length_app (p := i) l2
      have l4 := length_app (p := k) l3
      have l5 := length_app (p := r) l4
      have l6 := length_app (p := q) l5
      have l7 := length_app (p := p) l6
      have f1 := suffix_app (suffix_app (suffix_app (suffix_app hf)))
      have f2 := suffix_app f1
      have f3 := suffix_app (suffix_app f2)
      rw [Ast.FragmentDef.relocate, ← H.pos _ hf (length_app l7)]
      exact .mk (shift_plain l7 (by decide +kernel)) (space_shift h1 (by simp [hq]) l6) (name_shift h2 l5) hn
        (space_shift h3 (by simp [hk]) l4) (condition_moves _ _ _ h4 trivial f1 l3) (opt_directives_moves H h5 hp.left f2 l2)
        (skip_shift h6 (by simp [hm]) l1) (set_moves H _ _ _ h7 hp.right f3 hw)

end Verif.ClientText
