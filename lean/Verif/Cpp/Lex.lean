import Verif.Cpp.Spec
import Std.Data.String.ToNat

/-!
# Lemmas for reading text piece by piece
-/
namespace Verif.Cpp
open Verif.Value Verif.Text

/-- The text begins with a character which ends a word, and is not a quote. -/
def StartsB (s : Str) : Prop := ∃ c r, s = c :: r ∧ nameCont c = false ∧ c ≠ chr '"'

/-- The same for known text. -/
def startsB : Str → Bool
  | [] => false
  | c :: _ => !nameCont c && c != chr '"'

theorem StartsB.lit {s : Str} (h : startsB s = true) (r : Str) : StartsB (s ++ r) := by
  cases s with
  | nil => simp [startsB] at h
  | cons c s =>
    simp only [startsB, Bool.and_eq_true, Bool.not_eq_true', bne_iff_ne, ne_eq] at h
    exact ⟨c, _, rfl, h⟩

theorem takeWhile_append_cons {α : Type} {f : α → Bool} {s t r : List α} {d : α} (h : s.dropWhile f = d :: r) :
    (s ++ t).takeWhile f = s.takeWhile f ∧ (s ++ t).dropWhile f = d :: (r ++ t) := by
  induction s with
  | nil => simp at h
  | cons a s ih =>
    by_cases ha : f a = true
    · simp only [List.dropWhile_cons, ha, if_true] at h
      simp [List.takeWhile_cons, List.dropWhile_cons, ha, ih h]
    · simp only [List.dropWhile_cons, ha] at h
      simp only [Bool.not_eq_true] at ha
      simp_all [List.takeWhile_cons, List.dropWhile_cons]

theorem takeWhile_all {α : Type} {f : α → Bool} {s t : List α} (hs : ∀ x ∈ s, f x = true)
    (ht : ∀ d r, t = d :: r → f d = false) : (s ++ t).takeWhile f = s ∧ (s ++ t).dropWhile f = t := by
  induction s with
  | nil =>
    cases t with
    | nil => simp
    | cons d r => simp [List.takeWhile_cons, List.dropWhile_cons, ht d r rfl]
  | cons a s ih =>
    have := ih fun x hx => hs x (by simp [hx])
    simp [List.takeWhile_cons, List.dropWhile_cons, hs a, this]

/-- The tokens of a known text which ends with a token which no text behind it could change. -/
def scan : Nat → Str → Option (List Tok)
  | 0, s => if s = [] then some [] else none
  | n + 1, s =>
    match s with
    | [] => some []
    | c :: s =>
      if isSpace c then scan n s
      else
        match token (c :: s) with
        | some (.text _ _, _) => none
        | some (t, r) => if r = [] && !(str "(){}[],;:-").contains c then none else (scan n r).map (t :: ·)
        | none => none

theorem not_end_word : ∀ c : Byte, nameStart c = true → c ∉ str "(){}[],;:-" := by decide +kernel
theorem not_end_digit : ∀ c : Byte, isDigit c = true → c ∉ str "(){}[],;:-" := by decide +kernel

theorem fraction_append {s t f r : Str} (h : fractionText s = (f, r)) (hr : r ≠ []) : fractionText (s ++ t) = (f, r ++ t) := by
  cases s with
  | nil =>
    simp only [fractionText, Prod.mk.injEq] at h
    exact absurd h.2.symm hr
  | cons c s =>
    simp only [fractionText, List.cons_append] at h ⊢
    split at h
    · rename_i hc
      simp only [hc, if_true]
      cases h
      cases hw : s.dropWhile isDigit with
      | nil => exact absurd hw hr
      | cons d r =>
        obtain ⟨h1, h2⟩ := takeWhile_append_cons (t := t) hw
        simp [h1, h2, ← hc]
    · rename_i hc
      simp only [hc, if_false]
      cases h
      rfl

theorem digits_append {pre s t f r : Str} (h : (if s.takeWhile isDigit = [] then none
    else some (pre ++ s.takeWhile isDigit, s.dropWhile isDigit)) = some (f, r)) (hr : r ≠ []) :
    (if (s ++ t).takeWhile isDigit = [] then none else some (pre ++ (s ++ t).takeWhile isDigit, (s ++ t).dropWhile isDigit)) =
      some (f, r ++ t) := by
  split at h
  · cases h
  · rename_i hn
    simp only [Option.some.injEq, Prod.mk.injEq] at h
    obtain ⟨rfl, rfl⟩ := h
    cases hw : s.dropWhile isDigit with
    | nil => exact absurd hw hr
    | cons d r =>
      obtain ⟨h1, h2⟩ := takeWhile_append_cons (t := t) hw
      rw [h1, h2, if_neg hn]
      rfl

theorem exponent_append {s t f r : Str} (h : exponentText s = some (f, r)) (hr : r ≠ []) :
    exponentText (s ++ t) = some (f, r ++ t) := by
  cases s with
  | nil =>
    simp only [exponentText, Option.some.injEq, Prod.mk.injEq] at h
    exact absurd h.2.symm hr
  | cons c s =>
    simp only [exponentText, List.cons_append] at h ⊢
    split at h
    · rename_i hc
      rw [if_pos hc]
      cases s with
      | nil => cases h
      | cons d s =>
        simp only [List.cons_append] at h ⊢
        split at h
        · rename_i hd
          rw [if_pos hd]
          exact digits_append (pre := [c, d]) h hr
        · rename_i hd
          rw [if_neg hd]
          exact digits_append (pre := [c]) (s := d :: s) h hr
    · rename_i hc
      rw [if_neg hc]
      cases h
      rfl

theorem number_append {s t f r : Str} (h : numberText s = some (f, r)) (hr : r ≠ []) :
    numberText (s ++ t) = some (f, r ++ t) := by
  unfold numberText at h ⊢
  dsimp only at h ⊢
  cases he : exponentText (fractionText (s.dropWhile isDigit)).2 with
  | none => rw [he] at h; cases h
  | some x =>
    obtain ⟨e, r'⟩ := x
    rw [he] at h
    dsimp only at h
    cases r' with
    | nil =>
      simp only [Option.some.injEq, Prod.mk.injEq] at h
      exact absurd h.2.symm hr
    | cons d r' =>
      dsimp only at h
      split at h
      · cases h
      · rename_i hd
        simp only [Option.some.injEq, Prod.mk.injEq] at h
        obtain ⟨rfl, rfl⟩ := h
        have hf : (fractionText (s.dropWhile isDigit)).2 ≠ [] := by
          intro h0
          rw [h0] at he
          simp [exponentText] at he
        have hs : s.dropWhile isDigit ≠ [] := by
          intro h0
          rw [h0] at hf
          exact hf rfl
        cases hw : s.dropWhile isDigit with
        | nil => exact absurd hw hs
        | cons b w =>
          obtain ⟨h1, h2⟩ := takeWhile_append_cons (t := t) hw
          have h3 : fractionText (s.dropWhile isDigit ++ t) =
              ((fractionText (s.dropWhile isDigit)).1, (fractionText (s.dropWhile isDigit)).2 ++ t) := fraction_append rfl hf
          have h4 := exponent_append (t := t) he (by simp)
          rw [hw] at h3 h4
          rw [h1, h2]
          rw [List.cons_append] at h3
          rw [h3]
          dsimp only
          rw [h4]
          dsimp only [List.cons_append]
          rw [if_neg hd]

theorem operator_append {c : Byte} {s t r : Str} {k : Tok} (h : operatorText c s = some (k, r)) :
    operatorText c (s ++ t) = some (k, r ++ t) := by
  cases s with
  | nil => cases h
  | cons d s =>
    have key : ∀ (P : Prop) [Decidable P] (k0 : Tok) (r0 : Str) (x y : Option (Tok × Str)),
        (if P then some (k0, r0) else x) = some (k, r) → (x = some (k, r) → y = some (k, r ++ t)) →
        (if P then some (k0, r0 ++ t) else y) = some (k, r ++ t) := by
      intro P _ k0 r0 x y h1 h2
      split at h1
      · rename_i hp; rw [if_pos hp]; cases h1; rfl
      · rename_i hp; rw [if_neg hp]; exact h2 h1
    unfold operatorText at h
    rw [List.cons_append]
    unfold operatorText
    refine key _ _ _ _ _ h fun h => ?_
    refine key _ _ _ _ _ h fun h => ?_
    refine key _ _ _ _ _ h fun h => ?_
    refine key _ _ (d :: s) _ _ h fun h => ?_
    refine key _ _ (d :: s) _ _ h fun h => ?_
    refine key _ _ (d :: s) _ _ h fun h => ?_
    refine key _ _ (d :: s) _ _ h fun h => ?_
    refine key _ _ (d :: s) _ _ h fun h => ?_
    refine key _ _ _ _ _ h fun h => ?_
    refine key _ _ (d :: s) _ _ h fun h => ?_
    refine key _ _ (d :: s) _ _ h fun h => ?_
    refine key _ _ (d :: s) _ _ h fun h => ?_
    cases h

theorem operator_punct {c : Byte} {s r : Str} {k : Tok} (h : operatorText c s = some (k, r)) : ∃ w, k = .punct w := by
  cases s with
  | nil => cases h
  | cons d s =>
    have key : ∀ (P : Prop) [Decidable P] (w : Str) (r0 : Str) (x : Option (Tok × Str)),
        (if P then some (.punct w, r0) else x) = some (k, r) → (x = some (k, r) → ∃ w, k = .punct w) → ∃ w, k = .punct w := by
      intro P _ w r0 x h1 h2
      split at h1
      · cases h1; exact ⟨w, rfl⟩
      · exact h2 h1
    unfold operatorText at h
    iterate 12 refine key _ _ _ _ h fun h => ?_
    cases h

theorem token_append {c : Byte} {s t r : Str} {k : Tok} (h : token (c :: s) = some (k, r)) (ht : ∀ x v, k ≠ .text x v)
    (hr : r ≠ [] ∨ c ∈ str "(){}[],;:-") : token (c :: (s ++ t)) = some (k, r ++ t) := by
  unfold token at h ⊢
  dsimp only at h ⊢
  split at h
  · rename_i hc
    simp only [hc, if_true]
    split at h
    · rename_i hd
      simp only [Option.some.injEq, Prod.mk.injEq] at h
      obtain ⟨-, rfl⟩ := h
      exact absurd hr (by simp [not_end_word c hc])
    · rename_i d rest hd
      obtain ⟨h1, h2⟩ := takeWhile_append_cons (t := t) hd
      simp only [h1, h2]
      split at h
      · split at h
        · exfalso
          simp only [Option.bind_eq_some_iff] at h
          obtain ⟨x, -, hx⟩ := h
          unfold suffixed at hx
          dsimp only at hx
          split at hx
          · simp only [Option.some.injEq, Prod.mk.injEq] at hx; exact ht _ _ hx.1.symm
          · split at hx
            · simp only [Option.some.injEq, Prod.mk.injEq] at hx; exact ht _ _ hx.1.symm
            · simp at hx
        · simp at h
      · rename_i hq
        simp only [hq, if_false]
        simp only [Option.some.injEq, Prod.mk.injEq] at h ⊢
        obtain ⟨rfl, rfl⟩ := h
        exact ⟨rfl, rfl⟩
  · rename_i hc
    simp only [hc]
    split at h
    · rename_i hd
      simp only [hd, if_true]
      simp only [Option.map_eq_some_iff] at h
      obtain ⟨⟨w, r'⟩, h1, h2⟩ := h
      simp only [Prod.mk.injEq] at h2
      obtain ⟨rfl, rfl⟩ := h2
      have hne : r' ≠ [] := by
        rcases hr with hr | hr
        · exact hr
        · exact absurd hr (not_end_digit c hd)
      have h3 := number_append (s := c :: s) (t := t) h1 hne
      rw [List.cons_append] at h3
      simp [h3]
    · rename_i hd
      simp only [hd]
      split at h
      · exfalso
        simp only [Option.bind_eq_some_iff] at h
        obtain ⟨x, -, hx⟩ := h
        unfold suffixed at hx
        dsimp only at hx
        split at hx
        · simp only [Option.some.injEq, Prod.mk.injEq] at hx; exact ht _ _ hx.1.symm
        · split at hx
          · simp only [Option.some.injEq, Prod.mk.injEq] at hx; exact ht _ _ hx.1.symm
          · simp at hx
      · rename_i hq
        simp only [hq, if_false]
        split at h
        · rename_i hp
          simp only [hp, if_true]
          simp only [Option.some.injEq, Prod.mk.injEq] at h
          obtain ⟨rfl, rfl⟩ := h
          simp
        · rename_i hp
          simp only [hp, if_false]
          exact operator_append h

theorem Lexes.scan {n : Nat} {s : Str} {a : List Tok} (h : scan n s = some a) {r : Str} {b : List Tok} (hr : Lexes r b) :
    Lexes (s ++ r) (a ++ b) := by
  induction n generalizing s a with
  | zero =>
    simp only [Cpp.scan] at h
    split at h
    · rename_i hs; subst hs; simp only [Option.some.injEq] at h; subst h; exact hr
    · simp at h
  | succ n ih =>
    unfold Cpp.scan at h
    cases s with
    | nil => simp only [Option.some.injEq] at h; subst h; exact hr
    | cons c s =>
      simp only at h
      split at h
      · rename_i hc; exact .space hc (ih h)
      · split at h
        · simp at h
        · rename_i t u ht htok
          split at h
          · simp at h
          · rename_i hcond
            simp only [Option.map_eq_some_iff] at h
            obtain ⟨a', ha', rfl⟩ := h
            refine .token (t := t) (token_append htok ?_ ?_) (ih ha')
            · intro x v hx; exact ht x v hx
            · simp only [Bool.and_eq_true, decide_eq_true_eq, Bool.not_eq_true', List.contains_eq_mem, decide_eq_false_iff_not, not_and, Classical.not_not] at hcond
              by_cases hu : u = []
              · exact Or.inr (hcond hu)
              · exact Or.inl hu
        · simp at h

/-- Known text. -/
theorem Lexes.lit {s : Str} (a : List Tok) (h : Cpp.scan 100 s = some a) {r : Str} {b : List Tok} (hr : Lexes r b) :
    Lexes (s ++ r) (a ++ b) := hr.scan h

/-- A word. -/
theorem Lexes.word {w : Str} (hw : IsName w) {r : Str} {b : List Tok} (hs : StartsB r) (hr : Lexes r b) :
    Lexes (w ++ r) (wordTok w :: b) := by
  obtain ⟨c, cs, rfl, hc, hcs⟩ := hw
  obtain ⟨d, r, rfl, hd, hq⟩ := hs
  obtain ⟨h1, h2⟩ := takeWhile_all (t := d :: r) hcs (by rintro _ _ ⟨⟩; exact hd)
  refine .token (rest := d :: r) ?_ hr
  simp [Cpp.token, hc, h1, h2, hq]

theorem upTo_ok {c : Byte} {cs s : Str} (hc : c ∉ cs) (h : NoClose (c :: cs) s) (r : Str) :
    upTo (c :: cs) (s ++ (c :: cs) ++ r) = some (s, r) := by
  induction s with
  | nil => simp [upTo]
  | cons a s ih =>
    have hn : (c :: cs).isPrefixOf (a :: (s ++ (c :: cs) ++ r)) = false := by
      rw [Bool.eq_false_iff]
      intro hp
      rw [List.isPrefixOf_iff_prefix] at hp
      have e : a :: (s ++ (c :: cs) ++ r) = (a :: s) ++ ((c :: cs) ++ r) := by simp
      rw [e] at hp
      rcases List.prefix_or_prefix_of_prefix hp (List.prefix_append _ _) with h1 | ⟨x, hx⟩
      · obtain ⟨u, hu⟩ := h1
        exact h [] u (by simpa using hu.symm)
      · rw [← hx, List.prefix_append_right_inj] at hp
        cases x with
        | nil => exact h [] [] (by simpa using hx)
        | cons y x =>
          have hy : y = c := by
            obtain ⟨u, hu⟩ := hp
            have hcx : c :: cs = a :: s ++ y :: x := hx.symm
            have : y :: (x ++ u) = (a :: s ++ y :: x) ++ r := by simpa [hcx] using hu
            have h3 := congrArg List.head? this
            have h4 := congrArg List.head? hcx
            simp at h3 h4
            rw [h3, h4]
          refine hc ?_
          have := congrArg List.tail hx
          simp only [List.cons_append, List.tail_cons] at this
          rw [← this, hy]
          simp
    have ih' := ih fun x y e => h (a :: x) y (by simp [e])
    simp only [List.append_assoc] at ih' hn
    simp only [List.cons_append, List.append_assoc]
    unfold upTo
    simp only [List.cons_append] at ih' hn
    rw [hn]
    simp [ih']

/-- The text of a raw string with a delimiter. -/
theorem rawText_ok {d s : Str} (hd : d.all nameCont = true) (hl : d.length ≤ 16)
    (h : NoClose (str ")" ++ d ++ str "\"") s) (r : Str) :
    rawText (d ++ str "(" ++ s ++ (str ")" ++ d ++ str "\"") ++ r) = some (s, r) := by
  have hp : nameCont (chr '(') = false := by decide
  obtain ⟨h1, h2⟩ := takeWhile_all (f := (· != chr '(')) (s := d) (t := str "(" ++ (s ++ (str ")" ++ d ++ str "\"") ++ r))
    (by
      intro x hx
      simp only [bne_iff_ne, ne_eq]
      rintro rfl
      exact absurd (List.all_eq_true.1 hd _ hx) (by simp [hp]))
    (by rintro _ _ h; cases h; rfl)
  unfold rawText
  simp only [List.append_assoc] at h1 h2 ⊢
  rw [h1, h2]
  have e : str "(" = [chr '('] := rfl
  have hd' : d.length ≤ 16 ∧ d.all nameCont = true := ⟨hl, hd⟩
  simp only [e, List.cons_append, List.nil_append, hl, decide_true, hd, Bool.and_self, if_true]
  have := upTo_ok (c := chr ')') (cs := d ++ str "\"") (s := s) ?_ h r
  · have e2 : s ++ (str ")" ++ (d ++ (str "\"" ++ r))) = s ++ chr ')' :: (d ++ str "\"") ++ r := by
      simp [str]; rfl
    rw [e2]
    exact this
  · intro hm
    rw [List.mem_append] at hm
    rcases hm with hm | hm
    · exact absurd (List.all_eq_true.1 hd _ hm) (by decide)
    · exact absurd hm (by decide)

/-- A raw string with the suffix `sv`. -/
theorem Lexes.rawView {d s : Str} (hd : d.all nameCont = true) (hl : d.length ≤ 16)
    (h : NoClose (str ")" ++ d ++ str "\"") s) {r : Str} {b : List Tok} (hs : StartsB r) (hr : Lexes r b) :
    Lexes (str "R\"" ++ (d ++ str "(" ++ s ++ (str ")" ++ d ++ str "\"") ++ (str "sv" ++ r))) (.text s true :: b) := by
  obtain ⟨c, r, rfl, hc, hq⟩ := hs
  refine .token (rest := c :: r) ?_ hr
  have e : ∀ x, str "R\"" ++ x = chr 'R' :: chr '"' :: x := fun _ => rfl
  have h1 : nameStart (chr 'R') = true := by decide
  have h2 : nameCont (chr '"') = false := by decide
  rw [e]
  unfold Cpp.token
  simp only [h1, if_true, List.takeWhile_cons, List.dropWhile_cons, h2, Bool.false_eq_true, if_false]
  rw [if_pos (by decide : [chr 'R'] = str "R"), rawText_ok hd hl h]
  have h3 : (str "sv" ++ c :: r).takeWhile nameCont = str "sv" ∧ (str "sv" ++ c :: r).dropWhile nameCont = c :: r :=
    takeWhile_all (by decide) (by rintro _ _ ⟨⟩; exact hc)
  simp only [Option.bind_some, suffixed, h3]
  rfl

/-- A raw string without a suffix. -/
theorem Lexes.rawPlain {d s : Str} (hd : d.all nameCont = true) (hl : d.length ≤ 16)
    (h : NoClose (str ")" ++ d ++ str "\"") s) {r : Str} {b : List Tok} (hs : StartsB r) (hr : Lexes r b) :
    Lexes (str "R\"" ++ (d ++ str "(" ++ s ++ (str ")" ++ d ++ str "\"") ++ r)) (.text s false :: b) := by
  obtain ⟨c, r, rfl, hc, hq⟩ := hs
  refine .token (rest := c :: r) ?_ hr
  have e : ∀ x, str "R\"" ++ x = chr 'R' :: chr '"' :: x := fun _ => rfl
  have h1 : nameStart (chr 'R') = true := by decide
  have h2 : nameCont (chr '"') = false := by decide
  rw [e]
  unfold Cpp.token
  simp only [h1, if_true, List.takeWhile_cons, List.dropWhile_cons, h2, Bool.false_eq_true, if_false]
  rw [if_pos (by decide : [chr 'R'] = str "R"), rawText_ok hd hl h]
  simp [suffixed, List.takeWhile_cons, hc]

/-- A name in quotes. -/
theorem quoted_ok {s : Str} (hs : ∀ c ∈ s, nameCont c = true) (r : Str) : plainText (s ++ str "\"" ++ r) = some (s, r) := by
  have hb : ∀ c : Byte, nameCont c = true → (c != chr '"' && c != chr '\\' && c != chr '\n') = true := by decide +kernel
  obtain ⟨h1, h2⟩ := takeWhile_all (f := fun c => c != chr '"' && c != chr '\\' && c != chr '\n') (s := s) (t := str "\"" ++ r)
    (fun x hx => hb x (hs x hx)) (by rintro _ _ h; cases h; decide)
  unfold plainText
  simp only [List.append_assoc] at h1 h2 ⊢
  rw [h1, h2]
  rfl

theorem Lexes.quotedPlain {s : Str} (hn : ∀ c ∈ s, nameCont c = true) {r : Str} {b : List Tok} (hs : StartsB r)
    (hr : Lexes r b) : Lexes (str "\"" ++ (s ++ str "\"" ++ r)) (.text s false :: b) := by
  obtain ⟨c, r, rfl, hc, hq⟩ := hs
  refine .token (rest := c :: r) ?_ hr
  have e : ∀ x, str "\"" ++ x = chr '"' :: x := fun _ => rfl
  have h1 : nameStart (chr '"') = false := by decide
  have h2 : isDigit (chr '"') = false := by decide
  rw [e (s ++ _ ++ _)]
  unfold Cpp.token
  simp only [h1, h2, Bool.false_eq_true, if_false, if_true]
  rw [quoted_ok hn]
  simp [suffixed, List.takeWhile_cons, hc]

theorem Lexes.quotedView {s : Str} (hn : ∀ c ∈ s, nameCont c = true) {r : Str} {b : List Tok} (hs : StartsB r)
    (hr : Lexes r b) : Lexes (str "\"" ++ (s ++ str "\"" ++ (str "sv" ++ r))) (.text s true :: b) := by
  obtain ⟨c, r, rfl, hc, hq⟩ := hs
  refine .token (rest := c :: r) ?_ hr
  have e : ∀ x, str "\"" ++ x = chr '"' :: x := fun _ => rfl
  have h1 : nameStart (chr '"') = false := by decide
  have h2 : isDigit (chr '"') = false := by decide
  rw [e (s ++ _ ++ _)]
  unfold Cpp.token
  simp only [h1, h2, Bool.false_eq_true, if_false, if_true]
  rw [quoted_ok hn]
  have h3 : (str "sv" ++ c :: r).takeWhile nameCont = str "sv" ∧ (str "sv" ++ c :: r).dropWhile nameCont = c :: r :=
    takeWhile_all (by decide) (by rintro _ _ ⟨⟩; exact hc)
  simp only [Option.bind_some, suffixed, h3]
  rfl

end Verif.Cpp
