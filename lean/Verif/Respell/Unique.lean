import Verif.Respell.Documents
import Verif.Grammar.Documents

/-!
# A text has one list of tokens
-/
namespace Verif.Respell
open Verif.Value Verif.Errors Verif.Text Verif.ClientText Verif.Peg

/-- The kind of token which begins with a byte. -/
def kindOf (c : Byte) : Nat :=
  if c ∈ str "!():=[]{}" then 1
  else if c = ch '.' then 2
  else if nameStart c then 3
  else if c = ch '$' then 4
  else if c = ch '@' then 5
  else if isDigit c || c == ch '-' then 6
  else if c = ch '"' then 7
  else 0

def Token.kind : Token → Nat
  | .punct _ => 1
  | .spread => 2
  | .name _ => 3
  | .variable _ => 4
  | .directive _ => 5
  | .number _ => 6
  | .string _ => 7

theorem kind_punct : ∀ c : Byte, c ∈ str "!():=[]{}" → kindOf c = 1 := by decide +kernel
theorem kind_name : ∀ c : Byte, nameStart c = true → kindOf c = 3 := by decide +kernel
theorem kind_digit : ∀ c : Byte, isDigit c = true → kindOf c = 6 := by decide +kernel
theorem kind_gap : ∀ c : Byte, kindOf c ≠ 0 → gapStart c = false := by decide +kernel
theorem number_name : ∀ c : Byte, nameCont c = true → numberByte c = true := by decide +kernel
theorem number_digit : ∀ c : Byte, isDigit c = true → numberByte c = true := by decide +kernel

theorem intPart_first {w : Str} (h : IntPart w) : ∃ c r, w = c :: r ∧ kindOf c = 6 := by
  cases h with
  | zero => exact ⟨_, _, rfl, by decide +kernel⟩
  | negZero => exact ⟨_, _, rfl, by decide +kernel⟩
  | pos h _ _ => exact ⟨_, _, rfl, kind_digit _ h⟩
  | neg _ _ _ => exact ⟨_, _, rfl, by decide +kernel⟩

theorem number_first {w : Str} (h : IntValue w ∨ FloatValue w) : ∃ c r, w = c :: r ∧ kindOf c = 6 := by
  rcases h with h | h
  · exact intPart_first h
  · cases h with
    | fraction h _ => obtain ⟨c, r, rfl, hc⟩ := intPart_first h; exact ⟨c, _, rfl, hc⟩
    | exponent h _ => obtain ⟨c, r, rfl, hc⟩ := intPart_first h; exact ⟨c, _, rfl, hc⟩
    | both h _ _ => obtain ⟨c, r, rfl, hc⟩ := intPart_first h; exact ⟨c, _, rfl, hc⟩

theorem token_first {s t : Str} {k : Token} (h : TokenText s k t) : ∃ c r, s = c :: r ∧ kindOf c = k.kind := by
  cases h with
  | punct h => exact ⟨_, _, rfl, kind_punct _ h⟩
  | spread => exact ⟨_, _, rfl, by decide +kernel⟩
  | name h _ => obtain ⟨c, r, rfl, hc, _⟩ := h; exact ⟨_, _, rfl, kind_name _ hc⟩
  | «variable» h _ => exact ⟨_, _, rfl, (by decide +kernel : kindOf (ch '$') = 4)⟩
  | directive h _ => exact ⟨_, _, rfl, (by decide +kernel : kindOf (ch '@') = 5)⟩
  | number h _ => obtain ⟨c, r, rfl, hc⟩ := number_first h; exact ⟨_, _, rfl, hc⟩
  | string h =>
    cases h with
    | quoted _ _ => exact ⟨_, _, rfl, (by decide +kernel : kindOf (ch '"') = 7)⟩
    | block _ => exact ⟨_, _, rfl, (by decide +kernel : kindOf (ch '"') = 7)⟩

theorem token_ends {s t : Str} {k : Token} (h : TokenText s k t) : Ends gapStart s := by
  obtain ⟨c, r, rfl, hc⟩ := token_first h
  intro d u e
  cases e
  exact kind_gap c (by rw [hc]; cases k <;> exact Nat.succ_ne_zero _)

/-- The longest beginning of a text with a property is unique. -/
theorem longest {p : Byte → Bool} {a b t u : Str} (ha : ∀ c ∈ a, p c = true) (hb : ∀ c ∈ b, p c = true) (ht : Ends p t)
    (hu : Ends p u) (e : a ++ t = b ++ u) : a = b ∧ t = u := by
  induction a generalizing b with
  | nil =>
    cases b with
    | nil => exact ⟨rfl, e⟩
    | cons c b => exact absurd (ht c (b ++ u) e) (by simp [hb c (by simp)])
  | cons c a ih =>
    cases b with
    | nil => exact absurd (hu c (a ++ t) e.symm) (by simp [ha c (by simp)])
    | cons d b =>
      simp only [List.cons_append, List.cons.injEq] at e
      obtain ⟨rfl, e⟩ := e
      obtain ⟨rfl, rfl⟩ := ih (fun x hx => ha x (by simp [hx])) (fun x hx => hb x (by simp [hx])) e
      exact ⟨rfl, rfl⟩

theorem name_bytes {n : Str} (h : IsName n) : ∀ c ∈ n, nameCont c = true := by
  obtain ⟨c, cs, rfl, hc, hcs⟩ := h
  intro d hd
  rcases List.mem_cons.1 hd with rfl | hd
  · simp [nameCont, hc]
  · exact hcs d hd

theorem digits_bytes {d : Str} (h : ∀ c ∈ d, isDigit c = true) : ∀ c ∈ d, numberByte c = true :=
  fun c hc => number_digit c (h c hc)

theorem intPart_bytes {w : Str} (h : IntPart w) : ∀ c ∈ w, numberByte c = true := by
  cases h with
  | zero => decide +kernel
  | negZero => decide +kernel
  | pos h _ hd =>
    intro d hd'
    rcases List.mem_cons.1 hd' with rfl | hd'
    · exact number_digit _ h
    · exact digits_bytes hd d hd'
  | neg h _ hd =>
    intro d hd'
    rcases List.mem_cons.1 hd' with rfl | hd'
    · decide +kernel
    rcases List.mem_cons.1 hd' with rfl | hd'
    · exact number_digit _ h
    · exact digits_bytes hd d hd'

theorem fraction_bytes {w : Str} (h : Fraction w) : ∀ c ∈ w, numberByte c = true := by
  obtain ⟨d, hd, rfl⟩ := h
  intro c hc
  rcases List.mem_cons.1 hc with rfl | hc
  · decide +kernel
  · exact digits_bytes hd.2 c hc

theorem exponent_bytes {w : Str} (h : Exponent w) : ∀ c ∈ w, numberByte c = true := by
  obtain ⟨e, sign, d, he, hs, hd, rfl⟩ := h
  intro c hc
  rcases List.mem_append.1 hc with hc | hc
  · rcases List.mem_cons.1 hc with rfl | hc
    · rcases he with rfl | rfl <;> decide +kernel
    · have key : ∀ x : Byte, x ∈ str "+-" → numberByte x = true := by decide +kernel
      refine key c ?_
      rcases hs with rfl | rfl | rfl
      · cases hc
      · rw [show str "+-" = str "+" ++ str "-" from rfl]; exact List.mem_append_left _ hc
      · rw [show str "+-" = str "+" ++ str "-" from rfl]; exact List.mem_append_right _ hc
  · exact digits_bytes hd.2 c hc

theorem number_bytes {w : Str} (h : IntValue w ∨ FloatValue w) : ∀ c ∈ w, numberByte c = true := by
  intro c hc
  rcases h with h | h
  · exact intPart_bytes h c hc
  · cases h with
    | fraction h h' => exact (List.mem_append.1 hc).elim (intPart_bytes h c) (fraction_bytes h' c)
    | exponent h h' => exact (List.mem_append.1 hc).elim (intPart_bytes h c) (exponent_bytes h' c)
    | both h h' h'' =>
      rcases List.mem_append.1 hc with hc | hc
      · exact (List.mem_append.1 hc).elim (intPart_bytes h c) (fraction_bytes h' c)
      · exact exponent_bytes h'' c hc

theorem string_unique {t w v t' w' v' : Str} (h : StringLit t w v) (h' : StringLit t' w' v') (e : w ++ t = w' ++ t') :
    v = v' ∧ t = t' := by
  obtain ⟨xs, e1, e2⟩ := string_rule_complete (sel := executableSelector) (.inl rfl) h
  obtain ⟨ys, e3, e4⟩ := string_rule_complete (sel := executableSelector) (.inl rfl) h'
  rw [e, e3] at e1
  cases e1
  exact ⟨e2.symm.trans e4, rfl⟩

theorem token_unique {s t t' : Str} {k k' : Token} (h : TokenText s k t) (h' : TokenText s k' t') : k = k' ∧ t = t' := by
  obtain ⟨c, r, e, hc⟩ := token_first h
  obtain ⟨c', r', e', hc'⟩ := token_first h'
  have hk : k.kind = k'.kind := by
    rw [e] at e'
    cases e'
    rw [← hc, ← hc']
  clear hc hc' e e'
  generalize es : s = s' at h'
  cases h <;> cases h' <;> try (exact absurd hk (by simp only [Token.kind]; decide))
  · cases es; exact ⟨rfl, rfl⟩
  · exact ⟨rfl, List.append_cancel_left es⟩
  · rename_i n h1 h2 n' h3 h4
    obtain ⟨rfl, rfl⟩ := longest (name_bytes h1) (name_bytes h3) h2 h4 es
    exact ⟨rfl, rfl⟩
  · rename_i n h1 h2 n' h3 h4
    obtain ⟨rfl, rfl⟩ := longest (name_bytes h1) (name_bytes h3) h2 h4 (List.cons.inj es).2
    exact ⟨rfl, rfl⟩
  · rename_i n h1 h2 n' h3 h4
    obtain ⟨rfl, rfl⟩ := longest (name_bytes h1) (name_bytes h3) h2 h4 (List.cons.inj es).2
    exact ⟨rfl, rfl⟩
  · rename_i n h1 h2 n' h3 h4
    obtain ⟨rfl, rfl⟩ := longest (number_bytes h1) (number_bytes h3) h2 h4 es
    exact ⟨rfl, rfl⟩
  · rename_i w v h1 w' v' h2
    obtain ⟨rfl, rfl⟩ := string_unique h1 h2 es
    exact ⟨rfl, rfl⟩

theorem skip_unique {s u u' : Str} (h : Skip s u) (h' : Skip s u') (hu : Ends gapStart u) (hu' : Ends gapStart u') : u = u' := by
  obtain ⟨g, e, hg⟩ := h
  obtain ⟨g', e', hg'⟩ := h'
  have a := (star_ignored_ok (sel := executableSelector) (.inl rfl) (s := s) (t := u) (xs := [])).2 ⟨rfl, g, e, hg, hu⟩
  have b := (star_ignored_ok (sel := executableSelector) (.inl rfl) (s := s) (t := u') (xs := [])).2 ⟨rfl, g', e', hg', hu'⟩
  rw [a] at b
  cases b
  rfl

theorem ends_nil {p : Byte → Bool} : Ends p [] := by rintro _ _ ⟨⟩

theorem tokens_unique {s : Str} {ts ts' : List Token} (h : Tokens s ts) (h' : Tokens s ts') : ts = ts' := by
  induction h generalizing ts' with
  | done h =>
    cases h' with
    | done _ => rfl
    | more h1 h2 _ =>
      have := skip_unique h h1 ends_nil (token_ends h2)
      subst this
      obtain ⟨_, _, e, _⟩ := token_first h2
      cases e
  | more h1 h2 _ ih =>
    cases h' with
    | done h =>
      have := skip_unique h h1 ends_nil (token_ends h2)
      subst this
      obtain ⟨_, _, e, _⟩ := token_first h2
      cases e
    | more k1 k2 k3 =>
      cases skip_unique h1 k1 (token_ends h2) (token_ends k2)
      obtain ⟨rfl, rfl⟩ := token_unique h2 k2
      rw [ih k3]

theorem tokens_mark {u : Str} {ts : List Token} (h : Tokens (utf8Encode 0xFEFF ++ u) ts) : False := by
  have key : ∀ v, Skip (utf8Encode 0xFEFF ++ u) v → v = utf8Encode 0xFEFF ++ u := by
    rintro v ⟨g, e, hg⟩
    rcases gap_first hg with rfl | ⟨c, r, rfl, hc⟩
    · exact e.symm
    · have : c = 0xEF := by
        have := congrArg List.head? e
        simpa [utf8Encode] using this.symm
      subst this
      exact absurd hc (by decide +kernel)
  cases h with
  | done h => exact absurd (key _ h) (by simp [utf8Encode])
  | more h1 h2 _ =>
    have := key _ h1
    subst this
    obtain ⟨c, r, e, hc⟩ := token_first h2
    have e' : c = 0xEF := by
      have := congrArg List.head? e
      simpa [utf8Encode] using this.symm
    subst e'
    rename_i k _ _ _
    rw [show kindOf 0xEF = 0 by decide +kernel] at hc
    cases k <;> exact absurd hc (Nat.succ_ne_zero _).symm

theorem hasTokens_unique {s : Str} {ts ts' : List Token} (h : HasTokens s ts) (h' : HasTokens s ts') : ts = ts' := by
  obtain ⟨bom, u, rfl, hb, h⟩ := h
  obtain ⟨bom', u', e, hb', h'⟩ := h'
  rcases hb with rfl | rfl <;> rcases hb' with rfl | rfl
  · cases e
    exact tokens_unique h h'
  · have e' : u = utf8Encode 0xFEFF ++ u' := e
    subst e'
    exact (tokens_mark h).elim
  · have e' : utf8Encode 0xFEFF ++ u = u' := e
    subst e'
    exact (tokens_mark h').elim
  · cases List.append_cancel_left e
    exact tokens_unique h h'

/-! ## Every list of tokens of a text can be written with ignored text between them -/

theorem token_anywhere {s t : Str} {k : Token} (h : TokenText s k t) :
    ∃ w, ∀ r, (r = [] ∨ ∃ r', r = 0x0A :: r') → TokenText (w ++ r) k r := by
  have ends : ∀ {p : Byte → Bool} {r : Str}, p 0x0A = false → (r = [] ∨ ∃ r', r = 0x0A :: r') → Ends p r := by
    intro p r hp hr
    rcases hr with rfl | ⟨r', rfl⟩
    · exact ends_nil
    · intro c u e
      cases e
      exact hp
  cases h with
  | @punct c _ h => exact ⟨[c], fun r _ => .punct h⟩
  | spread => exact ⟨_, fun r _ => .spread⟩
  | name h _ => exact ⟨_, fun r hr => .name h (ends (by decide +kernel) hr)⟩
  | «variable» h _ => exact ⟨_, fun r hr => .variable h (ends (by decide +kernel) hr)⟩
  | directive h _ => exact ⟨_, fun r hr => .directive h (ends (by decide +kernel) hr)⟩
  | number h _ => exact ⟨_, fun r hr => .number h (ends (by decide +kernel) hr)⟩
  | @string w v _ h =>
    refine ⟨w, fun r hr => .string ?_⟩
    cases h with
    | block h => exact .block h
    | quoted h _ =>
      refine .quoted h ?_
      rintro ⟨_, ⟨x, e⟩⟩
      rcases hr with rfl | ⟨r', rfl⟩
      · cases e
      · exact absurd (List.cons.inj e).1 (by decide +kernel)

theorem spaced_exists {s : Str} {ts : List Token} (h : Tokens s ts) :
    ∃ s', (s' = [] ∨ ∃ r, s' = 0x0A :: r) ∧ Spaced s' ts := by
  induction h with
  | done _ => exact ⟨[], .inl rfl, .done ⟨[], rfl, .nil⟩⟩
  | more _ h2 _ ih =>
    obtain ⟨t', ht, hs⟩ := ih
    obtain ⟨w, hw⟩ := token_anywhere h2
    exact ⟨0x0A :: (w ++ t'), .inr ⟨_, rfl⟩, .more ⟨[0x0A], by simp, rfl, .blank (by decide +kernel) .nil⟩ (hw t' ht) hs⟩

end Verif.Respell
