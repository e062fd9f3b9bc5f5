import Verif.Grammar.Numbers
import Verif.Grammar.Examples

/-!
# String literals

The rule `string_value` matches the string literals of the specification in `Spec.lean`, and `ast_node::unescaped_view` of
the node is the value the specification gives.
-/
namespace Verif.Peg
open Verif.Value Verif.Text Rule

variable {sel : R → Sel}

/-! ## Characters -/

theorem lead2 : ∀ a : Byte, ((a &&& 0xE0 == 0xC0) = true ↔ 0xC0 ≤ a.toNat ∧ a.toNat < 0xE0) := by decide +kernel
theorem lead3 : ∀ a : Byte, ((a &&& 0xF0 == 0xE0) = true ↔ 0xE0 ≤ a.toNat ∧ a.toNat < 0xF0) := by decide +kernel
theorem lead4 : ∀ a : Byte, ((a &&& 0xF8 == 0xF0) = true ↔ 0xF0 ≤ a.toNat ∧ a.toNat < 0xF8) := by decide +kernel
theorem isCont_iff : ∀ a : Byte, (isCont a = true ↔ 0x80 ≤ a.toNat ∧ a.toNat < 0xC0) := by decide +kernel

theorem ofNat_toNat8 {n : Nat} (h : n < 256) : (BitVec.ofNat 8 n).toNat = n := by
  simp [BitVec.toNat_ofNat]; omega

theorem byte_eq {a : Byte} {n : Nat} (h : a.toNat = n) : a = BitVec.ofNat 8 n := by
  subst h; simp

theorem peek_encode {c : Nat} (hc : c < 0x10000) (hsur : ¬ (0xD800 ≤ c ∧ c ≤ 0xDFFF)) (t : Str) :
    peekUtf8 (utf8Encode c ++ t) = some (c, (utf8Encode c).length) := by
  unfold utf8Encode
  split
  · rename_i h
    have e : (BitVec.ofNat 8 c).toNat = c := ofNat_toNat8 (by omega)
    simp only [List.cons_append, List.nil_append, peekUtf8, e, h, if_true, List.length_singleton]
  · split
    · rename_i h1 h2
      have e1 : (BitVec.ofNat 8 (0xC0 + c / 0x40)).toNat = 0xC0 + c / 0x40 := ofNat_toNat8 (by omega)
      have e2 : (BitVec.ofNat 8 (0x80 + c % 0x40)).toNat = 0x80 + c % 0x40 := ofNat_toNat8 (by omega)
      have l2 := (lead2 (BitVec.ofNat 8 (0xC0 + c / 0x40))).2 (by rw [e1]; omega)
      have k1 := (isCont_iff (BitVec.ofNat 8 (0x80 + c % 0x40))).2 (by rw [e2]; omega)
      have n1 : ¬ (0xC0 + c / 0x40 < 0x80) := by omega
      have n2 : (0xC0 + c / 0x40) % 0x20 * 0x40 + (0x80 + c % 0x40) % 0x40 = c := by omega
      simp only [List.cons_append, List.nil_append, peekUtf8, e1, e2, n1, if_false, l2, if_true, k1, n2, Bool.true_and]
      rw [if_pos (by simp; omega)]
      rfl
    · rename_i h1 h2
      have e1 : (BitVec.ofNat 8 (0xE0 + c / 0x1000)).toNat = 0xE0 + c / 0x1000 := ofNat_toNat8 (by omega)
      have e2 : (BitVec.ofNat 8 (0x80 + c / 0x40 % 0x40)).toNat = 0x80 + c / 0x40 % 0x40 := ofNat_toNat8 (by omega)
      have e3 : (BitVec.ofNat 8 (0x80 + c % 0x40)).toNat = 0x80 + c % 0x40 := ofNat_toNat8 (by omega)
      have l2 : (BitVec.ofNat 8 (0xE0 + c / 0x1000) &&& 0xE0 == 0xC0) = false := by
        rw [Bool.eq_false_iff, Ne, lead2, e1]; omega
      have l3 := (lead3 (BitVec.ofNat 8 (0xE0 + c / 0x1000))).2 (by rw [e1]; omega)
      have k1 := (isCont_iff (BitVec.ofNat 8 (0x80 + c / 0x40 % 0x40))).2 (by rw [e2]; omega)
      have k2 := (isCont_iff (BitVec.ofNat 8 (0x80 + c % 0x40))).2 (by rw [e3]; omega)
      have n1 : ¬ (0xE0 + c / 0x1000 < 0x80) := by omega
      have n2 : (0xE0 + c / 0x1000) % 0x10 * 0x1000 + (0x80 + c / 0x40 % 0x40) % 0x40 * 0x40 + (0x80 + c % 0x40) % 0x40 = c := by
        omega
      simp only [List.cons_append, List.nil_append, peekUtf8, e1, e2, e3, n1, if_false, l2, l3, if_true, k1, k2, n2,
        Bool.true_and, Bool.false_eq_true]
      rw [if_pos (by simp; omega)]
      rfl

theorem peek_decode {s : Str} {c n : Nat} (h : peekUtf8 s = some (c, n)) (hc : c ≤ 0xFFFF) :
    s = utf8Encode c ++ s.drop n ∧ ¬ (0xD800 ≤ c ∧ c ≤ 0xDFFF) := by
  cases s with
  | nil => cases h
  | cons a s =>
    simp only [peekUtf8] at h
    split at h
    · rename_i ha
      cases h
      refine ⟨?_, by omega⟩
      simp [utf8Encode, ha]
    · split at h
      · rename_i ha hl
        rw [lead2] at hl
        split at h
        · rename_i b u
          split at h
          · rename_i hk
            simp only [Bool.and_eq_true, decide_eq_true_eq] at hk
            have hb := (isCont_iff b).1 hk.1
            simp only [Option.some.injEq, Prod.mk.injEq] at h
            obtain ⟨rfl, rfl⟩ := h
            refine ⟨?_, by omega⟩
            unfold utf8Encode
            rw [if_neg (by omega), if_pos (by omega)]
            have e1 : a = BitVec.ofNat 8 (0xC0 + (a.toNat % 32 * 64 + b.toNat % 64) / 0x40) := byte_eq (by omega)
            have e2 : b = BitVec.ofNat 8 (0x80 + (a.toNat % 32 * 64 + b.toNat % 64) % 0x40) := byte_eq (by omega)
            rw [← e1, ← e2]
            rfl
          · cases h
        · cases h
      · split at h
        · rename_i ha _ hl
          rw [lead3] at hl
          split at h
          · rename_i b d u
            split at h
            · rename_i hk
              simp only [Bool.and_eq_true, decide_eq_true_eq, Bool.not_eq_true', Bool.and_eq_false_iff,
                decide_eq_false_iff_not] at hk
              obtain ⟨⟨⟨hb, hd⟩, h8⟩, hns⟩ := hk
              have hb := (isCont_iff b).1 hb
              have hd := (isCont_iff d).1 hd
              simp only [Option.some.injEq, Prod.mk.injEq] at h
              obtain ⟨rfl, rfl⟩ := h
              refine ⟨?_, by omega⟩
              unfold utf8Encode
              rw [if_neg (by omega), if_neg (by omega)]
              have e1 : a = BitVec.ofNat 8 (0xE0 + (a.toNat % 16 * 4096 + b.toNat % 64 * 64 + d.toNat % 64) / 0x1000) :=
                byte_eq (by omega)
              have e2 : b = BitVec.ofNat 8 (0x80 + (a.toNat % 16 * 4096 + b.toNat % 64 * 64 + d.toNat % 64) / 0x40 % 0x40) :=
                byte_eq (by omega)
              have e3 : d = BitVec.ofNat 8 (0x80 + (a.toNat % 16 * 4096 + b.toNat % 64 * 64 + d.toNat % 64) % 0x40) :=
                byte_eq (by omega)
              rw [← e1, ← e2, ← e3]
              rfl
            · cases h
          · cases h
        · split at h
          · split at h
            · split at h
              · rename_i hk
                simp only [Bool.and_eq_true, decide_eq_true_eq] at hk
                simp only [Option.some.injEq, Prod.mk.injEq] at h
                omega
              · cases h
            · cases h
          · cases h

theorem source_char_ok (hs : Sels sel) {s t : Str} {xs : List (Node R)} :
    eval sel (.ref .source_character) s = .ok xs t ↔ xs = [] ∧ ∃ x, SourceChar x ∧ s = x ++ t := by
  rw [ref_discard_ok (hs.at ⟨rfl, rfl⟩)]
  show eval sel (.sor (.one fun c => c == 0x0009 || c == 0x000A || c == 0x000D) (.utf8 0x20 0xFFFF)) s = _ ↔ _
  rw [sor_ok, one_ok]
  constructor
  · rintro (⟨c, rfl, hc, rfl⟩ | ⟨_, h⟩)
    · refine ⟨rfl, [c], ?_, rfl⟩
      simp only [Bool.or_eq_true, beq_iff_eq, or_assoc] at hc
      rcases hc with rfl | rfl | rfl
      · exact ⟨0x09, .inl rfl, rfl⟩
      · exact ⟨0x0A, .inr (.inl rfl), rfl⟩
      · exact ⟨0x0D, .inr (.inr (.inl rfl)), rfl⟩
    · rw [eval_utf8] at h
      split at h
      · rename_i c n hp
        split at h
        · rename_i hr
          cases h
          obtain ⟨e, hsur⟩ := peek_decode hp hr.2
          exact ⟨rfl, utf8Encode c, ⟨c, .inr (.inr (.inr ⟨hr.1, hr.2, hsur⟩)), rfl⟩, e⟩
        · cases h
      · cases h
  · rintro ⟨rfl, x, ⟨c, hc, rfl⟩, rfl⟩
    rcases hc with rfl | rfl | rfl | ⟨h1, h2, h3⟩
    · exact .inl ⟨0x09, rfl, rfl, rfl⟩
    · exact .inl ⟨0x0A, rfl, rfl, rfl⟩
    · exact .inl ⟨0x0D, rfl, rfl, rfl⟩
    · right
      constructor
      · rw [one_fail]
        rintro d u e
        by_contra hd
        simp only [Bool.not_eq_false, Bool.or_eq_true, beq_iff_eq, or_assoc] at hd
        have hp := peek_encode (by omega : c < 0x10000) h3 t
        rw [e] at hp
        unfold peekUtf8 at hp
        rcases hd with rfl | rfl | rfl <;> simp at hp <;> omega
      · rw [eval_utf8, peek_encode (by omega) h3 t]
        simp [h1, h2]

/-! ## The parts of a string -/

/-- Characters and escape sequences before `u`; `value` is what the contents of the nodes give. -/
inductive Parts (Good : Str → Prop) (Esc : Str → Str → Str → Prop) (u : Str) : (body value : Str) → Prop where
  | nil : Parts Good Esc u [] []
  | char {x body value} : SourceChar x → Good (x ++ body ++ u) → Parts Good Esc u body value →
      Parts Good Esc u (x ++ body) (x ++ value)
  | esc {e v body value} : Esc e v (body ++ u) → Parts Good Esc u body value → Parts Good Esc u (e ++ body) (v ++ value)

/-- A loop over escape sequences `E` and nodes `n` of one or more characters `X`. -/
structure Loop (sel : R → Sel) (E X : Rule R) (n : R) (Good : Str → Prop) (Esc : Str → Str → Str → Prop) : Prop where
  node : sel n = .store
  rule : grammar n = Rule.plus X
  charProgress : nullable nulTable X = false
  progress : nullable nulTable (.sor E (.ref n)) = false
  char {s t : Str} {xs : List (Node R)} : eval sel X s = .ok xs t ↔ xs = [] ∧ Good s ∧ ∃ x, SourceChar x ∧ s = x ++ t
  charRaise {s m : Str} : eval sel X s ≠ .raise m
  escSound {s t : Str} {xs : List (Node R)} : eval sel E s = .ok xs t →
    ∃ y e, xs = [y] ∧ s = e ++ t ∧ Esc e y.content t
  escComplete {e v t : Str} : Esc e v t → ∃ y, eval sel E (e ++ t) = .ok [y] t ∧ y.content = v
  escFail {s : Str} : Good s → eval sel E s = .fail

theorem Loop.char_run {E X : Rule R} {n : R} {Good : Str → Prop} {Esc : Str → Str → Str → Prop}
    (L : Loop sel E X n Good Esc) {s t : Str} {xs : List (Node R)} (h : Iter sel X s xs t) :
    xs = [] ∧ ∃ a, s = a ++ t ∧ ∀ u body value, t = body ++ u → Parts Good Esc u body value →
      Parts Good Esc u (a ++ body) (a ++ value) := by
  induction h with
  | nil _ => exact ⟨rfl, [], rfl, fun _ _ _ _ h => h⟩
  | cons h _ ih =>
    obtain ⟨rfl, hg, x, hx, rfl⟩ := L.char.1 h
    obtain ⟨rfl, a, rfl, ha⟩ := ih
    refine ⟨rfl, x ++ a, by simp, ?_⟩
    rintro u body value rfl hp
    have := ha u body value rfl hp
    rw [List.append_assoc, List.append_assoc]
    exact .char hx (by simpa using hg) this

theorem Loop.node_ok {E X : Rule R} {n : R} {Good : Str → Prop} {Esc : Str → Str → Str → Prop}
    (L : Loop sel E X n Good Esc) {s t : Str} {xs : List (Node R)} :
    eval sel (.ref n) s = .ok xs t ↔ ∃ x u, SourceChar x ∧ Good s ∧ s = x ++ u ∧ eval sel (.star X) u = .ok [] t ∧
      xs = [.mk n s.length (consumed s t) []] := by
  rw [ref_store_ok L.node, L.rule]
  unfold Rule.plus
  constructor
  · rintro ⟨ys, h, rfl⟩
    obtain ⟨_, u, _, h1, h2, rfl⟩ := seq_ok.1 h
    obtain ⟨rfl, hg, x, hx, rfl⟩ := L.char.1 h1
    have h3 := h2
    rw [star_ok L.charProgress] at h3
    obtain ⟨rfl, _⟩ := L.char_run h3
    exact ⟨x, u, hx, hg, rfl, h2, rfl⟩
  · rintro ⟨x, u, hx, hg, rfl, h2, rfl⟩
    exact ⟨[], seq_ok.2 ⟨[], u, [], L.char.2 ⟨rfl, hg, x, hx, rfl⟩, h2, rfl⟩, rfl⟩

theorem Loop.sound {E X : Rule R} {n : R} {Good : Str → Prop} {Esc : Str → Str → Str → Prop}
    (L : Loop sel E X n Good Esc) {s u : Str} {xs : List (Node R)} (h : eval sel (.star (.sor E (.ref n))) s = .ok xs u) :
    ∃ body, s = body ++ u ∧ Parts Good Esc u body (xs.flatMap Node.content) := by
  rw [star_ok L.progress] at h
  induction h with
  | nil _ => exact ⟨[], rfl, .nil⟩
  | cons h _ ih =>
    obtain ⟨body, rfl, hp⟩ := ih
    rcases sor_ok.1 h with h | ⟨_, h⟩
    · obtain ⟨y, e, rfl, rfl, he⟩ := L.escSound h
      refine ⟨e ++ body, by simp, ?_⟩
      simpa using Parts.esc he hp
    · obtain ⟨x, v, hx, hg, rfl, h2, rfl⟩ := L.node_ok.1 h
      rw [star_ok L.charProgress] at h2
      obtain ⟨_, a, rfl, ha⟩ := L.char_run h2
      refine ⟨x ++ (a ++ body), by simp, ?_⟩
      have h3 := Parts.char hx (by simpa using hg) (ha _ _ _ rfl hp)
      have h4 : ∀ w, consumed (x ++ (a ++ (body ++ w))) (body ++ w) = x ++ a := by
        intro w; rw [← List.append_assoc]; exact consumed_append _ _
      simp only [List.flatMap_append, List.flatMap_cons, List.flatMap_nil, List.append_nil, Node.content, h4]
      simpa using h3

theorem Loop.complete {E X : Rule R} {n : R} {Good : Str → Prop} {Esc : Str → Str → Str → Prop}
    (L : Loop sel E X n Good Esc) {u : Str} (hu : eval sel E u = .fail) (hu' : ¬ ∃ x t, SourceChar x ∧ u = x ++ t ∧ Good u)
    {body value : Str} (h : Parts Good Esc u body value) :
    ∃ xs, eval sel (.star (.sor E (.ref n))) (body ++ u) = .ok xs u ∧ xs.flatMap Node.content = value := by
  have xfail : ∀ s, (¬ ∃ x t, SourceChar x ∧ s = x ++ t ∧ Good s) → eval sel X s = .fail := by
    intro s hno
    cases e : eval sel X s with
    | fail => rfl
    | raise m => exact absurd e L.charRaise
    | ok xs t =>
      obtain ⟨_, hg, x, hx, rfl⟩ := L.char.1 e
      exact absurd ⟨x, t, hx, rfl, hg⟩ hno
  have nfail : ∀ s, eval sel X s = .fail → eval sel (.ref n) s = .fail := by
    intro s hs
    rw [ref_fail, L.rule]
    exact seq_fail.2 (.inl hs)
  simp only [star_ok L.progress]
  induction h with
  | nil => exact ⟨[], .nil (sor_fail.2 ⟨hu, nfail _ (xfail _ hu')⟩), rfl⟩
  | @char x body value hx hg _ ih =>
    obtain ⟨xs, h, hv⟩ := ih
    rw [List.append_assoc] at hg ⊢
    by_cases hX : ∃ x t, SourceChar x ∧ body ++ u = x ++ t ∧ Good (body ++ u)
    · obtain ⟨x', t', hx', e', hg'⟩ := hX
      have okX : eval sel X (body ++ u) = .ok [] t' := L.char.2 ⟨rfl, hg', x', hx', e'⟩
      generalize hb : body ++ u = b at *
      cases h with
      | nil h =>
        have h2 := (sor_fail.1 h).2
        rw [ref_fail, L.rule] at h2
        rcases seq_fail.1 h2 with h2 | ⟨_, _, _, h2⟩
        · rw [okX] at h2; cases h2
        · exact absurd h2 (star_ne_fail L.charProgress)
      | @cons _ ys t zs _ h h3 =>
        rcases sor_ok.1 h with h | ⟨_, h⟩
        · rw [L.escFail hg'] at h; cases h
        · obtain ⟨y, v, hy, _, e1, h4, rfl⟩ := L.node_ok.1 h
          have h5 : eval sel (.star X) b = .ok [] t := by
            rw [eval_star L.charProgress, L.char.2 ⟨rfl, hg', y, hy, e1⟩]
            simp only [h4, List.append_nil]
          refine ⟨[.mk n (x ++ b).length (consumed (x ++ b) t) []] ++ zs,
            .cons (sor_ok.2 (.inr ⟨L.escFail hg, L.node_ok.2 ⟨x, b, hx, hg, rfl, h5, rfl⟩⟩)) h3, ?_⟩
          obtain ⟨a, rfl⟩ := (eval_rest h5).1
          rw [← hv]
          simp only [List.flatMap_append, List.flatMap_cons, List.flatMap_nil, List.append_nil, Node.content, consumed_append]
          rw [← List.append_assoc, consumed_append, List.append_assoc]
    · have h5 : eval sel (.star X) (body ++ u) = .ok [] (body ++ u) := by
        rw [eval_star L.charProgress, xfail _ hX]
      refine ⟨[.mk n (x ++ (body ++ u)).length (consumed (x ++ (body ++ u)) (body ++ u)) []] ++ xs,
        .cons (sor_ok.2 (.inr ⟨L.escFail hg, L.node_ok.2 ⟨x, _, hx, hg, rfl, h5, rfl⟩⟩)) h, ?_⟩
      rw [← hv]
      simp only [List.flatMap_append, List.flatMap_cons, List.flatMap_nil, List.append_nil, Node.content, consumed_append]
  | esc he _ ih =>
    obtain ⟨xs, h, hv⟩ := ih
    obtain ⟨y, h1, rfl⟩ := L.escComplete he
    rw [List.append_assoc]
    refine ⟨[y] ++ xs, .cons (sor_ok.2 (.inl h1)) h, ?_⟩
    rw [← hv]
    simp

/-! ## Quoted strings -/

theorem source_char_ascii {c : Byte} {y : Str} (h : SourceChar (c :: y)) (hc : c.toNat < 0x80) : y = [] := by
  obtain ⟨n, hn, e⟩ := h
  unfold utf8Encode at e
  split at e
  · cases e; rfl
  · split at e
    · have e1 : c = BitVec.ofNat 8 (0xC0 + n / 0x40) := (List.cons.inj e).1
      rw [e1, ofNat_toNat8 (by omega)] at hc; omega
    · have e1 : c = BitVec.ofNat 8 (0xE0 + n / 0x1000) := (List.cons.inj e).1
      rw [e1, ofNat_toNat8 (by omega)] at hc; omega

theorem source_char_ne_nil {x : Str} (h : SourceChar x) : ∃ c y, x = c :: y := by
  obtain ⟨n, hn, rfl⟩ := h
  unfold utf8Encode
  split
  · exact ⟨_, _, rfl⟩
  · split <;> exact ⟨_, _, rfl⟩

/-- What a character in quotes may not begin with. -/
def QuotedGood (s : Str) : Prop :=
  ¬ str "\\" <+: s ∧ ¬ str "\"" <+: s ∧ ¬ str "\n" <+: s ∧ ¬ str "\r\n" <+: s

/-- An escape sequence, what is stored, and what comes after it. -/
def QuotedEsc (e v t : Str) : Prop :=
  (∃ c ∈ str "\"\\/bfnrt", e = [0x5C, c] ∧ v = [c]) ∨
  (∃ hs, HexGroups hs ∧ e = str "\\u" ++ hs ∧ v = str "u" ++ hs ∧
    ¬ ∃ a b c d w, isHex a = true ∧ isHex b = true ∧ isHex c = true ∧ isHex d = true ∧
      t = str "\\u" ++ [a, b, c, d] ++ w)

theorem chr_fail_prefix {c : Char} {s : Str} : eval sel (Rule.chr c) s = .fail ↔ ¬ [BitVec.ofNat 8 c.toNat] <+: s := by
  rw [chr_fail]
  constructor
  · rintro h ⟨t, rfl⟩; exact h t rfl
  · rintro h t rfl; exact h ⟨t, rfl⟩

theorem quoted_char_ok (hs : Sels sel) {s t : Str} {xs : List (Node R)} :
    eval sel (Rule.seqs [Rule.notAt (.ref .backslash_token), Rule.notAt (.ref .quote_token), Rule.notAt Rule.eol,
      .ref .source_character]) s = .ok xs t ↔ xs = [] ∧ QuotedGood s ∧ ∃ x, SourceChar x ∧ s = x ++ t := by
  show eval sel (.seq (.notAt (.ref .backslash_token)) (.seq (.notAt (.ref .quote_token)) (.seq (.notAt Rule.eol)
    (.ref .source_character)))) s = _ ↔ _
  have heol : eval sel Rule.eol s = .fail ↔ ¬ str "\n" <+: s ∧ ¬ str "\r\n" <+: s := by
    unfold Rule.eol; rw [sor_fail, lit_fail, lit_fail]
  have hb : eval sel (.ref .backslash_token) s = .fail ↔ ¬ str "\\" <+: s := by rw [ref_fail]; exact chr_fail_prefix
  have hq : eval sel (.ref .quote_token) s = .fail ↔ ¬ str "\"" <+: s := by rw [ref_fail]; exact chr_fail_prefix
  rw [seq_ok]
  constructor
  · rintro ⟨_, u, _, h1, h2, rfl⟩
    obtain ⟨k1, rfl, rfl⟩ := notAt_ok.1 h1
    obtain ⟨_, u, _, h3, h4, rfl⟩ := seq_ok.1 h2
    obtain ⟨k3, rfl, rfl⟩ := notAt_ok.1 h3
    obtain ⟨_, u, _, h5, h6, rfl⟩ := seq_ok.1 h4
    obtain ⟨k5, rfl, rfl⟩ := notAt_ok.1 h5
    obtain ⟨rfl, hx⟩ := (source_char_ok hs).1 h6
    exact ⟨rfl, ⟨hb.1 k1, hq.1 k3, (heol.1 k5).1, (heol.1 k5).2⟩, hx⟩
  · rintro ⟨rfl, ⟨h1, h2, h3, h4⟩, hx⟩
    exact ⟨[], s, [], notAt_ok.2 ⟨hb.2 h1, rfl, rfl⟩, seq_ok.2 ⟨[], s, [], notAt_ok.2 ⟨hq.2 h2, rfl, rfl⟩,
      seq_ok.2 ⟨[], s, [], notAt_ok.2 ⟨heol.2 ⟨h3, h4⟩, rfl, rfl⟩, (source_char_ok hs).2 ⟨rfl, hx⟩, rfl⟩, rfl⟩, rfl⟩

/-- A rule without `must` does not throw. -/
def quiet : Nat → Rule R → Bool
  | 0, _ => false
  | _ + 1, .one _ => true
  | _ + 1, .lit _ => true
  | _ + 1, .utf8 _ _ => true
  | _ + 1, .eof => true
  | _ + 1, .empty => true
  | f + 1, .seq a b => quiet f a && quiet f b
  | f + 1, .sor a b => quiet f a && quiet f b
  | f + 1, .star a => quiet f a && !nullable nulTable a
  | f + 1, .opt a => quiet f a
  | f + 1, .notAt a => quiet f a
  | _ + 1, .must _ _ => false
  | f + 1, .ref n => quiet f (grammar n)

theorem quiet_no_raise (f : Nat) : ∀ (r : Rule R), quiet f r = true → ∀ s m, eval sel r s ≠ .raise m := by
  induction f with
  | zero => intro r h; simp [quiet] at h
  | succ f ih =>
    intro r h s m
    cases r with
    | one p => cases s with
      | nil => rw [eval_one_nil]; exact nofun
      | cons c s => rw [eval_one_cons]; split <;> exact nofun
    | lit l => rw [eval_lit]; split <;> exact nofun
    | utf8 lo hi => rw [eval_utf8]; split
                    · split <;> exact nofun
                    · exact nofun
    | eof => rw [eval_eof]; split <;> exact nofun
    | empty => rw [eval_empty]; exact nofun
    | seq a b =>
      simp only [quiet, Bool.and_eq_true] at h
      rw [eval_seq]
      have h1 := ih a h.1 s
      cases ha : eval sel a s with
      | fail => exact nofun
      | raise m => exact absurd ha (h1 m)
      | ok xs t =>
        have h2 := ih b h.2 t
        simp only
        cases hb : eval sel b t with
        | fail => exact nofun
        | raise m => exact absurd hb (h2 m)
        | ok ys u => exact nofun
    | sor a b =>
      simp only [quiet, Bool.and_eq_true] at h
      rw [eval_sor]
      have h1 := ih a h.1 s
      cases ha : eval sel a s with
      | fail => exact ih b h.2 s m
      | raise m => exact absurd ha (h1 m)
      | ok xs t => exact nofun
    | star a =>
      simp only [quiet, Bool.and_eq_true, Bool.not_eq_true'] at h
      exact star_no_raise h.2 (ih a h.1)
    | opt a =>
      rw [eval_opt]
      have h1 := ih a h s
      cases ha : eval sel a s with
      | fail => exact nofun
      | raise m => exact absurd ha (h1 m)
      | ok xs t => exact nofun
    | notAt a =>
      rw [eval_notAt]
      have h1 := ih a h s
      cases ha : eval sel a s with
      | fail => exact nofun
      | raise m => exact absurd ha (h1 m)
      | ok xs t => exact nofun
    | must m a => simp [quiet] at h
    | ref n =>
      rw [eval_ref]
      have h1 := ih _ h s
      cases ha : eval sel (grammar n) s with
      | fail => exact nofun
      | raise m => exact absurd ha (h1 m)
      | ok xs t => exact nofun

theorem codepoint_ok (hs : Sels sel) {s t : Str} {xs : List (Node R)} :
    eval sel (.ref .escaped_unicode_codepoint) s = .ok xs t ↔ xs = [] ∧ ∃ a b c d, isHex a = true ∧ isHex b = true ∧
      isHex c = true ∧ isHex d = true ∧ s = a :: b :: c :: d :: t := by
  have hh : ∀ c : Byte, ((0x30 ≤ c.toNat && c.toNat ≤ 0x39) || (0x41 ≤ c.toNat && c.toNat ≤ 0x46) ||
    (0x61 ≤ c.toNat && c.toNat ≤ 0x66)) = isHex c := fun _ => rfl
  rw [ref_discard_ok (hs.at ⟨rfl, rfl⟩)]
  show eval sel (.seq Rule.xdigit (.seq Rule.xdigit (.seq Rule.xdigit Rule.xdigit))) s = _ ↔ _
  unfold Rule.xdigit
  simp only [hh]
  rw [seq_ok]
  constructor
  · rintro ⟨_, u, _, h1, h2, rfl⟩
    obtain ⟨a, rfl, ha, rfl⟩ := one_ok.1 h1
    obtain ⟨_, u, _, h3, h4, rfl⟩ := seq_ok.1 h2
    obtain ⟨b, rfl, hb, rfl⟩ := one_ok.1 h3
    obtain ⟨_, u, _, h5, h6, rfl⟩ := seq_ok.1 h4
    obtain ⟨c, rfl, hc, rfl⟩ := one_ok.1 h5
    obtain ⟨d, rfl, hd, rfl⟩ := one_ok.1 h6
    exact ⟨rfl, a, b, c, d, ha, hb, hc, hd, rfl⟩
  · rintro ⟨rfl, a, b, c, d, ha, hb, hc, hd, rfl⟩
    exact ⟨[], _, [], one_ok.2 ⟨a, rfl, ha, rfl⟩, seq_ok.2 ⟨[], _, [], one_ok.2 ⟨b, rfl, hb, rfl⟩,
      seq_ok.2 ⟨[], _, [], one_ok.2 ⟨c, rfl, hc, rfl⟩, one_ok.2 ⟨d, rfl, hd, rfl⟩, rfl⟩, rfl⟩, rfl⟩

/-- No further group of hexadecimal digits. -/
def HexEnds (t : Str) : Prop :=
  ¬ ∃ a b c d w, isHex a = true ∧ isHex b = true ∧ isHex c = true ∧ isHex d = true ∧ t = str "\\u" ++ [a, b, c, d] ++ w

theorem hex_sep_ok (hs : Sels sel) {s t : Str} {xs : List (Node R)} :
    eval sel (.seq (Rule.seqs [.ref .backslash_token, Rule.chr 'u']) (.ref .escaped_unicode_codepoint)) s = .ok xs t ↔
      xs = [] ∧ ∃ a b c d, isHex a = true ∧ isHex b = true ∧ isHex c = true ∧ isHex d = true ∧
        s = str "\\u" ++ [a, b, c, d] ++ t := by
  rw [seq_ok]
  constructor
  · rintro ⟨_, u, _, h1, h2, rfl⟩
    obtain ⟨_, v, _, h3, h4, rfl⟩ := seq_ok.1 h1
    rw [ref_discard_ok (hs.at ⟨rfl, rfl⟩)] at h3
    obtain ⟨rfl, rfl⟩ := chr_ok.1 h3
    obtain ⟨rfl, rfl⟩ := chr_ok.1 h4
    obtain ⟨rfl, a, b, c, d, ha, hb, hc, hd, rfl⟩ := (codepoint_ok hs).1 h2
    exact ⟨rfl, a, b, c, d, ha, hb, hc, hd, rfl⟩
  · rintro ⟨rfl, a, b, c, d, ha, hb, hc, hd, rfl⟩
    exact ⟨[], a :: b :: c :: d :: t, [], seq_ok.2 ⟨[], 0x75 :: a :: b :: c :: d :: t, [],
      (ref_discard_ok (hs.at ⟨rfl, rfl⟩)).2 (chr_ok.2 ⟨rfl, rfl⟩), chr_ok.2 ⟨rfl, rfl⟩, rfl⟩,
      (codepoint_ok hs).2 ⟨rfl, a, b, c, d, ha, hb, hc, hd, rfl⟩, rfl⟩

theorem hex_groups_ok (hs : Sels sel) {s t : Str} {xs : List (Node R)} :
    eval sel (.ref .escaped_unicode_content) s = .ok xs t ↔ xs = [] ∧ ∃ h, HexGroups h ∧ s = h ++ t ∧ HexEnds t := by
  rw [ref_discard_ok (hs.at ⟨rfl, rfl⟩)]
  show eval sel (.seq (.ref .escaped_unicode_codepoint) (.star (.seq (Rule.seqs [.ref .backslash_token, Rule.chr 'u'])
    (.ref .escaped_unicode_codepoint)))) s = _ ↔ _
  rw [seq_ok]
  constructor
  · rintro ⟨_, u, _, h1, h2, rfl⟩
    obtain ⟨rfl, a, b, c, d, ha, hb, hc, hd, rfl⟩ := (codepoint_ok hs).1 h1
    clear h1
    rw [star_ok rfl] at h2
    induction h2 generalizing a b c d with
    | nil h =>
      refine ⟨rfl, [a, b, c, d], .one ha hb hc hd, rfl, ?_⟩
      rintro ⟨a', b', c', d', w, h1, h2, h3, h4, e⟩
      have := (hex_sep_ok (sel := sel) (xs := []) (t := w) hs).2 ⟨rfl, a', b', c', d', h1, h2, h3, h4, e⟩
      rw [h] at this; cases this
    | cons h _ ih =>
      obtain ⟨rfl, a', b', c', d', h1, h2, h3, h4, rfl⟩ := (hex_sep_ok hs).1 h
      obtain ⟨e, g, hg, e2, he⟩ := ih a' b' c' d' h1 h2 h3 h4
      refine ⟨by simpa using e, a :: b :: c :: d :: str "\\u" ++ g, .more ha hb hc hd hg, ?_, he⟩
      simp only [List.cons_append, List.append_assoc, ← e2]
      rfl
  · rintro ⟨rfl, h, hh, rfl, he⟩
    have : ∀ h : Str, HexGroups h → ∃ a b c d w, isHex a = true ∧ isHex b = true ∧ isHex c = true ∧ isHex d = true ∧
        h ++ t = a :: b :: c :: d :: w ∧ Iter sel (.seq (Rule.seqs [.ref .backslash_token, Rule.chr 'u'])
          (.ref .escaped_unicode_codepoint)) w [] t := by
      intro h hh
      induction hh with
      | one ha hb hc hd =>
        refine ⟨_, _, _, _, t, ha, hb, hc, hd, rfl, .nil ?_⟩
        have hr := quiet_no_raise (sel := sel) 20 (.seq (Rule.seqs [.ref .backslash_token, Rule.chr 'u'])
          (.ref .escaped_unicode_codepoint)) (by decide +kernel) t
        cases e : eval sel (.seq (Rule.seqs [.ref .backslash_token, Rule.chr 'u']) (.ref .escaped_unicode_codepoint)) t with
        | fail => rfl
        | raise m => exact absurd e (hr m)
        | ok ys w =>
          obtain ⟨_, a', b', c', d', h1, h2, h3, h4, e'⟩ := (hex_sep_ok hs).1 e
          exact absurd ⟨a', b', c', d', w, h1, h2, h3, h4, e'⟩ he
      | more ha hb hc hd _ ih =>
        obtain ⟨a', b', c', d', w, h1, h2, h3, h4, e, hi⟩ := ih
        refine ⟨_, _, _, _, str "\\u" ++ [a', b', c', d'] ++ w, ha, hb, hc, hd, ?_, ?_⟩
        · simp only [List.cons_append, List.append_assoc, e]; rfl
        · exact .cons (xs := []) ((hex_sep_ok hs).2 ⟨rfl, a', b', c', d', h1, h2, h3, h4, rfl⟩) hi
    obtain ⟨a, b, c, d, w, ha, hb, hc, hd, e, hi⟩ := this h hh
    rw [e]
    rw [← star_ok rfl] at hi
    exact ⟨[], w, [], (codepoint_ok hs).2 ⟨rfl, a, b, c, d, ha, hb, hc, hd, rfl⟩, hi, rfl⟩

theorem escape_mem : ∀ c : Byte, (str "\"\\/bfnrt").contains c = true ↔ c ∈ str "\"\\/bfnrt" := by
  intro c; exact List.contains_iff_mem

theorem quoted_esc_sound (hs : Sels sel) {s t : Str} {xs : List (Node R)}
    (h : eval sel (.ref .string_escape_sequence) s = .ok xs t) :
    ∃ y e, xs = [y] ∧ s = e ++ t ∧ QuotedEsc e y.content t := by
  rw [ref_discard_ok (hs.at ⟨rfl, rfl⟩)] at h
  obtain ⟨_, u, _, h1, h2, rfl⟩ := seq_ok.1 h
  rw [ref_discard_ok (hs.at ⟨rfl, rfl⟩)] at h1
  obtain ⟨rfl, rfl⟩ := chr_ok.1 h1
  have h2' := need_ok.1 h2
  rw [ref_discard_ok (hs.at ⟨rfl, rfl⟩)] at h2'
  rcases sor_ok.1 h2' with h3 | ⟨_, h3⟩
  · obtain ⟨ys, h4, rfl⟩ := (ref_store_ok (hs.at ⟨rfl, rfl⟩)).1 h3
    obtain ⟨_, w, _, h5, h6, rfl⟩ := seq_ok.1 h4
    obtain ⟨rfl, rfl⟩ := chr_ok.1 h5
    obtain ⟨rfl, g, hg, rfl, he⟩ := (hex_groups_ok hs).1 (need_ok.1 h6)
    refine ⟨_, str "\\u" ++ g, rfl, rfl, ?_⟩
    have := consumed_append (str "u" ++ g) t
    rw [Node.content, show BitVec.ofNat 8 'u'.toNat :: (g ++ t) = str "u" ++ g ++ t from rfl, this]
    exact .inr ⟨g, hg, rfl, rfl, he⟩
  · obtain ⟨ys, h4, rfl⟩ := (ref_store_ok (hs.at ⟨rfl, rfl⟩)).1 h3
    obtain ⟨c, rfl, hc, rfl⟩ := one_ok.1 h4
    refine ⟨_, [0x5C, c], rfl, rfl, ?_⟩
    rw [Node.content, show c :: t = [c] ++ t from rfl, consumed_append]
    exact .inl ⟨c, (escape_mem c).1 hc, rfl, rfl⟩

theorem quoted_esc_complete (hs : Sels sel) {e v t : Str} (h : QuotedEsc e v t) :
    ∃ y, eval sel (.ref .string_escape_sequence) (e ++ t) = .ok [y] t ∧ y.content = v := by
  have hb : ∀ u, eval sel (.ref .backslash_token) (0x5C :: u) = .ok [] u := fun u =>
    (ref_discard_ok (hs.at ⟨rfl, rfl⟩)).2 (chr_ok.2 ⟨rfl, rfl⟩)
  rcases h with ⟨c, hc, rfl, rfl⟩ | ⟨g, hg, rfl, rfl, he⟩
  · refine ⟨.mk .escaped_char (c :: t).length (consumed (c :: t) t) [], ?_, consumed_append [c] t⟩
    rw [ref_discard_ok (hs.at ⟨rfl, rfl⟩)]
    refine seq_ok.2 ⟨[], c :: t, _, hb _, need_ok.2 ((ref_discard_ok (hs.at ⟨rfl, rfl⟩)).2 (sor_ok.2 (.inr ⟨?_, ?_⟩))), rfl⟩
    · refine ref_fail.2 (seq_fail.2 (.inl (chr_fail.2 fun u e => ?_)))
      cases e
      exact absurd hc (by decide)
    · exact (ref_store_ok (hs.at ⟨rfl, rfl⟩)).2 ⟨[], one_ok.2 ⟨c, rfl, (escape_mem c).2 hc, rfl⟩, rfl⟩
  · refine ⟨.mk .escaped_unicode (str "u" ++ g ++ t).length (consumed (str "u" ++ g ++ t) t) [], ?_, consumed_append _ t⟩
    rw [ref_discard_ok (hs.at ⟨rfl, rfl⟩)]
    refine seq_ok.2 ⟨[], str "u" ++ g ++ t, _, hb _,
      need_ok.2 ((ref_discard_ok (hs.at ⟨rfl, rfl⟩)).2 (sor_ok.2 (.inl ?_))), rfl⟩
    refine (ref_store_ok (hs.at ⟨rfl, rfl⟩)).2 ⟨[], seq_ok.2 ⟨[], g ++ t, [], chr_ok.2 ⟨rfl, rfl⟩, ?_, rfl⟩, rfl⟩
    exact need_ok.2 ((hex_groups_ok hs).2 ⟨rfl, g, hg, rfl, he⟩)

/-- The characters and escape sequences of a quoted string. -/
theorem quoted_loop (hs : Sels sel) : Loop sel (.ref .string_escape_sequence)
    (Rule.seqs [Rule.notAt (.ref .backslash_token), Rule.notAt (.ref .quote_token), Rule.notAt Rule.eol,
      .ref .source_character]) .string_quote_character QuotedGood QuotedEsc where
  node := hs.at ⟨rfl, rfl⟩
  rule := rfl
  charProgress := by decide +kernel
  progress := by decide +kernel
  char := quoted_char_ok hs
  charRaise := quiet_no_raise 20 _ (by decide +kernel) _ _
  escSound := quoted_esc_sound hs
  escComplete := quoted_esc_complete hs
  escFail := by
    intro s h
    refine ref_fail.2 (seq_fail.2 (.inl (ref_fail.2 (chr_fail_prefix.2 h.1))))

theorem quoted_not_u {body value : Str} {u w : Str} (h : Parts QuotedGood QuotedEsc u body value)
    (hu : ¬ str "\\" <+: u) (e : body ++ u = str "\\u" ++ w) : ¬ HexEnds (body ++ u) := by
  cases h with
  | nil => exact absurd ⟨_, e.symm⟩ hu
  | char _ hg _ =>
    refine absurd ?_ hg.1
    rw [e]
    exact ⟨_, rfl⟩
  | @esc e' v b val he hp =>
    rcases he with ⟨c, hc, rfl, rfl⟩ | ⟨g, hg, rfl, rfl, _⟩
    · cases e
      exact absurd hc (by decide)
    · intro hx
      apply hx
      cases hg with
      | one ha hb hc hd => exact ⟨_, _, _, _, b ++ u, ha, hb, hc, hd, rfl⟩
      | more ha hb hc hd hg => exact ⟨_, _, _, _, _, ha, hb, hc, hd, rfl⟩

/-- The parts of a quoted string, before the closing quote, are what the specification says. -/
theorem parts_quoted {r body value : Str} :
    Parts QuotedGood QuotedEsc (str "\"" ++ r) body value ↔ Quoted body value := by
  constructor
  · intro h
    induction h with
    | nil => exact .nil
    | @char x body value hx hg _ ih =>
      refine .char hx ?_ ?_ ?_ ?_ ih
      · rintro rfl; exact hg.2.1 ⟨_, rfl⟩
      · rintro rfl; exact hg.1 ⟨_, rfl⟩
      · rintro rfl; exact hg.2.2.1 ⟨_, rfl⟩
      · rintro ⟨rfl, b, rfl⟩; exact hg.2.2.2 ⟨_, rfl⟩
    | @esc e v body value he hp ih =>
      rcases he with ⟨c, hc, rfl, rfl⟩ | ⟨g, hg, rfl, rfl, hx⟩
      · exact .escape hc ih
      · refine .unicode hg ?_ ih
        rintro ⟨w, rfl⟩
        refine quoted_not_u hp ?_ (by rw [List.append_assoc]) hx
        rintro ⟨_, e⟩; cases e
  · intro h
    induction h with
    | nil => exact .nil
    | @char x body value hx h1 h2 h3 h4 _ ih =>
      refine .char hx ?_ ih
      obtain ⟨c, y, rfl⟩ := source_char_ne_nil hx
      have one : ∀ k : Byte, k.toNat < 0x80 → [k] ≠ c :: y → ¬ [k] <+: c :: y ++ body ++ (str "\"" ++ r) := by
        rintro k hk hne ⟨w, e⟩
        have : k = c := (List.cons.inj e).1
        subst this
        exact hne (by rw [source_char_ascii hx hk])
      refine ⟨one 0x5C (by decide) (Ne.symm h2), one 0x22 (by decide) (Ne.symm h1), one 0x0A (by decide) (Ne.symm h3), ?_⟩
      rintro ⟨w, e⟩
      have : (0x0D : Byte) = c := (List.cons.inj e).1
      subst this
      have : y = [] := source_char_ascii hx (by decide)
      subst this
      apply h4
      refine ⟨rfl, ?_⟩
      cases body with
      | nil => cases e
      | cons d body =>
        have : d = 0x0A := by cases e; rfl
        subst this
        exact ⟨body, rfl⟩
    | escape hc _ ih => exact .esc (e := [0x5C, _]) (v := [_]) (.inl ⟨_, hc, rfl, rfl⟩) ih
    | @unicode g body value hg hn _ ih =>
      refine .esc (.inr ⟨g, hg, rfl, rfl, ?_⟩) ih
      rintro ⟨a, b, c, d, w, _, _, _, _, e⟩
      apply hn
      match body, e with
      | [], e => cases e
      | [_], e => cases e
      | k :: l :: body, e =>
        have e1 : k = 0x5C := (List.cons.inj e).1
        have e2 : l = 0x75 := (List.cons.inj (List.cons.inj e).2).1
        subst e1 e2
        exact ⟨body, rfl⟩

/-! ## Block strings -/

/-- What a character in a block string may not begin with. -/
def BlockGood (s : Str) : Prop := ¬ str "\"\"\"" <+: s ∧ ¬ str "\\\"\"\"" <+: s

/-- The escape sequence of block strings. -/
def BlockEsc (e v _t : Str) : Prop := e = str "\\\"\"\"" ∧ v = e

theorem quotes_ok (hs : Sels sel) {s t : Str} {xs : List (Node R)} :
    eval sel (.ref .block_quote_token) s = .ok xs t ↔ xs = [] ∧ s = str "\"\"\"" ++ t := by
  have hq : ∀ {s t : Str} {xs : List (Node R)}, eval sel (.ref .quote_token) s = .ok xs t ↔ xs = [] ∧ s = 0x22 :: t := by
    intro s t xs
    rw [ref_discard_ok (hs.at ⟨rfl, rfl⟩)]; exact chr_ok
  rw [ref_discard_ok (hs.at ⟨rfl, rfl⟩)]
  show eval sel (.seq (.ref .quote_token) (.seq (.ref .quote_token) (.ref .quote_token))) s = _ ↔ _
  rw [seq_ok]
  constructor
  · rintro ⟨_, u, _, h1, h2, rfl⟩
    obtain ⟨rfl, rfl⟩ := hq.1 h1
    obtain ⟨_, v, _, h3, h4, rfl⟩ := seq_ok.1 h2
    obtain ⟨rfl, rfl⟩ := hq.1 h3
    obtain ⟨rfl, rfl⟩ := hq.1 h4
    exact ⟨rfl, rfl⟩
  · rintro ⟨rfl, rfl⟩
    exact ⟨[], _, [], hq.2 ⟨rfl, rfl⟩, seq_ok.2 ⟨[], _, [], hq.2 ⟨rfl, rfl⟩, hq.2 ⟨rfl, rfl⟩, rfl⟩, rfl⟩

theorem fail_of {r : Rule R} {s : Str} (hq : quiet 20 r = true) (h : ∀ xs t, eval sel r s ≠ .ok xs t) :
    eval sel r s = .fail := by
  cases e : eval sel r s with
  | fail => rfl
  | raise m => exact absurd e (quiet_no_raise 20 r hq s m)
  | ok xs t => exact absurd e (h xs t)

theorem quotes_fail (hs : Sels sel) {s : Str} :
    eval sel (.ref .block_quote_token) s = .fail ↔ ¬ str "\"\"\"" <+: s := by
  constructor
  · rintro h ⟨t, rfl⟩
    rw [(quotes_ok hs).2 ⟨rfl, rfl⟩] at h; cases h
  · intro h
    refine fail_of (by decide +kernel) fun xs t e => ?_
    obtain ⟨_, rfl⟩ := (quotes_ok hs).1 e
    exact h ⟨t, rfl⟩

theorem block_esc_ok (hs : Sels sel) {s t : Str} {xs : List (Node R)} :
    eval sel (.ref .block_escape_sequence) s = .ok xs t ↔
      s = str "\\\"\"\"" ++ t ∧ xs = [.mk .block_escape_sequence s.length (str "\\\"\"\"") []] := by
  rw [ref_store_ok (hs.at ⟨rfl, rfl⟩)]
  constructor
  · rintro ⟨ys, h, rfl⟩
    obtain ⟨_, u, _, h1, h2, rfl⟩ := seq_ok.1 h
    rw [ref_discard_ok (hs.at ⟨rfl, rfl⟩)] at h1
    obtain ⟨rfl, rfl⟩ := chr_ok.1 h1
    obtain ⟨rfl, rfl⟩ := (quotes_ok hs).1 h2
    refine ⟨rfl, ?_⟩
    have := consumed_append (str "\\\"\"\"") t
    rw [show BitVec.ofNat 8 '\\'.toNat :: (str "\"\"\"" ++ t) = str "\\\"\"\"" ++ t from rfl, this]
    rfl
  · rintro ⟨rfl, rfl⟩
    refine ⟨[], seq_ok.2 ⟨[], str "\"\"\"" ++ t, [], (ref_discard_ok (hs.at ⟨rfl, rfl⟩)).2 (chr_ok.2 ⟨rfl, rfl⟩),
      (quotes_ok hs).2 ⟨rfl, rfl⟩, rfl⟩, ?_⟩
    rw [consumed_append]

theorem block_esc_fail (hs : Sels sel) {s : Str} :
    eval sel (.ref .block_escape_sequence) s = .fail ↔ ¬ str "\\\"\"\"" <+: s := by
  constructor
  · rintro h ⟨t, rfl⟩
    rw [(block_esc_ok hs).2 ⟨rfl, rfl⟩] at h; cases h
  · intro h
    refine fail_of (by decide +kernel) fun xs t e => ?_
    exact h ⟨t, ((block_esc_ok hs).1 e).1.symm⟩

theorem block_char_ok (hs : Sels sel) {s t : Str} {xs : List (Node R)} :
    eval sel (Rule.seqs [Rule.notAt (.ref .block_quote_token), Rule.notAt (.ref .block_escape_sequence),
      .ref .source_character]) s = .ok xs t ↔ xs = [] ∧ BlockGood s ∧ ∃ x, SourceChar x ∧ s = x ++ t := by
  show eval sel (.seq (.notAt (.ref .block_quote_token)) (.seq (.notAt (.ref .block_escape_sequence))
    (.ref .source_character))) s = _ ↔ _
  rw [seq_ok]
  constructor
  · rintro ⟨_, u, _, h1, h2, rfl⟩
    obtain ⟨k1, rfl, rfl⟩ := notAt_ok.1 h1
    obtain ⟨_, u, _, h3, h4, rfl⟩ := seq_ok.1 h2
    obtain ⟨k3, rfl, rfl⟩ := notAt_ok.1 h3
    obtain ⟨rfl, hx⟩ := (source_char_ok hs).1 h4
    exact ⟨rfl, ⟨(quotes_fail hs).1 k1, (block_esc_fail hs).1 k3⟩, hx⟩
  · rintro ⟨rfl, ⟨h1, h2⟩, hx⟩
    exact ⟨[], s, [], notAt_ok.2 ⟨(quotes_fail hs).2 h1, rfl, rfl⟩, seq_ok.2 ⟨[], s, [],
      notAt_ok.2 ⟨(block_esc_fail hs).2 h2, rfl, rfl⟩, (source_char_ok hs).2 ⟨rfl, hx⟩, rfl⟩, rfl⟩

/-- The characters and escape sequences of a block string. -/
theorem block_loop (hs : Sels sel) : Loop sel (.ref .block_escape_sequence)
    (Rule.seqs [Rule.notAt (.ref .block_quote_token), Rule.notAt (.ref .block_escape_sequence),
      .ref .source_character]) .block_quote_character BlockGood BlockEsc where
  node := hs.at ⟨rfl, rfl⟩
  rule := rfl
  charProgress := by decide +kernel
  progress := by decide +kernel
  char := block_char_ok hs
  charRaise := quiet_no_raise 20 _ (by decide +kernel) _ _
  escSound := by
    intro s t xs h
    obtain ⟨h1, h2⟩ := (block_esc_ok hs).1 h
    exact ⟨_, _, h2, h1, rfl, rfl⟩
  escComplete := by
    rintro e v t ⟨rfl, rfl⟩
    exact ⟨_, (block_esc_ok hs).2 ⟨rfl, rfl⟩, rfl⟩
  escFail := fun h => (block_esc_fail hs).2 h.2

theorem prefix_append_iff {p a b : Str} (h : p.length ≤ a.length) : p <+: a ++ b ↔ p <+: a :=
  ⟨fun hp => List.prefix_of_prefix_length_le hp (List.prefix_append a b) h, fun hp => hp.trans (List.prefix_append a b)⟩

/-- The parts of a block string, before the closing quotes, are what the specification says. -/
theorem parts_block {r body value : Str} :
    Parts BlockGood BlockEsc (str "\"\"\"" ++ r) body value ↔ Block body ∧ value = body := by
  have good : ∀ {x body : Str}, SourceChar x → (BlockGood (x ++ body ++ (str "\"\"\"" ++ r)) ↔
      ¬ str "\"\"\"" <+: x ++ body ++ str "\"\"\"" ∧ ¬ str "\\\"\"\"" <+: x ++ body ++ str "\"\"\"") := by
    intro x body hx
    obtain ⟨c, y, rfl⟩ := source_char_ne_nil hx
    have hl : 4 ≤ (c :: y ++ body ++ str "\"\"\"").length := by
      rw [List.length_append]
      show 4 ≤ (c :: (y ++ body)).length + 3
      rw [List.length_cons]
      omega
    unfold BlockGood
    rw [← List.append_assoc, prefix_append_iff (p := str "\"\"\"") (Nat.le_trans (by decide) hl),
      prefix_append_iff (p := str "\\\"\"\"") hl]
  constructor
  · intro h
    induction h with
    | nil => exact ⟨.nil, rfl⟩
    | char hx hg _ ih =>
      obtain ⟨h1, rfl⟩ := ih
      obtain ⟨g1, g2⟩ := (good hx).1 hg
      exact ⟨.char hx g1 g2 h1, rfl⟩
    | esc he _ ih =>
      obtain ⟨h1, rfl⟩ := ih
      obtain ⟨rfl, rfl⟩ := he
      exact ⟨.escape h1, rfl⟩
  · rintro ⟨h, rfl⟩
    induction h with
    | nil => exact .nil
    | char hx h1 h2 _ ih => exact .char hx ((good hx).2 ⟨h1, h2⟩) ih
    | escape _ ih => exact .esc ⟨rfl, rfl⟩ ih

/-! ## String values -/

theorem string_content_ok (hs : Sels sel) {s t : Str} {xs : List (Node R)} :
    eval sel (.ref .string_quote) s = .ok xs t → ∃ body, s = str "\"" ++ body ++ str "\"" ++ t ∧
      Quoted body (xs.flatMap Node.content) := by
  intro h
  rw [ref_discard_ok (hs.at ⟨rfl, rfl⟩)] at h
  obtain ⟨_, u, _, h1, h2, rfl⟩ := seq_ok.1 h
  rw [ref_discard_ok (hs.at ⟨rfl, rfl⟩)] at h1
  obtain ⟨rfl, rfl⟩ := chr_ok.1 h1
  have h3 := need_ok.1 h2
  rw [ref_discard_ok (hs.at ⟨rfl, rfl⟩)] at h3
  obtain ⟨ys, v, _, h4, h5, rfl⟩ := seq_ok.1 h3
  have h6 := must_ok.1 h5
  rw [ref_discard_ok (hs.at ⟨rfl, rfl⟩)] at h6
  obtain ⟨rfl, rfl⟩ := chr_ok.1 h6
  obtain ⟨body, rfl, hp⟩ := (quoted_loop hs).sound h4
  refine ⟨body, by simp [str], ?_⟩
  have := (parts_quoted (r := t)).1 hp
  simpa using this

theorem string_content_complete (hs : Sels sel) {body value t : Str} (h : Quoted body value) :
    ∃ xs, eval sel (.ref .string_quote) (str "\"" ++ body ++ str "\"" ++ t) = .ok xs t ∧
      xs.flatMap Node.content = value := by
  have hp := (parts_quoted (r := t)).2 h
  obtain ⟨xs, h1, h2⟩ := (quoted_loop hs).complete (u := str "\"" ++ t) (dead_append (by decide +kernel))
    (by rintro ⟨x, w, _, _, hg⟩; exact hg.2.1 ⟨_, rfl⟩) hp
  refine ⟨xs, ?_, h2⟩
  rw [ref_discard_ok (hs.at ⟨rfl, rfl⟩), List.append_assoc, List.append_assoc]
  refine seq_ok.2 ⟨[], body ++ (str "\"" ++ t), xs, (ref_discard_ok (hs.at ⟨rfl, rfl⟩)).2 (chr_ok.2 ⟨rfl, rfl⟩),
    need_ok.2 ((ref_discard_ok (hs.at ⟨rfl, rfl⟩)).2 ?_), rfl⟩
  exact seq_ok.2 ⟨xs, _, [], h1, must_ok.2 ((ref_discard_ok (hs.at ⟨rfl, rfl⟩)).2 (chr_ok.2 ⟨rfl, rfl⟩)), by simp⟩

theorem block_content_ok (hs : Sels sel) {s t : Str} {xs : List (Node R)} :
    eval sel (.ref .block_quote) s = .ok xs t → ∃ body, s = str "\"\"\"" ++ body ++ str "\"\"\"" ++ t ∧
      Block body ∧ xs.flatMap Node.content = body := by
  intro h
  rw [ref_discard_ok (hs.at ⟨rfl, rfl⟩)] at h
  obtain ⟨_, u, _, h1, h2, rfl⟩ := seq_ok.1 h
  obtain ⟨rfl, rfl⟩ := (quotes_ok hs).1 h1
  have h3 := need_ok.1 h2
  rw [ref_discard_ok (hs.at ⟨rfl, rfl⟩)] at h3
  obtain ⟨ys, v, _, h4, h5, rfl⟩ := seq_ok.1 h3
  obtain ⟨rfl, rfl⟩ := (quotes_ok hs).1 (must_ok.1 h5)
  obtain ⟨body, rfl, hp⟩ := (block_loop hs).sound h4
  refine ⟨body, by simp, ?_⟩
  have := (parts_block (r := t)).1 hp
  simpa using this

theorem block_content_complete (hs : Sels sel) {body t : Str} (h : Block body) :
    ∃ xs, eval sel (.ref .block_quote) (str "\"\"\"" ++ body ++ str "\"\"\"" ++ t) = .ok xs t ∧
      xs.flatMap Node.content = body := by
  have hp := (parts_block (r := t)).2 ⟨h, rfl⟩
  obtain ⟨xs, h1, h2⟩ := (block_loop hs).complete (u := str "\"\"\"" ++ t) (dead_append (by decide +kernel))
    (by rintro ⟨x, w, _, _, hg⟩; exact hg.1 ⟨_, rfl⟩) hp
  refine ⟨xs, ?_, h2⟩
  rw [ref_discard_ok (hs.at ⟨rfl, rfl⟩), List.append_assoc, List.append_assoc]
  refine seq_ok.2 ⟨[], body ++ (str "\"\"\"" ++ t), xs, (quotes_ok hs).2 ⟨rfl, rfl⟩,
    need_ok.2 ((ref_discard_ok (hs.at ⟨rfl, rfl⟩)).2 ?_), rfl⟩
  exact seq_ok.2 ⟨xs, _, [], h1, must_ok.2 ((quotes_ok hs).2 ⟨rfl, rfl⟩), by simp⟩

theorem quoted_first {body value : Str} (h : Quoted body value) (t : Str) : ¬ str "\"" <+: body ++ t ∨ body = [] := by
  cases h with
  | nil => exact .inr rfl
  | @char x b v hx h1 _ _ _ _ =>
    refine .inl ?_
    obtain ⟨c, y, rfl⟩ := source_char_ne_nil hx
    rintro ⟨w, e⟩
    have : (0x22 : Byte) = c := (List.cons.inj e).1
    subst this
    exact h1 (by rw [source_char_ascii hx (by decide)]; rfl)
  | escape _ _ => exact .inl (by rintro ⟨w, e⟩; cases e)
  | unicode _ _ _ => exact .inl (by rintro ⟨w, e⟩; cases e)

/-- The rule `sor<block_quote, string_quote>`. -/
theorem string_rule_ok (hs : Sels sel) {s t : Str} {xs : List (Node R)} (h : eval sel G.string_value s = .ok xs t) :
    ∃ text, s = text ++ t ∧ StringLit t text (xs.flatMap Node.content) := by
  rcases sor_ok.1 h with h | ⟨h0, h⟩
  · obtain ⟨body, rfl, hb, hv⟩ := block_content_ok hs h
    exact ⟨_, rfl, hv.symm ▸ .block hb⟩
  · obtain ⟨body, rfl, hb⟩ := string_content_ok hs h
    refine ⟨_, rfl, .quoted hb ?_⟩
    rintro ⟨rfl, w, rfl⟩
    have : eval sel (.ref .block_quote) (str "\"\"\"" ++ w) = .fail := h0
    rcases seq_fail.1 (ref_fail.1 this) with h | ⟨_, _, _, h⟩
    · exact (quotes_fail hs).1 h ⟨w, rfl⟩
    · exact must_fail h

theorem string_rule_complete (hs : Sels sel) {text value t : Str} (h : StringLit t text value) :
    ∃ xs, eval sel G.string_value (text ++ t) = .ok xs t ∧ xs.flatMap Node.content = value := by
  cases h with
  | quoted hq hn =>
    obtain ⟨xs, h1, h2⟩ := string_content_complete hs (t := t) hq
    refine ⟨xs, sor_ok.2 (.inr ⟨?_, h1⟩), h2⟩
    refine ref_fail.2 (seq_fail.2 (.inl ((quotes_fail hs).2 ?_)))
    rintro ⟨w, e⟩
    rw [List.append_assoc, List.append_assoc] at e
    have e1 := (List.cons.inj e).2
    rcases quoted_first hq (str "\"" ++ t) with h | rfl
    · exact h ⟨0x22 :: w, e1⟩
    · have e2 := (List.cons.inj e1).2
      exact hn ⟨rfl, w, e2⟩
  | block hb =>
    obtain ⟨xs, h1, h2⟩ := block_content_complete hs (t := t) hb
    exact ⟨xs, sor_ok.2 (.inl h1), h2⟩

theorem unescaped_string (u : Str → Str) (l : Nat) (c : Str) (xs : List (Node R)) :
    unescaped u (.mk .string_value l c xs) = xs.flatMap Node.content := by
  match xs with
  | [] => simp [unescaped, Node.rule, Node.children]
  | [y] => simp [unescaped, Node.rule, Node.children]
  | y :: z :: zs => rfl

/-- C34: a string literal is read exactly if it is one of the specification, and its value is the text between the quotes,
in quotes without the backslash of each escape sequence. -/
theorem string_literal (hs : Sels sel) (u : Str → Str) {s t : Str} :
    (∀ x, Matches sel .string_value s x t → s = x.content ++ t ∧ StringLit t x.content (unescaped u x)) ∧
    (∀ text value, s = text ++ t → StringLit t text value →
      ∃ x, Matches sel .string_value s x t ∧ x.content = text ∧ unescaped u x = value) := by
  constructor
  · intro x h
    obtain ⟨ys, h1, e⟩ := (ref_store_ok (hs.at ⟨rfl, rfl⟩)).1 (matches_iff.1 h)
    obtain ⟨text, rfl, hl⟩ := string_rule_ok hs h1
    rw [consumed_append] at e
    cases e
    rw [unescaped_string]
    exact ⟨rfl, hl⟩
  · rintro text value rfl hl
    obtain ⟨xs, h1, h2⟩ := string_rule_complete hs hl
    refine ⟨.mk .string_value (text ++ t).length text xs, matches_iff.2 ?_, rfl, ?_⟩
    · refine (ref_store_ok (hs.at ⟨rfl, rfl⟩)).2 ⟨xs, h1, ?_⟩
      rw [consumed_append]
    · rw [unescaped_string, h2]

/-- C34: in a block string, and in a string without escape sequences, the value is exactly the text between the quotes. -/
theorem plain_value {body value : Str} (h : Quoted body value) (hb : 0x5C ∉ body) : value = body := by
  induction h with
  | nil => rfl
  | char _ _ _ _ _ _ ih => rw [ih (fun h => hb (List.mem_append_right _ h))]
  | escape _ _ _ => exact absurd (by simp) hb
  | unicode _ _ _ _ => exact absurd (by simp [str]) hb

/-- The value the GraphQL specification gives to an escape sequence of one character, `EscapedCharacter`. -/
def specEscape : Byte → Byte
  | 0x62 => 0x08
  | 0x66 => 0x0C
  | 0x6E => 0x0A
  | 0x72 => 0x0D
  | 0x74 => 0x09
  | c => c

/-- Finding: the value of `"\n"` is `n`, not a line feed. -/
theorem escape_not_unescaped (hs : Sels sel) (u : Str → Str) (t : Str) :
    ∃ x, Matches sel .string_value (str "\"\\n\"" ++ t) x t ∧ unescaped u x = str "n" ∧
      str "n" ≠ [specEscape 0x6E] := by
  obtain ⟨x, h1, _, h2⟩ := (string_literal hs u (s := str "\"\\n\"" ++ t) (t := t)).2 _ (str "n") rfl
    (.quoted (body := str "\\n") (.escape (c := 0x6E) (by decide) .nil) (by rintro ⟨h, _⟩; cases h))
  exact ⟨x, h1, h2, by decide⟩

/-- Finding: the value of `"\u0041"` is `u0041`, not `A`. -/
theorem unicode_not_unescaped (hs : Sels sel) (u : Str → Str) (t : Str) :
    ∃ x, Matches sel .string_value (str "\"\\u0041\"" ++ t) x t ∧ unescaped u x = str "u0041" := by
  obtain ⟨x, h1, _, h2⟩ := (string_literal hs u (s := str "\"\\u0041\"" ++ t) (t := t)).2 _ (str "u0041") rfl
    (.quoted (body := str "\\u0041") (.unicode (hs := str "0041") (body := []) (value := [])
      (.one (by decide) (by decide) (by decide) (by decide)) (by rintro ⟨w, e⟩; cases e) .nil) (by rintro ⟨h, _⟩; cases h))
  exact ⟨x, h1, h2⟩

/-- Finding: the escaped quotes of a block string keep their backslash. -/
theorem block_escape_kept (hs : Sels sel) (u : Str → Str) (t : Str) :
    ∃ x, Matches sel .string_value (str "\"\"\"\\\"\"\"\"\"\"" ++ t) x t ∧ unescaped u x = str "\\\"\"\"" := by
  obtain ⟨x, h1, _, h2⟩ := (string_literal hs u (s := str "\"\"\"\\\"\"\"\"\"\"" ++ t) (t := t)).2 _
    (str "\\\"\"\"") rfl (.block (body := str "\\\"\"\"") (.escape .nil))
  exact ⟨x, h1, h2⟩

/-! ## Descriptions -/

/-- The description of a definition: the text of the first child of the node, if there is one,
SchemaLoader.cpp:658-661, 719-722, 776-779, 832-835, 874-877, 937-940, 960-963, 1009-1012, 1095-1098, 1183-1186. -/
def descriptionText (unescapeJ : Str → Str) (x : Node R) : Str :=
  match x.children with
  | [] => []
  | y :: _ => unescaped unescapeJ y

/-- C34: the description which is written as a text without backslash in quotes is this text. (The empty description must
not come before another quote.) -/
theorem description_plain (u : Str → Str) {body value t : Str} (h : Quoted body value)
    (hb : 0x5C ∉ body) (hne : ¬ (body = [] ∧ str "\"" <+: t)) :
    ∃ x, Matches schemaSelector .description (str "\"" ++ body ++ str "\"" ++ t) x t ∧ descriptionText u x = body := by
  have hs : Sels schemaSelector := .inr rfl
  have hp := (parts_quoted (r := t)).2 h
  -- all the characters are in one node
  have key : ∀ {body value : Str}, Parts QuotedGood QuotedEsc (str "\"" ++ t) body value → 0x5C ∉ body →
      eval schemaSelector (.star (Rule.seqs [Rule.notAt (.ref .backslash_token), Rule.notAt (.ref .quote_token),
        Rule.notAt Rule.eol, .ref .source_character])) (body ++ (str "\"" ++ t)) = .ok [] (str "\"" ++ t) := by
    intro body value hp
    induction hp with
    | nil =>
      intro _
      rw [eval_star (by decide +kernel)]
      rw [show eval schemaSelector (Rule.seqs [Rule.notAt (.ref .backslash_token), Rule.notAt (.ref .quote_token),
        Rule.notAt Rule.eol, .ref .source_character]) ([] ++ (str "\"" ++ t)) = .fail from fail_of (by decide +kernel)
          fun xs w e => ((quoted_char_ok hs).1 e).2.1.2.1 ⟨_, rfl⟩]
      rfl
    | char hx hg _ ih =>
      intro hn
      rw [eval_star (by decide +kernel), List.append_assoc, (quoted_char_ok hs).2 ⟨rfl, by simpa using hg, _, hx, rfl⟩]
      simp only
      rw [ih (fun h => hn (List.mem_append_right _ h))]
      rfl
    | esc he _ ih =>
      intro hn
      rcases he with ⟨c, _, rfl, _⟩ | ⟨g, _, rfl, _, _⟩
      · exact absurd (by simp) hn
      · exact absurd (by simp [str]) hn
  have hq : eval schemaSelector (.ref .block_quote) (str "\"" ++ body ++ str "\"" ++ t) = .fail := by
    refine ref_fail.2 (seq_fail.2 (.inl ((quotes_fail hs).2 ?_)))
    rintro ⟨w, e⟩
    rw [List.append_assoc, List.append_assoc] at e
    have e1 := (List.cons.inj e).2
    rcases quoted_first h (str "\"" ++ t) with h | rfl
    · exact h ⟨0x22 :: w, e1⟩
    · have e2 := (List.cons.inj e1).2
      exact hne ⟨rfl, w, e2⟩
  cases hp with
  | nil =>
    have hend : eval schemaSelector (.sor (.ref .string_escape_sequence) (.ref .string_quote_character)) (str "\"" ++ t) = .fail :=
      sor_fail.2 ⟨dead_append (by decide +kernel), ref_fail.2 (seq_fail.2 (.inl (fail_of (by decide +kernel)
        fun xs w e => ((quoted_char_ok hs).1 e).2.1.2.1 ⟨_, rfl⟩)))⟩
    have hbody : eval schemaSelector (.ref .string_quote) (str "\"" ++ [] ++ str "\"" ++ t) = .ok [] t := by
      rw [ref_discard_ok rfl, List.append_assoc, List.append_assoc]
      refine seq_ok.2 ⟨[], [] ++ (str "\"" ++ t), [], (ref_discard_ok rfl).2 (chr_ok.2 ⟨rfl, rfl⟩),
        need_ok.2 ((ref_discard_ok rfl).2 (seq_ok.2 ⟨[], _, [], ?_,
          must_ok.2 ((ref_discard_ok rfl).2 (chr_ok.2 ⟨rfl, rfl⟩)), rfl⟩)), rfl⟩
      show eval schemaSelector (.star (.sor (.ref .string_escape_sequence) (.ref .string_quote_character))) _ =
        .ok _ (str "\"" ++ t)
      rw [List.nil_append, eval_star (by decide +kernel), hend]
    exact ⟨_, matches_iff.2 ((ref_store_ok rfl).2 ⟨_, sor_ok.2 (.inr ⟨hq, hbody⟩), rfl⟩), rfl⟩
  | esc he _ =>
    rcases he with ⟨c, _, rfl, _⟩ | ⟨g, _, rfl, _, _⟩
    · exact absurd (by simp) hb
    · exact absurd (by simp [str]) hb
  | @char x b v hx hg hp =>
    have hrun := key hp (fun h => hb (List.mem_append_right _ h))
    have hnode := ((quoted_loop hs).node_ok (s := x ++ (b ++ (str "\"" ++ t)))).2
      ⟨x, _, hx, (by simpa using hg), rfl, hrun, rfl⟩
    have hend : eval schemaSelector (.sor (.ref .string_escape_sequence) (.ref .string_quote_character)) (str "\"" ++ t) = .fail :=
      sor_fail.2 ⟨dead_append (by decide +kernel), ref_fail.2 (seq_fail.2 (.inl (fail_of (by decide +kernel)
        fun xs w e => ((quoted_char_ok hs).1 e).2.1.2.1 ⟨_, rfl⟩)))⟩
    have hbody : eval schemaSelector (.ref .string_quote) (str "\"" ++ (x ++ b) ++ str "\"" ++ t) =
        .ok [.mk .string_quote_character (x ++ (b ++ (str "\"" ++ t))).length
          (consumed (x ++ (b ++ (str "\"" ++ t))) (str "\"" ++ t)) []] t := by
      rw [ref_discard_ok rfl, List.append_assoc, List.append_assoc]
      refine seq_ok.2 ⟨[], x ++ b ++ (str "\"" ++ t), _, (ref_discard_ok rfl).2 (chr_ok.2 ⟨rfl, rfl⟩),
        need_ok.2 ((ref_discard_ok rfl).2 (seq_ok.2 ⟨_, _, [], ?_,
          must_ok.2 ((ref_discard_ok rfl).2 (chr_ok.2 ⟨rfl, rfl⟩)), (List.append_nil _).symm⟩)), rfl⟩
      show eval schemaSelector (.star (.sor (.ref .string_escape_sequence) (.ref .string_quote_character))) _ =
        .ok _ (str "\"" ++ t)
      rw [eval_star (by decide +kernel), List.append_assoc, eval_sor, (quoted_loop hs).escFail (by simpa using hg), hnode]
      simp only
      rw [eval_star (by decide +kernel), hend]
      rfl
    refine ⟨_, matches_iff.2 ((ref_store_ok rfl).2 ⟨_, sor_ok.2 (.inr ⟨hq, hbody⟩), rfl⟩), ?_⟩
    simp only [descriptionText, Node.children]
    show consumed _ _ = _
    rw [← List.append_assoc, consumed_append]

/-- Finding: only the characters before the first escape sequence of a description are used. -/
theorem description_first_part (u : Str → Str) :
    ∃ x, Matches schemaSelector .description (str "\"a\\nb\"") x [] ∧ descriptionText u x = str "a" :=
  ⟨.mk .description 6 (str "\"a\\nb\"") [.mk .string_quote_character 5 (str "a") [], .mk .escaped_char 3 (str "n") [],
      .mk .string_quote_character 2 (str "b") []], ⟨30, by decide +kernel⟩, rfl⟩

end Verif.Peg
