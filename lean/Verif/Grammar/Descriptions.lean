import Verif.Grammar.Apart

/-!
# Descriptions
-/
namespace Verif.Peg
open Verif.Value Verif.Text Rule

variable {sel : R → Sel}

/-- What is read from the nodes of a string which is a description. -/
def firstText (J : Str → Str) : List (Node R) → Str
  | [] => []
  | y :: _ => unescaped J y

theorem star_stops {a : Rule R} (ha : nullable nulTable a = false) {s t : Str} {xs : List (Node R)}
    (h : eval sel (.star a) s = .ok xs t) : eval sel a t = .fail := by
  have hi := (star_ok ha).1 h
  clear h
  induction hi with
  | nil h => exact h
  | cons _ _ ih => exact ih

theorem iter_rest {a : Rule R} {s t : Str} {xs : List (Node R)} (h : Iter sel a s xs t) : ∃ p, s = p ++ t := by
  induction h with
  | nil _ => exact ⟨[], rfl⟩
  | cons h _ ih =>
    obtain ⟨p, rfl⟩ := (eval_rest h).1
    obtain ⟨q, rfl⟩ := ih
    exact ⟨p ++ q, by simp⟩

/-- What comes before the first place where `stop` holds. -/
def beforeStop (stop : Str → Bool) : Str → Str
  | [] => []
  | c :: s => if stop (c :: s) then [] else c :: beforeStop stop s

theorem beforeStop_append {stop : Str → Bool} {r : Str} : ∀ {x : Str},
    (∀ p c q, x = p ++ c :: q → stop (c :: q ++ r) = false) → beforeStop stop (x ++ r) = x ++ beforeStop stop r
  | [], _ => rfl
  | c :: x, h => by
    have h0 := h [] c x rfl
    rw [List.cons_append, beforeStop, ← List.cons_append, h0, List.cons_append]
    simp only [Bool.false_eq_true, if_false]
    rw [beforeStop_append (x := x) fun p d q e => h (c :: p) d q (by rw [e]; rfl)]

theorem Loop.chars {E X : Rule R} {n : R} {Good : Str → Prop} {Esc : Str → Str → Str → Prop}
    (L : Loop sel E X n Good Esc) {stop : Str → Bool} {u : Str}
    (hstop : ∀ x r, SourceChar x → Good (x ++ (r ++ u)) → ∀ p c q, x = p ++ c :: q → stop (c :: q ++ r) = false)
    {v w : Str} {xs : List (Node R)} (h : Iter sel X v xs w) {b : Str} (hw : w = b ++ u) :
    ∃ a, v = a ++ w ∧ beforeStop stop (a ++ b) = a ++ beforeStop stop b := by
  induction h with
  | nil _ => exact ⟨[], rfl, rfl⟩
  | cons h _ ih =>
    obtain ⟨_, hg, x, hx, rfl⟩ := L.char.1 h
    obtain ⟨a, rfl, ha⟩ := ih hw
    refine ⟨x ++ a, by simp, ?_⟩
    rw [List.append_assoc, beforeStop_append, ha, List.append_assoc]
    refine hstop x (a ++ b) hx ?_
    rw [hw] at hg
    simpa using hg

/-- The first node of the loop: nothing, an escape sequence, or everything up to the first one. -/
theorem Loop.first {E X : Rule R} {n : R} {Good : Str → Prop} {Esc : Str → Str → Str → Prop}
    (L : Loop sel E X n Good Esc) {stop : Str → Bool} {body u : Str}
    (hstop : ∀ x r, SourceChar x → Good (x ++ (r ++ u)) → ∀ p c q, x = p ++ c :: q → stop (c :: q ++ r) = false)
    (hesc : ∀ b xs t, eval sel E (b ++ u) = .ok xs t → (∃ b', t = b' ++ u) → stop b = true)
    {xs : List (Node R)} (h : eval sel (.star (.sor E (.ref n))) (body ++ u) = .ok xs u) :
    (body = [] ∧ xs = []) ∨
    (∃ y ys t b, xs = y :: ys ∧ eval sel E (body ++ u) = .ok [y] t ∧ t = b ++ u ∧
      ∃ zs, eval sel (.star (.sor E (.ref n))) t = .ok zs u) ∨
    (∃ ys l, body ≠ [] ∧ stop body = false ∧ xs = .mk n l (beforeStop stop body) [] :: ys) := by
  have hi := (star_ok L.progress).1 h
  clear h
  generalize es : body ++ u = s at hi
  cases hi with
  | nil _ => exact .inl ⟨by simpa using es, rfl⟩
  | @cons _ ys t zs _ h1 h2 =>
    subst es
    obtain ⟨b, rfl⟩ := iter_rest h2
    rcases sor_ok.1 h1 with h3 | ⟨_, h3⟩
    · obtain ⟨y, e, rfl, _, _⟩ := L.escSound h3
      exact .inr (.inl ⟨y, zs, b ++ u, b, rfl, h3, rfl, zs, (star_ok L.progress).2 h2⟩)
    · obtain ⟨x, v, hx, hg, e, h4, rfl⟩ := L.node_ok.1 h3
      obtain ⟨a, rfl, ha⟩ := L.chars (stop := stop) hstop ((star_ok L.charProgress).1 h4) rfl
      have eb : body = x ++ a ++ b := List.append_cancel_right (bs := u) (by simpa using e)
      subst eb
      have hbs : beforeStop stop b = [] := by
        generalize es : b ++ u = s at h2
        cases h2 with
        | nil _ =>
          have : b = [] := by simpa using es
          rw [this]; rfl
        | @cons _ _ t' _ _ h5 h6 =>
          subst es
          have hb : stop b = true := by
            rcases sor_ok.1 h5 with h7 | ⟨_, h7⟩
            · exact hesc b _ _ h7 (iter_rest h6)
            · obtain ⟨x', v', hx', hg', e', _, _⟩ := L.node_ok.1 h7
              have h8 := star_stops L.charProgress h4
              rw [L.char.2 ⟨rfl, hg', x', hx', e'⟩] at h8
              cases h8
          cases b with
          | nil => rfl
          | cons c b => rw [beforeStop, if_pos hb]
      obtain ⟨c, y, rfl⟩ := source_char_ne_nil hx
      have hst := hstop (c :: y) (a ++ b) hx (by simpa using hg)
      have hcons : consumed (c :: y ++ a ++ b ++ u) (b ++ u) = c :: y ++ a := by
        rw [List.append_assoc (c :: y ++ a)]; exact consumed_append _ _
      refine .inr (.inr ⟨zs, (c :: y ++ a ++ b ++ u).length, by simp, ?_, ?_⟩)
      · have := hst [] c y rfl
        simpa using this
      · rw [hcons, List.append_assoc (c :: y) a b, beforeStop_append hst, ha, hbs, List.append_nil]
        rfl

/-! ## In quotes -/

theorem source_char_backslash {x : Str} (h : SourceChar x) (hb : 0x5C ∈ x) : x = [0x5C] := by
  obtain ⟨c, hc, rfl⟩ := h
  unfold utf8Encode at hb ⊢
  split at hb
  · rename_i hlt
    rw [if_pos hlt]
    simp only [List.mem_singleton] at hb
    rw [← hb]
  · exfalso
    rename_i h1
    have key : ∀ n, 0x80 ≤ n → n < 256 → (0x5C : Byte) ≠ BitVec.ofNat 8 n := by
      intro n hn hn' e
      have := congrArg BitVec.toNat e
      rw [ofNat_toNat8 hn'] at this
      simp at this
      omega
    have hc' : c ≤ 0xFFFF := by omega
    split at hb
    · simp only [List.mem_cons, List.not_mem_nil, or_false] at hb
      rcases hb with hb | hb
      · exact key _ (by omega) (by omega) hb
      · exact key _ (by omega) (by omega) hb
    · simp only [List.mem_cons, List.not_mem_nil, or_false] at hb
      rcases hb with hb | hb | hb
      · exact key _ (by omega) (by omega) hb
      · exact key _ (by omega) (by omega) hb
      · exact key _ (by omega) (by omega) hb

/-- The text begins with a backslash. -/
def atBackslash : Str → Bool
  | [] => false
  | c :: _ => c == 0x5C

theorem beforeStop_takeWhile (s : Str) : beforeStop atBackslash s = s.takeWhile (· ≠ 0x5C) := by
  induction s with
  | nil => rfl
  | cons c s ih =>
    rw [beforeStop, List.takeWhile_cons, ih]
    by_cases h : c = 0x5C <;> simp [atBackslash, h]

theorem quoted_stop {x r u : Str} (hx : SourceChar x) (hg : QuotedGood (x ++ (r ++ u))) {p q : Str} {c : Byte}
    (e : x = p ++ c :: q) : atBackslash (c :: q ++ r) = false := by
  simp only [atBackslash, List.cons_append, beq_eq_false_iff_ne]
  rintro rfl
  have := source_char_backslash hx (by rw [e]; simp)
  subst this
  exact hg.1 ⟨r ++ u, rfl⟩

theorem escaped_eq : ∀ c : Byte, escapedChar c = [escapeOf c] := by decide +kernel

/-- The node of an escape sequence. -/
theorem escape_node (hs : Sels sel) {s t : Str} {y : Node R} (h : eval sel (.ref .string_escape_sequence) s = .ok [y] t) :
    (∃ c l, c ≠ ch 'u' ∧ s = 0x5C :: c :: t ∧ y = .mk .escaped_char l [c] []) ∨
    (∃ g l, HexGroups g ∧ s = str "\\u" ++ g ++ t ∧ y = .mk .escaped_unicode l (str "u" ++ g) [] ∧ HexEnds t) := by
  rw [ref_discard_ok (hs.at ⟨rfl, rfl⟩)] at h
  obtain ⟨_, u, _, h1, h2, e⟩ := seq_ok.1 h
  rw [ref_discard_ok (hs.at ⟨rfl, rfl⟩)] at h1
  obtain ⟨rfl, rfl⟩ := chr_ok.1 h1
  have h2' := need_ok.1 h2
  rw [ref_discard_ok (hs.at ⟨rfl, rfl⟩)] at h2'
  rcases sor_ok.1 h2' with h3 | ⟨_, h3⟩
  · obtain ⟨ys, h4, rfl⟩ := (ref_store_ok (hs.at ⟨rfl, rfl⟩)).1 h3
    obtain ⟨_, w, _, h5, h6, rfl⟩ := seq_ok.1 h4
    obtain ⟨rfl, rfl⟩ := chr_ok.1 h5
    obtain ⟨rfl, g, hg, rfl, he⟩ := (hex_groups_ok hs).1 (need_ok.1 h6)
    have := consumed_append (str "u" ++ g) t
    rw [show BitVec.ofNat 8 'u'.toNat :: (g ++ t) = str "u" ++ g ++ t from rfl, this] at e
    simp only [List.nil_append, List.cons.injEq, and_true] at e
    exact .inr ⟨g, _, hg, rfl, e, he⟩
  · obtain ⟨ys, h4, rfl⟩ := (ref_store_ok (hs.at ⟨rfl, rfl⟩)).1 h3
    obtain ⟨c, rfl, hc, rfl⟩ := one_ok.1 h4
    rw [show c :: t = [c] ++ t from rfl, consumed_append] at e
    simp only [List.nil_append, List.cons.injEq, and_true] at e
    refine .inl ⟨c, _, ?_, rfl, e⟩
    rintro rfl
    exact absurd hc (by decide)

theorem hexRun_groups {g : Str} (hg : HexGroups g) {b : Str} (hb : ¬ str "\\u" <+: b) : hexRun (g ++ b) = g := by
  induction hg with
  | @one a b' c d _ _ _ _ =>
    show hexRun (a :: b' :: c :: d :: b) = _
    rw [hexRun.eq_def]
    dsimp only
    split
    · rename_i r
      exact absurd ⟨r, rfl⟩ hb
    · rfl
  | @more a b' c d hs' _ _ _ _ _ ih =>
    show hexRun (a :: b' :: c :: d :: 0x5C :: 0x75 :: (hs' ++ b)) = a :: b' :: c :: d :: 0x5C :: 0x75 :: hs'
    rw [hexRun.eq_def]
    show a :: b' :: c :: d :: 0x5C :: 0x75 :: hexRun (hs' ++ b) = _
    rw [ih]

theorem firstQuoted_unicode {J : Str → Str} {s : Str} : firstQuoted J (0x5C :: 0x75 :: s) = J (ch 'u' :: hexRun s) := rfl

theorem firstQuoted_char {J : Str → Str} {c : Byte} {s : Str} (hc : c ≠ ch 'u') :
    firstQuoted J (0x5C :: c :: s) = [escapeOf c] := by
  unfold firstQuoted
  split
  · rename_i e
    simp only [List.cons.injEq] at e
    exact absurd e.2.1 hc
  · rename_i e
    simp only [List.cons.injEq] at e
    rw [e.2.1]
  · rename_i h2
    exact absurd rfl (h2 c s)

theorem firstQuoted_plain {J : Str → Str} {s : Str} (h : atBackslash s = false) :
    firstQuoted J s = s.takeWhile (· ≠ 0x5C) := by
  unfold firstQuoted
  split
  · simp [atBackslash] at h
  · simp [atBackslash] at h
  · rfl

theorem quoted_firstText (hs : Sels sel) (J : Str → Str) {body t : Str} {xs : List (Node R)}
    (h : eval sel (.star (.sor (.ref .string_escape_sequence) (.ref .string_quote_character))) (body ++ (str "\"" ++ t)) =
      .ok xs (str "\"" ++ t)) : firstText J xs = firstQuoted J body := by
  have hesc : ∀ b xs w, eval sel (.ref .string_escape_sequence) (b ++ (str "\"" ++ t)) = .ok xs w →
      (∃ b', w = b' ++ (str "\"" ++ t)) → atBackslash b = true := by
    rintro b xs w he ⟨b', rfl⟩
    obtain ⟨y, _, rfl, _, _⟩ := (quoted_loop hs).escSound he
    rcases escape_node hs he with ⟨c, l, _, e, _⟩ | ⟨g, l, _, e, _, _⟩
    · have : b = 0x5C :: c :: b' := List.append_cancel_right (bs := str "\"" ++ t) e
      subst this; rfl
    · have : b = str "\\u" ++ g ++ b' := List.append_cancel_right (bs := str "\"" ++ t) (by simpa using e)
      subst this; rfl
  rcases (quoted_loop hs).first (stop := atBackslash) (fun x r hx hg p c q e => quoted_stop hx hg e) hesc h with
    ⟨rfl, rfl⟩ | ⟨y, ys, w, b, rfl, he, rfl, zs, hz⟩ | ⟨ys, l, hne, hst, rfl⟩
  · rfl
  · rcases escape_node hs he with ⟨c, l, hc, e, rfl⟩ | ⟨g, l, hg, e, rfl, hx⟩
    · have : body = 0x5C :: c :: b := List.append_cancel_right (bs := str "\"" ++ t) e
      subst this
      show (List.take 1 [c]).flatMap escapedChar = _
      rw [firstQuoted_char hc]
      simp [escaped_eq]
    · have : body = str "\\u" ++ g ++ b := List.append_cancel_right (bs := str "\"" ++ t) (by simpa using e)
      subst this
      obtain ⟨b', eb, hp⟩ := (quoted_loop hs).sound hz
      obtain rfl : b = b' := List.append_cancel_right eb
      have hb : ¬ str "\\u" <+: b := by
        rintro ⟨w, rfl⟩
        exact quoted_not_u hp (by rintro ⟨z, e⟩; cases e) (List.append_assoc _ _ _) hx
      rw [show str "\\u" ++ g ++ b = 0x5C :: 0x75 :: (g ++ b) from rfl, firstQuoted_unicode, hexRun_groups hg hb]
      simp [firstText, unescaped, Node.rule, Node.children, Node.content, str, ch]
  · rw [firstQuoted_plain hst, ← beforeStop_takeWhile]
    rfl

/-! ## Block strings -/

/-- The text begins with `\"""`. -/
def atBlockEscape (s : Str) : Bool := decide (str "\\\"\"\"" <+: s)

theorem beforeStop_beforeEscape (s : Str) : beforeStop atBlockEscape s = beforeEscape s := by
  induction s with
  | nil => rfl
  | cons c s ih => rw [beforeStop, beforeEscape, ih]; simp [atBlockEscape]

theorem block_stop {x r u : Str} (hx : SourceChar x) (hg : BlockGood (x ++ (r ++ u))) {p q : Str} {c : Byte}
    (e : x = p ++ c :: q) : atBlockEscape (c :: q ++ r) = false := by
  simp only [atBlockEscape, decide_eq_false_iff_not]
  rintro ⟨w, e'⟩
  have hc : (0x5C : Byte) = c := (List.cons.inj e').1
  subst hc
  have := source_char_backslash hx (by rw [e]; simp)
  subst this
  have hp : p = [] ∧ q = [] := by
    cases p with
    | nil => exact ⟨rfl, by simpa using e.symm⟩
    | cons d p =>
      have := congrArg List.length e
      simp at this
  obtain ⟨rfl, rfl⟩ := hp
  refine hg.2 ⟨w ++ u, ?_⟩
  rw [← List.append_assoc, e']
  simp

theorem block_firstText (hs : Sels sel) (J : Str → Str) {body t : Str} {xs : List (Node R)}
    (h : eval sel (.star (.sor (.ref .block_escape_sequence) (.ref .block_quote_character))) (body ++ (str "\"\"\"" ++ t)) =
      .ok xs (str "\"\"\"" ++ t)) : firstText J xs = firstBlock body := by
  have hesc : ∀ b xs w, eval sel (.ref .block_escape_sequence) (b ++ (str "\"\"\"" ++ t)) = .ok xs w →
      (∃ b', w = b' ++ (str "\"\"\"" ++ t)) → atBlockEscape b = true := by
    rintro b xs w he ⟨b', rfl⟩
    obtain ⟨e, _⟩ := (block_esc_ok hs).1 he
    have : b = str "\\\"\"\"" ++ b' := List.append_cancel_right (bs := str "\"\"\"" ++ t) (by simpa using e)
    subst this
    exact decide_eq_true ⟨b', rfl⟩
  rcases (block_loop hs).first (stop := atBlockEscape) (fun x r hx hg p c q e => block_stop hx hg e) hesc h with
    ⟨rfl, rfl⟩ | ⟨y, ys, w, b, rfl, he, rfl, zs, hz⟩ | ⟨ys, l, hne, hst, rfl⟩
  · rfl
  · obtain ⟨e, hy⟩ := (block_esc_ok hs).1 he
    have : body = str "\\\"\"\"" ++ b := List.append_cancel_right (bs := str "\"\"\"" ++ t) (by simpa using e)
    subst this
    cases hy
    rw [firstBlock, if_pos ⟨b, rfl⟩]
    rfl
  · have hst' : ¬ str "\\\"\"\"" <+: body := by simpa [atBlockEscape] using hst
    rw [firstBlock, if_neg hst', ← beforeStop_beforeEscape]
    rfl

/-! ## Descriptions -/

/-- The node stands for the description. -/
def IsDescription (J : Str → Str) (x : Node R) (d : Str) : Prop := x.rule = .description ∧ descriptionText J x = d

theorem string_first (hs : Sels sel) (J : Str → Str) {s t : Str} {xs : List (Node R)}
    (h : eval sel G.string_value s = .ok xs t) : DescriptionText J s (firstText J xs) t := by
  rcases sor_ok.1 h with h | ⟨h0, h⟩
  · obtain ⟨body, rfl, hb, hv⟩ := block_content_ok hs h
    rw [ref_discard_ok (hs.at ⟨rfl, rfl⟩)] at h
    obtain ⟨_, u, _, h1, h2, rfl⟩ := seq_ok.1 h
    obtain ⟨rfl, e⟩ := (quotes_ok hs).1 h1
    have h3 := need_ok.1 h2
    rw [ref_discard_ok (hs.at ⟨rfl, rfl⟩)] at h3
    obtain ⟨ys, v, _, h4, h5, rfl⟩ := seq_ok.1 h3
    obtain ⟨rfl, rfl⟩ := (quotes_ok hs).1 (must_ok.1 h5)
    have : u = body ++ (str "\"\"\"" ++ t) := List.append_cancel_left (as := str "\"\"\"") (by rw [← e]; simp)
    subst this
    rw [List.nil_append, List.append_nil, block_firstText hs J h4]
    exact .block hb
  · obtain ⟨body, rfl, hb⟩ := string_content_ok hs h
    have h : eval sel (.ref .string_quote) _ = _ := h
    rw [ref_discard_ok (hs.at ⟨rfl, rfl⟩)] at h
    obtain ⟨_, u, _, h1, h2, rfl⟩ := seq_ok.1 h
    rw [ref_discard_ok (hs.at ⟨rfl, rfl⟩)] at h1
    obtain ⟨rfl, e⟩ := chr_ok.1 h1
    have h3 := need_ok.1 h2
    rw [ref_discard_ok (hs.at ⟨rfl, rfl⟩)] at h3
    obtain ⟨ys, v, _, h4, h5, rfl⟩ := seq_ok.1 h3
    have h6 := must_ok.1 h5
    rw [ref_discard_ok (hs.at ⟨rfl, rfl⟩)] at h6
    obtain ⟨rfl, rfl⟩ := chr_ok.1 h6
    have : u = body ++ (str "\"" ++ t) := by
      have : str "\"" ++ u = str "\"" ++ (body ++ (str "\"" ++ t)) :=
        (show str "\"" ++ u = BitVec.ofNat 8 '"'.toNat :: u from rfl).trans (e.symm.trans (by simp [str]))
      exact List.append_cancel_left this
    subst this
    rw [List.nil_append, List.append_nil, quoted_firstText hs J h4]
    refine .quoted hb ?_
    rintro ⟨rfl, w, rfl⟩
    have : eval sel (.ref .block_quote) (str "\"\"\"" ++ w) = .fail := h0
    rcases seq_fail.1 (ref_fail.1 this) with h | ⟨_, _, _, h⟩
    · exact (quotes_fail hs).1 h ⟨w, rfl⟩
    · exact must_fail h

theorem description_lit {J : Str → Str} {s d t : Str} (h : DescriptionText J s d t) :
    ∃ text value, s = text ++ t ∧ StringLit t text value := by
  cases h with
  | quoted h hn => exact ⟨_, _, rfl, .quoted h hn⟩
  | block h => exact ⟨_, _, rfl, .block h⟩

theorem description_sound (J : Str → Str) (n : Nat) :
    Sound n schemaSelector (.ref .description) (DescriptionText J) (IsDescription J) := by
  intro s ns t _ he
  obtain ⟨xs, h, rfl⟩ := (ref_store_ok rfl).1 he
  refine ⟨_, _, rfl, string_first (.inr rfl) J h, rfl, ?_⟩
  cases xs <;> rfl

theorem description_cancel {J : Str → Str} {s d d' t : Str} (h : DescriptionText J s d t) (h' : DescriptionText J s d' t) :
    d = d' := by
  generalize es : s = s' at h'
  cases h with
  | @quoted body _ _ hq hn =>
    cases h' with
    | @quoted body' _ _ hq' _ =>
      have : body = body' := by
        have := List.append_cancel_right (bs := t) es
        have := List.append_cancel_right this
        exact List.append_cancel_left this
      rw [this]
    | @block body' _ hb =>
      exfalso
      rcases quoted_first hq (str "\"" ++ t) with h | rfl
      · have e1 : body ++ (str "\"" ++ t) = str "\"\"" ++ body' ++ str "\"\"\"" ++ t := by simpa [str] using es
        exact h ⟨str "\"" ++ body' ++ str "\"\"\"" ++ t, by rw [e1]; simp [str]⟩
      · refine hn ⟨rfl, body' ++ str "\"\"\"" ++ t, ?_⟩
        have := List.append_cancel_left (as := str "\"\"") (bs := t) (cs := str "\"" ++ (body' ++ str "\"\"\"" ++ t))
          (by simpa [str] using es)
        exact this.symm
  | @block body _ hb =>
    cases h' with
    | @quoted body' _ _ hq hn =>
      exfalso
      rcases quoted_first hq (str "\"" ++ t) with h | rfl
      · have e1 : body' ++ (str "\"" ++ t) = str "\"\"" ++ body ++ str "\"\"\"" ++ t := by simpa [str] using es.symm
        exact h ⟨str "\"" ++ body ++ str "\"\"\"" ++ t, by rw [e1]; simp [str]⟩
      · refine hn ⟨rfl, body ++ str "\"\"\"" ++ t, ?_⟩
        have := List.append_cancel_left (as := str "\"\"") (bs := t) (cs := str "\"" ++ (body ++ str "\"\"\"" ++ t))
          (by simpa [str] using es.symm)
        exact this.symm
    | @block body' _ _ =>
      have : body = body' := by
        have := List.append_cancel_right (bs := t) es
        have := List.append_cancel_right this
        exact List.append_cancel_left this
      rw [this]

theorem description_complete (J : Str → Str) (n : Nat) :
    Complete n schemaSelector (.ref .description) (DescriptionText J) (IsDescription J) (fun _ => True) := by
  intro s d t _ h _
  obtain ⟨text, value, rfl, hl⟩ := description_lit h
  obtain ⟨xs, he, _⟩ := string_rule_complete (sel := schemaSelector) (.inr rfl) hl
  have := description_cancel h (string_first (.inr rfl) J he)
  refine ⟨_, (ref_store_ok rfl).2 ⟨xs, he, rfl⟩, rfl, ?_⟩
  rw [this]
  cases xs <;> rfl

theorem description_starts {J : Str → Str} : Starts (DescriptionText J) (· == 0x22) := by
  intro s d t h
  cases h with
  | quoted _ _ => exact ⟨_, _, rfl, rfl⟩
  | block _ => exact ⟨_, _, rfl, rfl⟩

end Verif.Peg
