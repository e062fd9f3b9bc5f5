import Verif.Grammar.Syntax

/-!
# Values, arguments and directives

What the rules for input values read is what the specification says, and the visitors give the value.
-/
namespace Verif.Peg
open Verif.Value Verif.Text Rule

variable {sel : R → Sel} {rd : Read}

/-- What cannot come directly after a value. -/
def valCont (c : Byte) : Bool := numberCont c || c == 0x22

/-- The first bytes of values. -/
def valueStart (c : Byte) : Bool :=
  nameStart c || isDigit c || c == ch '-' || c == ch '"' || c == ch '[' || c == ch '{' || c == ch '$'

theorem valCont_gap : ∀ c : Byte, gapStart c = true → valCont c = false := by decide +kernel
theorem valCont_name : ∀ c : Byte, valCont c = false → nameCont c = false := by decide +kernel
theorem valueStart_gap : ∀ c : Byte, valueStart c = true → gapStart c = false := by decide +kernel

theorem between_starts {o c : Byte} {α : Type} {P : Str → α → Str → Prop} {s : Str} {xs : List α} {t : Str}
    (h : Between o c P s xs t) : ∃ u, s = o :: u := by
  cases h with
  | mk _ _ _ => exact ⟨_, rfl⟩

theorem string_start {t w v : Str} (h : StringLit t w v) : ∃ u, w = 0x22 :: u := by
  cases h with
  | quoted _ _ => exact ⟨_, rfl⟩
  | block _ => exact ⟨_, rfl⟩

theorem value_starts : Starts (ValueText rd.pos rd.atof) valueStart := by
  intro s a t h
  cases h with
  | «variable» h _ => subst h; exact ⟨_, _, rfl, by decide⟩
  | @int w _ h =>
    obtain ⟨c, u, e, hc⟩ := number_start h t
    refine ⟨c, u, e, ?_⟩
    clear e; revert c; decide +kernel
  | @float i f _ h _ =>
    obtain ⟨c, u, e, hc⟩ := number_start h (f ++ t)
    refine ⟨c, u, by rw [← e, List.append_assoc], ?_⟩
    clear e; revert c; decide +kernel
  | string h =>
    obtain ⟨u, rfl⟩ := string_start h
    exact ⟨_, _, rfl, by decide⟩
  | true => exact ⟨_, _, rfl, by decide⟩
  | false => exact ⟨_, _, rfl, by decide⟩
  | null => exact ⟨_, _, rfl, by decide⟩
  | enum h _ _ _ =>
    obtain ⟨c, u, e, hc⟩ := name_starts _ _ _ h
    exact ⟨c, u, e, by simp [valueStart, hc]⟩
  | emptyList _ => exact ⟨_, _, rfl, by decide⟩
  | list h => obtain ⟨u, rfl⟩ := between_starts h; exact ⟨_, _, rfl, by decide⟩
  | emptyObject _ => exact ⟨_, _, rfl, by decide⟩
  | object h => obtain ⟨u, rfl⟩ := between_starts h; exact ⟨_, _, rfl, by decide⟩

theorem value_needs : Needs sel (.ref .input_value_content) valueStart :=
  needs_of (by decide +kernel) (by decide +kernel)

theorem entry_needs : Needs sel (.ref .list_entry) valueStart :=
  needs_of (by decide +kernel) (by decide +kernel)

/-! ## The visitors -/

/-- The node stands for the value. -/
def IsLit (rd : Read) (x : Node R) (a : Ast.Lit) : Prop := litOf rd x = some a

/-- The node stands for a name and a value. -/
def IsPair (rd : Read) (x : Node R) (a : Str × Ast.Lit) : Prop :=
  frontText x.children = some a.1 ∧ lastLit rd x.children = some a.2

theorem litsOf_of {ns : List (Node R)} {xs : List Ast.Lit} (h : List.Forall₂ (IsLit rd) ns xs) :
    litsOf rd ns = some xs := by
  induction h with
  | nil => rfl
  | cons h _ ih =>
    unfold IsLit at h
    simp only [litsOf, h, ih]

theorem pairsOf_of {ns : List (Node R)} {xs : List (Str × Ast.Lit)} (h : List.Forall₂ (IsPair rd) ns xs) :
    pairsOf rd ns = some xs := by
  induction h with
  | nil => rfl
  | @cons x a _ _ h _ ih =>
    obtain ⟨r, l, c, cs⟩ := x
    obtain ⟨h1, h2⟩ := h
    simp only [Node.children] at h1 h2
    simp only [pairsOf, h1, h2, ih]

/-! ## Names with values -/

/-- The rules `argument` and `object_field`. -/
structure PairRule (sel : R → Sel) (k kn kc : R) : Prop where
  rule : grammar k = .seq (.ref kn) (need kc)
  name : grammar kn = Rule.identifier
  content : grammar kc = .seq (.star (.ref .ignored)) (.seq (Rule.chr ':') (.seq (.star (.ref .ignored)) (.ref .input_value)))
  store : sel k = .store
  storeName : sel kn = .store
  discard : sel kc = .discard

theorem value_of_need (hs : Sels sel) {s t : Str} {ns : List (Node R)} :
    eval sel (.ref .input_value) s = .ok ns t ↔ eval sel (.ref .input_value_content) s = .ok ns t := by
  rw [ref_discard_ok (hs.at ⟨rfl, rfl⟩)]
  exact need_ok

theorem pair_sound (hs : Sels sel) {k kn kc : R} (hk : PairRule sel k kn kc) {n : Nat}
    (h : Sound n sel (.ref .input_value_content) (ValueText rd.pos rd.atof) (IsLit rd)) :
    Sound n sel (.ref k) (Pair (ValueText rd.pos rd.atof)) (IsPair rd) := by
  intro s ns t hl he
  obtain ⟨ys, h1, rfl⟩ := (ref_store_ok hk.store).1 he
  rw [hk.rule] at h1
  obtain ⟨_, u, _, h2, h3, rfl⟩ := seq_ok.1 h1
  obtain ⟨m, hm, _, rfl⟩ := (nameText_ok hk.storeName hk.name).1 h2
  rw [need_ok, ref_discard_ok hk.discard, hk.content] at h3
  obtain ⟨_, v, _, h4, h5, rfl⟩ := seq_ok.1 h3
  obtain ⟨_, w, _, h6, h7, rfl⟩ := seq_ok.1 h5
  obtain ⟨_, x, _, h8, h9, rfl⟩ := seq_ok.1 h7
  obtain ⟨rfl, k1, _⟩ := star_skip hs h4
  obtain ⟨rfl, rfl⟩ := chr_ok.1 h6
  obtain ⟨rfl, k2, _⟩ := star_skip hs h8
  have l1 := rest_le h2
  have l2 := rest_le h4
  have l3 := rest_le h6
  have l4 := rest_le h8
  obtain ⟨y, a, rfl, hP, hW⟩ := h _ _ _ (by omega) ((value_of_need hs).1 h9)
  exact ⟨_, (m, a), rfl, .mk hm k1 k2 hP, rfl, hW⟩

theorem pair_complete (hs : Sels sel) {k kn kc : R} (hk : PairRule sel k kn kc) {n : Nat} {F : Str → Prop}
    (h : Complete n sel (.ref .input_value_content) (ValueText rd.pos rd.atof) (IsLit rd) F) :
    Complete n sel (.ref k) (Pair (ValueText rd.pos rd.atof)) (IsPair rd) F := by
  intro s a t hl hP hF
  cases hP with
  | @mk _ m u v w a _ hm k1 k2 hV =>
    have hc : Ends gapStart (ch ':' :: v) := ends_cons (by decide)
    have hu : Ends nameCont u := (follow_skip (p := nameCont) (q := fun _ => false) k1 (by decide +kernel)
      (ends_cons (by decide)) hc (ends_cons rfl)).1
    have r1 := (nameText_ok (sel := sel) hk.storeName hk.name).2 ⟨m, hm, hu, rfl⟩
    have r2 := skip_star hs k1 hc
    have r3 : eval sel (Rule.chr ':') (ch ':' :: v) = .ok [] v := chr_ok.2 ⟨rfl, rfl⟩
    have r4 := skip_star hs k2 (value_starts.ends valueStart_gap hV)
    have l1 := rest_le r1
    have l2 := rest_le r2
    have l3 := rest_le r3
    have l4 := rest_le r4
    obtain ⟨y, he, hW⟩ := h w a t (by omega) hV hF
    refine ⟨_, (ref_store_ok hk.store).2 ⟨[.mk kn s.length m [], y], ?_, rfl⟩, rfl, hW⟩
    rw [hk.rule]
    refine seq_ok.2 ⟨_, u, [y], r1, ?_, rfl⟩
    rw [need_ok, ref_discard_ok hk.discard, hk.content]
    exact seq_ok.2 ⟨[], _, [y], r2, seq_ok.2 ⟨[], v, [y], r3, seq_ok.2 ⟨[], w, [y], r4, (value_of_need hs).2 he, rfl⟩, rfl⟩, rfl⟩

theorem pair_starts : Starts (Pair (ValueText rd.pos rd.atof)) nameStart := by
  intro s a t h
  cases h with
  | mk hm _ _ _ => exact name_starts _ _ _ hm

theorem argument_rule (hs : Sels sel) : PairRule sel .argument .argument_name .argument_content :=
  ⟨rfl, rfl, rfl, hs.at ⟨rfl, rfl⟩, hs.at ⟨rfl, rfl⟩, hs.at ⟨rfl, rfl⟩⟩

theorem object_field_rule (hs : Sels sel) : PairRule sel .object_field .object_field_name .object_field_content :=
  ⟨rfl, rfl, rfl, hs.at ⟨rfl, rfl⟩, hs.at ⟨rfl, rfl⟩, hs.at ⟨rfl, rfl⟩⟩

/-! ## Values -/

/-- No text is `true`, then `false`, then `null`: `enum_value` excludes nothing. -/
theorem enum_value_ok (hs : Sels sel) {s t : Str} {xs : List (Node R)} :
    eval sel G.enum_value s = .ok xs t ↔ xs = [] ∧ ∃ n, Name s n t ∧ Ends nameCont t := by
  have hno : eval sel (Rule.seqs [.ref .true_keyword, .ref .false_keyword, .ref .null_keyword]) s = .fail := by
    refine fail_of (by decide +kernel) fun xs t h => ?_
    obtain ⟨_, u, _, h1, h2, _⟩ := seq_ok.1 h
    obtain ⟨_, v, _, h3, _, _⟩ := seq_ok.1 h2
    obtain ⟨_, h1, _⟩ := (ref_store_ok (hs.at ⟨rfl, rfl⟩)).1 h1
    obtain ⟨_, h3, _⟩ := (ref_store_ok (hs.at ⟨rfl, rfl⟩)).1 h3
    obtain ⟨_, _, he⟩ := keyword_ok.1 h1
    obtain ⟨_, rfl, _⟩ := keyword_ok.1 h3
    exact absurd (he _ _ rfl) (by decide)
  constructor
  · intro h
    obtain ⟨_, u, _, h1, h2, rfl⟩ := seq_ok.1 h
    obtain ⟨_, rfl, rfl⟩ := notAt_ok.1 h1
    obtain ⟨rfl, n, rfl, hn, he⟩ := identifier_ok.1 ((ref_discard_ok (n := .name) (hs.at ⟨rfl, rfl⟩)).1 h2)
    exact ⟨rfl, n, ⟨hn, rfl⟩, he⟩
  · rintro ⟨rfl, n, ⟨hn, rfl⟩, he⟩
    exact seq_ok.2 ⟨[], _, [], notAt_ok.2 ⟨hno, rfl, rfl⟩,
      (ref_discard_ok (n := .name) (hs.at ⟨rfl, rfl⟩)).2 (identifier_ok.2 ⟨rfl, n, rfl, hn, he⟩), rfl⟩

theorem name_unique {a b t u : Str} (h : a ++ t = b ++ u) (ha : IsName a) (hb : IsName b) (ht : Ends nameCont t)
    (hu : Ends nameCont u) : a = b ∧ t = u := by
  have e1 := (identifier_ok (sel := executableSelector) (xs := [])).2 ⟨rfl, a, rfl, ha, ht⟩
  have e2 := (identifier_ok (sel := executableSelector) (xs := [])).2 ⟨rfl, b, rfl, hb, hu⟩
  rw [h, e2] at e1
  cases e1
  exact ⟨List.append_cancel_right h, rfl⟩

theorem keyword_ref_ok {k : R} {w : String} (hk : sel k = .store) (hg : grammar k = Rule.keyword w) {s t : Str}
    {xs : List (Node R)} :
    eval sel (.ref k) s = .ok xs t ↔ s = str w ++ t ∧ Ends nameCont t ∧ xs = [.mk k s.length (str w) []] := by
  rw [ref_store_ok hk, hg]
  constructor
  · rintro ⟨_, h, rfl⟩
    obtain ⟨rfl, rfl, he⟩ := keyword_ok.1 h
    exact ⟨rfl, he, by rw [consumed_append]⟩
  · rintro ⟨rfl, he, rfl⟩
    exact ⟨[], keyword_ok.2 ⟨rfl, rfl, he⟩, by rw [consumed_append]⟩

theorem keyword_ref_fail {k : R} {w : String} (hg : grammar k = Rule.keyword w) (hw : IsName (str w))
    {n t : Str} (hn : IsName n) (ht : Ends nameCont t)
    (hne : n ≠ str w) : eval sel (.ref k) (n ++ t) = .fail := by
  refine ref_fail.2 ?_
  rw [hg]
  refine fail_of rfl fun xs u h => ?_
  obtain ⟨_, e, he⟩ := keyword_ok.1 h
  exact absurd (name_unique e hn hw ht he).1 hne

/-- The alternatives of `input_value_content`. -/
theorem value_alternatives (hs : Sels sel) {s t : Str} {ns : List (Node R)} :
    eval sel (.ref .input_value_content) s = .ok ns t ↔ eval sel (Rule.sors [.ref .list_value, .ref .object_value,
      .ref .variable_value, .ref .float_value, .ref .integer_value, .ref .string_value, .ref .bool_value,
      .ref .null_keyword, .ref .enum_value]) s = .ok ns t := by
  rw [ref_discard_ok (hs.at ⟨rfl, rfl⟩)]
  exact Iff.rfl

theorem isName_true : IsName (str "true") := ⟨_, _, rfl, by decide, by decide⟩
theorem isName_false : IsName (str "false") := ⟨_, _, rfl, by decide, by decide⟩
theorem isName_null : IsName (str "null") := ⟨_, _, rfl, by decide, by decide⟩

theorem list_value_eq : grammar .list_value = .seq (Rule.chr '[') (need .list_value_content) := rfl
theorem list_content_eq : grammar .list_value_content = items0 (.ref .list_entry) (str "Expected ]") ']' := rfl
theorem object_value_eq : grammar .object_value = .seq (Rule.chr '{') (need .object_value_content) := rfl
theorem object_content_eq : grammar .object_value_content = items0 (.ref .object_field) (str "Expected }") '}' := rfl

theorem entry_eq (hs : Sels sel) (s : Str) : eval sel (.ref .list_entry) s = eval sel (.ref .input_value_content) s := by
  rw [eval_ref, eval_ref]
  have h1 : sel .list_entry = .discard := hs.at ⟨rfl, rfl⟩
  have h2 : sel .input_value_content = .discard := hs.at ⟨rfl, rfl⟩
  rw [h1, h2]
  rfl

/-- Rules between an opening byte and `items0`. -/
theorem bracket_sound (hs : Sels sel) {k kc : R} {r : Rule R} {o c : Char} {m : Str} {α : Type}
    {P : Str → α → Str → Prop} {W : Node R → α → Prop} {n : Nat} (hk : sel k = .store) (hkc : sel kc = .discard)
    (hg : grammar k = .seq (Rule.chr o) (need kc)) (hgc : grammar kc = items0 r m c)
    (hnul : nullable nulTable r = false) (hc : gapStart (ch c) = false) (hr : ∀ s, eval sel r (ch c :: s) = .fail)
    (h : Sound n sel r P W) {s t : Str} {ns : List (Node R)} (hl : s.length < n + 1)
    (he : eval sel (.ref k) s = .ok ns t) :
    ∃ cs, ns = [.mk k s.length (consumed s t) cs] ∧
      ((cs = [] ∧ ∃ u, s = ch o :: u ∧ Skip u (ch c :: t)) ∨
        ∃ xs, Between (ch o) (ch c) P s xs t ∧ List.Forall₂ W cs xs) := by
  obtain ⟨cs, h1, rfl⟩ := (ref_store_ok hk).1 he
  refine ⟨cs, rfl, ?_⟩
  rw [hg] at h1
  obtain ⟨_, u, ys, h2, h3, rfl⟩ := seq_ok.1 h1
  obtain ⟨rfl, rfl⟩ := chr_ok.1 h2
  rw [need_ok, ref_discard_ok hkc, hgc] at h3
  rcases (items0_ok hs hc hr).1 h3 with h4 | ⟨rfl, hsk⟩
  · simp only [List.length_cons] at hl
    obtain ⟨v, xs, w, k1, hx, k2, hf⟩ := items_sound hs hnul h (by omega) h4
    exact .inr ⟨xs, .mk k1 hx k2, hf⟩
  · exact .inl ⟨rfl, u, rfl, hsk⟩

theorem bracket_empty (hs : Sels sel) {k kc : R} {r : Rule R} {o c : Char} {m : Str} (hk : sel k = .store)
    (hkc : sel kc = .discard) (hg : grammar k = .seq (Rule.chr o) (need kc)) (hgc : grammar kc = items0 r m c)
    (hc : gapStart (ch c) = false) (hr : ∀ s, eval sel r (ch c :: s) = .fail) {u t : Str} (h : Skip u (ch c :: t)) :
    eval sel (.ref k) (ch o :: u) = .ok [.mk k (ch o :: u).length (consumed (ch o :: u) t) []] t := by
  refine (ref_store_ok hk).2 ⟨[], ?_, rfl⟩
  rw [hg]
  refine seq_ok.2 ⟨[], u, [], chr_ok.2 ⟨rfl, rfl⟩, ?_, rfl⟩
  rw [need_ok, ref_discard_ok hkc, hgc]
  exact (items0_ok hs hc hr).2 (.inr ⟨rfl, h⟩)

theorem bracket_complete (hs : Sels sel) {k kc : R} {r : Rule R} {o c : Char} {m : Str} {α : Type}
    {P : Str → α → Str → Prop} {W : Node R → α → Prop} {F : Str → Prop} {p : Byte → Bool} {n : Nat}
    (hk : sel k = .store) (hkc : sel kc = .discard)
    (hg : grammar k = .seq (Rule.chr o) (need kc)) (hgc : grammar kc = items0 r m c ∨ grammar kc = items r m c)
    (hnul : nullable nulTable r = false) (hc : gapStart (ch c) = false) (hpc : p (ch c) = false)
    (h : Complete n sel r P W F) (hst : Starts P p) (hp : ∀ c, p c = true → gapStart c = false) (hn : Needs sel r p)
    (hF : ∀ t u, Space t u → (∃ c v, u = c :: v ∧ p c = true) → F t) (hFc : ∀ w t, Skip w (ch c :: t) → F w)
    {s t : Str} {xs : List α} (hl : s.length < n + 1) (hb : Between (ch o) (ch c) P s xs t) :
    ∃ cs, eval sel (.ref k) s = .ok [.mk k s.length (consumed s t) cs] t ∧ List.Forall₂ W cs xs := by
  cases hb with
  | @mk u v _ w _ k1 hx k2 =>
    simp only [List.length_cons] at hl
    obtain ⟨cs, he, hf⟩ := items_complete hs (m := m) hnul h hst hp hn hF (by omega) k1 hx k2 (hFc w t) hpc hc
    refine ⟨cs, (ref_store_ok hk).2 ⟨cs, ?_, rfl⟩, hf⟩
    rw [hg]
    refine seq_ok.2 ⟨[], u, cs, chr_ok.2 ⟨rfl, rfl⟩, ?_, rfl⟩
    rw [need_ok, ref_discard_ok hkc]
    rcases hgc with hgc | hgc
    · rw [hgc]
      exact (items0_ok hs hc (fun s => hn _ (ends_cons hpc))).2 (.inl he)
    · rw [hgc]
      exact he

/-- Every value which is read is a value of the specification, and the visitors give this value. -/
theorem value_sound (hs : Sels sel) (rd : Read) (n : Nat) :
    Sound n sel (.ref .input_value_content) (ValueText rd.pos rd.atof) (IsLit rd) := by
  induction n with
  | zero => intro s ns t h; omega
  | succ n ih =>
    intro s ns t hl he
    have he' := (value_alternatives hs).1 he
    rcases sor_ok.1 he' with h | ⟨n1, h1⟩
    · have ih' : Sound n sel (.ref .list_entry) (ValueText rd.pos rd.atof) (IsLit rd) := by
        intro s ns t hl h
        exact ih s ns t hl (by rwa [entry_eq hs] at h)
      obtain ⟨cs, rfl, ⟨rfl, u, rfl, hk⟩ | ⟨xs, hb, hf⟩⟩ := bracket_sound hs (k := .list_value) (kc := .list_value_content)
        (hs.at ⟨rfl, rfl⟩) (hs.at ⟨rfl, rfl⟩) list_value_eq list_content_eq rfl (by decide)
        (fun s => dead_cons (by decide +kernel)) ih' hl h
      · exact ⟨_, _, rfl, .emptyList hk, rfl⟩
      · exact ⟨_, _, rfl, .list hb, by simp only [IsLit, litOf, litsOf_of hf, Option.map_some]⟩
    rcases sor_ok.1 h1 with h | ⟨n2, h2⟩
    · obtain ⟨cs, rfl, ⟨rfl, u, rfl, hk⟩ | ⟨xs, hb, hf⟩⟩ := bracket_sound hs (k := .object_value)
        (kc := .object_value_content)
        (hs.at ⟨rfl, rfl⟩) (hs.at ⟨rfl, rfl⟩) object_value_eq object_content_eq rfl (by decide)
        (fun s => dead_cons (by decide +kernel)) (pair_sound hs (object_field_rule hs) ih) hl h
      · exact ⟨_, _, rfl, .emptyObject hk, rfl⟩
      · exact ⟨_, _, rfl, .object hb, by simp only [IsLit, litOf, pairsOf_of hf, Option.map_some]⟩
    rcases sor_ok.1 h2 with h | ⟨n3, h3⟩
    · obtain ⟨ys, hy, rfl⟩ := (ref_store_ok (hs.at ⟨rfl, rfl⟩)).1 h
      obtain ⟨_, u, _, e1, e2, rfl⟩ := seq_ok.1 hy
      obtain ⟨rfl, rfl⟩ := chr_ok.1 e1
      obtain ⟨rfl, m, rfl, hm, _⟩ := identifier_ok.1
        ((ref_discard_ok (n := .variable_name_content) (hs.at ⟨rfl, rfl⟩)).1 (need_ok.1 e2))
      refine ⟨_, _, rfl, .variable (n := m) rfl hm, ?_⟩
      have : consumed (ch '$' :: (m ++ t)) t = ch '$' :: m := consumed_append (ch '$' :: m) t
      simp only [IsLit, litOf, this]
      rfl
    rcases sor_ok.1 h3 with h | ⟨n4, h4⟩
    · obtain ⟨ys, hy, rfl⟩ := (ref_store_ok (hs.at ⟨rfl, rfl⟩)).1 h
      obtain ⟨rfl, i, f, rfl, hi, hf, _⟩ := (float_ok hs).1 hy
      exact ⟨_, _, rfl, .float hi hf, by rw [consumed_append]; rfl⟩
    rcases sor_ok.1 h4 with h | ⟨n5, h5⟩
    · obtain ⟨ys, hy, rfl⟩ := (ref_store_ok (hs.at ⟨rfl, rfl⟩)).1 h
      obtain ⟨rfl, i, rfl, hi, _⟩ := (integer_ok hs).1 hy
      exact ⟨_, _, rfl, .int hi, by rw [consumed_append]; rfl⟩
    rcases sor_ok.1 h5 with h | ⟨n6, h6⟩
    · obtain ⟨ys, hy, rfl⟩ := (ref_store_ok (hs.at ⟨rfl, rfl⟩)).1 h
      obtain ⟨w, rfl, hw⟩ := string_rule_ok hs hy
      exact ⟨_, _, rfl, .string hw, by simp only [IsLit, litOf, unescaped_string]⟩
    rcases sor_ok.1 h6 with h | ⟨n7, h7⟩
    · rcases sor_ok.1 ((ref_discard_ok (n := .bool_value) (hs.at ⟨rfl, rfl⟩)).1 h) with h | ⟨_, h⟩
      · obtain ⟨rfl, _, rfl⟩ := (keyword_ref_ok (w := "true") (hs.at ⟨rfl, rfl⟩) rfl).1 h
        exact ⟨_, _, rfl, .true, rfl⟩
      · obtain ⟨rfl, _, rfl⟩ := (keyword_ref_ok (w := "false") (hs.at ⟨rfl, rfl⟩) rfl).1 h
        exact ⟨_, _, rfl, .false, rfl⟩
    rcases sor_ok.1 h7 with h | ⟨n8, h⟩
    · obtain ⟨rfl, _, rfl⟩ := (keyword_ref_ok (w := "null") (hs.at ⟨rfl, rfl⟩) rfl).1 h
      exact ⟨_, _, rfl, .null, rfl⟩
    · obtain ⟨ys, hy, rfl⟩ := (ref_store_ok (n := .enum_value) (hs.at ⟨rfl, rfl⟩)).1 h
      obtain ⟨rfl, m, ⟨hm, rfl⟩, hc⟩ := (enum_value_ok hs).1 hy
      have hb := sor_fail.1 (ref_fail.1 n7)
      refine ⟨_, _, rfl, .enum (n := m) ⟨hm, rfl⟩ ?_ ?_ ?_, by rw [consumed_append]; rfl⟩
      · rintro rfl
        have := (keyword_ref_ok (sel := sel) (k := .true_keyword) (w := "true") (hs.at ⟨rfl, rfl⟩) rfl).2 ⟨rfl, hc, rfl⟩
        rw [hb.1] at this; cases this
      · rintro rfl
        have := (keyword_ref_ok (sel := sel) (k := .false_keyword) (w := "false") (hs.at ⟨rfl, rfl⟩) rfl).2 ⟨rfl, hc, rfl⟩
        rw [show eval sel (.ref .false_keyword) _ = .fail from hb.2] at this; cases this
      · rintro rfl
        have := (keyword_ref_ok (sel := sel) (k := .null_keyword) (w := "null") (hs.at ⟨rfl, rfl⟩) rfl).2 ⟨rfl, hc, rfl⟩
        rw [n8] at this; cases this

/-- Going to a later alternative. -/
theorem sor_next {a b : Rule R} {s t : Str} {xs : List (Node R)} (h1 : eval sel a s = .fail)
    (h2 : eval sel b s = .ok xs t) : eval sel (.sor a b) s = .ok xs t := sor_ok.2 (.inr ⟨h1, h2⟩)

theorem name_dead : ∀ c : Byte, nameStart c = true → dead 40 (.ref .list_value) [c] false = true ∧
    dead 40 (.ref .object_value) [c] false = true ∧ dead 40 (.ref .variable_value) [c] false = true ∧
    dead 40 (.ref .float_value) [c] false = true ∧ dead 40 (.ref .integer_value) [c] false = true ∧
    dead 40 (.ref .string_value) [c] false = true := by decide +kernel

/-- A name as a value: none of the alternatives before `bool_value` can be taken. -/
theorem name_value (hs : Sels sel) {s t : Str} {ns : List (Node R)} (h0 : ∃ c u, s = c :: u ∧ nameStart c = true)
    (h : eval sel (Rule.sors [.ref .bool_value, .ref .null_keyword, .ref .enum_value]) s = .ok ns t) :
    eval sel (.ref .input_value_content) s = .ok ns t := by
  obtain ⟨c, u, rfl, hc⟩ := h0
  obtain ⟨d1, d2, d3, d4, d5, d6⟩ := name_dead c hc
  exact (value_alternatives hs).2 (sor_next (dead_cons d1) (sor_next (dead_cons d2) (sor_next (dead_cons d3)
    (sor_next (dead_cons d4) (sor_next (dead_cons d5) (sor_next (dead_cons d6) h))))))

/-- Every value of the specification is read, if what follows is not part of it, and the visitors give this value. -/
theorem value_complete (hs : Sels sel) (rd : Read) (n : Nat) :
    Complete n sel (.ref .input_value_content) (ValueText rd.pos rd.atof) (IsLit rd) (Ends valCont) := by
  induction n with
  | zero => intro s a t h; omega
  | succ n ih =>
    have hF : ∀ {p : Byte → Bool} t u, Space t u → (∃ c v, u = c :: v ∧ p c = true) → Ends valCont t := by
      intro p t u h _
      obtain ⟨c, v, rfl, hc⟩ := space_first h
      exact ends_cons (valCont_gap c hc)
    have hFc : ∀ {c : Char}, valCont (ch c) = false → ∀ w t, Skip w (ch c :: t) → Ends valCont w := by
      intro c hc w t h
      rcases skip_cases h with rfl | h
      · exact ends_cons hc
      · obtain ⟨d, v, rfl, hd⟩ := space_first h
        exact ends_cons (valCont_gap d hd)
    intro s a t hl hV hF0
    have hname : Ends nameCont t := fun c u e => valCont_name c (hF0 c u e)
    cases hV with
    | @«variable» _ m _ e hm =>
      have e' : s = (ch '$' :: m) ++ t := e
      have hrule : eval sel (.ref .variable_value) s = .ok [.mk .variable_value s.length (ch '$' :: m) []] t := by
        refine (ref_store_ok (hs.at ⟨rfl, rfl⟩)).2 ⟨[], ?_, by rw [e', consumed_append]⟩
        rw [e]
        exact seq_ok.2 ⟨[], m ++ t, [], chr_ok.2 ⟨rfl, rfl⟩, need_ok.2 ((ref_discard_ok (hs.at ⟨rfl, rfl⟩)).2
          (identifier_ok.2 ⟨rfl, m, rfl, hm, hname⟩)), rfl⟩
      refine ⟨_, (value_alternatives hs).2 (sor_next ?_ (sor_next ?_ (sor_ok.2 (.inl hrule)))), rfl⟩
      · rw [e]; exact dead_cons (by decide +kernel)
      · rw [e]; exact dead_cons (by decide +kernel)
    | @int w _ hi =>
      have := ((integer_value_ok hs).2 ⟨w, rfl, rfl, hi, .inr (.inr fun c u e => (numberCont_digit c (by
        have := hF0 c u e; simp only [valCont, Bool.or_eq_false_iff] at this; exact this.1)).1), fun c u e =>
        (numberCont_digit c (by have := hF0 c u e; simp only [valCont, Bool.or_eq_false_iff] at this; exact this.1)).2⟩).1
      exact ⟨_, matches_iff.1 this, rfl⟩
    | @float i f _ hi hf =>
      have := ((float_value_ok hs).2 ⟨i, f, rfl, rfl, hi, hf, fun c u e => (numberCont_digit c (by
        have := hF0 c u e; simp only [valCont, Bool.or_eq_false_iff] at this; exact this.1)).1⟩).1
      exact ⟨_, matches_iff.1 this, rfl⟩
    | @string w v _ h =>
      obtain ⟨xs, h1, h2⟩ := string_rule_complete hs h
      have h3 : eval sel (.ref .string_value) (w ++ t) = .ok [.mk .string_value (w ++ t).length w xs] t :=
        (ref_store_ok (hs.at ⟨rfl, rfl⟩)).2 ⟨xs, h1, by rw [consumed_append]⟩
      obtain ⟨u, rfl⟩ := string_start h
      refine ⟨_, (value_alternatives hs).2 (sor_next (dead_cons (by decide +kernel)) (sor_next (dead_cons (by decide +kernel))
        (sor_next (dead_cons (by decide +kernel)) (sor_next (dead_cons (by decide +kernel))
        (sor_next (dead_cons (by decide +kernel)) (sor_ok.2 (.inl h3))))))), ?_⟩
      simp only [IsLit, litOf, unescaped_string, h2]
    | true =>
      refine ⟨_, name_value hs ⟨_, _, rfl, by decide⟩ (sor_ok.2 (.inl ((ref_discard_ok (hs.at ⟨rfl, rfl⟩)).2
        (sor_ok.2 (.inl ((keyword_ref_ok (w := "true") (hs.at ⟨rfl, rfl⟩) rfl).2 ⟨rfl, hname, rfl⟩)))))), rfl⟩
    | false =>
      refine ⟨_, name_value hs ⟨_, _, rfl, by decide⟩ (sor_ok.2 (.inl ((ref_discard_ok (hs.at ⟨rfl, rfl⟩)).2
        (sor_next (dead_cons (by decide +kernel))
          ((keyword_ref_ok (w := "false") (hs.at ⟨rfl, rfl⟩) rfl).2 ⟨rfl, hname, rfl⟩))))), rfl⟩
    | null =>
      refine ⟨_, name_value hs ⟨_, _, rfl, by decide⟩ (sor_next (dead_cons (by decide +kernel))
        (sor_ok.2 (.inl ((keyword_ref_ok (w := "null") (hs.at ⟨rfl, rfl⟩) rfl).2 ⟨rfl, hname, rfl⟩)))), rfl⟩
    | @enum _ m _ hm h1 h2 h3 =>
      obtain ⟨hm, rfl⟩ := hm
      have f1 := keyword_ref_fail (sel := sel) (k := .true_keyword) (w := "true") rfl isName_true hm hname h1
      have f2 := keyword_ref_fail (sel := sel) (k := .false_keyword) (w := "false") rfl isName_false hm hname h2
      have f3 := keyword_ref_fail (sel := sel) (k := .null_keyword) (w := "null") rfl isName_null hm hname h3
      have h4 : eval sel (.ref .enum_value) (m ++ t) = .ok [.mk .enum_value (m ++ t).length m []] t :=
        (ref_store_ok (hs.at ⟨rfl, rfl⟩)).2 ⟨[], (enum_value_ok hs).2 ⟨rfl, m, ⟨hm, rfl⟩, hname⟩, by rw [consumed_append]⟩
      exact ⟨_, name_value hs (name_starts _ m t ⟨hm, rfl⟩) (sor_next (ref_fail.2 (sor_fail.2 ⟨f1, f2⟩))
        (sor_next f3 h4)), rfl⟩
    | @emptyList u _ hk =>
      have := bracket_empty hs (k := .list_value) (kc := .list_value_content) (hs.at ⟨rfl, rfl⟩) (hs.at ⟨rfl, rfl⟩)
        list_value_eq list_content_eq (by decide) (fun s => dead_cons (by decide +kernel)) hk
      exact ⟨_, (value_alternatives hs).2 (sor_ok.2 (.inl this)), rfl⟩
    | @list _ xs _ hb =>
      have ih' : Complete n sel (.ref .list_entry) (ValueText rd.pos rd.atof) (IsLit rd) (Ends valCont) := by
        intro s a t hl h hF
        obtain ⟨x, h1, h2⟩ := ih s a t hl h hF
        exact ⟨x, by rw [entry_eq hs, h1], h2⟩
      obtain ⟨cs, he, hf⟩ := bracket_complete hs (k := .list_value) (kc := .list_value_content) (hs.at ⟨rfl, rfl⟩)
        (hs.at ⟨rfl, rfl⟩) list_value_eq (.inl list_content_eq) rfl (by decide) (by decide) ih' value_starts valueStart_gap
        entry_needs hF (hFc (by decide)) hl hb
      exact ⟨_, (value_alternatives hs).2 (sor_ok.2 (.inl he)), by simp only [IsLit, litOf, litsOf_of hf, Option.map_some]⟩
    | @emptyObject u _ hk =>
      have := bracket_empty hs (k := .object_value) (kc := .object_value_content) (hs.at ⟨rfl, rfl⟩) (hs.at ⟨rfl, rfl⟩)
        object_value_eq object_content_eq (by decide) (fun s => dead_cons (by decide +kernel)) hk
      exact ⟨_, (value_alternatives hs).2 (sor_next (dead_cons (by decide +kernel)) (sor_ok.2 (.inl this))), rfl⟩
    | @object _ xs _ hb =>
      obtain ⟨cs, he, hf⟩ := bracket_complete hs (k := .object_value) (kc := .object_value_content) (hs.at ⟨rfl, rfl⟩)
        (hs.at ⟨rfl, rfl⟩) object_value_eq (.inl object_content_eq) rfl (by decide) (by decide)
        (pair_complete hs (object_field_rule hs) ih) pair_starts nameStart_gap
        (needs_of (by decide +kernel) (by decide +kernel)) hF (hFc (by decide)) hl hb
      obtain ⟨u, rfl⟩ := between_starts hb
      exact ⟨_, (value_alternatives hs).2 (sor_next (dead_cons (by decide +kernel)) (sor_ok.2 (.inl he))),
        by simp only [IsLit, litOf, pairsOf_of hf, Option.map_some]⟩

end Verif.Peg
