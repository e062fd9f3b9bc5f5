import Verif.Grammar.Ast
import Verif.Grammar.Strings
import Mathlib.Data.List.Forall2

/-!
# Sequences, options and brackets

The combinations of rules which the grammar is made of, and the combinations of the specification.
-/
namespace Verif.Peg
open Verif.Value Verif.Text Rule

variable {sel : R → Sel}

/-! ## Ignored text -/

theorem skip_refl (s : Str) : Skip s s := ⟨[], rfl, .nil⟩

theorem space_skip {s t : Str} (h : Space s t) : Skip s t := by
  obtain ⟨g, _, h⟩ := h
  exact ⟨g, h⟩

theorem skip_star (hs : Sels sel) {s t : Str} (h : Skip s t) (ht : Ends gapStart t) :
    eval sel (.star (.ref .ignored)) s = .ok [] t := by
  obtain ⟨g, e, hg⟩ := h
  exact (star_ignored_ok hs).2 ⟨rfl, g, e, hg, ht⟩

theorem star_skip (hs : Sels sel) {s t : Str} {xs : List (Node R)} (h : eval sel (.star (.ref .ignored)) s = .ok xs t) :
    xs = [] ∧ Skip s t ∧ Ends gapStart t := by
  obtain ⟨rfl, g, e, hg, ht⟩ := (star_ignored_ok hs).1 h
  exact ⟨rfl, ⟨g, e, hg⟩, ht⟩

theorem space_plus (hs : Sels sel) {s t : Str} (h : Space s t) (ht : Ends gapStart t) :
    eval sel (Rule.plus (.ref .ignored)) s = .ok [] t := by
  obtain ⟨g, hne, e, hg⟩ := h
  exact (plus_ignored_ok hs).2 ⟨rfl, g, hne, e, hg, ht⟩

theorem plus_space (hs : Sels sel) {s t : Str} {xs : List (Node R)} (h : eval sel (Rule.plus (.ref .ignored)) s = .ok xs t) :
    xs = [] ∧ Space s t ∧ Ends gapStart t := by
  obtain ⟨rfl, g, hne, e, hg, ht⟩ := (plus_ignored_ok hs).1 h
  exact ⟨rfl, ⟨g, hne, e, hg⟩, ht⟩

theorem skip_unique {s t u : Str} (h : Skip s t) (ht : Ends gapStart t) (h' : Skip s u) (hu : Ends gapStart u) : t = u := by
  have e1 := skip_star (sel := executableSelector) (.inl rfl) h ht
  have e2 := skip_star (sel := executableSelector) (.inl rfl) h' hu
  rw [e1] at e2
  cases e2
  rfl

theorem ends_cons {p : Byte → Bool} {c : Byte} {t : Str} (h : p c = false) : Ends p (c :: t) := by
  intro d u e
  cases e
  exact h

theorem gap_first {t g : Str} (h : Gap t g) (hne : g ≠ []) : ∃ c u, g = c :: u ∧ gapStart c = true := by
  cases h with
  | nil => exact absurd rfl hne
  | blank h _ => exact ⟨_, _, rfl, by simp [gapStart, h]⟩
  | comment _ _ => exact ⟨_, _, rfl, by decide⟩
  | last _ _ => exact ⟨_, _, rfl, by decide⟩

theorem skip_cases {s t : Str} (h : Skip s t) : s = t ∨ Space s t := by
  obtain ⟨g, e, hg⟩ := h
  by_cases hne : g = []
  · subst hne; exact .inl e
  · exact .inr ⟨g, hne, e, hg⟩

theorem space_first {s t : Str} (h : Space s t) : ∃ c u, s = c :: u ∧ gapStart c = true := by
  obtain ⟨g, hne, rfl, hg⟩ := h
  obtain ⟨c, u, rfl, hc⟩ := gap_first hg hne
  exact ⟨c, u ++ t, rfl, hc⟩

/-! ## What may follow -/

/-- After ignored text, `t` does not go on with a byte of `q`. -/
def NotNext (q : Byte → Bool) (t : Str) : Prop := ∀ u, Skip t u → Ends gapStart u → Ends q u

/-- `t` does not begin with a byte of `p`, and after ignored text it does not go on with a byte of `q`. -/
def Follow (p q : Byte → Bool) (t : Str) : Prop := Ends p t ∧ NotNext q t

theorem notNext_of {q : Byte → Bool} {t u : Str} (h : Skip t u) (hu : Ends gapStart u) (hq : Ends q u) : NotNext q t := by
  intro v hv hg
  rw [skip_unique hv hg h hu]
  exact hq

theorem follow_space {p q : Byte → Bool} {t u : Str} (h : Space t u) (hp : ∀ c, gapStart c = true → p c = false)
    (hu : Ends gapStart u) (hq : Ends q u) : Follow p q t := by
  refine ⟨?_, notNext_of (space_skip h) hu hq⟩
  obtain ⟨c, v, rfl, hc⟩ := space_first h
  exact ends_cons (hp c hc)

theorem follow_skip {p q : Byte → Bool} {t u : Str} (h : Skip t u) (hp : ∀ c, gapStart c = true → p c = false)
    (hpu : Ends p u) (hu : Ends gapStart u) (hq : Ends q u) : Follow p q t := by
  rcases skip_cases h with rfl | h'
  · exact ⟨hpu, notNext_of h hu hq⟩
  · exact follow_space h' hp hu hq

theorem Follow.weaken {p q p' q' : Byte → Bool} {t : Str} (h : Follow p q t) (hp : ∀ c, p c = false → p' c = false)
    (hq : ∀ c, q c = false → q' c = false) : Follow p' q' t :=
  ⟨fun c u e => hp c (h.1 c u e), fun u hu hg c v e => hq c (h.2 u hu hg c v e)⟩

/-! ## One rule, one node -/

/-- What the rule `r` reads is what the specification `P` says, and `W` says what the node means. -/
def Sound (n : Nat) (sel : R → Sel) (r : Rule R) {α : Type} (P : Str → α → Str → Prop) (W : Node R → α → Prop) : Prop :=
  ∀ s ns t, s.length < n → eval sel r s = .ok ns t → ∃ x a, ns = [x] ∧ P s a t ∧ W x a

/-- What the specification `P` says is read by the rule `r`, if `F` holds for the text which follows. -/
def Complete (n : Nat) (sel : R → Sel) (r : Rule R) {α : Type} (P : Str → α → Str → Prop) (W : Node R → α → Prop)
    (F : Str → Prop) : Prop :=
  ∀ s a t, s.length < n → P s a t → F t → ∃ x, eval sel r s = .ok [x] t ∧ W x a

/-- Everything which the specification allows begins with a byte of `p`. -/
def Starts {α : Type} (P : Str → α → Str → Prop) (p : Byte → Bool) : Prop :=
  ∀ s a t, P s a t → ∃ c u, s = c :: u ∧ p c = true

theorem Starts.ends {α : Type} {P : Str → α → Str → Prop} {p q : Byte → Bool} (h : Starts P p)
    (hpq : ∀ c, p c = true → q c = false) {s : Str} {a : α} {t : Str} (hP : P s a t) : Ends q s := by
  obtain ⟨c, u, rfl, hc⟩ := h s a t hP
  exact ends_cons (hpq c hc)

/-- The rule fails on every text which does not begin with a byte of `p`. -/
def Needs (sel : R → Sel) (r : Rule R) (p : Byte → Bool) : Prop := ∀ s, Ends p s → eval sel r s = .fail

theorem needs_of {r : Rule R} {p : Byte → Bool} (h0 : dead 40 r [] true = true)
    (h : ∀ c, p c = false → dead 40 r [c] false = true) : Needs sel r p := by
  intro s hs
  cases s with
  | nil => exact dead_nil h0
  | cons c s => exact dead_cons (h c (hs c s rfl))

theorem rest_le {r : Rule R} {s t : Str} {xs : List (Node R)} (h : eval sel r s = .ok xs t) : t.length ≤ s.length := by
  obtain ⟨a, rfl⟩ := (eval_rest h).1
  simp

/-! ## Options -/

theorem opt_sound (hs : Sels sel) {n : Nat} {r : Rule R} {α : Type} {P : Str → α → Str → Prop} {W : Node R → α → Prop}
    (h : Sound n sel r P W) {s t : Str} {ns : List (Node R)} (hl : s.length < n)
    (he : eval sel (.opt (.seq (.star (.ref .ignored)) r)) s = .ok ns t) :
    (ns = [] ∧ t = s ∧ Opt P s none t) ∨ ∃ x a, ns = [x] ∧ Opt P s (some a) t ∧ W x a := by
  rcases opt_ok.1 he with h1 | ⟨_, rfl, rfl⟩
  · obtain ⟨_, u, zs, h2, h3, rfl⟩ := seq_ok.1 h1
    obtain ⟨rfl, hk, _⟩ := star_skip hs h2
    obtain ⟨x, a, rfl, hP, hW⟩ := h u zs t (by have := rest_le h2; omega) h3
    exact .inr ⟨x, a, rfl, .some hk hP, hW⟩
  · exact .inl ⟨rfl, rfl, .none⟩

theorem opt_complete (hs : Sels sel) {n : Nat} {r : Rule R} {α : Type} {P : Str → α → Str → Prop} {W : Node R → α → Prop}
    {F : Str → Prop} {p : Byte → Bool} (h : Complete n sel r P W F) (hst : Starts P p)
    (hp : ∀ c, p c = true → gapStart c = false) (hn : Needs sel r p) {s t : Str} {o : Option α} (hl : s.length < n)
    (ho : Opt P s o t) (hF : F t) (hnext : NotNext p t) :
    (o = none ∧ t = s ∧ eval sel (.opt (.seq (.star (.ref .ignored)) r)) s = .ok [] t) ∨
      ∃ x a, o = some a ∧ eval sel (.opt (.seq (.star (.ref .ignored)) r)) s = .ok [x] t ∧ W x a := by
  cases ho with
  | none =>
    refine .inl ⟨rfl, rfl, opt_ok.2 (.inr ⟨?_, rfl, rfl⟩)⟩
    obtain ⟨g, u, e, hg, hu, hr⟩ := star_ignored hs s
    exact seq_fail.2 (.inr ⟨[], u, hr, hn u (hnext u ⟨g, e, hg⟩ hu)⟩)
  | @some _ u a _ hk hP =>
    have hu : Ends gapStart u := hst.ends hp hP
    have hr := skip_star hs hk hu
    obtain ⟨x, hx, hW⟩ := h u a t (by have := rest_le hr; omega) hP hF
    exact .inr ⟨x, a, rfl, opt_ok.2 (.inl (seq_ok.2 ⟨[], u, [x], hr, hx, rfl⟩)), hW⟩

/-! ## Items with ignored text between them -/

theorem list_sound (hs : Sels sel) {n : Nat} {r : Rule R} {α : Type} {P : Str → α → Str → Prop} {W : Node R → α → Prop}
    (hnul : nullable nulTable r = false) (h : Sound n sel r P W) {s t : Str} {ns : List (Node R)} (hl : s.length < n)
    (he : eval sel (Rule.list r (Rule.plus (.ref .ignored))) s = .ok ns t) :
    ∃ xs, Sep Space P s xs t ∧ List.Forall₂ W ns xs := by
  have hnul' : nullable nulTable (.seq (Rule.plus (.ref .ignored)) r) = false := by simp [nullable, hnul]
  have loop : ∀ {s ns t}, Iter sel (.seq (Rule.plus (.ref .ignored)) r) s ns t → ∀ {s0 a}, s.length < n → P s0 a s →
      ∃ xs, Sep Space P s0 (a :: xs) t ∧ List.Forall₂ W ns xs := by
    intro s ns t hi
    induction hi with
    | nil _ => intro s0 a _ hP; exact ⟨[], .one hP, .nil⟩
    | cons h1 _ ih =>
      intro s0 a hl hP
      obtain ⟨_, u, zs, h2, h3, rfl⟩ := seq_ok.1 h1
      obtain ⟨rfl, hk, _⟩ := plus_space hs h2
      have l1 := rest_le h2
      have l2 := rest_le h3
      obtain ⟨x, b, rfl, hP', hW⟩ := h u zs _ (by omega) h3
      obtain ⟨xs, hx, hf⟩ := ih (by omega) hP'
      exact ⟨b :: xs, .more hP hk hx, .cons hW hf⟩
  obtain ⟨ys, u, zs, h1, h2, rfl⟩ := seq_ok.1 he
  obtain ⟨x, a, rfl, hP, hW⟩ := h s ys u hl h1
  obtain ⟨xs, hx, hf⟩ := loop ((star_ok hnul').1 h2) (by have := rest_le h1; omega) hP
  exact ⟨a :: xs, hx, .cons hW hf⟩

theorem list_complete (hs : Sels sel) {n : Nat} {r : Rule R} {α : Type} {P : Str → α → Str → Prop} {W : Node R → α → Prop}
    {F : Str → Prop} {p : Byte → Bool} (hnul : nullable nulTable r = false) (h : Complete n sel r P W F)
    (hst : Starts P p) (hp : ∀ c, p c = true → gapStart c = false) (hn : Needs sel r p)
    (hF : ∀ t u, Space t u → (∃ c v, u = c :: v ∧ p c = true) → F t) {s t : Str} {xs : List α} (hl : s.length < n)
    (hx : Sep Space P s xs t) (hFt : F t) (hnext : NotNext p t) :
    ∃ ns, eval sel (Rule.list r (Rule.plus (.ref .ignored))) s = .ok ns t ∧ List.Forall₂ W ns xs := by
  have hnul' : nullable nulTable (.seq (Rule.plus (.ref .ignored)) r) = false := by simp [nullable, hnul]
  have stop : eval sel (.seq (Rule.plus (.ref .ignored)) r) t = .fail := by
    by_cases hg : Ends gapStart t
    · exact seq_fail.2 (.inl ((plus_ignored_fail hs).2 hg))
    · obtain ⟨g, u, e, hgap, hu, _⟩ := star_ignored hs t
      have hne : g ≠ [] := by
        rintro rfl
        exact hg (by rw [e]; exact hu)
      exact seq_fail.2 (.inr ⟨[], u, (plus_ignored_ok hs).2 ⟨rfl, g, hne, e, hgap, hu⟩, hn u (hnext u ⟨g, e, hgap⟩ hu)⟩)
  have key : ∀ {s xs}, Sep Space P s xs t → s.length < n →
      ∃ x ns u, eval sel r s = .ok [x] u ∧ Iter sel (.seq (Rule.plus (.ref .ignored)) r) u ns t ∧
        List.Forall₂ W (x :: ns) xs := by
    intro s xs hx
    generalize ht' : t = t' at hx
    induction hx with
    | one hP =>
      subst ht'
      intro hl
      obtain ⟨x, he, hW⟩ := h _ _ _ hl hP hFt
      exact ⟨x, [], _, he, .nil stop, .cons hW .nil⟩
    | @more s a u v xs w hP hk hx ih =>
      intro hl
      have hv : ∃ c z, v = c :: z ∧ p c = true := by
        cases hx with
        | one h' => exact hst _ _ _ h'
        | more h' _ _ => exact hst _ _ _ h'
      have hvg : Ends gapStart v := by
        obtain ⟨c, z, rfl, hc⟩ := hv
        exact ends_cons (hp c hc)
      obtain ⟨x, he, hW⟩ := h _ _ _ hl hP (hF u v hk hv)
      have hr := space_plus hs hk hvg
      obtain ⟨y, ns, z, he', hi, hf⟩ := ih ht' (by have := rest_le he; have := rest_le hr; omega)
      exact ⟨x, [y] ++ ns, u, he, .cons (seq_ok.2 ⟨[], v, [y], hr, he', rfl⟩) hi, .cons hW hf⟩
  obtain ⟨x, ns, u, he, hi, hf⟩ := key hx hl
  exact ⟨[x] ++ ns, seq_ok.2 ⟨[x], u, ns, he, (star_ok hnul').2 hi, rfl⟩, hf⟩

/-! ## Brackets -/

/-- The content of brackets: ignored text, items, ignored text, the closing byte. -/
def items (r : Rule R) (m : Str) (c : Char) : Rule R :=
  Rule.seqs [Rule.star (.ref .ignored), Rule.list r (Rule.plus (.ref .ignored)), Rule.star (.ref .ignored),
    Rule.must m (Rule.chr c)]

theorem items_sound (hs : Sels sel) {n : Nat} {r : Rule R} {α : Type} {P : Str → α → Str → Prop} {W : Node R → α → Prop}
    (hnul : nullable nulTable r = false) (h : Sound n sel r P W) {m : Str} {c : Char} {s t : Str} {ns : List (Node R)}
    (hl : s.length < n) (he : eval sel (items r m c) s = .ok ns t) :
    ∃ v xs w, Skip s v ∧ Sep Space P v xs w ∧ Skip w (ch c :: t) ∧ List.Forall₂ W ns xs := by
  obtain ⟨_, v, _, h1, e1, rfl⟩ := seq_ok.1 he
  obtain ⟨ys, w, _, h2, e2, rfl⟩ := seq_ok.1 e1
  obtain ⟨_, x, _, h3, e3, rfl⟩ := seq_ok.1 e2
  obtain ⟨rfl, rfl⟩ := chr_ok.1 (must_ok.1 e3)
  obtain ⟨rfl, k1, _⟩ := star_skip hs h1
  obtain ⟨rfl, k2, _⟩ := star_skip hs h3
  obtain ⟨xs, hx, hf⟩ := list_sound hs hnul h (by have := rest_le h1; omega) h2
  exact ⟨v, xs, w, k1, hx, k2, by simpa using hf⟩

theorem items_complete (hs : Sels sel) {n : Nat} {r : Rule R} {α : Type} {P : Str → α → Str → Prop} {W : Node R → α → Prop}
    {F : Str → Prop} {p : Byte → Bool} (hnul : nullable nulTable r = false) (h : Complete n sel r P W F)
    (hst : Starts P p) (hp : ∀ c, p c = true → gapStart c = false) (hn : Needs sel r p)
    (hF : ∀ t u, Space t u → (∃ c v, u = c :: v ∧ p c = true) → F t) {m : Str} {c : Char} {s v w t : Str}
    {xs : List α} (hl : s.length < n) (k1 : Skip s v) (hx : Sep Space P v xs w) (k2 : Skip w (ch c :: t))
    (hFw : Skip w (ch c :: t) → F w) (hc : p (ch c) = false) (hcg : gapStart (ch c) = false) :
    ∃ ns, eval sel (items r m c) s = .ok ns t ∧ List.Forall₂ W ns xs := by
  have hvg : Ends gapStart v := by
    cases hx with
    | one h' => exact hst.ends hp h'
    | more h' _ _ => exact hst.ends hp h'
  have r1 := skip_star hs k1 hvg
  have hg : Ends gapStart (ch c :: t) := ends_cons hcg
  have r2 := skip_star hs k2 hg
  obtain ⟨ns, he, hf⟩ := list_complete hs hnul h hst hp hn hF (by have := rest_le r1; omega) hx (hFw k2)
    (notNext_of k2 hg (ends_cons hc))
  refine ⟨ns, ?_, hf⟩
  have r3 : eval sel (Rule.must m (Rule.chr c)) (ch c :: t) = .ok [] t := must_ok.2 (chr_ok.2 ⟨rfl, rfl⟩)
  exact seq_ok.2 ⟨[], v, ns, r1, seq_ok.2 ⟨ns, w, [], he, seq_ok.2 ⟨[], _, [], r2, r3, rfl⟩, by simp⟩, rfl⟩

/-- The content of brackets which may be empty. -/
def items0 (r : Rule R) (m : Str) (c : Char) : Rule R :=
  Rule.seqs [Rule.star (.ref .ignored), Rule.opt (Rule.list r (Rule.plus (.ref .ignored))), Rule.star (.ref .ignored),
    Rule.must m (Rule.chr c)]

theorem items0_ok (hs : Sels sel) {r : Rule R} {m : Str} {c : Char} (hc : gapStart (ch c) = false)
    (hr : ∀ s, eval sel r (ch c :: s) = .fail) {s t : Str} {ns : List (Node R)} :
    eval sel (items0 r m c) s = .ok ns t ↔ eval sel (items r m c) s = .ok ns t ∨ (ns = [] ∧ Skip s (ch c :: t)) := by
  have close : ∀ t, eval sel (Rule.must m (Rule.chr c)) (ch c :: t) = .ok [] t :=
    fun t => must_ok.2 (chr_ok.2 ⟨rfl, rfl⟩)
  constructor
  · intro he
    obtain ⟨_, v, _, h1, e1, rfl⟩ := seq_ok.1 he
    obtain ⟨ys, w, _, h2, e2, rfl⟩ := seq_ok.1 e1
    rcases opt_ok.1 h2 with h2 | ⟨_, rfl, rfl⟩
    · exact .inl (seq_ok.2 ⟨_, v, _, h1, seq_ok.2 ⟨ys, w, _, h2, e2, rfl⟩, rfl⟩)
    · obtain ⟨_, x, _, h3, e3, rfl⟩ := seq_ok.1 e2
      obtain ⟨rfl, rfl⟩ := chr_ok.1 (must_ok.1 e3)
      obtain ⟨rfl, k1, g1⟩ := star_skip hs h1
      obtain ⟨rfl, k2, g2⟩ := star_skip hs h3
      obtain rfl := skip_unique k2 g2 (skip_refl _) g1
      exact .inr ⟨rfl, k1⟩
  · rintro (he | ⟨rfl, hk⟩)
    · obtain ⟨_, v, _, h1, e1, rfl⟩ := seq_ok.1 he
      obtain ⟨ys, w, _, h2, e2, rfl⟩ := seq_ok.1 e1
      exact seq_ok.2 ⟨_, v, _, h1, seq_ok.2 ⟨ys, w, _, opt_ok.2 (.inl h2), e2, rfl⟩, rfl⟩
    · have hg : Ends gapStart (ch c :: t) := ends_cons hc
      have r1 := skip_star hs hk hg
      have r2 := skip_star hs (skip_refl (ch c :: t)) hg
      exact seq_ok.2 ⟨[], _, [], r1, seq_ok.2 ⟨[], _, [], opt_ok.2 (.inr ⟨seq_fail.2 (.inl (hr t)), rfl, rfl⟩),
        seq_ok.2 ⟨[], _, [], r2, close t, rfl⟩, rfl⟩, rfl⟩

/-! ## Names -/

theorem nameText_ok {k : R} (hk : sel k = .store) (hg : grammar k = Rule.identifier) {s t : Str} {xs : List (Node R)} :
    eval sel (.ref k) s = .ok xs t ↔ ∃ n, Name s n t ∧ Ends nameCont t ∧ xs = [.mk k s.length n []] := by
  rw [ref_store_ok hk, hg]
  constructor
  · rintro ⟨ys, h, rfl⟩
    obtain ⟨rfl, n, rfl, hn, he⟩ := identifier_ok.1 h
    exact ⟨n, ⟨hn, rfl⟩, he, by rw [consumed_append]⟩
  · rintro ⟨n, ⟨hn, rfl⟩, he, rfl⟩
    exact ⟨[], identifier_ok.2 ⟨rfl, n, rfl, hn, he⟩, by rw [consumed_append]⟩

theorem name_starts : Starts (fun s n t => Name s n t) nameStart := by
  rintro s n t ⟨⟨c, cs, rfl, hc, _⟩, rfl⟩
  exact ⟨c, cs ++ t, rfl, hc⟩

theorem nameStart_gap : ∀ c : Byte, nameStart c = true → gapStart c = false := by decide +kernel

end Verif.Peg
