import Verif.Respell.Spec
import Verif.ClientText.Moves

/-!
# The same tokens, written with ignored text between them
-/
namespace Verif.Respell
open Verif.Value Verif.Errors Verif.Text Verif.ClientText

/-- A text which begins with a token. -/
def Heads (T : Str → List Token → Prop) (s : Str) : List Token → Prop
  | [] => False
  | k :: ts => ∃ t, TokenText s k t ∧ T t ts

/-- No name and no number goes on in `t`. -/
abbrev Follow (t : Str) : Prop := Ends numberByte t

theorem follow_name {t : Str} (h : Follow t) : Ends nameCont t := by
  intro c u e
  have := h c u e
  unfold numberByte at this
  rw [Bool.or_eq_false_iff] at this
  exact this.1

theorem follow_cons {c : Byte} {t : Str} (h : numberByte c = false) : Follow (c :: t) := by
  intro d u e
  cases e
  exact h

theorem gapStart_byte : ∀ c : Byte, gapStart c = true → numberByte c = false := by decide +kernel

theorem gap_first {t g : Str} (h : Gap t g) : g = [] ∨ ∃ c r, g = c :: r ∧ gapStart c = true := by
  cases h with
  | nil => exact .inl rfl
  | blank h _ => exact .inr ⟨_, _, rfl, by unfold gapStart; rw [h]; rfl⟩
  | comment _ _ => exact .inr ⟨_, _, rfl, by decide +kernel⟩
  | last _ _ => exact .inr ⟨_, _, rfl, by decide +kernel⟩

theorem follow_skip {s t : Str} (h : Skip s t) (ht : Follow t) : Follow s := by
  obtain ⟨g, rfl, hg⟩ := h
  rcases gap_first hg with rfl | ⟨c, r, rfl, hc⟩
  · exact ht
  · exact follow_cons (gapStart_byte c hc)

theorem follow_space {s t : Str} (h : Space s t) : Follow s := by
  obtain ⟨g, hn, rfl, hg⟩ := h
  rcases gap_first hg with rfl | ⟨c, r, rfl, hc⟩
  · exact absurd rfl hn
  · exact follow_cons (gapStart_byte c hc)

theorem tokens_of_heads {s u : Str} {ts : List Token} (h : Skip s u) (hu : Heads Tokens u ts) : Tokens s ts := by
  cases ts with
  | nil => exact hu.elim
  | cons k ts =>
    obtain ⟨t, h1, h2⟩ := hu
    exact .more h h1 h2

theorem spaced_heads {s : Str} {ts : List Token} (h : Spaced s ts) (hn : ts ≠ []) : ∃ u, Space s u ∧ Heads Spaced u ts := by
  cases h with
  | done _ => exact absurd rfl hn
  | more h1 h2 h3 => exact ⟨_, h1, _, h2, h3⟩

theorem heads_append {T : Str → List Token → Prop} {s : Str} {us ts : List Token} (h : us ≠ []) (a : Heads T s (us ++ ts)) :
    us ++ ts ≠ [] := by
  cases us with
  | nil => exact absurd rfl h
  | cons k us => simp

theorem heads_ne {T : Str → List Token → Prop} {s : Str} {ts : List Token} (a : Heads T s ts) : ts ≠ [] := by
  rintro rfl
  exact a

/-- The text of an item can be written with the same tokens in any text which has ignored text between them; `f` is what
stays of the item. -/
def Respells (n : Nat) (P : Str → Prop) {α β : Type} (f : α → β) (item item' : Str → α → Str → Prop) : Prop :=
  ∀ s x t, s.length < n → item s x t → P t → ∀ ts, Tokens t ts → ∃ us, us ≠ [] ∧ Heads Tokens s (us ++ ts) ∧
    ∀ s', Heads Spaced s' (us ++ ts) → ∃ x' t', Spaced t' ts ∧ f x' = f x ∧ item' s' x' t'

/-- An item which may be missing. -/
def RespellsOpt (n : Nat) (P : Str → Prop) {α β : Type} (f : α → β) (item item' : Str → α → Str → Prop) : Prop :=
  ∀ s x t, s.length < n → item s x t → P t → P s ∧ ∀ ts, Tokens t ts → ∃ us, Tokens s (us ++ ts) ∧
    ∀ s', Spaced s' (us ++ ts) → ∃ x' t', Spaced t' ts ∧ f x' = f x ∧ item' s' x' t'

/-! ## Tokens -/

section
variable {T : Str → List Token → Prop} {s : Str} {ts : List Token}

theorem heads_punct {c : Byte} (h : Heads T s (.punct c :: ts)) : ∃ t, s = c :: t ∧ T t ts := by
  obtain ⟨t, h1, h2⟩ := h
  cases h1 with
  | punct _ => exact ⟨t, rfl, h2⟩

theorem heads_spread (h : Heads T s (.spread :: ts)) : ∃ t, s = str "..." ++ t ∧ T t ts := by
  obtain ⟨t, h1, h2⟩ := h
  cases h1
  exact ⟨t, rfl, h2⟩

theorem heads_name {n : Str} (h : Heads T s (.name n :: ts)) : ∃ t, Name s n t ∧ T t ts := by
  obtain ⟨t, h1, h2⟩ := h
  cases h1 with
  | name h _ => exact ⟨t, ⟨h, rfl⟩, h2⟩

theorem heads_variable {n : Str} (h : Heads T s (.variable n :: ts)) : ∃ t, s = ch '$' :: n ++ t ∧ IsName n ∧ T t ts := by
  obtain ⟨t, h1, h2⟩ := h
  cases h1 with
  | «variable» h _ => exact ⟨t, rfl, h, h2⟩

theorem heads_directive {n : Str} (h : Heads T s (.directive n :: ts)) : ∃ t, s = ch '@' :: n ++ t ∧ IsName n ∧ T t ts := by
  obtain ⟨t, h1, h2⟩ := h
  cases h1 with
  | directive h _ => exact ⟨t, rfl, h, h2⟩

theorem heads_number {n : Str} (h : Heads T s (.number n :: ts)) : ∃ t, s = n ++ t ∧ T t ts := by
  obtain ⟨t, h1, h2⟩ := h
  cases h1 with
  | number h _ => exact ⟨t, rfl, h2⟩

theorem heads_string {v : Str} (h : Heads T s (.string v :: ts)) : ∃ w t, s = w ++ t ∧ StringLit t w v ∧ T t ts := by
  obtain ⟨t, h1, h2⟩ := h
  cases h1 with
  | string h => exact ⟨_, t, rfl, h, h2⟩

/-- The token after ignored text. -/
theorem spaced_punct {c : Byte} (h : Spaced s (.punct c :: ts)) : ∃ t, Space s (c :: t) ∧ Spaced t ts := by
  obtain ⟨u, h1, h2⟩ := spaced_heads h (by simp)
  obtain ⟨t, rfl, h3⟩ := heads_punct h2
  exact ⟨t, h1, h3⟩

end

theorem name_heads {s n t : Str} {ts : List Token} (h : Name s n t) (hf : Follow t) (ht : Tokens t ts) :
    Heads Tokens s (.name n :: ts) := by
  obtain ⟨h1, rfl⟩ := h
  exact ⟨t, .name h1 (follow_name hf), ht⟩

/-! ## Combinators -/

variable {α β : Type} {f : α → β} {item item' : Str → α → Str → Prop} {P : Str → Prop}

theorem Respells.mono {n m : Nat} (h : Respells m P f item item') (hn : n ≤ m) : Respells n P f item item' :=
  fun s x t hl => h s x t (by omega)

theorem respells_of_below (h : ∀ n, Respells n P f item item') {s x t} (hi : item s x t) (hp : P t) {ts} (ht : Tokens t ts) :
    ∃ us, us ≠ [] ∧ Heads Tokens s (us ++ ts) ∧
      ∀ s', Heads Spaced s' (us ++ ts) → ∃ x' t', Spaced t' ts ∧ f x' = f x ∧ item' s' x' t' :=
  h (s.length + 1) s x t (by omega) hi hp ts ht

theorem sep_respells {n : Nat} {gap : Str → Str → Prop} (hg : ∀ s t, gap s t → Skip s t ∧ P s) (hg' : ∀ s t, Space s t → gap s t)
    (hc : Consumes item) (hi : Respells n P f item item') :
    Respells n P (List.map f) (Sep gap item) (Sep gap item') := by
  intro s xs t hl h
  induction h with
  | one h =>
    intro hp ts ht
    obtain ⟨us, h1, h2, h3⟩ := hi _ _ _ hl h hp ts ht
    refine ⟨us, h1, h2, fun s' hs => ?_⟩
    obtain ⟨x', t', a, b, c⟩ := h3 s' hs
    exact ⟨[x'], t', a, by simp [b], .one c⟩
  | @more s x t u xs v h hgap _ ih =>
    intro hp ts ht
    obtain ⟨q, hq, rfl⟩ := hc _ _ _ h
    obtain ⟨hs, hP⟩ := hg _ _ hgap
    obtain ⟨r, rfl⟩ := hs.app
    obtain ⟨us, h1, h2, h3⟩ := ih (by simp only [List.length_append] at hl ⊢; omega) hp ts ht
    obtain ⟨us0, k1, k2, k3⟩ := hi _ _ _ hl h hP _ (tokens_of_heads hs h2)
    refine ⟨us0 ++ us, by simp [k1], by rw [List.append_assoc]; exact k2, fun s' hs' => ?_⟩
    rw [List.append_assoc] at hs'
    obtain ⟨x', t', a, b, c⟩ := k3 s' hs'
    obtain ⟨u', e, g⟩ := spaced_heads a (heads_ne h2)
    obtain ⟨xs', t'', a', b', c'⟩ := h3 u' g
    exact ⟨x' :: xs', t'', a', by simp [b, b'], .more c (hg' _ _ e) c'⟩

theorem opt_respells {n : Nat} (hf : ∀ s x t, item s x t → P s) (hP : ∀ s t, Skip s t → P t → P s)
    (hi : Respells n P f item item') : RespellsOpt n P (Option.map f) (Opt item) (Opt item') := by
  intro s x t hl h hp
  cases h with
  | none => exact ⟨hp, fun ts ht => ⟨[], ht, fun s' hs => ⟨none, s', hs, rfl, .none⟩⟩⟩
  | @some _ u x _ h1 h2 =>
    refine ⟨hP _ _ h1 (hf _ _ _ h2), fun ts ht => ?_⟩
    obtain ⟨g, rfl⟩ := h1.app
    obtain ⟨us, k1, k2, k3⟩ := hi _ _ _ (by simp only [List.length_append] at hl; omega) h2 hp ts ht
    refine ⟨us, tokens_of_heads h1 k2, fun s' hs => ?_⟩
    obtain ⟨u', a, b⟩ := spaced_heads hs (heads_ne k2)
    obtain ⟨x', t', a', b', c'⟩ := k3 u' b
    exact ⟨some x', t', a', by simp [b'], .some a.skip c'⟩

theorem between_respells {n : Nat} {o c : Byte} (ho : o ∈ str "!():=[]{}") (hc : c ∈ str "!():=[]{}")
    (hcc : numberByte c = false) (hcon : Consumes item) (hi : Respells n Follow f item item') :
    Respells (n + 1) (fun _ => True) (List.map f) (Between o c item) (Between o c item') := by
  rintro s xs t hl ⟨h1, h2, h3⟩ - ts ht
  rename_i u v w
  obtain ⟨g, rfl⟩ := h1.app
  have ht' : Tokens w (.punct c :: ts) := .more h3 (.punct hc) ht
  obtain ⟨us, k1, k2, k3⟩ := sep_respells (gap := Space) (fun s t h => ⟨h.skip, follow_space h⟩) (fun _ _ h => h) hcon hi _ _ _
    (by simp only [List.length_cons, List.length_append] at hl; omega) h2 (follow_skip h3 (follow_cons hcc)) _ ht'
  refine ⟨.punct o :: (us ++ [.punct c]), by simp, ⟨_, .punct ho, ?_⟩, fun s' hs => ?_⟩
  · show Tokens _ (us ++ [.punct c] ++ ts)
    rw [List.append_assoc]
    exact tokens_of_heads h1 k2
  · obtain ⟨u', rfl, hs1⟩ := heads_punct hs
    have hs2 : Spaced u' (us ++ [.punct c] ++ ts) := hs1
    rw [List.append_assoc] at hs2
    obtain ⟨v', e1, e2⟩ := spaced_heads hs2 (heads_ne k2)
    obtain ⟨xs', w', a, b, d⟩ := k3 v' e2
    obtain ⟨t', e3, e4⟩ := spaced_punct a
    exact ⟨xs', t', e4, b, .mk e1.skip d e3.skip⟩

theorem pair_respells {n : Nat} (hi : Respells n Follow f item item') :
    Respells n Follow (fun x => (x.1, f x.2)) (Pair item) (Pair item') := by
  rintro s x t hl ⟨h1, h2, h3, h4⟩ hp ts ht
  rename_i m u v w x
  obtain ⟨hm, rfl⟩ := h1
  obtain ⟨g, rfl⟩ := h2.app
  obtain ⟨g', rfl⟩ := h3.app
  obtain ⟨us, k1, k2, k3⟩ := hi _ _ _ (by simp only [List.length_cons, List.length_append] at hl; omega) h4 hp ts ht
  refine ⟨.name m :: .punct (ch ':') :: us, by simp, ?_, fun s' hs => ?_⟩
  · exact name_heads ⟨hm, rfl⟩ (follow_skip h2 (follow_cons (by decide +kernel)))
      (.more h2 (.punct (by decide +kernel)) (tokens_of_heads h3 k2))
  · obtain ⟨u', e1, hs⟩ := heads_name hs
    obtain ⟨v', e2, hs⟩ := spaced_punct hs
    obtain ⟨w', e3, hs⟩ := spaced_heads hs (heads_ne k2)
    obtain ⟨x', t', a, b, d⟩ := k3 w' hs
    exact ⟨(m, x'), t', a, by simp [b], .mk e1 e2.skip e3.skip d⟩

/-! ## Values -/

variable {pos pos' : Nat → Loc} {atof : Str → Double}

theorem value_respells (n : Nat) : Respells n Follow (Ast.Lit.relocate nowhere) (ValueText pos atof) (ValueText pos' atof) := by
  induction n with
  | zero => intro s x t h; omega
  | succ n ih =>
  intro s x t hl h hp ts ht
  have name : ∀ m, IsName m → x = .boolean true ∧ m = str "true" ∨ x = .boolean false ∧ m = str "false" ∨
      x = .null ∧ m = str "null" ∨ x = .enumValue m ∧ m ≠ str "true" ∧ m ≠ str "false" ∧ m ≠ str "null" → s = m ++ t →
      ∃ us, us ≠ [] ∧ Heads Tokens s (us ++ ts) ∧ ∀ s', Heads Spaced s' (us ++ ts) →
        ∃ x' t', Spaced t' ts ∧ Ast.Lit.relocate nowhere x' = Ast.Lit.relocate nowhere x ∧ ValueText pos' atof s' x' t' := by
    intro m hm hx e
    refine ⟨[.name m], by simp, name_heads ⟨hm, e⟩ hp ht, fun s' hs => ?_⟩
    obtain ⟨t', ⟨_, rfl⟩, h2⟩ := heads_name hs
    refine ⟨x, t', h2, rfl, ?_⟩
    rcases hx with ⟨rfl, rfl⟩ | ⟨rfl, rfl⟩ | ⟨rfl, rfl⟩ | ⟨rfl, a, b, c⟩
    · exact .true
    · exact .false
    · exact .null
    · exact .enum ⟨hm, rfl⟩ a b c
  cases h with
  | @«variable» _ m _ e hm =>
    subst e
    refine ⟨[.variable m], by simp, ⟨t, .variable hm (follow_name hp), ht⟩, fun s' hs => ?_⟩
    obtain ⟨t', rfl, _, h2⟩ := heads_variable hs
    exact ⟨.variable (pos' _) m, t', h2, rfl, .variable rfl hm⟩
  | @int w _ hi =>
    refine ⟨[.number w], by simp, ⟨t, .number (.inl hi) hp, ht⟩, fun s' hs => ?_⟩
    obtain ⟨t', rfl, h2⟩ := heads_number hs
    exact ⟨_, t', h2, rfl, .int hi⟩
  | @float i fr _ hi hfr =>
    refine ⟨[.number (i ++ fr)], by simp, ⟨t, .number (.inr (hfr.elim (.fraction hi) (.exponent hi))) hp, ht⟩, fun s' hs => ?_⟩
    obtain ⟨t', rfl, h2⟩ := heads_number hs
    exact ⟨_, t', h2, rfl, .float hi hfr⟩
  | @string w v _ h =>
    refine ⟨[.string v], by simp, ⟨t, .string h, ht⟩, fun s' hs => ?_⟩
    obtain ⟨w', t', rfl, h1, h2⟩ := heads_string hs
    exact ⟨_, t', h2, rfl, .string h1⟩
  | true => exact name _ ⟨_, _, rfl, by decide +kernel, by decide +kernel⟩ (.inl ⟨rfl, rfl⟩) rfl
  | false => exact name _ ⟨_, _, rfl, by decide +kernel, by decide +kernel⟩ (.inr (.inl ⟨rfl, rfl⟩)) rfl
  | null => exact name _ ⟨_, _, rfl, by decide +kernel, by decide +kernel⟩ (.inr (.inr (.inl ⟨rfl, rfl⟩))) rfl
  | enum h a b c => exact name _ h.1 (.inr (.inr (.inr ⟨rfl, a, b, c⟩))) h.2
  | @emptyList u _ h =>
    refine ⟨[.punct (ch '['), .punct (ch ']')], by simp,
      ⟨u, .punct (by decide +kernel), .more h (.punct (by decide +kernel)) ht⟩, fun s' hs => ?_⟩
    obtain ⟨u', rfl, hs1⟩ := heads_punct hs
    obtain ⟨t', e, hs2⟩ := spaced_punct hs1
    exact ⟨_, t', hs2, rfl, .emptyList e.skip⟩
  | @emptyObject u _ h =>
    refine ⟨[.punct (ch '{'), .punct (ch '}')], by simp,
      ⟨u, .punct (by decide +kernel), .more h (.punct (by decide +kernel)) ht⟩, fun s' hs => ?_⟩
    obtain ⟨u', rfl, hs1⟩ := heads_punct hs
    obtain ⟨t', e, hs2⟩ := spaced_punct hs1
    exact ⟨_, t', hs2, rfl, .emptyObject e.skip⟩
  | list h =>
    obtain ⟨us, k1, k2, k3⟩ := between_respells (by decide +kernel) (by decide +kernel) (by decide +kernel) consumes_value ih
      _ _ _ hl h trivial ts ht
    refine ⟨us, k1, k2, fun s' hs => ?_⟩
    obtain ⟨x', t', a, b, c⟩ := k3 s' hs
    refine ⟨.list x', t', a, ?_, .list c⟩
    rw [Ast.Lit.relocate, Ast.Lit.relocate, relocateAll_eq, relocateAll_eq, b]
  | object h =>
    obtain ⟨us, k1, k2, k3⟩ := between_respells (by decide +kernel) (by decide +kernel) (by decide +kernel)
      (consumes_pair consumes_value) (pair_respells ih) _ _ _ hl h trivial ts ht
    refine ⟨us, k1, k2, fun s' hs => ?_⟩
    obtain ⟨x', t', a, b, c⟩ := k3 s' hs
    refine ⟨.object x', t', a, ?_, .object c⟩
    rw [Ast.Lit.relocate, Ast.Lit.relocate, relocateFields_eq, relocateFields_eq, b]

end Verif.Respell
