import Verif.Grammar.Fallback
import Verif.Grammar.Spec
import Mathlib.Logic.Basic
import Mathlib.Tactic.ByContra

/-!
# Tokens: the rules of the grammar match the specification
-/
namespace Verif.Peg
open Verif.Value Verif.Text Rule

variable {sel : R → Sel}

/-- The selectors of the two parse functions. -/
def Sels (sel : R → Sel) : Prop := sel = executableSelector ∨ sel = schemaSelector

theorem Sels.at {n : R} {k : Sel} (h : Sels sel) (hn : executableSelector n = k ∧ schemaSelector n = k) : sel n = k := by
  rcases h with rfl | rfl
  · exact hn.1
  · exact hn.2

theorem ref_store_ok {n : R} {s t : Str} {xs : List (Node R)} (hn : sel n = .store) :
    eval sel (.ref n) s = .ok xs t ↔
      ∃ ys, eval sel (grammar n) s = .ok ys t ∧ xs = [.mk n s.length (consumed s t) ys] := by
  rw [ref_ok]
  simp only [hn, finish]

theorem seq_fail_left {a b : Rule R} {s : Str} (h : eval sel a s = .fail) : eval sel (.seq a b) s = .fail :=
  seq_fail.2 (.inl h)

theorem eval_total_ne {r : Rule R} {s : Str} (h1 : eval sel r s ≠ .fail) (h2 : ∀ m, eval sel r s ≠ .raise m) :
    ∃ xs t, eval sel r s = .ok xs t := by
  cases h : eval sel r s with
  | ok xs t => exact ⟨xs, t, rfl⟩
  | fail => exact absurd h h1
  | raise m => exact absurd h (h2 m)

/-! ## Loops over one byte -/

theorem star_one_ok {p : Byte → Bool} {s t : Str} {xs : List (Node R)} :
    eval sel (.star (.one p)) s = .ok xs t ↔
      xs = [] ∧ ∃ a, s = a ++ t ∧ (∀ c ∈ a, p c = true) ∧ Ends p t := by
  rw [star_ok rfl]
  constructor
  · intro h
    induction h with
    | nil h => exact ⟨rfl, [], rfl, by simp, fun c u e => one_fail.1 h c u e⟩
    | cons h _ ih =>
      obtain ⟨c, rfl, hc, rfl⟩ := one_ok.1 h
      obtain ⟨rfl, a, rfl, ha, he⟩ := ih
      exact ⟨rfl, c :: a, rfl, by simpa [hc] using ha, he⟩
  · rintro ⟨rfl, a, rfl, ha, he⟩
    induction a with
    | nil => exact .nil (one_fail.2 he)
    | cons c a ih =>
      exact .cons (xs := []) (one_ok.2 ⟨c, rfl, ha c (by simp), rfl⟩) (ih fun d hd => ha d (by simp [hd]))

theorem plus_one_ok {p : Byte → Bool} {s t : Str} {xs : List (Node R)} :
    eval sel (Rule.plus (.one p)) s = .ok xs t ↔
      xs = [] ∧ ∃ a, a ≠ [] ∧ s = a ++ t ∧ (∀ c ∈ a, p c = true) ∧ Ends p t := by
  unfold Rule.plus
  rw [seq_ok]
  constructor
  · rintro ⟨_, u, _, h1, h2, rfl⟩
    obtain ⟨c, rfl, hc, rfl⟩ := one_ok.1 h1
    obtain ⟨rfl, a, rfl, ha, he⟩ := star_one_ok.1 h2
    exact ⟨rfl, c :: a, by simp, rfl, by simpa [hc] using ha, he⟩
  · rintro ⟨rfl, a, hne, rfl, ha, he⟩
    cases a with
    | nil => exact absurd rfl hne
    | cons c a =>
      exact ⟨[], a ++ t, [], one_ok.2 ⟨c, rfl, ha c (by simp), rfl⟩,
        star_one_ok.2 ⟨rfl, a, rfl, fun d hd => ha d (by simp [hd]), he⟩, rfl⟩

/-! ## Names and keywords -/

theorem identifierFirst_eq : (Rule.identifierFirst : Rule R) = .one nameStart := rfl

theorem identifierOther_eq : (Rule.identifierOther : Rule R) = .one nameCont := by
  unfold Rule.identifierOther
  congr 1

theorem digit_eq : (Rule.digit : Rule R) = .one isDigit := rfl

theorem identifier_ok {s t : Str} {xs : List (Node R)} :
    eval sel Rule.identifier s = .ok xs t ↔ xs = [] ∧ ∃ n, s = n ++ t ∧ IsName n ∧ Ends nameCont t := by
  unfold Rule.identifier
  rw [identifierFirst_eq, identifierOther_eq, seq_ok]
  constructor
  · rintro ⟨_, u, _, h1, h2, rfl⟩
    obtain ⟨c, rfl, hc, rfl⟩ := one_ok.1 h1
    obtain ⟨rfl, a, rfl, ha, he⟩ := star_one_ok.1 h2
    exact ⟨rfl, c :: a, rfl, ⟨c, a, rfl, hc, ha⟩, he⟩
  · rintro ⟨rfl, _, rfl, ⟨c, a, rfl, hc, ha⟩, he⟩
    exact ⟨[], a ++ t, [], one_ok.2 ⟨c, rfl, hc, rfl⟩, star_one_ok.2 ⟨rfl, a, rfl, ha, he⟩, rfl⟩

theorem keyword_ok {k : String} {s t : Str} {xs : List (Node R)} :
    eval sel (Rule.keyword k) s = .ok xs t ↔ xs = [] ∧ s = str k ++ t ∧ Ends nameCont t := by
  unfold Rule.keyword
  rw [identifierOther_eq, seq_ok]
  constructor
  · rintro ⟨_, u, _, h1, h2, rfl⟩
    obtain ⟨rfl, rfl⟩ := lit_ok.1 h1
    obtain ⟨h, rfl, rfl⟩ := notAt_ok.1 h2
    exact ⟨rfl, rfl, one_fail.1 h⟩
  · rintro ⟨rfl, rfl, he⟩
    exact ⟨[], t, [], lit_ok.2 ⟨rfl, rfl⟩, notAt_ok.2 ⟨one_fail.2 he, rfl, rfl⟩, rfl⟩

/-! ## Ignored text -/

theorem chr_ok {c : Char} {s t : Str} {xs : List (Node R)} :
    eval sel (Rule.chr c) s = .ok xs t ↔ xs = [] ∧ s = BitVec.ofNat 8 c.toNat :: t := by
  unfold Rule.chr
  rw [one_ok]
  constructor
  · rintro ⟨d, rfl, h, rfl⟩
    simp only [beq_iff_eq] at h
    exact ⟨rfl, by rw [h]⟩
  · rintro ⟨rfl, rfl⟩
    exact ⟨_, rfl, by simp, rfl⟩

theorem chr_fail {c : Char} {s : Str} : eval sel (Rule.chr c) s = .fail ↔ ∀ t, s ≠ BitVec.ofNat 8 c.toNat :: t := by
  unfold Rule.chr
  rw [one_fail]
  constructor
  · rintro h t rfl
    simpa using h _ _ rfl
  · rintro h d t rfl
    simp only [beq_eq_false_iff_ne]
    rintro rfl
    exact h t rfl

theorem eol_ok {s t : Str} {xs : List (Node R)} : eval sel Rule.eol s = .ok xs t ↔
    xs = [] ∧ (s = 0x0A :: t ∨ s = 0x0D :: 0x0A :: t) := by
  unfold Rule.eol
  rw [sor_ok, lit_ok, lit_fail, lit_ok]
  constructor
  · rintro (⟨rfl, rfl⟩ | ⟨_, rfl, rfl⟩)
    · exact ⟨rfl, .inl rfl⟩
    · exact ⟨rfl, .inr rfl⟩
  · rintro ⟨rfl, rfl | rfl⟩
    · exact .inl ⟨rfl, rfl⟩
    · refine .inr ⟨?_, rfl, rfl⟩
      rintro ⟨u, hu⟩
      cases hu

theorem eol_fail {s : Str} : eval sel Rule.eol s = .fail ↔ ∀ t, s ≠ 0x0A :: t ∧ s ≠ 0x0D :: 0x0A :: t := by
  unfold Rule.eol
  rw [sor_fail, lit_fail, lit_fail]
  constructor
  · rintro ⟨h1, h2⟩ t
    exact ⟨fun e => h1 ⟨t, e.symm⟩, fun e => h2 ⟨t, e.symm⟩⟩
  · intro h
    exact ⟨fun ⟨t, e⟩ => (h t).1 e.symm, fun ⟨t, e⟩ => (h t).2 e.symm⟩

theorem eolf_fail {s : Str} : eval sel Rule.eolf s = .fail ↔
    s ≠ [] ∧ ∀ t, s ≠ 0x0A :: t ∧ s ≠ 0x0D :: 0x0A :: t := by
  unfold Rule.eolf
  rw [sor_fail, eof_fail, eol_fail]

/-- The rest of a comment. -/
theorem comment_loop {s t : Str} {xs : List (Node R)} :
    eval sel (Rule.«until» Rule.eolf) s = .ok xs t ↔
      xs = [] ∧ ∃ cs, 0x0A ∉ cs ∧ (s = cs ++ 0x0A :: t ∨ (t = [] ∧ s = cs)) := by
  unfold Rule.«until»
  rw [seq_ok]
  constructor
  · rintro ⟨ys, u, zs, h1, h2, rfl⟩
    rw [star_ok rfl] at h1
    have : ys = [] ∧ zs = [] ∧ ∃ cs, 0x0A ∉ cs ∧ (s = cs ++ 0x0A :: t ∨ (t = [] ∧ s = cs)) := by
      induction h1 with
      | @nil s h =>
        refine ⟨rfl, ?_⟩
        unfold Rule.eolf at h2
        rcases sor_ok.1 h2 with h2 | ⟨_, h2⟩
        · obtain ⟨rfl, rfl, rfl⟩ := eof_ok.1 h2
          exact ⟨rfl, [], by simp, .inr ⟨rfl, rfl⟩⟩
        · obtain ⟨rfl, rfl | rfl⟩ := eol_ok.1 h2
          · exact ⟨rfl, [], by simp, .inl rfl⟩
          · exact ⟨rfl, [0x0D], by decide, .inl rfl⟩
      | @cons s x v y w h _ ih =>
        obtain ⟨a, v', b, h3, h4, rfl⟩ := seq_ok.1 h
        obtain ⟨h5, rfl, rfl⟩ := notAt_ok.1 h3
        obtain ⟨c, rfl, _, rfl⟩ := one_ok.1 h4
        obtain ⟨rfl, rfl, cs, hcs, hv⟩ := ih h2
        have hc : c ≠ 0x0A := by
          rintro rfl
          exact ((eolf_fail.1 h5).2 v).1 rfl
        refine ⟨rfl, rfl, c :: cs, by simp only [List.mem_cons, not_or]; exact ⟨fun h => hc h.symm, hcs⟩, ?_⟩
        rcases hv with rfl | ⟨rfl, rfl⟩
        · exact .inl rfl
        · exact .inr ⟨rfl, rfl⟩
    exact ⟨by simp [this.1, this.2.1], this.2.2⟩
  · rintro ⟨rfl, cs, hcs, hs⟩
    have : ∃ u, eval sel (.star (.seq (.notAt Rule.eolf) Rule.any)) s = .ok [] u ∧ eval sel Rule.eolf u = .ok [] t := by
      induction cs generalizing s with
      | nil =>
        refine ⟨s, ?_, ?_⟩
        · rw [star_ok rfl]
          refine .nil (seq_fail.2 (.inl (notAt_fail.2 ?_)))
          rcases hs with rfl | ⟨rfl, rfl⟩
          · exact ⟨[], t, sor_ok.2 (.inr ⟨eof_fail.2 (by simp), eol_ok.2 ⟨rfl, .inl rfl⟩⟩)⟩
          · exact ⟨[], [], sor_ok.2 (.inl (eof_ok.2 ⟨rfl, rfl, rfl⟩))⟩
        · rcases hs with rfl | ⟨rfl, rfl⟩
          · exact sor_ok.2 (.inr ⟨eof_fail.2 (by simp), eol_ok.2 ⟨rfl, .inl rfl⟩⟩)
          · exact sor_ok.2 (.inl (eof_ok.2 ⟨rfl, rfl, rfl⟩))
      | cons c cs ih =>
        simp only [List.mem_cons, not_or] at hcs
        obtain ⟨s', rfl, hs'⟩ : ∃ s', s = c :: s' ∧ (s' = cs ++ 0x0A :: t ∨ (t = [] ∧ s' = cs)) := by
          rcases hs with rfl | ⟨rfl, rfl⟩
          · exact ⟨_, rfl, .inl rfl⟩
          · exact ⟨_, rfl, .inr ⟨rfl, rfl⟩⟩
        by_cases hx : eval sel Rule.eolf (c :: s') = .fail
        · obtain ⟨u, h1, h2⟩ := ih hcs.2 hs'
          refine ⟨u, ?_, h2⟩
          rw [star_ok rfl] at h1 ⊢
          exact .cons (xs := []) (seq_ok.2 ⟨[], _, [], notAt_ok.2 ⟨hx, rfl, rfl⟩, one_ok.2 ⟨c, rfl, rfl, rfl⟩, rfl⟩) h1
        · have hx' := hx
          rw [eolf_fail] at hx
          have : ∃ v, c :: s' = 0x0D :: 0x0A :: v := by
            by_contra hno
            apply hx
            refine ⟨by simp, fun v => ⟨?_, fun e => hno ⟨v, e⟩⟩⟩
            intro e; cases e; exact hcs.1 rfl
          obtain ⟨v, e⟩ := this
          cases e
          have hcs' : cs = [] := by
            cases cs with
            | nil => rfl
            | cons d cs =>
              rcases hs' with e | ⟨_, e⟩ <;> cases e
              · exact absurd (by simp) hcs.2
              · exact absurd (by simp) hcs.2
          subst hcs'
          rcases hs' with e | ⟨_, e⟩
          · cases e
            refine ⟨_, ?_, sor_ok.2 (.inr ⟨eof_fail.2 (by simp), eol_ok.2 ⟨rfl, .inr rfl⟩⟩)⟩
            rw [star_ok rfl]
            refine .nil (seq_fail.2 (.inl (notAt_fail.2 ⟨[], t, ?_⟩)))
            exact sor_ok.2 (.inr ⟨eof_fail.2 (by simp), eol_ok.2 ⟨rfl, .inr rfl⟩⟩)
          · cases e
    obtain ⟨u, h1, h2⟩ := this
    exact ⟨[], u, [], h1, h2, rfl⟩

theorem comment_no_raise (s : Str) (m : Str) : eval sel (Rule.«until» Rule.eolf) s ≠ .raise m := by
  intro h
  have : ∃ xs t, eval sel (Rule.«until» Rule.eolf) s = .ok xs t := by
    by_cases hs : (0x0A : Byte) ∈ s
    · obtain ⟨a, b, rfl, ha⟩ := List.eq_append_cons_of_mem hs
      exact ⟨[], b, comment_loop.2 ⟨rfl, a, ha, .inl rfl⟩⟩
    · exact ⟨[], [], comment_loop.2 ⟨rfl, s, hs, .inr ⟨rfl, rfl⟩⟩⟩
  obtain ⟨xs, t, e⟩ := this
  rw [h] at e
  cases e

theorem ignored_ok (hs : Sels sel) {s t : Str} {xs : List (Node R)} :
    eval sel (.ref .ignored) s = .ok xs t ↔ xs = [] ∧
      ((∃ c, isBlank c = true ∧ s = c :: t) ∨
       (∃ cs, 0x0A ∉ cs ∧ (s = 0x23 :: cs ++ 0x0A :: t ∨ (t = [] ∧ s = 0x23 :: cs)))) := by
  rw [ref_discard_ok (hs.at ⟨rfl, rfl⟩)]
  show eval sel (.sor Rule.space (.sor (Rule.chr ',') (.ref .comment))) s = _ ↔ _
  have hb : ∀ c : Byte, isBlank c = ((str " \n\r\t\x0b\x0c").contains c || c == 0x2C) := by decide +kernel
  constructor
  · intro h
    rcases sor_ok.1 h with h | ⟨_, h⟩
    · obtain ⟨c, rfl, hc, rfl⟩ := one_ok.1 h
      exact ⟨rfl, .inl ⟨c, by rw [hb, hc, Bool.true_or], rfl⟩⟩
    · rcases sor_ok.1 h with h | ⟨_, h⟩
      · obtain ⟨rfl, rfl⟩ := chr_ok.1 h
        exact ⟨rfl, .inl ⟨_, by decide, rfl⟩⟩
      · rw [ref_discard_ok (hs.at ⟨rfl, rfl⟩)] at h
        obtain ⟨_, u, _, h1, h2, rfl⟩ := seq_ok.1 h
        obtain ⟨rfl, rfl⟩ := chr_ok.1 h1
        obtain ⟨rfl, cs, hcs, hu⟩ := comment_loop.1 h2
        refine ⟨rfl, .inr ⟨cs, hcs, ?_⟩⟩
        rcases hu with rfl | ⟨rfl, rfl⟩
        · exact .inl rfl
        · exact .inr ⟨rfl, rfl⟩
  · rintro ⟨rfl, ⟨c, hc, rfl⟩ | ⟨cs, hcs, hu⟩⟩
    · rw [hb] at hc
      by_cases h1 : (str " \n\r\t\x0b\x0c").contains c = true
      · exact sor_ok.2 (.inl (one_ok.2 ⟨c, rfl, h1, rfl⟩))
      · have : c = 0x2C := by
          rw [Bool.or_eq_true] at hc
          rcases hc with hc | hc
          · exact absurd hc h1
          · simpa using hc
        subst this
        exact sor_ok.2 (.inr ⟨dead_cons (by decide +kernel), sor_ok.2 (.inl (chr_ok.2 ⟨rfl, rfl⟩))⟩)
    · obtain ⟨s', rfl, hs'⟩ : ∃ s', s = 0x23 :: s' ∧ (s' = cs ++ 0x0A :: t ∨ (t = [] ∧ s' = cs)) := by
        rcases hu with rfl | ⟨rfl, rfl⟩
        · exact ⟨_, rfl, .inl rfl⟩
        · exact ⟨_, rfl, .inr ⟨rfl, rfl⟩⟩
      refine sor_ok.2 (.inr ⟨dead_cons (by decide +kernel), sor_ok.2 (.inr ⟨dead_cons (by decide +kernel), ?_⟩)⟩)
      rw [ref_discard_ok (hs.at ⟨rfl, rfl⟩)]
      exact seq_ok.2 ⟨[], s', [], chr_ok.2 ⟨rfl, rfl⟩, comment_loop.2 ⟨rfl, cs, hcs, hs'⟩, rfl⟩

theorem ignored_fail (hs : Sels sel) {s : Str} : eval sel (.ref .ignored) s = .fail ↔ Ends gapStart s := by
  constructor
  · rintro h c u rfl
    by_contra hc
    simp only [gapStart, Bool.or_eq_false_iff, not_and_or, Bool.not_eq_false, beq_eq_false_iff_ne, ne_eq, Decidable.not_not] at hc
    have hok : ∃ xs t, eval sel (.ref .ignored) (c :: u) = .ok xs t := by
      rcases hc with hc | rfl
      · exact ⟨[], u, (ignored_ok hs).2 ⟨rfl, .inl ⟨c, hc, rfl⟩⟩⟩
      · by_cases hn : (0x0A : Byte) ∈ u
        · obtain ⟨a, b, rfl, ha⟩ := List.eq_append_cons_of_mem hn
          exact ⟨[], b, (ignored_ok hs).2 ⟨rfl, .inr ⟨a, ha, .inl rfl⟩⟩⟩
        · exact ⟨[], [], (ignored_ok hs).2 ⟨rfl, .inr ⟨u, hn, .inr ⟨rfl, rfl⟩⟩⟩⟩
    obtain ⟨xs, t, e⟩ := hok
    rw [h] at e; cases e
  · intro he
    cases s with
    | nil => exact dead_nil (by decide +kernel)
    | cons c s =>
      have := he c s rfl
      refine dead_cons ?_
      clear he
      revert this
      revert c
      decide +kernel

theorem ignored_no_raise (hs : Sels sel) (s m : Str) : eval sel (.ref .ignored) s ≠ .raise m := by
  intro h
  by_cases he : Ends gapStart s
  · rw [(ignored_fail hs).2 he] at h; cases h
  · have : ∃ xs t, eval sel (.ref .ignored) s = .ok xs t := by
      unfold Ends at he
      simp only [not_forall] at he
      obtain ⟨c, u, rfl, hc⟩ := he
      simp only [gapStart, Bool.not_eq_false, Bool.or_eq_true, beq_iff_eq] at hc
      rcases hc with hc | rfl
      · exact ⟨[], u, (ignored_ok hs).2 ⟨rfl, .inl ⟨c, hc, rfl⟩⟩⟩
      · by_cases hn : (0x0A : Byte) ∈ u
        · obtain ⟨a, b, rfl, ha⟩ := List.eq_append_cons_of_mem hn
          exact ⟨[], b, (ignored_ok hs).2 ⟨rfl, .inr ⟨a, ha, .inl rfl⟩⟩⟩
        · exact ⟨[], [], (ignored_ok hs).2 ⟨rfl, .inr ⟨u, hn, .inr ⟨rfl, rfl⟩⟩⟩⟩
    obtain ⟨xs, t, e⟩ := this
    rw [h] at e; cases e

theorem star_ignored_ok (hs : Sels sel) {s t : Str} {xs : List (Node R)} :
    eval sel (.star (.ref .ignored)) s = .ok xs t ↔ xs = [] ∧ ∃ g, s = g ++ t ∧ Gap t g ∧ Ends gapStart t := by
  rw [star_ok rfl]
  constructor
  · intro h
    induction h with
    | nil h => exact ⟨rfl, [], rfl, .nil, (ignored_fail hs).1 h⟩
    | cons h _ ih =>
      obtain ⟨rfl, h'⟩ := (ignored_ok hs).1 h
      clear h
      obtain ⟨rfl, g, rfl, hg, he⟩ := ih
      refine ⟨rfl, ?_⟩
      rcases h' with ⟨c, hc, rfl⟩ | ⟨cs, hcs, rfl | ⟨e, rfl⟩⟩
      · exact ⟨c :: g, rfl, .blank hc hg, he⟩
      · exact ⟨0x23 :: cs ++ 0x0A :: g, by simp, .comment hcs hg, he⟩
      · simp only [List.append_eq_nil_iff] at e
        obtain ⟨rfl, rfl⟩ := e
        exact ⟨0x23 :: cs, by simp, .last hcs rfl, he⟩
  · rintro ⟨rfl, g, rfl, hg, he⟩
    induction hg with
    | nil => exact .nil ((ignored_fail hs).2 he)
    | blank hc _ ih => exact .cons (xs := []) ((ignored_ok hs).2 ⟨rfl, .inl ⟨_, hc, rfl⟩⟩) ih
    | comment hcs _ ih =>
      refine .cons (xs := []) ((ignored_ok hs).2 ⟨rfl, .inr ⟨_, hcs, .inl ?_⟩⟩) ih
      simp
    | last hcs ht =>
      subst ht
      refine .cons (xs := []) (t := []) ((ignored_ok hs).2 ⟨rfl, .inr ⟨_, hcs, .inr ⟨rfl, ?_⟩⟩⟩) (.nil ((ignored_fail hs).2 he))
      simp

theorem star_ne_fail {a : Rule R} (ha : nullable nulTable a = false) {s : Str} : eval sel (.star a) s ≠ .fail := by
  generalize hk : s.length = k
  induction k using Nat.strongRecOn generalizing s with
  | ind k ih =>
    rw [eval_star ha]
    cases h : eval sel a s with
    | fail => exact nofun
    | raise m => exact nofun
    | ok xs t =>
      have hl := (eval_rest h).2 ha
      have := ih _ (by omega) (s := t) rfl
      simp only
      cases h' : eval sel (.star a) t with
      | fail => exact absurd h' this
      | raise m => exact nofun
      | ok ys u => exact nofun

theorem star_no_raise {a : Rule R} (ha : nullable nulTable a = false) (hr : ∀ s m, eval sel a s ≠ .raise m) {s m : Str} :
    eval sel (.star a) s ≠ .raise m := by
  generalize hk : s.length = k
  induction k using Nat.strongRecOn generalizing s with
  | ind k ih =>
    rw [eval_star ha]
    cases h : eval sel a s with
    | fail => exact nofun
    | raise m => exact absurd h (hr _ _)
    | ok xs t =>
      have hl := (eval_rest h).2 ha
      have := ih _ (by omega) (s := t) rfl
      simp only
      cases h' : eval sel (.star a) t with
      | fail => exact nofun
      | raise m' => intro e; rw [h'] at this; exact this e
      | ok ys u => exact nofun

/-- Skipping ignored text always succeeds. -/
theorem star_ignored (hs : Sels sel) (s : Str) : ∃ g t, s = g ++ t ∧ Gap t g ∧ Ends gapStart t ∧
    eval sel (.star (.ref .ignored)) s = .ok [] t := by
  obtain ⟨xs, t, h⟩ := eval_total_ne (star_ne_fail (sel := sel) (a := .ref .ignored) rfl (s := s))
    (fun m => star_no_raise rfl (ignored_no_raise hs))
  obtain ⟨rfl, g, hg, h1, h2⟩ := (star_ignored_ok hs).1 h
  exact ⟨g, t, hg, h1, h2, h⟩

theorem plus_ignored_ok (hs : Sels sel) {s t : Str} {xs : List (Node R)} :
    eval sel (Rule.plus (.ref .ignored)) s = .ok xs t ↔
      xs = [] ∧ ∃ g, g ≠ [] ∧ s = g ++ t ∧ Gap t g ∧ Ends gapStart t := by
  unfold Rule.plus
  constructor
  · intro h
    obtain ⟨x, u, y, h1, h2, rfl⟩ := seq_ok.1 h
    have hl := (eval_rest h1).2 rfl
    have hstar : eval sel (.star (.ref .ignored)) s = .ok (x ++ y) t := by
      rw [eval_star rfl, h1]; simp only [h2]
    obtain ⟨e, g, rfl, hg, he⟩ := (star_ignored_ok hs).1 hstar
    refine ⟨e, g, ?_, rfl, hg, he⟩
    rintro rfl
    have := (eval_rest h2).1
    obtain ⟨a, rfl⟩ := this
    simp at hl
    omega
  · rintro ⟨rfl, g, hne, rfl, hg, he⟩
    have hstar := (star_ignored_ok hs).2 ⟨rfl, g, rfl, hg, he⟩
    rw [star_ok rfl] at hstar
    generalize hx : ([] : List (Node R)) = xs at hstar
    generalize hu : g ++ t = u at hstar
    cases hstar with
    | nil => simp at hu; exact absurd hu hne
    | cons h1 h2 =>
      subst hu
      simp only [List.nil_eq, List.append_eq_nil_iff] at hx
      obtain ⟨rfl, rfl⟩ := hx
      rw [← star_ok rfl] at h2
      exact seq_ok.2 ⟨[], _, [], h1, h2, rfl⟩

theorem plus_ignored_fail (hs : Sels sel) {s : Str} : eval sel (Rule.plus (.ref .ignored)) s = .fail ↔ Ends gapStart s := by
  unfold Rule.plus
  rw [seq_fail, ← ignored_fail hs]
  exact ⟨fun h => h.elim id (fun ⟨_, _, _, h⟩ => absurd h (star_ne_fail rfl)), .inl⟩

theorem plus_ignored_no_raise (hs : Sels sel) {s m : Str} : eval sel (Rule.plus (.ref .ignored)) s ≠ .raise m := by
  unfold Rule.plus
  rw [eval_seq]
  cases h : eval sel (.ref .ignored) s with
  | fail => exact nofun
  | raise m => exact absurd h (ignored_no_raise hs _ _)
  | ok xs t =>
    simp only
    cases h' : eval sel (.star (.ref .ignored)) t with
    | fail => exact nofun
    | raise m => exact absurd h' (star_no_raise rfl (ignored_no_raise hs))
    | ok ys u => exact nofun

end Verif.Peg
