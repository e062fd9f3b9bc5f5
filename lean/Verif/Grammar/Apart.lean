import Verif.Grammar.Documents
import Verif.Grammar.SchemaSpec

/-!
# Names are not cut in two

A definition ends with a byte which is not a character of a name, or what follows it does not begin with one.
-/
namespace Verif.Peg
open Verif.Value Verif.Text Rule

variable {sel : R → Sel}

/-- `t` does not begin with a character of a name, or the byte before it is none. -/
def Ended (s t : Str) : Prop := Ends nameCont t ∨ ∃ p c, s = p ++ c :: t ∧ nameCont c = false

theorem Ended.apart {s t : Str} (h : Ended s t) : Apart s t := by
  rintro p c d u e rfl ⟨hc, hd⟩
  rcases h with h | ⟨p', c', e', hc'⟩
  · rw [h d u rfl] at hd; cases hd
  · rw [e'] at e
    have h1 : p' ++ [c'] = p ++ [c] := List.append_cancel_right (as := p' ++ [c']) (cs := p ++ [c]) (bs := d :: u) (by simpa using e)
    have := (List.append_inj' h1 rfl).2
    cases this
    rw [hc] at hc'; cases hc'

theorem Ended.more {s u t a : Str} (h : Ended u t) (e : s = a ++ u) : Ended s t := by
  rcases h with h | ⟨p, c, rfl, hc⟩
  · exact .inl h
  · exact .inr ⟨a ++ p, c, by simp [e], hc⟩

theorem Apart.suffix {s u t a : Str} (h : Apart s t) (e : s = a ++ u) : Apart u t := by
  intro p c d v e' ht
  exact h (a ++ p) c d v (by simp [e, e']) ht

theorem Apart.name {u n t : Str} (h : Apart u t) (hn : Name u n t) : Ends nameCont t := by
  obtain ⟨⟨c, cs, rfl, hc, hcs⟩, rfl⟩ := hn
  intro d v e
  have hlast : ∃ p x, c :: cs = p ++ [x] ∧ nameCont x = true := by
    refine ⟨(c :: cs).dropLast, (c :: cs).getLast (by simp), (List.dropLast_append_getLast _).symm, ?_⟩
    have hm := List.getLast_mem (l := c :: cs) (by simp)
    rcases List.mem_cons.1 hm with h | h
    · rw [h]; simp [nameCont, hc]
    · exact hcs _ h
  obtain ⟨p, x, e', hx⟩ := hlast
  have := h p x d v (by rw [e']; simp) e
  cases hd : nameCont d
  · rfl
  · exact absurd ⟨hx, hd⟩ this

theorem apart_of_ends {s t : Str} (h : Ends nameCont t) : Apart s t := Ended.apart (.inl h)

mutual
/-- Whatever the rule reads is `Ended`. -/
def strong : Nat → Rule R → Bool
  | 0, _ => false
  | _ + 1, .one p => (List.finRange 256).all fun i => !(p (BitVec.ofFin i) && nameCont (BitVec.ofFin i))
  | _ + 1, .star (.one p) => (List.finRange 256).all fun i => p (BitVec.ofFin i) || !nameCont (BitVec.ofFin i)
  | _ + 1, .notAt (.one p) => (List.finRange 256).all fun i => p (BitVec.ofFin i) || !nameCont (BitVec.ofFin i)
  | f + 1, .seq a b => strong f b || (weak f b && strong f a)
  | f + 1, .sor a b => strong f a && strong f b
  | f + 1, .must _ a => strong f a
  | f + 1, .ref n => strong f (grammar n)
  | _ + 1, _ => false
/-- Whatever the rule reads is `Ended`, or it reads nothing. -/
def weak : Nat → Rule R → Bool
  | 0, _ => false
  | f + 1, .seq a b => strong f b || (weak f b && weak f a)
  | f + 1, .sor a b => weak f a && weak f b
  | f + 1, .star a => weak f a && !nullable nulTable a
  | f + 1, .opt a => weak f a
  | f + 1, .must _ a => weak f a
  | f + 1, .ref n => weak f (grammar n)
  | f + 1, r => strong f r
end

theorem all_bytes {P : Byte → Bool} (h : ((List.finRange 256).all fun i => P (BitVec.ofFin i)) = true) (c : Byte) : P c = true :=
  List.all_eq_true.1 h c.toFin (List.mem_finRange _)

theorem ref_rest {n : R} {s t : Str} {xs : List (Node R)} (h : eval sel (.ref n) s = .ok xs t) :
    ∃ ys, eval sel (grammar n) s = .ok ys t := by
  obtain ⟨ys, h, _⟩ := ref_ok.1 h
  exact ⟨ys, h⟩

theorem strong_weak (f : Nat) : ∀ r : Rule R,
    (strong f r = true → ∀ {s xs t}, eval sel r s = .ok xs t → Ended s t) ∧
    (weak f r = true → ∀ {s xs t}, eval sel r s = .ok xs t → s = t ∨ Ended s t) := by
  induction f with
  | zero => intro r; exact ⟨nofun, nofun⟩
  | succ f ih =>
    intro r
    have hseq : ∀ {a b : Rule R}, (strong f b = true ∨ (weak f b = true ∧ strong f a = true)) → ∀ {s xs t},
        eval sel (.seq a b) s = .ok xs t → Ended s t := by
      intro a b h s xs t he
      obtain ⟨ys, u, zs, h1, h2, _⟩ := seq_ok.1 he
      obtain ⟨p, rfl⟩ := (eval_rest h1).1
      rcases h with h | ⟨h, h'⟩
      · exact ((ih b).1 h h2).more rfl
      · rcases (ih b).2 h h2 with rfl | h3
        · exact (ih a).1 h' h1
        · exact h3.more rfl
    have hstar : ∀ {a : Rule R}, weak f a = true → nullable nulTable a = false → ∀ {s xs t},
        eval sel (.star a) s = .ok xs t → s = t ∨ Ended s t := by
      intro a h hn s xs t he
      have hi := (star_ok hn).1 he
      clear he
      induction hi with
      | nil _ => exact .inl rfl
      | cons h1 _ ih' =>
        obtain ⟨p, rfl⟩ := (eval_rest h1).1
        rcases ih' with rfl | h2
        · exact (ih a).2 h h1
        · exact .inr (h2.more rfl)
    cases r with
    | one p =>
      have key : strong (f + 1) (.one p) = true → ∀ {s xs t}, eval sel (.one p) s = .ok xs t → Ended s t := by
        intro h s xs t he
        obtain ⟨c, rfl, hc, _⟩ := one_ok.1 he
        have := all_bytes (P := fun c => !(p c && nameCont c)) h c
        exact .inr ⟨[], c, rfl, by simpa [hc] using this⟩
      refine ⟨key, fun h _ _ _ he => ?_⟩
      cases f with
      | zero => cases h
      | succ f => exact .inr (key h he)
    | lit l => refine ⟨nofun, fun h => ?_⟩; cases f <;> cases h
    | utf8 a b => refine ⟨nofun, fun h => ?_⟩; cases f <;> cases h
    | eof => refine ⟨nofun, fun h => ?_⟩; cases f <;> cases h
    | empty => refine ⟨nofun, fun h => ?_⟩; cases f <;> cases h
    | seq a b =>
      refine ⟨fun h => hseq (by simpa [strong] using h), fun h s xs t he => ?_⟩
      simp only [weak, Bool.or_eq_true, Bool.and_eq_true] at h
      obtain ⟨ys, u, zs, h1, h2, _⟩ := seq_ok.1 he
      obtain ⟨p, rfl⟩ := (eval_rest h1).1
      rcases h with h | ⟨h, h'⟩
      · exact .inr (((ih b).1 h h2).more rfl)
      · rcases (ih b).2 h h2 with rfl | h3
        · exact (ih a).2 h' h1
        · exact .inr (h3.more rfl)
    | sor a b =>
      constructor
      · intro h s xs t he
        simp only [strong, Bool.and_eq_true] at h
        rcases sor_ok.1 he with he | ⟨_, he⟩
        · exact (ih a).1 h.1 he
        · exact (ih b).1 h.2 he
      · intro h s xs t he
        simp only [weak, Bool.and_eq_true] at h
        rcases sor_ok.1 he with he | ⟨_, he⟩
        · exact (ih a).2 h.1 he
        · exact (ih b).2 h.2 he
    | star a =>
      constructor
      · intro h s xs t he
        cases a with
        | one p =>
          obtain ⟨_, _, _, _, h2⟩ := star_one_ok.1 he
          refine .inl fun c u e => ?_
          have h3 := all_bytes (P := fun c => p c || !nameCont c) h c
          have h4 := h2 c u e
          simpa [h4] using h3
        | _ => cases h
      · intro h
        simp only [weak, Bool.and_eq_true, Bool.not_eq_true'] at h
        exact hstar h.1 h.2
    | opt a =>
      refine ⟨nofun, fun h s xs t he => ?_⟩
      rcases opt_ok.1 he with he | ⟨_, rfl, _⟩
      · exact (ih a).2 h he
      · exact .inl rfl
    | notAt a =>
      have key : strong (f + 1) (.notAt a) = true → ∀ {s xs t}, eval sel (.notAt a) s = .ok xs t → Ended s t := by
        intro h s xs t he
        cases a with
        | one p =>
          obtain ⟨h1, rfl, _⟩ := notAt_ok.1 he
          refine .inl fun c u e => ?_
          have h3 := all_bytes (P := fun c => p c || !nameCont c) h c
          have h4 := one_fail.1 h1 c u e
          simpa [h4] using h3
        | _ => cases h
      refine ⟨key, fun h _ _ _ he => ?_⟩
      cases f with
      | zero => cases h
      | succ f => exact .inr (key (by cases a <;> first | exact h | cases h) he)
    | must m a => exact ⟨fun h _ _ _ he => (ih a).1 h (must_ok.1 he), fun h _ _ _ he => (ih a).2 h (must_ok.1 he)⟩
    | ref n =>
      constructor
      · intro h s xs t he
        obtain ⟨_, he⟩ := ref_rest he
        exact (ih _).1 h he
      · intro h s xs t he
        obtain ⟨_, he⟩ := ref_rest he
        exact (ih _).2 h he

theorem strong_apart {r : Rule R} (h : strong 40 r = true) {s t : Str} {xs : List (Node R)} (he : eval sel r s = .ok xs t) :
    Apart s t := ((strong_weak 40 r).1 h he).apart

theorem schema_def_apart {s t : Str} {xs : List (Node R)} (h : eval sel (.ref .schema_type_definition) s = .ok xs t) :
    Apart s t := strong_apart (by decide +kernel) h

end Verif.Peg
