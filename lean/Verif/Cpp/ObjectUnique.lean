import Verif.Cpp.ObjectSpec
import Verif.Cpp.CodeUnique

/-!
# The code of a class has at most one reading
-/
namespace Verif.Cpp.Code
open Verif.Value Verif.Text Verif.Cpp

theorem comma_unique {α : Type} {f : α → List Tok} (hf : ∀ a b r r', f a ++ r = f b ++ r' → a = b ∧ r = r')
    (hb : ∀ a r r', f a ++ r ≠ p "}" :: r') (as bs : List α) {r r' : List Tok}
    (h : commaTokens (as.map f) ++ p "}" :: r = commaTokens (bs.map f) ++ p "}" :: r') : as = bs ∧ r = r' := by
  have hc : ∀ u v : List Tok, p "," :: u ≠ p "}" :: v := fun u v e => by simp [p, str] at e
  induction as generalizing bs with
  | nil =>
    match bs with
    | [] => simp only [List.map_nil, commaTokens, List.nil_append, List.cons.injEq, true_and] at h; exact ⟨rfl, h⟩
    | [b] => exact absurd h.symm (hb b _ _)
    | b :: b' :: bs =>
      simp only [List.map_cons, commaTokens, List.append_assoc] at h
      exact absurd h.symm (hb b _ _)
  | cons a as ih =>
    match as, bs with
    | [], [] => exact absurd h (hb a _ _)
    | a' :: as, [] =>
      simp only [List.map_cons, commaTokens, List.append_assoc] at h
      exact absurd h (hb a _ _)
    | [], [b] =>
      simp only [List.map_cons, List.map_nil, commaTokens] at h
      obtain ⟨rfl, h1⟩ := hf _ _ _ _ h
      simp only [List.cons.injEq, true_and] at h1
      exact ⟨rfl, h1⟩
    | [], b :: b' :: bs =>
      simp only [List.map_cons, List.map_nil, commaTokens, List.append_assoc, List.cons_append] at h
      exact absurd (hf _ _ _ _ h).2.symm (hc _ _)
    | a' :: as, [b] =>
      simp only [List.map_cons, List.map_nil, commaTokens, List.append_assoc, List.cons_append] at h
      exact absurd (hf _ _ _ _ h).2 (hc _ _)
    | a' :: as, b :: b' :: bs =>
      simp only [List.map_cons, commaTokens, List.append_assoc, List.cons_append] at h
      obtain ⟨rfl, h1⟩ := hf _ _ _ _ h
      simp only [List.cons.injEq, true_and] at h1
      obtain ⟨e, h2⟩ := ih (b' :: bs) (by simpa only [List.map_cons] using h1)
      exact ⟨by rw [e], h2⟩

theorem constructor_unique (a b : Constructor) {r r' : List Tok} (h : a.tokens ++ r = b.tokens ++ r') : a = b ∧ r = r' := by
  obtain ⟨a1, a2, a3, a4⟩ := a
  obtain ⟨b1, b2, b3, b4⟩ := b
  simp only [Constructor.tokens, List.append_assoc, List.cons_append, List.nil_append, List.cons.injEq, true_and, Tok.word.injEq,
    path, Path.tokens, List.map_cons, List.map_nil, List.flatMap_cons, List.flatMap_nil] at h
  obtain ⟨rfl, -, h⟩ := h
  obtain ⟨rfl, h⟩ := comma_unique (f := fun s => [Tok.text s false]) (fun a b r r' e => by
    simp only [List.cons_append, List.nil_append, List.cons.injEq, Tok.text.injEq, and_true] at e; exact e)
    (fun a r r' e => by simp [p] at e) a2 b2 h
  simp only [List.cons.injEq, true_and] at h
  obtain ⟨rfl, h⟩ := comma_unique (f := Entry.tokens) (fun a b r r' e => by
    obtain ⟨x, y⟩ := a
    obtain ⟨x', y'⟩ := b
    simp only [Entry.tokens, List.append_assoc, List.cons_append, List.nil_append, List.cons.injEq, true_and, Tok.word.injEq,
      Tok.text.injEq, and_true, path, Path.tokens, List.map_cons, List.map_nil, List.flatMap_cons, List.flatMap_nil] at e
    exact ⟨by rw [e.1, e.2.1], e.2.2⟩)
    (fun a r r' e => by simp [Entry.tokens, p, str] at e) a3 b3 h
  simp only [List.cons.injEq, true_and] at h
  cases a4 <;> cases b4
  · simp only [Bool.false_eq_true, if_false, List.nil_append, List.cons.injEq, true_and] at h; exact ⟨rfl, h⟩
  · simp [p, str] at h
  · simp [p, str] at h
  · simp only [if_true, List.cons_append, List.nil_append, List.cons.injEq, true_and] at h; exact ⟨rfl, h⟩

theorem method_unique (a b : Method) {r r' : List Tok} (h : a.tokens ++ r = b.tokens ++ r') : a = b ∧ r = r' := by
  obtain ⟨a1, a2, a3⟩ := a
  obtain ⟨b1, b2, b3⟩ := b
  simp only [Method.tokens, List.append_assoc, List.cons_append, List.nil_append, List.cons.injEq, true_and, Tok.word.injEq,
    path, Path.tokens, List.map_cons, List.map_nil, List.flatMap_cons, List.flatMap_nil] at h
  obtain ⟨rfl, rfl, h⟩ := h
  obtain ⟨rfl, h2⟩ := body_unique a3 b3 h
  exact ⟨rfl, h2⟩

theorem methods_unique (a b : List Method) (h : a.flatMap Method.tokens = b.flatMap Method.tokens) : a = b := by
  induction a generalizing b with
  | nil =>
    cases b with
    | nil => rfl
    | cons g b => simp [Method.tokens, path, Path.tokens] at h
  | cons f a ih =>
    cases b with
    | nil => simp [Method.tokens, path, Path.tokens] at h
    | cons g b =>
      simp only [List.flatMap_cons] at h
      obtain ⟨rfl, h1⟩ := method_unique f g h
      rw [ih b h1]

theorem ReadsClass.unique {text : Str} {k k' : Constructor} {ms ms' : List Method} (h : ReadsClass text k ms)
    (h' : ReadsClass text k' ms') : k = k' ∧ ms = ms' := by
  obtain ⟨e, e'⟩ := constructor_unique k k' (Lexes.unique h h')
  exact ⟨e, methods_unique _ _ e'⟩

end Verif.Cpp.Code
