import Verif.Cpp.StubSpec
import Verif.Cpp.ClassUnique
import Verif.Cpp.ObjectUnique

/-!
# Stubs and the class `Operations` have at most one reading
-/
namespace Verif.Cpp.Code
open Verif.Value Verif.Text Verif.Cpp

theorem parameters_unique (as bs : List CType) {r r' : List Tok}
    (h : as.flatMap parameterTokens ++ p ")" :: r = bs.flatMap parameterTokens ++ p ")" :: r') : as = bs ∧ r = r' := by
  obtain ⟨e, h1⟩ := list_unique (stop := fun r => ∃ u, r = p ")" :: u) (f := parameterTokens) (by
      intro m m' u u' e
      unfold parameterTokens at e
      simp only [List.append_assoc, List.cons_append, List.nil_append, List.cons.injEq, true_and] at e
      obtain ⟨rfl, e1⟩ := ctype_unique m m' (typeEnd_ref _) (typeEnd_ref _) e
      simp only [List.cons.injEq, true_and] at e1
      exact ⟨rfl, e1⟩)
    (by
      rintro m u ⟨v, e⟩
      simp [parameterTokens, p, str] at e)
    as bs ⟨_, rfl⟩ ⟨_, rfl⟩ h
  simp only [List.cons.injEq, true_and] at h1
  exact ⟨e, h1⟩

theorem stub_unique (a b : Stub) {r r' : List Tok} (h : a.tokens ++ r = b.tokens ++ r') : a = b ∧ r = r' := by
  obtain ⟨a1, a2, a3, a4, a5⟩ := a
  obtain ⟨b1, b2, b3, b4, b5⟩ := b
  unfold Stub.tokens at h
  simp only [List.append_assoc, List.cons_append, List.nil_append] at h
  have k0 := List.append_cancel_left h
  simp only [List.cons.injEq, true_and] at k0
  obtain ⟨rfl, k1⟩ := ctype_unique a1 b1 (typeEnd_close _) (typeEnd_close _) k0
  simp only [List.cons.injEq, true_and, Tok.word.injEq] at k1
  obtain ⟨rfl, rfl, k2⟩ := k1
  have k3 := List.append_cancel_left k2
  simp only [List.cons.injEq, true_and] at k3
  obtain ⟨rfl, k4⟩ := parameters_unique a4 b4 k3
  simp only [List.cons.injEq, true_and] at k4
  have k5 := List.append_cancel_left k4
  simp only [List.cons.injEq, true_and, Tok.text.injEq, and_true] at k5
  obtain ⟨rfl, k6⟩ := k5
  exact ⟨rfl, k6⟩

theorem stub_first (s : Stub) : ∃ u, s.tokens = .word (str "service") :: u := by
  unfold Stub.tokens
  simp only [path, Path.tokens, List.append_assoc, List.cons_append]
  exact ⟨_, rfl⟩

theorem method_first (m : Method) : ∃ u, m.tokens = .word (str "std") :: u := by
  unfold Method.tokens
  simp only [path, Path.tokens, List.append_assoc, List.cons_append]
  exact ⟨_, rfl⟩

theorem definition_unique (a b : Definition) {r r' : List Tok} (h : a.tokens ++ r = b.tokens ++ r') : a = b ∧ r = r' := by
  have hn : str "service" ≠ str "std" := by decide
  cases a with
  | stub s =>
    cases b with
    | stub s' =>
      obtain ⟨rfl, h1⟩ := stub_unique s s' h
      exact ⟨rfl, h1⟩
    | resolver m =>
      obtain ⟨u, hu⟩ := stub_first s
      obtain ⟨v, hv⟩ := method_first m
      rw [Definition.tokens, Definition.tokens, hu, hv, List.cons_append, List.cons_append, List.cons.injEq, Tok.word.injEq] at h
      exact absurd h.1 hn
  | resolver m =>
    cases b with
    | stub s =>
      obtain ⟨u, hu⟩ := stub_first s
      obtain ⟨v, hv⟩ := method_first m
      rw [Definition.tokens, Definition.tokens, hu, hv, List.cons_append, List.cons_append, List.cons.injEq, Tok.word.injEq] at h
      exact absurd h.1.symm hn
    | resolver m' =>
      obtain ⟨rfl, h1⟩ := method_unique m m' h
      exact ⟨rfl, h1⟩

theorem ReadsStubs.unique {text : Str} {k k' : Constructor} {ds ds' : List Definition} (h : ReadsStubs text k ds)
    (h' : ReadsStubs text k' ds') : k = k' ∧ ds = ds' := by
  obtain ⟨e, e'⟩ := constructor_unique k k' (Lexes.unique h h')
  refine ⟨e, flat_unique (fun a b _ _ => definition_unique a b) (fun a => ?_) _ _ e'⟩
  cases a with
  | stub s => obtain ⟨u, hu⟩ := stub_first s; rw [Definition.tokens, hu]; exact List.cons_ne_nil _ _
  | resolver m => obtain ⟨u, hu⟩ := method_first m; rw [Definition.tokens, hu]; exact List.cons_ne_nil _ _

/-! ## `Operations` -/

theorem param_unique (m m' : Member) {r r' : List Tok} (h : m.parameterTokens ++ r = m'.parameterTokens ++ r') : m = m' ∧ r = r' := by
  obtain ⟨a, b⟩ := m
  obtain ⟨a', b'⟩ := m'
  unfold Member.parameterTokens at h
  simp only [List.append_assoc, List.cons_append, List.nil_append] at h
  obtain ⟨rfl, h1⟩ := ctype_unique a a' (typeEnd_word _ _) (typeEnd_word _ _) h
  simp only [List.cons.injEq, Tok.word.injEq] at h1
  obtain ⟨rfl, h2⟩ := h1
  exact ⟨rfl, h2⟩

theorem member_unique (m m' : Member) {r r' : List Tok} (h : m.tokens ++ r = m'.tokens ++ r') : m = m' ∧ r = r' := by
  have e : ∀ (m : Member) (r : List Tok), m.tokens ++ r = m.parameterTokens ++ p ";" :: r := by
    intro m r
    simp [Member.tokens, Member.parameterTokens]
  rw [e, e] at h
  obtain ⟨rfl, h1⟩ := param_unique m m' h
  simp only [List.cons.injEq, true_and] at h1
  exact ⟨rfl, h1⟩

theorem member_first (m : Member) : ∃ w u, m.parameterTokens = .word w :: u ∧ m.tokens = .word w :: (u ++ [p ";"]) := by
  obtain ⟨w, u, h⟩ := ctype_first m.type
  exact ⟨w, u ++ [.word m.name], by rw [Member.parameterTokens, h, List.cons_append], by simp [Member.tokens, h]⟩

/-- `comma_unique`, up to a parenthesis. -/
theorem comma_paren {α : Type} {f : α → List Tok} (hf : ∀ a b r r', f a ++ r = f b ++ r' → a = b ∧ r = r')
    (hb : ∀ a r r', f a ++ r ≠ p ")" :: r') (as bs : List α) {r r' : List Tok}
    (h : commaTokens (as.map f) ++ p ")" :: r = commaTokens (bs.map f) ++ p ")" :: r') : as = bs ∧ r = r' := by
  have hc : ∀ u v : List Tok, p "," :: u ≠ p ")" :: v := fun u v e => by simp [p, str] at e
  induction as generalizing bs with
  | nil =>
    match bs with
    | [] => simp only [List.map_nil, commaTokens, List.nil_append, List.cons.injEq, true_and] at h; exact ⟨rfl, h⟩
    | [b] => exact absurd h.symm (hb b _ _)
    | b :: b' :: bs =>
      simp only [List.map_cons, commaTokens, List.append_assoc] at h
      exact absurd h.symm (hb b _ _)
  | cons a as ih =>
    match as, bs with
    | [], [] => exact absurd h (hb a _ _)
    | a' :: as, [] =>
      simp only [List.map_cons, commaTokens, List.append_assoc] at h
      exact absurd h (hb a _ _)
    | [], [b] =>
      simp only [List.map_cons, List.map_nil, commaTokens] at h
      obtain ⟨rfl, h1⟩ := hf _ _ _ _ h
      simp only [List.cons.injEq, true_and] at h1
      exact ⟨rfl, h1⟩
    | [], b :: b' :: bs =>
      simp only [List.map_cons, List.map_nil, commaTokens, List.append_assoc, List.cons_append] at h
      exact absurd (hf _ _ _ _ h).2.symm (hc _ _)
    | a' :: as, [b] =>
      simp only [List.map_cons, List.map_nil, commaTokens, List.append_assoc, List.cons_append] at h
      exact absurd (hf _ _ _ _ h).2 (hc _ _)
    | a' :: as, b :: b' :: bs =>
      simp only [List.map_cons, commaTokens, List.append_assoc, List.cons_append] at h
      obtain ⟨rfl, h1⟩ := hf _ _ _ _ h
      simp only [List.cons.injEq, true_and] at h1
      obtain ⟨e, h2⟩ := ih (b' :: bs) (by simpa only [List.map_cons] using h1)
      exact ⟨by rw [e], h2⟩

theorem params_unique (as bs : List Member) {r r' : List Tok}
    (h : commaTokens (as.map Member.parameterTokens) ++ p ")" :: r = commaTokens (bs.map Member.parameterTokens) ++ p ")" :: r') :
    as = bs ∧ r = r' :=
  comma_paren (fun a b _ _ => param_unique a b) (fun a r r' e => by
    obtain ⟨w, u, h, -⟩ := member_first a
    rw [h] at e
    simp [p] at e) as bs h

theorem ReadsOperationsDecl.unique {text : Str} {a b : OperationsDecl} (ha : ReadsOperationsDecl text a)
    (hb : ReadsOperationsDecl text b) : a = b := by
  have h := Lexes.unique ha hb
  obtain ⟨a1, a2⟩ := a
  obtain ⟨b1, b2⟩ := b
  unfold OperationsDecl.tokens at h
  simp only [List.append_assoc, List.cons_append, List.nil_append, List.cons.injEq, true_and] at h
  have k0 := List.append_cancel_left h
  simp only [List.cons.injEq, true_and] at k0
  obtain ⟨rfl, k1⟩ := params_unique a1 b1 k0
  simp only [List.cons.injEq, true_and] at k1
  obtain ⟨rfl, -⟩ := list_unique (stop := fun r => ∃ u, r = p "}" :: u) (fun a b _ _ => member_unique a b) (by
      rintro a u ⟨v, e⟩
      obtain ⟨w, x, -, hw⟩ := member_first a
      rw [hw] at e
      simp [p] at e)
    a2 b2 ⟨_, rfl⟩ ⟨_, rfl⟩ k1
  rfl

theorem ReadsOperationsDef.unique {text : Str} {a b : OperationsDef} (ha : ReadsOperationsDef text a)
    (hb : ReadsOperationsDef text b) : a = b := by
  have h := Lexes.unique ha hb
  obtain ⟨a1, a2, a3⟩ := a
  obtain ⟨b1, b2, b3⟩ := b
  unfold OperationsDef.tokens at h
  simp only [List.append_assoc, List.cons_append, List.nil_append, List.cons.injEq, true_and] at h
  obtain ⟨rfl, k1⟩ := params_unique a1 b1 h
  simp only [List.cons.injEq, true_and] at k1
  have k2 := List.append_cancel_left k1
  simp only [List.cons.injEq, true_and] at k2
  obtain ⟨rfl, k3⟩ := comma_unique (f := Pair.tokens) (fun a b r r' e => by
    obtain ⟨x, y⟩ := a
    obtain ⟨x', y'⟩ := b
    simp only [Pair.tokens, List.cons_append, List.nil_append, List.cons.injEq, true_and, Tok.word.injEq, Tok.text.injEq, and_true] at e
    exact ⟨by rw [e.1, e.2.1], e.2.2⟩)
    (fun a r r' e => by simp [Pair.tokens, p, str] at e) a2 b2 k2
  simp only [List.cons.injEq, true_and] at k3
  obtain ⟨rfl, -⟩ := list_unique (f := Move.tokens) (stop := fun r => ∃ u, r = p "{" :: u) (fun a b r r' e => by
    obtain ⟨x, y⟩ := a
    obtain ⟨x', y'⟩ := b
    simp only [Move.tokens, List.append_assoc, List.cons_append, List.nil_append, List.cons.injEq, true_and, Tok.word.injEq] at e
    obtain ⟨rfl, e1⟩ := e
    have e2 := List.append_cancel_left e1
    simp only [List.cons.injEq, true_and, Tok.word.injEq] at e2
    exact ⟨by rw [e2.1], e2.2⟩)
    (by rintro a u ⟨v, e⟩; simp [Move.tokens, p, str] at e) a3 b3 ⟨_, rfl⟩ ⟨_, rfl⟩ k3
  rfl

end Verif.Cpp.Code
