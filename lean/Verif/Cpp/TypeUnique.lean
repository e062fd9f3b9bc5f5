import Verif.Cpp.TypeSpec
import Verif.Cpp.CodeUnique

/-!
# Types, and the conversions of enums, have at most one reading
-/
namespace Verif.Cpp.Code
open Verif.Value Verif.Text Verif.Cpp

/-- What is behind a type does not continue it. -/
def TypeEnd (r : List Tok) : Prop := NoScope r ∧ ∀ u, r ≠ p "<" :: u

theorem typeEnd_word (w : Str) (r : List Tok) : TypeEnd (.word w :: r) := ⟨fun u e => by simp [p] at e, fun u e => by simp [p] at e⟩
theorem typeEnd_close (r : List Tok) : TypeEnd (p ">" :: r) := ⟨noScope_p _ (by decide), fun u e => by simp [p, str] at e⟩

theorem ctype_unique (a b : CType) {r r' : List Tok} (hr : TypeEnd r) (hr' : TypeEnd r') (h : a.tokens ++ r = b.tokens ++ r') :
    a = b ∧ r = r' := by
  have np : ∀ u : List Tok, NoScope (p "<" :: u) := fun u => noScope_p _ (by decide)
  have hov : path "std" ["optional"] ≠ path "std" ["vector"] := by decide +kernel
  have hos : path "std" ["optional"] ≠ path "std" ["shared_ptr"] := by decide +kernel
  have hvs : path "std" ["vector"] ≠ path "std" ["shared_ptr"] := by decide +kernel
  induction a generalizing b r r' with
  | name q =>
    cases b with
    | name q' =>
      obtain ⟨rfl, h1⟩ := path_unique q q' hr.1 hr'.1 h
      exact ⟨rfl, h1⟩
    | _ =>
      simp only [CType.tokens, List.append_assoc, List.cons_append, List.nil_append] at h
      exact absurd (path_unique _ _ hr.1 (np _) h).2 (hr.2 _)
  | _ t ih =>
    cases b with
    | name q' =>
      simp only [CType.tokens, List.append_assoc, List.cons_append, List.nil_append] at h
      exact absurd (path_unique _ _ (np _) hr'.1 h).2.symm (hr'.2 _)
    | _ t' =>
      simp only [CType.tokens, List.append_assoc, List.cons_append, List.nil_append] at h
      first
      | exact absurd (path_unique _ _ (np _) (np _) h).1 (by assumption)
      | exact absurd (path_unique _ _ (np _) (np _) h).1.symm (by assumption)
      | have h1 := (path_unique _ _ (np _) (np _) h).2
        simp only [List.cons.injEq, true_and] at h1
        obtain ⟨rfl, h2⟩ := ih t' (typeEnd_close _) (typeEnd_close _) h1
        simp only [List.cons.injEq, true_and] at h2
        exact ⟨rfl, h2⟩

theorem ctype_first (t : CType) : ∃ w u, t.tokens = .word w :: u := by
  cases t with
  | name q => exact ⟨_, _, rfl⟩
  | optional t => exact ⟨_, _, rfl⟩
  | vector t => exact ⟨_, _, rfl⟩
  | shared t => exact ⟨_, _, rfl⟩

theorem members_unique (a b : List Member) {r r' : List Tok}
    (h : a.flatMap Member.tokens ++ p "}" :: r = b.flatMap Member.tokens ++ p "}" :: r') : a = b ∧ r = r' := by
  have hf : ∀ (m : Member) (u v : List Tok), m.tokens ++ u ≠ p "}" :: v := by
    intro m u v e
    obtain ⟨w, x, hw⟩ := ctype_first m.type
    simp [Member.tokens, hw, p] at e
  induction a generalizing b with
  | nil =>
    cases b with
    | nil => simpa using h
    | cons m b => simp only [List.flatMap_cons, List.append_assoc] at h; exact absurd h.symm (hf m _ _)
  | cons m a ih =>
    cases b with
    | nil => simp only [List.flatMap_cons, List.append_assoc] at h; exact absurd h (hf m _ _)
    | cons m' b =>
      obtain ⟨t, n⟩ := m
      obtain ⟨t', n'⟩ := m'
      simp only [List.flatMap_cons, Member.tokens, List.append_assoc, List.cons_append, List.nil_append] at h
      obtain ⟨rfl, h1⟩ := ctype_unique t t' (typeEnd_word _ _) (typeEnd_word _ _) h
      simp only [List.cons.injEq, Tok.word.injEq, true_and] at h1
      obtain ⟨rfl, h2⟩ := h1
      obtain ⟨rfl, h3⟩ := ih b h2
      exact ⟨rfl, h3⟩

theorem typeDecl_unique (a b : TypeDecl) {r r' : List Tok} (h : a.tokens ++ r = b.tokens ++ r') : a = b ∧ r = r' := by
  cases a with
  | enumClass n vs =>
    cases b with
    | enumClass n' vs' =>
      obtain ⟨e, h1⟩ := decl_unique (.enumClass n vs) (.enumClass n' vs') h
      simp only [Decl.enumClass.injEq] at e
      exact ⟨by rw [e.1, e.2], h1⟩
    | struct n' ms => simp [TypeDecl.tokens, Decl.tokens, kw, str] at h
  | struct n ms =>
    cases b with
    | enumClass n' vs' => simp [TypeDecl.tokens, Decl.tokens, kw, str] at h
    | struct n' ms' =>
      simp only [TypeDecl.tokens, List.append_assoc, List.cons_append, List.nil_append, List.cons.injEq, true_and, Tok.word.injEq] at h
      obtain ⟨rfl, h⟩ := h
      obtain ⟨rfl, h1⟩ := members_unique _ _ h
      simp only [List.cons.injEq, true_and] at h1
      exact ⟨rfl, h1⟩

/-- Lists of things which have one reading each, and are not empty, have one reading. -/
theorem flat_unique {α : Type} {f : α → List Tok} (hf : ∀ a b r r', f a ++ r = f b ++ r' → a = b ∧ r = r') (hn : ∀ a, f a ≠ [])
    (as bs : List α) (h : as.flatMap f = bs.flatMap f) : as = bs := by
  induction as generalizing bs with
  | nil =>
    cases bs with
    | nil => rfl
    | cons b bs =>
      simp only [List.flatMap_nil, List.flatMap_cons] at h
      exact absurd (List.append_eq_nil_iff.1 h.symm).1 (hn b)
  | cons a as ih =>
    cases bs with
    | nil =>
      simp only [List.flatMap_nil, List.flatMap_cons] at h
      exact absurd (List.append_eq_nil_iff.1 h).1 (hn a)
    | cons b bs =>
      simp only [List.flatMap_cons] at h
      obtain ⟨rfl, h1⟩ := hf a b _ _ h
      rw [ih bs h1]

theorem ReadsTypes.unique {text : Str} {a b : List TypeDecl} (ha : ReadsTypes text a) (hb : ReadsTypes text b) : a = b :=
  flat_unique (fun a b _ _ => typeDecl_unique a b) (fun a => by cases a <;> simp [TypeDecl.tokens, Decl.tokens]) a b (Lexes.unique ha hb)

/-! ## The conversions of enums -/

theorem argument_unique (a b : EnumArgument) {r r' : List Tok} (h : a.tokens ++ r = b.tokens ++ r') : a = b ∧ r = r' := by
  obtain ⟨a1, a2, a3, a4, a5, a6, a7, a8, a9⟩ := a
  obtain ⟨b1, b2, b3, b4, b5, b6, b7, b8, b9⟩ := b
  have nw : ∀ (w : Str) (u : List Tok), NoScope (.word w :: u) := fun w u => (typeEnd_word w u).1
  have nc : ∀ u : List Tok, NoScope (p ">" :: u) := fun u => (typeEnd_close u).1
  unfold EnumArgument.tokens throwTokens memberTokens at h
  simp only [List.append_assoc, List.cons_append, List.nil_append, List.cons.injEq, true_and] at h
  obtain ⟨rfl, h1⟩ := path_unique a1 b1 (nw _ _) (nw _ _) h
  simp only [List.cons.injEq, true_and] at h1
  obtain ⟨rfl, h2⟩ := path_unique a2 b2 (nc _) (nc _) h1
  simp only [List.cons.injEq, true_and, List.append_cancel_left_eq, Tok.word.injEq, Tok.text.injEq, and_true] at h2
  obtain ⟨rfl, rfl, rfl, rfl, rfl, h3⟩ := h2
  obtain ⟨rfl, h4⟩ := path_unique a8 b8 (nc _) (nc _) h3
  simp only [List.cons.injEq, true_and, Tok.word.injEq] at h4
  obtain ⟨rfl, h5⟩ := h4
  exact ⟨rfl, h5⟩

theorem result_unique (a b : EnumResult) {r r' : List Tok} (h : a.tokens ++ r = b.tokens ++ r') : a = b ∧ r = r' := by
  obtain ⟨a1, a2, a3, a4⟩ := a
  obtain ⟨b1, b2, b3, b4⟩ := b
  have nw : ∀ (w : Str) (u : List Tok), NoScope (.word w :: u) := fun w u => (typeEnd_word w u).1
  have nc : ∀ u : List Tok, NoScope (p ">" :: u) := fun u => (typeEnd_close u).1
  unfold EnumResult.tokens at h
  simp only [List.append_assoc, List.cons_append, List.nil_append, List.cons.injEq,
    true_and, List.append_cancel_left_eq] at h
  obtain ⟨rfl, h1⟩ := path_unique a1 b1 (nc _) (nc _) h
  simp only [List.cons.injEq, true_and, List.append_cancel_left_eq] at h1
  obtain ⟨rfl, h2⟩ := path_unique a2 b2 (nc _) (nc _) h1
  simp only [List.cons.injEq, true_and, List.append_cancel_left_eq] at h2
  obtain ⟨rfl, h3⟩ := path_unique a3 b3 (nw _ _) (nw _ _) h2
  simp only [List.cons.injEq, true_and, List.append_cancel_left_eq, Tok.word.injEq] at h3
  obtain ⟨rfl, h4⟩ := h3
  exact ⟨rfl, h4⟩

theorem Stmt.not_if (s : Stmt) (r u : List Tok) : s.tokens ++ r ≠ kw "if" :: u := by
  cases s with
  | expr e =>
    cases e with
    | boolean b => cases b <;> simp [Stmt.tokens, Expr.tokens, p, kw, str]
    | number b => cases b <;> simp [Stmt.tokens, Expr.tokens, p, kw, str]
    | _ => simp [Stmt.tokens, Expr.tokens, Path.tokens, p, kw, str]
  | auto c x e => cases c <;> simp [Stmt.tokens, kw, str]
  | _ => simp [Stmt.tokens, Path.tokens, kw, str]

theorem argument_function (a : EnumArgument) (b : Function) (r r' : List Tok) : a.tokens ++ r ≠ b.tokens ++ r' := by
  intro h
  obtain ⟨a1, a2, a3, a4, a5, a6, a7, a8, a9⟩ := a
  obtain ⟨b1, b2, b3, b4, b5, b6, b7⟩ := b
  have nw : ∀ (w : Str) (u : List Tok), NoScope (.word w :: u) := fun w u => (typeEnd_word w u).1
  have nc : ∀ u : List Tok, NoScope (p ">" :: u) := fun u => (typeEnd_close u).1
  have nq : ∀ (q : Path) (u : List Tok), NoScope (q.tokens ++ u) := by
    intro q u rest e
    simp [Path.tokens, p] at e
  unfold EnumArgument.tokens Function.tokens at h
  simp only [List.append_assoc, List.cons_append, List.nil_append, List.cons.injEq, true_and] at h
  have h := (path_unique a1 b1 (nw _ _) (nq _ _) h).2
  have h := (path_unique (word (str "ModifiedArgument")) b2 (r := p "<" :: _) (noScope_p _ (by decide)) (noScope_p _ (by decide)) h).2
  simp only [List.cons.injEq, true_and] at h
  have h := (path_unique a2 b3 (nc _) (nc _) h).2
  simp only [List.cons.injEq, true_and] at h
  have h := (path_unique (path "response" ["Value"]) b5 (r := p "&" :: _) (noScope_p _ (by decide)) (noScope_p _ (by decide)) h.2).2
  simp only [List.cons.injEq, true_and] at h
  have h := h.2
  cases b7 with
  | nil => simp [Stmt.listTokens, p, kw] at h
  | cons s ss =>
    simp only [Stmt.listTokens, List.append_assoc] at h
    exact Stmt.not_if s _ _ h.symm

theorem result_function (a : EnumResult) (b : Function) (r r' : List Tok) : a.tokens ++ r ≠ b.tokens ++ r' := by
  intro h
  unfold EnumResult.tokens Function.tokens at h
  simp only [List.append_assoc, List.cons_append, List.nil_append, List.cons.injEq, true_and] at h
  have nq : ∀ (q : Path) (u : List Tok), NoScope (q.tokens ++ u) := by
    intro q u rest e
    simp [Path.tokens, p] at e
  have h := (path_unique _ _ (noScope_p _ (by decide)) (nq _ _) h).2
  simp [Path.tokens, p] at h

theorem argument_result (a : EnumArgument) (b : EnumResult) (r r' : List Tok) : a.tokens ++ r ≠ b.tokens ++ r' := by
  intro h
  unfold EnumResult.tokens EnumArgument.tokens at h
  simp only [List.append_assoc, List.cons_append, List.nil_append, List.cons.injEq, true_and] at h
  have h := (path_unique _ _ (typeEnd_word _ _).1 (noScope_p _ (by decide)) h).2
  simp [p] at h

theorem service_first (a : ServiceDecl) : ∃ u, a.tokens = (match a with | .array .. => kw "static" | _ => kw "template") :: u := by
  cases a <;> unfold ServiceDecl.tokens
  · exact ⟨_, rfl⟩
  · unfold EnumArgument.tokens
    simp only [List.append_assoc, List.cons_append]
    exact ⟨_, rfl⟩
  · unfold EnumResult.tokens
    simp only [List.append_assoc, List.cons_append]
    exact ⟨_, rfl⟩
  · exact ⟨_, rfl⟩

theorem service_unique (a b : ServiceDecl) {r r' : List Tok} (h : a.tokens ++ r = b.tokens ++ r') : a = b ∧ r = r' := by
  have ne : ∀ (a b : ServiceDecl) (r r' : List Tok), (match a with | .array .. => kw "static" | _ => kw "template") ≠
      (match b with | .array .. => kw "static" | _ => kw "template") → a.tokens ++ r ≠ b.tokens ++ r' := by
    intro a b r r' hn e
    obtain ⟨u, hu⟩ := service_first a
    obtain ⟨v, hv⟩ := service_first b
    rw [hu, hv, List.cons_append, List.cons_append, List.cons.injEq] at e
    exact hn e.1
  cases a with
  | array n x vs =>
    cases b with
    | array n' x' vs' =>
      obtain ⟨e, h1⟩ := decl_unique (.array n x vs) (.array n' x' vs') h
      simp only [Decl.array.injEq] at e
      exact ⟨by rw [e.1, e.2.1, e.2.2], h1⟩
    | argument f => exact absurd h (ne _ _ _ _ (by simp [kw, str]))
    | result f => exact absurd h (ne _ _ _ _ (by simp [kw, str]))
    | function f => exact absurd h (ne _ _ _ _ (by simp [kw, str]))
  | argument f =>
    cases b with
    | array n' x' vs' => exact absurd h (ne _ _ _ _ (by simp [kw, str]))
    | argument g => obtain ⟨rfl, h1⟩ := argument_unique f g h; exact ⟨rfl, h1⟩
    | result g => exact absurd h (argument_result f g _ _)
    | function g => exact absurd h (argument_function f g _ _)
  | result f =>
    cases b with
    | array n' x' vs' => exact absurd h (ne _ _ _ _ (by simp [kw, str]))
    | argument g => exact absurd h.symm (argument_result g f _ _)
    | result g => obtain ⟨rfl, h1⟩ := result_unique f g h; exact ⟨rfl, h1⟩
    | function g => exact absurd h (result_function f g _ _)
  | function f =>
    cases b with
    | array n' x' vs' => exact absurd h (ne _ _ _ _ (by simp [kw, str]))
    | argument g => exact absurd h.symm (argument_function g f _ _)
    | result g => exact absurd h.symm (result_function g f _ _)
    | function g => obtain ⟨rfl, h1⟩ := function_unique f g h; exact ⟨rfl, h1⟩

theorem ReadsService.unique {text : Str} {a b : List ServiceDecl} (ha : ReadsService text a) (hb : ReadsService text b) : a = b :=
  flat_unique (fun a b _ _ => service_unique a b)
    (fun a e => by obtain ⟨u, hu⟩ := service_first a; rw [hu] at e; cases e) a b
    (Lexes.unique ha hb)

end Verif.Cpp.Code
