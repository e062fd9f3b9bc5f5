import Verif.Cpp.Spec
import Std.Data.String.ToNat

/-!
# Text has at most one reading
-/
namespace Verif.Cpp
open Verif.Value Verif.Text

theorem token_space {c : Byte} (s : Str) (h : isSpace c = true) : token (c :: s) = none := by
  simp only [isSpace, Bool.or_eq_true, beq_iff_eq, or_assoc] at h
  rcases h with rfl | rfl | rfl <;> cases s <;> simp [token, operatorText, nameStart, isDigit, chr, str]

theorem Lexes.unique {s : Str} {a b : List Tok} (h : Lexes s a) (h' : Lexes s b) : a = b := by
  induction h generalizing b with
  | done =>
    cases h' with
    | done => rfl
    | token h _ => simp [Cpp.token] at h
  | space hc _ ih =>
    cases h' with
    | space _ h => exact ih h
    | token h _ => rw [token_space _ hc] at h; cases h
  | token ht hs ih =>
    cases h' with
    | done => simp [Cpp.token] at ht
    | space hc _ => rw [token_space _ hc] at ht; cases ht
    | token h1 h2 =>
      rw [ht] at h1
      cases h1
      rw [ih h2]

/-! ## Expressions -/

/-- The text of tokens does not go on with `::`. -/
def NoScope (r : List Tok) : Prop := ∀ rest, r ≠ p "::" :: rest

/-- Nothing is left, or a token which ends an expression. -/
inductive Stop : List Tok → Prop where
  | nil : Stop []
  | comma {r} : Stop (p "," :: r)
  | paren {r} : Stop (p ")" :: r)
  | bracket {r} : Stop (p "]" :: r)
  | brace {r} : Stop (p "}" :: r)
  | semi {r} : Stop (p ";" :: r)

theorem Stop.noScope {r : List Tok} (h : Stop r) : NoScope r := by
  intro rest e
  subst e
  generalize hx : p "::" :: rest = w at h
  cases h <;> simp [p, str] at hx

theorem tail_unique (a b : List Str) {r r' : List Tok} (hr : NoScope r) (hr' : NoScope r')
    (h : a.flatMap (fun s => [p "::", Tok.word s]) ++ r = b.flatMap (fun s => [p "::", Tok.word s]) ++ r') :
    a = b ∧ r = r' := by
  induction a generalizing b with
  | nil =>
    cases b with
    | nil => exact ⟨rfl, h⟩
    | cons y b => exact absurd h (by simpa using hr _)
  | cons x a ih =>
    cases b with
    | nil => exact absurd h.symm (by simpa using hr' _)
    | cons y b =>
      simp only [List.flatMap_cons, List.cons_append, List.nil_append, List.cons.injEq, Tok.word.injEq, true_and,
        List.append_assoc] at h
      obtain ⟨rfl, h⟩ := h
      obtain ⟨rfl, h2⟩ := ih b h
      exact ⟨rfl, h2⟩

theorem path_unique (a b : Path) {r r' : List Tok} (hr : NoScope r) (hr' : NoScope r')
    (h : a.tokens ++ r = b.tokens ++ r') : a = b ∧ r = r' := by
  obtain ⟨x, a⟩ := a
  obtain ⟨y, b⟩ := b
  simp only [Path.tokens, List.cons_append, List.cons.injEq, Tok.word.injEq] at h
  obtain ⟨rfl, h⟩ := h
  obtain ⟨rfl, h2⟩ := tail_unique a b hr hr' h
  exact ⟨rfl, h2⟩

theorem noScope_p {s : String} (r : List Tok) (h : str s ≠ str "::") : NoScope (p s :: r) := by
  intro rest e
  simp only [List.cons.injEq, p, Tok.punct.injEq] at e
  exact h e.1

/-- What comes after the first name of an expression which begins with one. -/
def Expr.first : Expr → List Tok → Option (Path × List Tok)
  | .name q, r => some (q, r)
  | .call f args, r => some (f, [p "("] ++ Expr.listTokens args ++ [p ")"] ++ r)
  | .method x m args, r => some (word x, [p "->", .word m, p "("] ++ Expr.listTokens args ++ [p ")"] ++ r)
  | .index a i, r => some (a, [p "["] ++ i.tokens ++ [p "]"] ++ r)
  | .pointerCast t e, r => some (path "std" ["static_pointer_cast"],
      [p "<", kw "const"] ++ t.tokens ++ [p ">", p "("] ++ e.tokens ++ [p ")"] ++ r)
  | _, _ => none

theorem Expr.first_tokens {e : Expr} {r : List Tok} {q : Path} {u : List Tok} (h : e.first r = some (q, u)) (hr : Stop r) :
    e.tokens ++ r = q.tokens ++ u ∧ NoScope u := by
  cases e <;> simp only [Expr.first, Option.some.injEq, Prod.mk.injEq, reduceCtorEq] at h
  · obtain ⟨rfl, rfl⟩ := h
    exact ⟨by simp [Expr.tokens], hr.noScope⟩
  · obtain ⟨rfl, rfl⟩ := h
    exact ⟨by simp [Expr.tokens], noScope_p _ (by decide)⟩
  · obtain ⟨rfl, rfl⟩ := h
    exact ⟨by simp [Expr.tokens, word, Path.tokens], noScope_p _ (by decide)⟩
  · obtain ⟨rfl, rfl⟩ := h
    exact ⟨by simp [Expr.tokens], noScope_p _ (by decide)⟩
  · obtain ⟨rfl, rfl⟩ := h
    exact ⟨by simp [Expr.tokens], noScope_p _ (by decide)⟩

/-- Expressions which begin with a name agree in it. -/
theorem first_unique {e e' : Expr} {r r' : List Tok} {q q' : Path} {u u' : List Tok} (h1 : e.first r = some (q, u))
    (h2 : e'.first r' = some (q', u')) (hr : Stop r) (hr' : Stop r') (h : e.tokens ++ r = e'.tokens ++ r') :
    q = q' ∧ u = u' := by
  obtain ⟨a1, a2⟩ := Expr.first_tokens h1 hr
  obtain ⟨b1, b2⟩ := Expr.first_tokens h2 hr'
  rw [a1, b1] at h
  exact path_unique q q' a2 b2 h

/-- Stop tokens are not the ones which come after a name. -/
theorem Stop.ne {r : List Tok} (h : Stop r) (u : List Tok) :
    r ≠ p "(" :: u ∧ r ≠ p "->" :: u ∧ r ≠ p "[" :: u ∧ r ≠ p "<" :: u := by
  cases h <;> simp [p, str]

theorem first_not_end (e : Expr) {t : Tok} (ht : t = p ")" ∨ t = p "}") {es : List Expr} {r r' : List Tok} :
    Expr.listTokens [] ++ t :: r ≠ Expr.listTokens (e :: es) ++ r' := by
  rcases ht with rfl | rfl <;> cases e <;> simp [Expr.listTokens, Expr.tokens, Path.tokens, p, kw, path, str]

theorem more_stop (es : List Expr) {t : Tok} (ht : t = p ")" ∨ t = p "}") {r : List Tok} :
    Stop (Expr.moreTokens es ++ t :: r) := by
  cases es with
  | nil => rcases ht with rfl | rfl <;> constructor
  | cons e es => simpa [Expr.moreTokens] using Stop.comma

mutual
theorem expr_unique (e e' : Expr) {r r' : List Tok} (hr : Stop r) (hr' : Stop r')
    (h : e.tokens ++ r = e'.tokens ++ r') : e = e' ∧ r = r' := by
  match e with
  | .text s v =>
    cases e' <;> simp [Expr.tokens, Path.tokens, p, kw, path] at h
    simp [h]
  | .staticCast t x =>
    cases e' with
    | staticCast t' x' =>
      simp only [Expr.tokens, List.append_assoc, List.cons_append, List.nil_append, List.cons.injEq, true_and] at h
      obtain ⟨ht, h2⟩ := path_unique t t' (noScope_p _ (by decide)) (noScope_p _ (by decide)) h
      simp only [List.cons.injEq, true_and] at h2
      obtain ⟨hx, h3⟩ := expr_unique x x' .paren .paren h2
      subst ht hx
      simpa using h3
    | _ => simp [Expr.tokens, Path.tokens, p, kw, path] at h
  | .braces es =>
    cases e' with
    | braces es' =>
      simp only [Expr.tokens, List.append_assoc, List.cons_append, List.nil_append, List.cons.injEq, true_and] at h
      obtain ⟨he, h2⟩ := list_unique es es' (Or.inr rfl) (Or.inr rfl) h
      subst he
      simpa using h2
    | _ => simp [Expr.tokens, Path.tokens, p, kw, path] at h
  | .name q =>
    have hf : (Expr.name q).first r = some (q, r) := rfl
    cases e' with
    | name q' =>
      obtain ⟨rfl, rfl⟩ := first_unique hf (e' := .name q') rfl hr hr' h
      exact ⟨rfl, rfl⟩
    | call f args => exact absurd (first_unique hf (e' := .call f args) rfl hr hr' h).2 (by simpa using (hr.ne _).1)
    | method x m args => exact absurd (first_unique hf (e' := .method x m args) rfl hr hr' h).2 (by simpa using (hr.ne _).2.1)
    | index a i => exact absurd (first_unique hf (e' := .index a i) rfl hr hr' h).2 (by simpa using (hr.ne _).2.2.1)
    | pointerCast t x => exact absurd (first_unique hf (e' := .pointerCast t x) rfl hr hr' h).2 (by simpa using (hr.ne _).2.2.2)
    | _ => simp [Expr.tokens, Path.tokens, p, kw, path] at h
  | .call f args =>
    have hf : (Expr.call f args).first r = some (f, _) := rfl
    cases e' with
    | name q' => exact absurd (first_unique hf (e' := .name q') rfl hr hr' h).2.symm (by simpa using (hr'.ne _).1)
    | call f' args' =>
      obtain ⟨hq, h1⟩ := first_unique hf (e' := .call f' args') rfl hr hr' h
      simp only [List.append_assoc, List.cons_append, List.nil_append, List.cons.injEq, true_and] at h1
      obtain ⟨ha, h2⟩ := list_unique args args' (Or.inl rfl) (Or.inl rfl) h1
      subst hq ha
      simpa using h2
    | method x m args' => have := (first_unique hf (e' := .method x m args') rfl hr hr' h).2; simp [p, str] at this
    | index a i => have := (first_unique hf (e' := .index a i) rfl hr hr' h).2; simp [p, str] at this
    | pointerCast t x => have := (first_unique hf (e' := .pointerCast t x) rfl hr hr' h).2; simp [p, str] at this
    | _ => simp [Expr.tokens, Path.tokens, p, kw, path] at h
  | .method x m args =>
    have hf : (Expr.method x m args).first r = some (word x, _) := rfl
    cases e' with
    | name q' => exact absurd (first_unique hf (e' := .name q') rfl hr hr' h).2.symm (by simpa using (hr'.ne _).2.1)
    | call f' args' => have := (first_unique hf (e' := .call f' args') rfl hr hr' h).2; simp [p, str] at this
    | method x' m' args' =>
      obtain ⟨hq, h1⟩ := first_unique hf (e' := .method x' m' args') rfl hr hr' h
      simp only [word, Path.mk.injEq, and_true] at hq
      simp only [List.append_assoc, List.cons_append, List.nil_append, List.cons.injEq, true_and, Tok.word.injEq] at h1
      obtain ⟨ha, h2⟩ := list_unique args args' (Or.inl rfl) (Or.inl rfl) h1.2
      obtain ⟨hm, -⟩ := h1
      subst hq ha hm
      simpa using h2
    | index a i => have := (first_unique hf (e' := .index a i) rfl hr hr' h).2; simp [p, str] at this
    | pointerCast t x => have := (first_unique hf (e' := .pointerCast t x) rfl hr hr' h).2; simp [p, str] at this
    | _ => simp [Expr.tokens, Path.tokens, p, kw, path] at h
  | .index a i =>
    have hf : (Expr.index a i).first r = some (a, _) := rfl
    cases e' with
    | name q' => exact absurd (first_unique hf (e' := .name q') rfl hr hr' h).2.symm (by simpa using (hr'.ne _).2.2.1)
    | call f' args' => have := (first_unique hf (e' := .call f' args') rfl hr hr' h).2; simp [p, str] at this
    | method x' m' args' => have := (first_unique hf (e' := .method x' m' args') rfl hr hr' h).2; simp [p, str] at this
    | index a' i' =>
      obtain ⟨hq, h1⟩ := first_unique hf (e' := .index a' i') rfl hr hr' h
      simp only [List.append_assoc, List.cons_append, List.nil_append, List.cons.injEq, true_and] at h1
      obtain ⟨hi, h2⟩ := expr_unique i i' .bracket .bracket h1
      subst hq hi
      simpa using h2
    | pointerCast t x => have := (first_unique hf (e' := .pointerCast t x) rfl hr hr' h).2; simp [p, str] at this
    | _ => simp [Expr.tokens, Path.tokens, p, kw, path] at h
  | .pointerCast t x =>
    have hf : (Expr.pointerCast t x).first r = some (path "std" ["static_pointer_cast"], _) := rfl
    cases e' with
    | name q' => exact absurd (first_unique hf (e' := .name q') rfl hr hr' h).2.symm (by simpa using (hr'.ne _).2.2.2)
    | call f' args' => have := (first_unique hf (e' := .call f' args') rfl hr hr' h).2; simp [p, str] at this
    | method x' m' args' => have := (first_unique hf (e' := .method x' m' args') rfl hr hr' h).2; simp [p, str] at this
    | index a' i' => have := (first_unique hf (e' := .index a' i') rfl hr hr' h).2; simp [p, str] at this
    | pointerCast t' x' =>
      obtain ⟨-, h1⟩ := first_unique hf (e' := .pointerCast t' x') rfl hr hr' h
      simp only [List.append_assoc, List.cons_append, List.nil_append, List.cons.injEq, true_and] at h1
      obtain ⟨ht, h2⟩ := path_unique t t' (noScope_p _ (by decide)) (noScope_p _ (by decide)) h1
      simp only [List.cons.injEq, true_and] at h2
      obtain ⟨hx, h3⟩ := expr_unique x x' .paren .paren h2
      subst ht hx
      simpa using h3
    | _ => simp [Expr.tokens, Path.tokens, p, kw, path] at h
theorem list_unique (es es' : List Expr) {t t' : Tok} {r r' : List Tok} (ht : t = p ")" ∨ t = p "}")
    (ht' : t' = p ")" ∨ t' = p "}") (h : Expr.listTokens es ++ t :: r = Expr.listTokens es' ++ t' :: r') :
    es = es' ∧ t :: r = t' :: r' := by
  match es, es' with
  | [], [] => exact ⟨rfl, h⟩
  | [], e' :: es' => exact absurd h (first_not_end e' ht)
  | e :: es, [] => exact absurd h.symm (first_not_end e ht')
  | e :: es, e' :: es' =>
    simp only [Expr.listTokens, List.append_assoc] at h
    obtain ⟨he, h2⟩ := expr_unique e e' (more_stop es ht) (more_stop es' ht') h
    obtain ⟨hes, h3⟩ := more_unique es es' ht ht' h2
    subst he hes
    exact ⟨rfl, h3⟩
theorem more_unique (es es' : List Expr) {t t' : Tok} {r r' : List Tok} (ht : t = p ")" ∨ t = p "}")
    (ht' : t' = p ")" ∨ t' = p "}") (h : Expr.moreTokens es ++ t :: r = Expr.moreTokens es' ++ t' :: r') :
    es = es' ∧ t :: r = t' :: r' := by
  match es, es' with
  | [], [] => exact ⟨rfl, h⟩
  | [], e' :: es' => rcases ht with rfl | rfl <;> simp [Expr.moreTokens, p, str] at h
  | e :: es, [] => rcases ht' with rfl | rfl <;> simp [Expr.moreTokens, p, str] at h
  | e :: es, e' :: es' =>
    simp only [Expr.moreTokens, List.append_assoc, List.cons_append, List.nil_append, List.cons.injEq, true_and] at h
    obtain ⟨he, h2⟩ := expr_unique e e' (more_stop es ht) (more_stop es' ht') h
    obtain ⟨hes, h3⟩ := more_unique es es' ht ht' h2
    subst he hes
    exact ⟨rfl, h3⟩
end

/-! ## Statements and declarations -/

theorem stmt_unique (s s' : Stmt) {r r' : List Tok} (h : s.tokens ++ r = s'.tokens ++ r') : s = s' ∧ r = r' := by
  cases s with
  | expr e =>
    cases s' with
    | expr e' =>
      simp only [Stmt.tokens, List.append_assoc, List.cons_append, List.nil_append] at h
      obtain ⟨rfl, h2⟩ := expr_unique e e' .semi .semi h
      simpa using h2
    | auto x e' => cases e <;> simp [Stmt.tokens, Expr.tokens, Path.tokens, p, kw, path, str] at h
  | auto x e =>
    cases s' with
    | expr e' => cases e' <;> simp [Stmt.tokens, Expr.tokens, Path.tokens, p, kw, path, str] at h
    | auto x' e' =>
      simp only [Stmt.tokens, List.append_assoc, List.cons_append, List.nil_append, List.cons.injEq, Tok.word.injEq,
        true_and] at h
      obtain ⟨rfl, h1⟩ := h
      obtain ⟨rfl, h2⟩ := expr_unique e e' .semi .semi h1
      simpa using h2

theorem stmt_first (s : Stmt) (r r' : List Tok) : s.tokens ++ r ≠ p "}" :: r' := by
  cases s with
  | expr e => cases e <;> simp [Stmt.tokens, Expr.tokens, Path.tokens, p, kw, path, str]
  | auto x e => simp [Stmt.tokens, p, kw]

theorem body_unique (b b' : List Stmt) {r r' : List Tok}
    (h : b.flatMap Stmt.tokens ++ p "}" :: r = b'.flatMap Stmt.tokens ++ p "}" :: r') : b = b' ∧ r = r' := by
  induction b generalizing b' with
  | nil =>
    cases b' with
    | nil => simpa using h
    | cons s b' =>
      simp only [List.flatMap_cons, List.append_assoc, List.flatMap_nil, List.nil_append] at h
      exact absurd h.symm (stmt_first s _ _)
  | cons s b ih =>
    cases b' with
    | nil =>
      simp only [List.flatMap_cons, List.append_assoc, List.flatMap_nil, List.nil_append] at h
      exact absurd h (stmt_first s _ _)
    | cons s' b' =>
      simp only [List.flatMap_cons, List.append_assoc] at h
      obtain ⟨rfl, h1⟩ := stmt_unique s s' h
      obtain ⟨rfl, h2⟩ := ih b' h1
      exact ⟨rfl, h2⟩

/-- Lists of single tokens with commas. -/
theorem singles_unique {f : Str → Tok} (hf : ∀ a b, f a = f b → a = b) (hc : ∀ a s, f a ≠ p s) (vs vs' : List Str)
    {r r' : List Tok}
    (h : commaTokens (vs.map fun v => [f v]) ++ p "}" :: r = commaTokens (vs'.map fun v => [f v]) ++ p "}" :: r') :
    vs = vs' ∧ r = r' := by
  induction vs generalizing vs' with
  | nil =>
    match vs' with
    | [] => simpa [commaTokens] using h
    | [a] => simp only [List.map_cons, List.map_nil, commaTokens, List.nil_append, List.cons_append, List.cons.injEq] at h; exact absurd h.1.symm (hc _ _)
    | a :: b :: c => simp only [List.map_cons, List.map_nil, commaTokens, List.nil_append, List.cons_append, List.cons.injEq] at h; exact absurd h.1.symm (hc _ _)
  | cons v vs ih =>
    match vs, vs' with
    | [], [] => simp only [List.map_cons, List.map_nil, commaTokens, List.nil_append, List.cons_append, List.cons.injEq] at h; exact absurd h.1 (hc _ _)
    | _ :: _, [] => simp only [List.map_cons, List.map_nil, commaTokens, List.nil_append, List.cons_append, List.cons.injEq] at h; exact absurd h.1 (hc _ _)
    | [], [a] =>
      simp only [List.map_cons, List.map_nil, commaTokens, List.nil_append, List.cons_append, List.cons.injEq, true_and] at h
      exact ⟨by rw [hf _ _ h.1], h.2⟩
    | [], a :: b :: c =>
      simp only [List.map_cons, List.map_nil, commaTokens, List.nil_append, List.cons_append, List.cons.injEq] at h
      simp [p, str] at h
    | w :: ws, [a] =>
      simp only [List.map_cons, List.map_nil, commaTokens, List.nil_append, List.cons_append, List.cons.injEq] at h
      simp [p, str] at h
    | w :: ws, a :: b :: c =>
      simp only [List.map_cons, commaTokens, List.nil_append, List.cons_append, List.cons.injEq, true_and] at h
      obtain ⟨hw, h2⟩ := ih (b :: c) h.2
      rw [hf _ _ h.1, hw]
      exact ⟨rfl, h2⟩

theorem param_unique (q q' : Param) {r r' : List Tok} (h : q.tokens ++ r = q'.tokens ++ r') : q = q' ∧ r = r' := by
  obtain ⟨b, t, n⟩ := q
  obtain ⟨b', t', n'⟩ := q'
  cases b <;> cases b' <;>
    simp only [Param.tokens, Bool.false_eq_true, if_true, if_false, List.append_assoc, List.cons_append, List.nil_append,
      List.append_cancel_left_eq, List.cons.injEq, true_and] at h
  · obtain ⟨ht, h2⟩ := path_unique t t' (noScope_p _ (by decide)) (noScope_p _ (by decide)) h
    simp only [List.cons.injEq, true_and, Tok.word.injEq] at h2
    simp [ht, h2]
  · simp [path, Path.tokens, kw] at h
  · simp [path, Path.tokens, kw] at h
  · obtain ⟨ht, h2⟩ := path_unique t t' (noScope_p _ (by decide)) (noScope_p _ (by decide)) h
    simp only [List.cons.injEq, true_and, Tok.word.injEq] at h2
    simp [ht, h2]

theorem param_first (q : Param) (r r' : List Tok) (s : String) : q.tokens ++ r ≠ p s :: r' := by
  obtain ⟨b, t, n⟩ := q
  cases b <;> simp [Param.tokens, path, Path.tokens, kw, p]

theorem params_unique (qs qs' : List Param) {r r' : List Tok}
    (h : commaTokens (qs.map Param.tokens) ++ p ")" :: r = commaTokens (qs'.map Param.tokens) ++ p ")" :: r') :
    qs = qs' ∧ r = r' := by
  induction qs generalizing qs' with
  | nil =>
    match qs' with
    | [] => simpa [commaTokens] using h
    | [a] => exact absurd h.symm (param_first a _ _ _)
    | a :: b :: c =>
      simp only [List.map_cons, List.map_nil, commaTokens, List.nil_append, List.append_assoc] at h
      exact absurd h.symm (param_first a _ _ _)
  | cons v vs ih =>
    match vs, qs' with
    | [], [] => exact absurd h (param_first v _ _ _)
    | w :: ws, [] =>
      simp only [List.map_cons, List.map_nil, commaTokens, List.nil_append, List.append_assoc] at h
      exact absurd h (param_first v _ _ _)
    | [], [a] =>
      simp only [List.map_cons, List.map_nil, commaTokens] at h
      obtain ⟨rfl, h2⟩ := param_unique v a h
      exact ⟨rfl, by simpa using h2⟩
    | [], a :: b :: c =>
      simp only [List.map_cons, List.map_nil, commaTokens, List.append_assoc] at h
      have := (param_unique v a h).2
      simp [p, str] at this
    | w :: ws, [a] =>
      simp only [List.map_cons, List.map_nil, commaTokens, List.append_assoc] at h
      have := (param_unique v a h).2
      simp [p, str] at this
    | w :: ws, a :: b :: c =>
      simp only [List.map_cons, commaTokens, List.append_assoc, List.cons_append] at h
      obtain ⟨rfl, h2⟩ := param_unique v a h
      simp only [List.cons.injEq, true_and] at h2
      obtain ⟨hw, h3⟩ := ih (b :: c) h2
      rw [hw]
      exact ⟨rfl, h3⟩

/-! ### Numbers -/

theorem digits_isDigit (n : Nat) : ∀ c ∈ (toString n).toList, c.isDigit = true := by
  intro c hc
  rw [show toString n = Nat.repr n from rfl, Nat.toList_repr] at hc
  exact Nat.isDigit_of_mem_toDigits (by decide) (by decide) hc

theorem ascii_map {a b : List Char} (ha : ∀ c ∈ a, c.isDigit = true) (hb : ∀ c ∈ b, c.isDigit = true)
    (h : a.map (fun c => (BitVec.ofNat 8 c.toNat : Byte)) = b.map fun c => BitVec.ofNat 8 c.toNat) : a = b := by
  induction a generalizing b with
  | nil => cases b <;> simp_all
  | cons x a ih =>
    cases b with
    | nil => simp at h
    | cons y b =>
      simp only [List.map_cons, List.cons.injEq] at h
      rw [ih (fun c hc => ha c (by simp [hc])) (fun c hc => hb c (by simp [hc])) h.2]
      have h1 := ha x (by simp)
      have h2 := hb y (by simp)
      simp only [Char.isDigit, Bool.and_eq_true, decide_eq_true_eq] at h1 h2
      have b1 : x.toNat < 256 := by
        have := h1.2
        simp only [UInt32.le_iff_toNat_le] at this
        have e : x.toNat = x.val.toNat := rfl
        have : x.val.toNat ≤ 57 := this
        omega
      have b2 : y.toNat < 256 := by
        have := h2.2
        simp only [UInt32.le_iff_toNat_le] at this
        have e : y.toNat = y.val.toNat := rfl
        have : y.val.toNat ≤ 57 := this
        omega
      have h3 := congrArg BitVec.toNat h.1
      simp only [BitVec.toNat_ofNat] at h3
      rw [Nat.mod_eq_of_lt (by omega), Nat.mod_eq_of_lt (by omega)] at h3
      rw [Char.toNat_inj.1 h3]

theorem number_unique {a b : Nat} (h : str (toString a) = str (toString b)) : a = b := by
  have := ascii_map (digits_isDigit a) (digits_isDigit b) h
  exact Nat.repr_inj.1 (String.toList_inj.1 this)

theorem decl_unique (d d' : Decl) {r r' : List Tok} (h : d.tokens ++ r = d'.tokens ++ r') : d = d' ∧ r = r' := by
  cases d <;> cases d' <;>
    simp only [Decl.tokens, List.append_assoc, List.cons_append, List.nil_append, List.cons.injEq, Tok.word.injEq,
      true_and, List.append_cancel_left_eq, Tok.number.injEq] at h
  case enumClass.enumClass =>
    obtain ⟨rfl, h⟩ := h
    obtain ⟨rfl, h2⟩ := singles_unique (f := Tok.word) (by simp) (by simp [p]) _ _ h
    simpa using h2
  case array.array =>
    obtain ⟨hn, rfl, h⟩ := h
    obtain ⟨rfl, h2⟩ := singles_unique (f := fun v => Tok.text v true) (by simp) (by simp [p]) _ _ h
    rw [number_unique hn]
    simpa using h2
  case function.function =>
    obtain ⟨rfl, h⟩ := h
    obtain ⟨rfl, h2⟩ := params_unique _ _ h
    simp only [List.cons.injEq, true_and] at h2
    obtain ⟨rfl, h3⟩ := body_unique _ _ h2
    simpa using h3
  all_goals simp [kw, str] at h

/-- A text has at most one reading. -/
theorem Reads.unique {text : Str} {a b : List Decl} (ha : Reads text a) (hb : Reads text b) : a = b := by
  have h := Lexes.unique ha hb
  clear ha hb
  induction a generalizing b with
  | nil =>
    cases b with
    | nil => rfl
    | cons d b => cases d <;> simp [Decl.tokens] at h
  | cons d a ih =>
    cases b with
    | nil => cases d <;> simp [Decl.tokens] at h
    | cons d' b =>
      simp only [List.flatMap_cons] at h
      obtain ⟨rfl, h2⟩ := decl_unique d d' h
      rw [ih h2]

end Verif.Cpp
