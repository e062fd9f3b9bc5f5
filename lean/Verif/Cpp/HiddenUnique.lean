import Verif.Cpp.HiddenSpec
import Verif.Cpp.StubUnique

/-!
# The resolvers of introspection have at most one reading
-/
namespace Verif.Cpp.Code
open Verif.Value Verif.Text Verif.Cpp

theorem noScope_gt (r : List Tok) : NoScope (p ">" :: r) := noScope_p _ (by decide)

theorem template_unique (a b : List Path) {r r' : List Tok} (h : templateTokens a ++ p "(" :: r = templateTokens b ++ p "(" :: r') :
    a = b ∧ r = r' := by
  have h1 := parseTemplate_ok a r
  have h2 := parseTemplate_ok b r'
  rw [h, h2] at h1
  simp only [Option.some.injEq, Prod.mk.injEq, List.cons.injEq, true_and] at h1
  exact ⟨h1.1.symm, h1.2.symm⟩

theorem schemaMethod_unique (a b : SchemaMethod) {r r' : List Tok} (h : a.tokens ++ r = b.tokens ++ r') : a = b ∧ r = r' := by
  obtain ⟨a1, a2, a3, a4, a5, a6⟩ := a
  obtain ⟨b1, b2, b3, b4, b5, b6⟩ := b
  unfold SchemaMethod.tokens headTokens at h
  simp only [List.append_assoc, List.cons_append, List.nil_append] at h
  have k0 := List.append_cancel_left h
  simp only [List.cons.injEq, true_and] at k0
  have k1 := List.append_cancel_left k0
  simp only [List.cons.injEq, true_and, Tok.word.injEq] at k1
  obtain ⟨rfl, rfl, k2⟩ := k1
  have k3 := List.append_cancel_left k2
  simp only [List.cons.injEq, true_and] at k3
  have k4 := List.append_cancel_left k3
  simp only [List.cons.injEq, true_and] at k4
  obtain ⟨rfl, k5⟩ := path_unique _ _ (noScope_gt _) (noScope_gt _) k4
  simp only [List.cons.injEq, true_and] at k5
  have k6 := List.append_cancel_left k5
  simp only [List.cons.injEq, true_and] at k6
  obtain ⟨rfl, k7⟩ := path_unique _ _ (noScope_gt _) (noScope_gt _) k6
  simp only [List.cons.injEq, true_and] at k7
  have k8 := List.append_cancel_left k7
  simp only [List.cons.injEq, true_and] at k8
  obtain ⟨rfl, k9⟩ := path_unique _ _ (noScope_gt _) (noScope_gt _) k8
  simp only [List.cons.injEq, true_and, Tok.word.injEq] at k9
  obtain ⟨rfl, k10⟩ := k9
  exact ⟨rfl, List.append_cancel_left k10⟩

theorem typeMethod_unique (a b : TypeMethod) (h : a.tokens = b.tokens) : a = b := by
  obtain ⟨a1, a2, a3, a4, a5, a6, a7, a8, a9, a10, a11, a12, a13, a14, a15, a16, a17⟩ := a
  obtain ⟨b1, b2, b3, b4, b5, b6, b7, b8, b9, b10, b11, b12, b13, b14, b15, b16, b17⟩ := b
  unfold TypeMethod.tokens headTokens at h
  simp only [List.append_assoc, List.cons_append, List.nil_append] at h
  have k0 := List.append_cancel_left h
  simp only [List.cons.injEq, true_and] at k0
  have k1 := List.append_cancel_left k0
  simp only [List.cons.injEq, true_and, Tok.word.injEq] at k1
  obtain ⟨rfl, rfl, k2⟩ := k1
  have k3 := List.append_cancel_left k2
  simp only [List.cons.injEq, true_and, Tok.word.injEq] at k3
  obtain ⟨rfl, k4⟩ := k3
  have k5 := List.append_cancel_left k4
  simp only [List.cons.injEq, true_and] at k5
  obtain ⟨rfl, k6⟩ := path_unique _ _ (noScope_gt _) (noScope_gt _) k5
  simp only [List.cons.injEq, true_and, Tok.word.injEq, Tok.text.injEq, and_true] at k6
  obtain ⟨rfl, rfl, rfl, rfl, rfl, k7⟩ := k6
  have k8 := List.append_cancel_left k7
  simp only [List.cons.injEq, true_and] at k8
  obtain ⟨rfl, k9⟩ := path_unique _ _ (noScope_gt _) (noScope_gt _) k8
  simp only [List.cons.injEq, true_and, Tok.word.injEq] at k9
  obtain ⟨rfl, rfl, k10⟩ := k9
  have k11 := List.append_cancel_left k10
  simp only [List.cons.injEq, true_and] at k11
  obtain ⟨rfl, k12⟩ := path_unique _ _ (noScope_gt _) (noScope_gt _) k11
  simp only [List.cons.injEq, true_and, Tok.word.injEq] at k12
  obtain ⟨rfl, k13⟩ := k12
  have k14 := List.append_cancel_left k13
  simp only [List.cons.injEq, true_and] at k14
  obtain ⟨rfl, k15⟩ := path_unique _ _ (noScope_gt _) (noScope_gt _) k14
  simp only [List.cons.injEq, true_and] at k15
  obtain ⟨rfl, k16⟩ := template_unique _ _ k15
  simp only [List.cons.injEq, Tok.word.injEq] at k16
  obtain ⟨rfl, -⟩ := k16
  rfl

theorem ReadsHidden.unique {text : Str} {a a' : SchemaMethod} {b b' : TypeMethod} (h : ReadsHidden text a b)
    (h' : ReadsHidden text a' b') : a = a' ∧ b = b' := by
  obtain ⟨e, e'⟩ := schemaMethod_unique a a' (Lexes.unique h h')
  exact ⟨e, typeMethod_unique _ _ e'⟩

/-! ## The whole -/

/-- What `resolve_schema` computes is not one of the other expressions. -/
theorem parseExpr_cast (n : Nat) (u : Path) (r : List Tok) :
    parseExpr n ((path "std" ["static_pointer_cast"]).tokens ++ p "<" :: (u.tokens ++ p ">" :: p "(" :: r)) = none := by
  cases n with
  | zero => simp [parseExpr]
  | succ n =>
    rw [parseExpr_path n _ (noScope_p _ (by decide)), pt_ne (by decide)]
    simp only [eat_cons, parsePath_ok u (noScope_gt _), Option.bind_some]
    rw [pt_ne (by decide)]
    rfl

theorem parseExpr_converted (n : Nat) (t u : Path) (r : List Tok) :
    parseExpr n ((path "service" ["ModifiedResult"]).tokens ++ p "<" :: (t.tokens ++ p ">" :: p "::" :: .word (str "convert") :: p "(" ::
      ((path "std" ["static_pointer_cast"]).tokens ++ p "<" :: (u.tokens ++ p ">" :: p "(" :: r)))) = none := by
  cases n with
  | zero => simp [parseExpr]
  | succ n =>
    rw [parseExpr_path n _ (noScope_p _ (by decide)), pt_ne (by decide)]
    simp only [eat_cons, parsePath_ok t (noScope_gt _), Option.bind_some]
    have e := parseTemplate_ok [] ((path "std" ["static_pointer_cast"]).tokens ++ p "<" :: (u.tokens ++ p ">" :: p "(" :: r))
    simp only [templateTokens, if_true, List.nil_append] at e
    rw [e]
    simp only [Option.bind_some, eat_cons]
    cases n with
    | zero => simp [parseArgs]
    | succ n =>
      have h1 : eat (p ")") ((path "std" ["static_pointer_cast"]).tokens ++ p "<" :: (u.tokens ++ p ">" :: p "(" :: r)) = none := by
        simp [path, Path.tokens]
      simp only [parseArgs, h1, parseExpr_cast, Option.bind_none, Option.map_none]

/-- No method is `resolve_schema`. -/
theorem method_schema (m : Method) (a : SchemaMethod) (r r' : List Tok) : m.tokens ++ r ≠ a.tokens ++ r' := by
  intro h
  obtain ⟨a1, a2, a3, a4, a5, a6⟩ := a
  obtain ⟨b1, b2, b3⟩ := m
  unfold SchemaMethod.tokens headTokens Method.tokens at h
  simp only [List.append_assoc, List.cons_append, List.nil_append] at h
  have k0 := List.append_cancel_left h
  simp only [List.cons.injEq, true_and] at k0
  have k1 := List.append_cancel_left k0
  simp only [List.cons.injEq, true_and, Tok.word.injEq] at k1
  obtain ⟨-, -, k2⟩ := k1
  have k3 := List.append_cancel_left k2
  simp only [List.cons.injEq, true_and] at k3
  have h1 := parseBody_ok b3 r (Stmt.listSize b3) (Nat.le_refl _)
  rw [k3] at h1
  generalize Stmt.listSize b3 = n at h1
  cases n with
  | zero => simp [parseBody] at h1
  | succ n =>
    have h2 : ∀ r, eat (p "}") (kw "return" :: r) = none := fun r => by simp
    rw [parseBody, h2] at h1
    cases n with
    | zero => simp [parseStmt] at h1
    | succ n => simp [parseStmt, parseExpr_converted] at h1

theorem hidden_first (a : SchemaMethod) : ∃ u, a.tokens = .word (str "std") :: u := by
  unfold SchemaMethod.tokens headTokens
  simp only [path, Path.tokens, List.append_assoc, List.cons_append]
  exact ⟨_, rfl⟩

theorem definition_schema (d : Definition) (a : SchemaMethod) (r r' : List Tok) : d.tokens ++ r ≠ a.tokens ++ r' := by
  cases d with
  | resolver m => exact method_schema m a r r'
  | stub s =>
    intro h
    obtain ⟨u, hu⟩ := stub_first s
    obtain ⟨v, hv⟩ := hidden_first a
    rw [Definition.tokens, hu, hv, List.cons_append, List.cons_append, List.cons.injEq, Tok.word.injEq] at h
    exact absurd h.1 (by decide)

theorem ReadsQuery.unique {text : Str} {k k' : Constructor} {ds ds' : List Definition} {a a' : SchemaMethod} {b b' : TypeMethod}
    (h : ReadsQuery text k ds a b) (h' : ReadsQuery text k' ds' a' b') : k = k' ∧ ds = ds' ∧ a = a' ∧ b = b' := by
  have h0 := Lexes.unique h h'
  simp only [List.append_assoc] at h0
  obtain ⟨e, h1⟩ := constructor_unique k k' h0
  obtain ⟨e2, h2⟩ := list_unique (f := Definition.tokens) (stop := fun r => ∃ (a : SchemaMethod) (u : List Tok), r = a.tokens ++ u)
    (fun a b _ _ => definition_unique a b)
    (by
      rintro d u ⟨a, v, e⟩
      exact definition_schema d a u v e)
    ds ds' ⟨a, _, rfl⟩ ⟨a', _, rfl⟩ h1
  obtain ⟨e3, h3⟩ := schemaMethod_unique a a' h2
  exact ⟨e, e2, e3, typeMethod_unique _ _ h3⟩

end Verif.Cpp.Code
