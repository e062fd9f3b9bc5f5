import Verif.Cpp.ClassSpec
import Verif.Cpp.TypeUnique

/-!
# The declarations of classes have at most one reading
-/
namespace Verif.Cpp.Code
open Verif.Value Verif.Text Verif.Cpp

theorem typeEnd_ref (r : List Tok) : TypeEnd (p "&&" :: r) := ⟨noScope_p _ (by decide), fun u e => by simp [p, str] at e⟩

/-- Lists of which the elements are recognised by how they begin. -/
theorem list_unique {α : Type} {f : α → List Tok} {stop : List Tok → Prop} (hf : ∀ a b r r', f a ++ r = f b ++ r' → a = b ∧ r = r')
    (hb : ∀ a r, ¬ stop (f a ++ r)) (as bs : List α) {r r' : List Tok} (hr : stop r) (hr' : stop r')
    (h : as.flatMap f ++ r = bs.flatMap f ++ r') : as = bs ∧ r = r' := by
  induction as generalizing bs with
  | nil =>
    cases bs with
    | nil => exact ⟨rfl, h⟩
    | cons b bs =>
      rw [List.flatMap_nil, List.nil_append, List.flatMap_cons, List.append_assoc] at h
      exact absurd (h ▸ hr) (hb b _)
  | cons a as ih =>
    cases bs with
    | nil =>
      rw [List.flatMap_nil, List.nil_append, List.flatMap_cons, List.append_assoc] at h
      exact absurd (h ▸ hr') (hb a _)
    | cons b bs =>
      rw [List.flatMap_cons, List.append_assoc, List.flatMap_cons, List.append_assoc] at h
      obtain ⟨rfl, h1⟩ := hf _ _ _ _ h
      obtain ⟨rfl, h2⟩ := ih bs h1
      exact ⟨rfl, h2⟩

theorem accessor_unique (a b : Accessor) {r r' : List Tok} (h : a.tokens ++ r = b.tokens ++ r') : a = b ∧ r = r' := by
  obtain ⟨a1, a2, a3, a4⟩ := a
  obtain ⟨b1, b2, b3, b4⟩ := b
  unfold Accessor.tokens at h
  simp only [List.append_assoc, List.cons_append, List.nil_append, List.cons.injEq, true_and] at h
  have k0 := List.append_cancel_left h
  simp only [List.cons.injEq, true_and] at k0
  obtain ⟨rfl, k1⟩ := ctype_unique a1 b1 (typeEnd_close _) (typeEnd_close _) k0
  simp only [List.cons.injEq, true_and, Tok.word.injEq] at k1
  obtain ⟨rfl, k2⟩ := k1
  have k3 := List.append_cancel_left k2
  simp only [List.cons.injEq, true_and] at k3
  obtain ⟨rfl, k4⟩ := list_unique (stop := fun r => ∃ u, r = p ")" :: u) (f := Member.argumentTokens) (by
      intro m m' u u' e
      obtain ⟨m1, m2⟩ := m
      obtain ⟨m1', m2'⟩ := m'
      unfold Member.argumentTokens at e
      simp only [List.append_assoc, List.cons_append, List.nil_append, List.cons.injEq, true_and] at e
      obtain ⟨rfl, e1⟩ := ctype_unique m1 m1' (typeEnd_ref _) (typeEnd_ref _) e
      simp only [List.cons.injEq, true_and, Tok.word.injEq] at e1
      obtain ⟨rfl, e2⟩ := e1
      exact ⟨rfl, e2⟩)
    (by
      rintro m u ⟨v, e⟩
      simp [Member.argumentTokens, p, str] at e)
    a3 b3 ⟨_, rfl⟩ ⟨_, rfl⟩ k3
  simp only [List.cons.injEq, true_and] at k4
  cases a4 <;> cases b4 <;> simp [Ending.tokens, p, str] at k4 ⊢ <;> exact k4

theorem accessor_first (a : Accessor) : ∃ u, a.tokens = kw "virtual" :: u := by
  unfold Accessor.tokens
  simp only [List.append_assoc, List.cons_append, List.nil_append]
  exact ⟨_, rfl⟩

theorem resolver_unique (a b : Str) {r r' : List Tok} (h : resolverTokens a ++ r = resolverTokens b ++ r') : a = b ∧ r = r' := by
  unfold resolverTokens at h
  simp only [List.append_assoc, List.cons_append, List.nil_append] at h
  have k0 := List.append_cancel_left h
  simp only [List.cons.injEq, true_and] at k0
  have k1 := List.append_cancel_left k0
  simp only [List.cons.injEq, true_and, Tok.word.injEq] at k1
  obtain ⟨rfl, k2⟩ := k1
  have k3 := List.append_cancel_left k2
  simp only [List.cons.injEq, true_and] at k3
  exact ⟨rfl, k3⟩

theorem resolver_first (a : Str) : ∃ u, resolverTokens a = .word (str "std") :: p "::" :: .word (str "future") :: u := by
  unfold resolverTokens
  simp only [path, Path.tokens, List.map_cons, List.map_nil, List.flatMap_cons, List.flatMap_nil, List.append_assoc, List.cons_append,
    List.nil_append]
  exact ⟨_, rfl⟩

/-- How the end of a class begins. -/
def schemaTokens (schema : Bool) : List Tok :=
  if schema then (path "std" ["shared_ptr"]).tokens ++ [p "<"] ++ (path "schema" ["Schema"]).tokens ++ [p ">", .word (str "_schema"), p ";"]
    else []

def NotResolver (r : List Tok) : Prop := ∀ u, r ≠ .word (str "std") :: p "::" :: .word (str "future") :: u

theorem schema_notResolver (s : Bool) (r : List Tok) : NotResolver (schemaTokens s ++ p "}" :: r) := by
  intro u e
  cases s <;> simp [schemaTokens, path, Path.tokens, p, str] at e

theorem schema_unique (s s' : Bool) {r r' : List Tok} (h : schemaTokens s ++ p "}" :: r = schemaTokens s' ++ p "}" :: r') :
    s = s' ∧ r = r' := by
  cases s <;> cases s' <;> simp [schemaTokens, path, Path.tokens, p] at h ⊢ <;> exact h

theorem class_unique (a b : ClassDecl) {r r' : List Tok} (h : a.tokens ++ r = b.tokens ++ r') : a = b ∧ r = r' := by
  obtain ⟨a1, a2, a3, a4, a5⟩ := a
  obtain ⟨b1, b2, b3, b4, b5⟩ := b
  unfold ClassDecl.tokens at h
  change _ ++ schemaTokens a5 ++ _ ++ _ = _ ++ schemaTokens b5 ++ _ ++ _ at h
  simp only [List.append_assoc, List.cons_append, List.nil_append, List.cons.injEq, true_and, Tok.word.injEq] at h
  obtain ⟨rfl, k0⟩ := h
  have k1 := List.append_cancel_left k0
  obtain ⟨rfl, k2⟩ := list_unique (stop := fun r => ∃ u, r = p "{" :: u) (f := fun b => [p ",", kw "public", Tok.word b]) (by
      intro m m' u u' e
      simpa using e)
    (by
      rintro m u ⟨v, e⟩
      simp [p, str] at e)
    a2 b2 ⟨_, rfl⟩ ⟨_, rfl⟩ k1
  simp only [List.cons.injEq, true_and] at k2
  -- the end of the accessors
  have hend : ∀ (rs : List Str) (s : Bool) (u : List Tok), ∀ t v,
      (if rs = [] then [] else kw "private" :: p ":" :: rs.flatMap resolverTokens) ++ (schemaTokens s ++ p "}" :: u) = t :: v →
      t ≠ kw "virtual" ∧ t ≠ kw "public" := by
    intro rs s u t v e
    split at e
    · cases s <;> simp [schemaTokens, path, Path.tokens, p, str] at e <;> rw [← e.1] <;> decide
    · simp only [List.cons_append, List.cons.injEq] at e
      rw [← e.1]; decide
  have hacc : ∀ (as : List Accessor), as ≠ [] → ∃ u, as.flatMap Accessor.tokens = kw "virtual" :: u := by
    intro as hn
    obtain ⟨a, as, rfl⟩ := List.exists_cons_of_ne_nil hn
    obtain ⟨u, hu⟩ := accessor_first a
    exact ⟨_, by rw [List.flatMap_cons, hu, List.cons_append]⟩
  have h1 : a3 = b3 ∧ (if a4 = [] then [] else kw "private" :: p ":" :: a4.flatMap resolverTokens) ++ (schemaTokens a5 ++ p "}" :: p ";" :: r) =
      (if b4 = [] then [] else kw "private" :: p ":" :: b4.flatMap resolverTokens) ++ (schemaTokens b5 ++ p "}" :: p ";" :: r') := by
    by_cases ha : a3 = [] <;> by_cases hb : b3 = []
    · rw [if_pos ha, if_pos hb] at k2
      exact ⟨by rw [ha, hb], k2⟩
    · rw [if_pos ha, if_neg hb] at k2
      simp only [List.nil_append, List.cons_append] at k2
      exact absurd rfl (hend _ _ _ _ _ k2).2
    · rw [if_neg ha, if_pos hb] at k2
      simp only [List.nil_append, List.cons_append] at k2
      exact absurd rfl (hend _ _ _ _ _ k2.symm).2
    · rw [if_neg ha, if_neg hb] at k2
      simp only [List.cons_append, List.cons.injEq, true_and] at k2
      refine list_unique (stop := fun r => ∀ u, r ≠ kw "virtual" :: u) (fun a b _ _ => accessor_unique a b) ?_ a3 b3 ?_ ?_ k2
      · intro a u hs
        obtain ⟨v, hv⟩ := accessor_first a
        exact hs _ (by rw [hv, List.cons_append])
      · intro u e
        exact (hend _ _ _ _ _ e).1 rfl
      · intro u e
        exact (hend _ _ _ _ _ e).1 rfl
  obtain ⟨rfl, k3⟩ := h1
  have h2 : a4 = b4 ∧ schemaTokens a5 ++ p "}" :: p ";" :: r = schemaTokens b5 ++ p "}" :: p ";" :: r' := by
    have hs : ∀ (s : Bool) (u v : List Tok), schemaTokens s ++ p "}" :: u ≠ kw "private" :: v := by
      intro s u v e
      cases s <;> simp [schemaTokens, path, Path.tokens, p, kw] at e
    by_cases ha : a4 = [] <;> by_cases hb : b4 = []
    · rw [if_pos ha, if_pos hb] at k3
      exact ⟨by rw [ha, hb], k3⟩
    · rw [if_pos ha, if_neg hb] at k3
      simp only [List.nil_append, List.cons_append] at k3
      exact absurd k3 (hs _ _ _)
    · rw [if_neg ha, if_pos hb] at k3
      simp only [List.nil_append, List.cons_append] at k3
      exact absurd k3.symm (hs _ _ _)
    · rw [if_neg ha, if_neg hb] at k3
      simp only [List.cons_append, List.cons.injEq, true_and] at k3
      refine list_unique (stop := NotResolver) (fun a b _ _ => resolver_unique a b) ?_ a4 b4 (schema_notResolver _ _) (schema_notResolver _ _) k3
      intro a u hs
      obtain ⟨v, hv⟩ := resolver_first a
      exact hs _ (by rw [hv]; rfl)
  obtain ⟨rfl, k4⟩ := h2
  obtain ⟨rfl, k5⟩ := schema_unique _ _ k4
  simp only [List.cons.injEq, true_and] at k5
  exact ⟨rfl, k5⟩

theorem interface_unique {n n' : Str} {as bs : List Accessor} {r r' : List Tok}
    (h : (ClassHeader.interface n as).tokens ++ r = (ClassHeader.interface n' bs).tokens ++ r') : (n = n' ∧ as = bs) ∧ r = r' := by
  unfold ClassHeader.tokens at h
  simp only [List.append_assoc, List.cons_append, List.nil_append, List.cons.injEq, true_and, Tok.word.injEq] at h
  obtain ⟨rfl, k0⟩ := h
  obtain ⟨rfl, k1⟩ := list_unique (stop := fun r => ∃ u, r = p "}" :: u) (fun a b _ _ => accessor_unique a b) (by
      rintro a u ⟨v, e⟩
      obtain ⟨w, hw⟩ := accessor_first a
      rw [hw] at e
      simp [p, kw] at e)
    as bs ⟨_, rfl⟩ ⟨_, rfl⟩ k0
  simp only [List.cons.injEq, true_and] at k1
  exact ⟨⟨rfl, rfl⟩, k1⟩

/-- The first three tokens, of which the second is a name. -/
theorem header_first (a : ClassHeader) : ∃ w u, a.tokens = (match a with | .forwardClass _ | .object _ => kw "class" | _ => kw "struct") ::
    .word w :: (match a with | .forwardClass _ | .forwardStruct _ => p ";" | .interface .. => p "{" | .object _ => p ":") :: u := by
  cases a with
  | forwardClass n => exact ⟨n, _, rfl⟩
  | forwardStruct n => exact ⟨n, _, rfl⟩
  | interface n as =>
    unfold ClassHeader.tokens
    simp only [List.append_assoc, List.cons_append, List.nil_append]
    exact ⟨_, _, rfl⟩
  | object c =>
    unfold ClassHeader.tokens ClassDecl.tokens
    simp only [List.append_assoc, List.cons_append, List.nil_append]
    exact ⟨_, _, rfl⟩

theorem header_unique (a b : ClassHeader) {r r' : List Tok} (h : a.tokens ++ r = b.tokens ++ r') : a = b ∧ r = r' := by
  obtain ⟨w, u, hu⟩ := header_first a
  obtain ⟨w', u', hu'⟩ := header_first b
  have hk := h
  rw [hu, hu'] at hk
  simp only [List.cons_append, List.cons.injEq] at hk
  obtain ⟨k1, -, k2, -⟩ := hk
  have e1 : kw "class" ≠ kw "struct" := by decide
  have e2 : p ";" ≠ p "{" := by decide
  have e3 : p ";" ≠ p ":" := by decide
  cases a <;> cases b <;> try (first | exact absurd k1 e1 | exact absurd k1.symm e1 | exact absurd k2 e2 | exact absurd k2.symm e2 | exact absurd k2 e3 | exact absurd k2.symm e3)
  · simp [ClassHeader.tokens] at h ⊢; exact h
  · simp [ClassHeader.tokens] at h ⊢; exact h
  · obtain ⟨⟨rfl, rfl⟩, h1⟩ := interface_unique h
    exact ⟨rfl, h1⟩
  · obtain ⟨rfl, h1⟩ := class_unique _ _ h
    exact ⟨rfl, h1⟩

theorem ReadsClasses.unique {text : Str} {a b : List ClassHeader} (ha : ReadsClasses text a) (hb : ReadsClasses text b) : a = b :=
  flat_unique (fun a b _ _ => header_unique a b) (fun a e => by obtain ⟨w, u, hu⟩ := header_first a; rw [hu] at e; cases e) a b
    (Lexes.unique ha hb)

end Verif.Cpp.Code
