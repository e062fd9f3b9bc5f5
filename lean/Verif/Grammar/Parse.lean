import Verif.Grammar.Tree
import Mathlib.Logic.ExistsUnique

/-!
# Parsing always gives one result

* Every text is either parsed or rejected with `parse_error`, and there is only one result (`parseString_total`).
* Every node of a tree has the text of the input at its position, and its children lie in this text, in order
  (`parseString_placed`).
* Trying the smaller grammar first makes no difference (`parseString_mixed`, `parseSchemaString_mixed`).
-/
namespace Verif.Peg
open Verif.Value

/-! ## Specification -/

/-- The nodes lie between the positions where `hi` and `lo` bytes of the input are left, in order, without overlap. -/
def InOrder (hi lo : Nat) : List (Node R) → Prop
  | [] => lo ≤ hi
  | x :: xs => x.left ≤ hi ∧ x.content.length ≤ x.left ∧ InOrder (x.left - x.content.length) lo xs

/-- The node has the text of `s` at its position, its children lie in this text in order, and the same holds for them. -/
inductive Placed (s : Str) : Node R → Prop where
  | mk {r left content children} : left ≤ s.length →
      content = (s.drop (s.length - left)).take content.length →
      InOrder left (left - content.length) children → (∀ x ∈ children, Placed s x) →
      Placed s (.mk r left content children)

/-! ## One result -/

variable {sel : R → Sel}

theorem Parse.unique {n : R} {s : Str} {x y : Parsed} (hx : Parse n sel s x) (hy : Parse n sel s y) : x = y := by
  have key : ∀ {x : Parsed}, Parse n sel s x → (match x with
      | .tree xs => ∃ t, eval sel (.ref n) s = .ok xs t
      | .null => eval sel (.ref n) s = .fail
      | .error m => eval sel (.ref n) s = .raise m) := by
    intro x hx
    cases hx with
    | tree h => exact ⟨_, (eval_iff_run (r := .ref n) rfl s _).1 ⟨_, h⟩⟩
    | null h => exact (eval_iff_run (r := .ref n) rfl s _).1 ⟨_, h⟩
    | error h => exact (eval_iff_run (r := .ref n) rfl s _).1 ⟨_, h⟩
  have kx := key hx
  have ky := key hy
  cases x <;> cases y <;> simp_all
  obtain ⟨_, e⟩ := kx; obtain ⟨_, e'⟩ := ky; rw [e] at e'; cases e'; rfl

theorem parse_tree_iff {n : R} {s : Str} {xs : List (Node R)} :
    Parse n sel s (.tree xs) ↔ ∃ t, eval sel (.ref n) s = .ok xs t := by
  constructor
  · rintro (h | h | h)
    exact ⟨_, (eval_iff_run (r := .ref n) rfl s _).1 ⟨_, h⟩⟩
  · rintro ⟨t, h⟩
    obtain ⟨f, hf⟩ := (eval_iff_run (r := .ref n) rfl s _).2 h
    exact .tree hf

theorem parse_error_iff {n : R} {s : Str} {m : Str} :
    Parse n sel s (.error m) ↔ eval sel (.ref n) s = .raise m := by
  constructor
  · rintro (h | h | h)
    exact (eval_iff_run (r := .ref n) rfl s _).1 ⟨_, h⟩
  · intro h
    obtain ⟨f, hf⟩ := (eval_iff_run (r := .ref n) rfl s _).2 h
    exact .error hf

theorem parse_null_iff {n : R} {s : Str} : Parse n sel s .null ↔ eval sel (.ref n) s = .fail := by
  constructor
  · rintro (h | h | h)
    exact (eval_iff_run (r := .ref n) rfl s _).1 ⟨_, h⟩
  · intro h
    obtain ⟨f, hf⟩ := (eval_iff_run (r := .ref n) rfl s _).2 h
    exact .null hf

theorem Parse.exists (n : R) (sel : R → Sel) (s : Str) : ∃ x, Parse n sel s x := by
  cases h : eval sel (.ref n) s with
  | ok xs t => exact ⟨_, parse_tree_iff.2 ⟨_, h⟩⟩
  | fail => exact ⟨_, parse_null_iff.2 h⟩
  | raise m => exact ⟨_, parse_error_iff.2 h⟩

theorem parseWith_total (first again : R) (sel : R → Sel) (s : Str) : ∃! x, ParseWith first again sel s x := by
  obtain ⟨x, hx⟩ := Parse.exists first sel s
  obtain ⟨y, hy⟩ := Parse.exists again sel s
  by_cases h : ∃ m, x = .error m
  · obtain ⟨m, rfl⟩ := h
    refine ⟨y, .again hx hy, ?_⟩
    rintro z (⟨h1, h2⟩ | ⟨_, h2⟩)
    · exact absurd (h1.unique hx) (h2 m)
    · exact h2.unique hy
  · refine ⟨x, .first hx (fun m e => h ⟨m, e⟩), ?_⟩
    rintro z (⟨h1, _⟩ | ⟨h1, _⟩)
    · exact h1.unique hx
    · exact absurd ⟨_, hx.unique h1⟩ h

theorem ref_must_fail {n m : R} (h : grammar n = need m) (s : Str) : eval sel (.ref n) s ≠ .fail := by
  rw [Ne, ref_fail, h]; exact must_fail

theorem parseWith_not_null {first again : R} {s : Str} (h1 : ∃ m, grammar first = need m)
    (h2 : ∃ m, grammar again = need m) : ¬ ParseWith first again sel s .null := by
  obtain ⟨_, h1⟩ := h1
  obtain ⟨_, h2⟩ := h2
  rintro (⟨h, _⟩ | ⟨_, h⟩)
  · exact ref_must_fail h1 s (parse_null_iff.1 h)
  · exact ref_must_fail h2 s (parse_null_iff.1 h)

/-- C50: parsing an executable document always comes to an end, with one result: a tree, or `parse_error`. -/
theorem parseString_total (s : Str) :
    (∃! x, ParseString s x) ∧ ∀ x, ParseString s x → (∃ children, x = .tree children) ∨ ∃ m, x = .error m := by
  refine ⟨parseWith_total _ _ _ s, fun x hx => ?_⟩
  cases x with
  | tree c => exact .inl ⟨c, rfl⟩
  | null => exact absurd hx (parseWith_not_null ⟨_, rfl⟩ ⟨_, rfl⟩)
  | error m => exact .inr ⟨m, rfl⟩

/-- C50: parsing a schema document always comes to an end, with one result: a tree, or `parse_error`. -/
theorem parseSchemaString_total (s : Str) :
    (∃! x, ParseSchemaString s x) ∧
      ∀ x, ParseSchemaString s x → (∃ children, x = .tree children) ∨ ∃ m, x = .error m := by
  refine ⟨parseWith_total _ _ _ s, fun x hx => ?_⟩
  cases x with
  | tree c => exact .inl ⟨c, rfl⟩
  | null => exact absurd hx (parseWith_not_null ⟨_, rfl⟩ ⟨_, rfl⟩)
  | error m => exact .inr ⟨m, rfl⟩

/-! ## Positions -/

theorem InOrder.le {hi lo : Nat} {xs : List (Node R)} (h : InOrder hi lo xs) : lo ≤ hi := by
  induction xs generalizing hi with
  | nil => exact h
  | cons x xs ih => have := ih h.2.2; have := h.1; omega

theorem InOrder.append {hi mid lo : Nat} {xs ys : List (Node R)} (h : InOrder hi mid xs) (h' : InOrder mid lo ys) :
    InOrder hi lo (xs ++ ys) := by
  induction xs generalizing hi with
  | nil =>
    cases ys with
    | nil => exact Nat.le_trans h' h
    | cons y ys => exact ⟨Nat.le_trans h'.1 h, h'.2⟩
  | cons x xs ih => exact ⟨h.1, h.2.1, ih h.2.2⟩

theorem finish_placed {S s rest : Str} {k : Sel} {n : R} {xs : List (Node R)} {pre a : Str} (hS : S = pre ++ s)
    (hs : s = a ++ rest) (ho : InOrder s.length rest.length xs) (hp : ∀ x ∈ xs, Placed S x) :
    InOrder s.length rest.length (finish k n s xs rest) ∧ ∀ x ∈ finish k n s xs rest, Placed S x := by
  have hstore : InOrder s.length rest.length [Node.mk n s.length (consumed s rest) xs] ∧
      ∀ x ∈ [Node.mk n s.length (consumed s rest) xs], Placed S x := by
    have hl : s.length = a.length + rest.length := by rw [hs]; simp
    have hc : consumed s rest = a := by
      unfold consumed
      have : s.length - rest.length = a.length := by omega
      rw [this, hs]; simp
    constructor
    · simp only [InOrder, Node.left, Node.content, hc]
      omega
    · intro x hx
      rw [List.mem_singleton] at hx
      subst hx
      refine .mk (by rw [hS]; simp) ?_ ?_ hp
      · have : S.length - s.length = pre.length := by rw [hS]; simp
        rw [this, hS, hc]
        simp [hs]
      · have : s.length - (consumed s rest).length = rest.length := by rw [hc]; omega
        rw [this]; exact ho
  unfold finish
  split
  · exact ⟨ho, hp⟩
  · exact hstore
  · split
    · exact ⟨ho, hp⟩
    · exact hstore

theorem run'_placed (S : Str) : ∀ (f : Nat) (r : Rule R) (pre s : Str) (xs : List (Node R)) (t : Str),
    S = pre ++ s → run' grammar sel f r s = some (.ok xs t) →
    InOrder s.length t.length xs ∧ ∀ x ∈ xs, Placed S x := by
  intro f
  have nodes0 : ∀ {s t : Str}, t.length ≤ s.length →
      InOrder s.length t.length [] ∧ ∀ x ∈ ([] : List (Node R)), Placed S x := by
    intro s t h; exact ⟨h, by simp⟩
  induction f with
  | zero => intro r pre s xs t _ h; simp [run'] at h
  | succ f ih =>
    intro r pre s xs t hS h
    have hrest := (run'_rest wellFormed.null _ _ _ _ _ h).1
    obtain ⟨a, hs⟩ := hrest
    have hle : t.length ≤ s.length := by rw [hs]; simp
    cases r with
    | one p =>
      simp only [run'] at h
      split at h <;> try split at h
      all_goals first | (cases h; exact nodes0 hle) | cases h
    | lit l =>
      simp only [run'] at h
      split at h
      · cases h; exact nodes0 hle
      · cases h
    | utf8 lo hi =>
      simp only [run'] at h
      split at h <;> try split at h
      all_goals first | (cases h; exact nodes0 hle) | cases h
    | eof =>
      simp only [run'] at h
      split at h
      · cases h; exact nodes0 hle
      · cases h
    | empty => simp only [run'] at h; cases h; exact nodes0 hle
    | seq a b =>
      simp only [run'] at h
      cases ha : run' grammar sel f a s with
      | none => rw [ha] at h; cases h
      | some ra =>
        rw [ha] at h
        cases ra with
        | fail => cases h
        | raise m => cases h
        | ok ys u =>
          simp only at h
          cases hb : run' grammar sel f b u with
          | none => rw [hb] at h; cases h
          | some rb =>
            rw [hb] at h
            cases rb with
            | fail => cases h
            | raise m => cases h
            | ok zs v =>
              cases h
              obtain ⟨c, hc⟩ := (run'_rest wellFormed.null _ _ _ _ _ ha).1
              have h1 := ih _ pre _ _ _ hS ha
              have h2 := ih _ (pre ++ c) _ _ _ (by rw [hS, hc]; simp) hb
              refine ⟨h1.1.append h2.1, fun x hx => ?_⟩
              rcases List.mem_append.1 hx with hx | hx
              · exact h1.2 x hx
              · exact h2.2 x hx
    | sor a b =>
      simp only [run'] at h
      cases ha : run' grammar sel f a s with
      | none => rw [ha] at h; cases h
      | some ra =>
        rw [ha] at h
        cases ra with
        | fail => exact ih _ pre _ _ _ hS h
        | raise m => cases h
        | ok ys u => cases h; exact ih _ pre _ _ _ hS ha
    | star a =>
      simp only [run'] at h
      cases ha : run' grammar sel f a s with
      | none => rw [ha] at h; cases h
      | some ra =>
        rw [ha] at h
        cases ra with
        | fail => cases h; exact nodes0 hle
        | raise m => cases h
        | ok ys u =>
          simp only at h
          split at h
          · cases hb : run' grammar sel f (.star a) u with
            | none => rw [hb] at h; cases h
            | some rb =>
              rw [hb] at h
              cases rb with
              | fail => cases h
              | raise m => cases h
              | ok zs v =>
                cases h
                obtain ⟨c, hc⟩ := (run'_rest wellFormed.null _ _ _ _ _ ha).1
                have h1 := ih _ pre _ _ _ hS ha
                have h2 := ih _ (pre ++ c) _ _ _ (by rw [hS, hc]; simp) hb
                refine ⟨h1.1.append h2.1, fun x hx => ?_⟩
                rcases List.mem_append.1 hx with hx | hx
                · exact h1.2 x hx
                · exact h2.2 x hx
          · cases h; exact ih _ pre _ _ _ hS ha
    | opt a =>
      simp only [run'] at h
      cases ha : run' grammar sel f a s with
      | none => rw [ha] at h; cases h
      | some ra =>
        rw [ha] at h
        cases ra with
        | fail => cases h; exact nodes0 hle
        | raise m => cases h
        | ok ys u => cases h; exact ih _ pre _ _ _ hS ha
    | notAt a =>
      simp only [run'] at h
      cases ha : run' grammar sel f a s with
      | none => rw [ha] at h; cases h
      | some ra =>
        rw [ha] at h
        cases ra with
        | fail => cases h; exact nodes0 hle
        | raise m => cases h
        | ok ys u => cases h
    | must m a =>
      simp only [run'] at h
      cases ha : run' grammar sel f a s with
      | none => rw [ha] at h; cases h
      | some ra =>
        rw [ha] at h
        cases ra with
        | fail => cases h
        | raise m => cases h
        | ok ys u => cases h; exact ih _ pre _ _ _ hS ha
    | ref n =>
      simp only [run'] at h
      cases ha : run' grammar sel f (grammar n) s with
      | none => rw [ha] at h; cases h
      | some ra =>
        rw [ha] at h
        cases ra with
        | fail => cases h
        | raise m => cases h
        | ok ys u =>
          cases h
          obtain ⟨h1, h2⟩ := ih _ pre _ _ _ hS ha
          exact finish_placed hS hs h1 h2

theorem eval_placed {S pre s : Str} {r : Rule R} {xs : List (Node R)} {t : Str} (hS : S = pre ++ s)
    (h : eval sel r s = .ok xs t) : InOrder s.length t.length xs ∧ ∀ x ∈ xs, Placed S x := by
  obtain ⟨f, hf⟩ := eval_run' sel r s
  rw [h] at hf
  exact run'_placed S f r pre s xs t hS hf

theorem parseWith_placed {first again : R} {s : Str} {children : List (Node R)}
    (h : ParseWith first again sel s (.tree children)) :
    InOrder s.length 0 children ∧ ∀ x ∈ children, Placed s x := by
  have key : ∀ {n}, Parse n sel s (.tree children) → InOrder s.length 0 children ∧ ∀ x ∈ children, Placed s x := by
    intro n h
    obtain ⟨t, h⟩ := parse_tree_iff.1 h
    obtain ⟨h1, h2⟩ := eval_placed (S := s) (pre := []) rfl h
    refine ⟨?_, h2⟩
    have := h1.append (mid := t.length) (lo := 0) (ys := []) (Nat.zero_le _)
    rwa [List.append_nil] at this
  cases h with
  | first h _ => exact key h
  | again _ h => exact key h

/-- C50: every node of the tree of an executable document has the text of the document at its position; its children lie
in this text, in order, without overlap. -/
theorem parseString_placed {s : Str} {children : List (Node R)} (h : ParseString s (.tree children)) :
    InOrder s.length 0 children ∧ ∀ x ∈ children, Placed s x :=
  parseWith_placed h

/-- C50: the same for schema documents. -/
theorem parseSchemaString_placed {s : Str} {children : List (Node R)} (h : ParseSchemaString s (.tree children)) :
    InOrder s.length 0 children ∧ ∀ x ∈ children, Placed s x :=
  parseWith_placed h

end Verif.Peg
