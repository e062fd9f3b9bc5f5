import Verif.Grammar.Descriptions
import Verif.Grammar.SchemaTree

/-!
# Arguments, fields, enum values and lists of names
-/
namespace Verif.Peg
open Verif.Value Verif.Text Verif.Gen Rule

variable {sel : R → Sel} {rd : Read}

theorem schema_sels : Sels schemaSelector := .inr rfl

/-! ## Rules with any number of nodes -/

/-- As `Sound`, for any number of nodes. -/
def SoundL (n : Nat) (sel : R → Sel) (r : Rule R) {α : Type} (P : Str → α → Str → Prop) (V : List (Node R) → α → Prop) : Prop :=
  ∀ s ns t, s.length < n → eval sel r s = .ok ns t → ∃ a, P s a t ∧ V ns a

/-- As `Complete`, for any number of nodes. -/
def CompleteL (n : Nat) (sel : R → Sel) (r : Rule R) {α : Type} (P : Str → α → Str → Prop) (V : List (Node R) → α → Prop)
    (F : Str → Prop) : Prop :=
  ∀ s a t, s.length < n → P s a t → F t → ∃ ns, eval sel r s = .ok ns t ∧ V ns a

/-- One node. -/
inductive One {α : Type} (W : Node R → α → Prop) : List (Node R) → α → Prop where
  | mk {x a} : W x a → One W [x] a

/-- The nodes of something optional. -/
inductive OptNodes {α : Type} (V : List (Node R) → α → Prop) : List (Node R) → Option α → Prop where
  | none : OptNodes V [] none
  | some {ns a} : V ns a → OptNodes V ns (some a)

theorem Sound.list {n : Nat} {r : Rule R} {α : Type} {P : Str → α → Str → Prop} {W : Node R → α → Prop}
    (h : Sound n sel r P W) : SoundL n sel r P (One W) := by
  intro s ns t hl he
  obtain ⟨x, a, rfl, hP, hW⟩ := h s ns t hl he
  exact ⟨a, hP, .mk hW⟩

theorem Complete.list {n : Nat} {r : Rule R} {α : Type} {P : Str → α → Str → Prop} {W : Node R → α → Prop} {F : Str → Prop}
    (h : Complete n sel r P W F) : CompleteL n sel r P (One W) F := by
  intro s a t hl hP hF
  obtain ⟨x, he, hW⟩ := h s a t hl hP hF
  exact ⟨[x], he, .mk hW⟩

/-- The two rules do the same. -/
def SameRule (sel : R → Sel) (r r' : Rule R) : Prop :=
  (∀ s xs t, eval sel r s = .ok xs t ↔ eval sel r' s = .ok xs t) ∧ (∀ s, eval sel r s = .fail ↔ eval sel r' s = .fail)

/-- The two rules read the same. -/
def SameOk (sel : R → Sel) (r r' : Rule R) : Prop := ∀ s xs t, eval sel r s = .ok xs t ↔ eval sel r' s = .ok xs t

theorem SameOk.refl (r : Rule R) : SameOk sel r r := fun _ _ _ => Iff.rfl
theorem SameOk.ref {n : R} (h : sel n = .discard) : SameOk sel (.ref n) (grammar n) := fun _ _ _ => ref_discard_ok h
theorem SameOk.need {n : R} (h : sel n = .discard) : SameOk sel (need n) (grammar n) :=
  fun _ _ _ => need_ok.trans (ref_discard_ok h)

theorem SameRule.refl (r : Rule R) : SameRule sel r r := ⟨fun _ _ _ => Iff.rfl, fun _ => Iff.rfl⟩

theorem SameRule.ref {n : R} (h : sel n = .discard) : SameRule sel (.ref n) (grammar n) :=
  ⟨fun _ _ _ => ref_discard_ok h, fun _ => ref_fail⟩

theorem optNodes_sound (hs : Sels sel) {n : Nat} {r : Rule R} {α : Type} {P : Str → α → Str → Prop}
    {V : List (Node R) → α → Prop} (h : SoundL n sel r P V) {s t : Str} {ns : List (Node R)} (hl : s.length < n)
    (he : eval sel (.opt (.seq (.star (.ref .ignored)) r)) s = .ok ns t) : ∃ o, Opt P s o t ∧ OptNodes V ns o := by
  rcases opt_ok.1 he with h1 | ⟨_, rfl, rfl⟩
  · obtain ⟨_, u, zs, h2, h3, rfl⟩ := seq_ok.1 h1
    obtain ⟨rfl, hk, _⟩ := star_skip hs h2
    obtain ⟨a, hP, hV⟩ := h u zs t (by have := rest_le h2; omega) h3
    exact ⟨some a, .some hk hP, .some hV⟩
  · exact ⟨none, .none, .none⟩

/-- The optional item is not there, and the rule fails; or it is there, and the rule reads it. -/
theorem item_complete (hs : Sels sel) {n : Nat} {r : Rule R} {α : Type} {P : Str → α → Str → Prop}
    {V : List (Node R) → α → Prop} {F : Str → Prop} {p : Byte → Bool} (h : CompleteL n sel r P V F) (hst : Starts P p)
    (hp : ∀ c, p c = true → gapStart c = false) (hn : Needs sel r p) {s t : Str} {o : Option α} (hl : s.length < n)
    (ho : Opt P s o t) (hF : F t) (hnext : NotNext p t) :
    (o = none ∧ t = s ∧ eval sel (.seq (.star (.ref .ignored)) r) s = .fail) ∨
      ∃ ns a, o = some a ∧ eval sel (.seq (.star (.ref .ignored)) r) s = .ok ns t ∧ V ns a := by
  cases ho with
  | none =>
    refine .inl ⟨rfl, rfl, ?_⟩
    obtain ⟨g, u, e, hg, hu, hr⟩ := star_ignored hs s
    exact seq_fail.2 (.inr ⟨[], u, hr, hn u (hnext u ⟨g, e, hg⟩ hu)⟩)
  | @some _ u a _ hk hP =>
    have hu : Ends gapStart u := hst.ends hp hP
    have hr := skip_star hs hk hu
    obtain ⟨ns, hx, hV⟩ := h u a t (by have := rest_le hr; omega) hP hF
    exact .inr ⟨ns, a, rfl, seq_ok.2 ⟨[], u, ns, hr, hx, rfl⟩, hV⟩

theorem optNodes_complete (hs : Sels sel) {n : Nat} {r : Rule R} {α : Type} {P : Str → α → Str → Prop}
    {V : List (Node R) → α → Prop} {F : Str → Prop} {p : Byte → Bool} (h : CompleteL n sel r P V F) (hst : Starts P p)
    (hp : ∀ c, p c = true → gapStart c = false) (hn : Needs sel r p) {s t : Str} {o : Option α} (hl : s.length < n)
    (ho : Opt P s o t) (hF : F t) (hnext : NotNext p t) :
    ∃ ns, eval sel (.opt (.seq (.star (.ref .ignored)) r)) s = .ok ns t ∧ OptNodes V ns o := by
  rcases item_complete hs h hst hp hn hl ho hF hnext with ⟨rfl, rfl, he⟩ | ⟨ns, a, rfl, he, hV⟩
  · exact ⟨[], opt_ok.2 (.inr ⟨he, rfl, rfl⟩), .none⟩
  · exact ⟨ns, opt_ok.2 (.inl he), .some hV⟩

/-! ## Two optional things -/

theorem tail_sound (hs : Sels sel) {n : Nat} {d b D B : Rule R} {α β : Type} {P : Str → α → Str → Prop}
    {Q : Str → β → Str → Prop} {V : List (Node R) → α → Prop} {W : List (Node R) → β → Prop}
    (hD : SameRule sel D (.opt (.seq (.star (.ref .ignored)) d))) (hB : SameRule sel B (.seq (.star (.ref .ignored)) b))
    (h : SoundL n sel d P V) (h' : SoundL n sel b Q W) {s t : Str} {ns : List (Node R)} (hl : s.length < n)
    (he : eval sel (Rule.sors [Rule.seqs [D, B], D]) s = .ok ns t) :
    ∃ o u o' xs ys, Opt P s o u ∧ Opt Q u o' t ∧ ns = xs ++ ys ∧ OptNodes V xs o ∧ OptNodes W ys o' := by
  rcases sor_ok.1 he with h1 | ⟨_, h1⟩
  · obtain ⟨xs, u, ys, h2, h3, rfl⟩ := seq_ok.1 h1
    rw [hD.1] at h2
    have h3 : eval sel B u = .ok ys t := h3
    rw [hB.1] at h3
    obtain ⟨o, ho, hV⟩ := optNodes_sound hs h hl h2
    obtain ⟨o', ho', hW⟩ := optNodes_sound hs h' (by have := rest_le h2; omega) (opt_ok.2 (.inl h3))
    exact ⟨o, u, o', xs, ys, ho, ho', rfl, hV, hW⟩
  · have h1 : eval sel D s = .ok ns t := h1
    rw [hD.1] at h1
    obtain ⟨o, ho, hV⟩ := optNodes_sound hs h hl h1
    exact ⟨o, t, none, ns, [], ho, .none, by simp, hV, .none⟩

theorem tail_complete (hs : Sels sel) {n : Nat} {d b D B : Rule R} {α β : Type} {P : Str → α → Str → Prop}
    {Q : Str → β → Str → Prop} {V : List (Node R) → α → Prop} {W : List (Node R) → β → Prop} {F G : Str → Prop} {p q : Byte → Bool}
    (hD : SameRule sel D (.opt (.seq (.star (.ref .ignored)) d))) (hB : SameRule sel B (.seq (.star (.ref .ignored)) b))
    (h : CompleteL n sel d P V F) (hst : Starts P p) (hp : ∀ c, p c = true → gapStart c = false) (hn : Needs sel d p)
    (h' : CompleteL n sel b Q W G) (hst' : Starts Q q) (hq : ∀ c, q c = true → gapStart c = false) (hn' : Needs sel b q)
    {s u t : Str} {o : Option α} {o' : Option β} (hl : s.length < n) (ho : Opt P s o u) (ho' : Opt Q u o' t) (hF : F u)
    (hnext : NotNext p u) (hG : G t) (hnext' : NotNext q t) :
    ∃ xs ys, eval sel (Rule.sors [Rule.seqs [D, B], D]) s = .ok (xs ++ ys) t ∧ OptNodes V xs o ∧ OptNodes W ys o' := by
  obtain ⟨xs, r1, hV⟩ := optNodes_complete hs h hst hp hn hl ho hF hnext
  have l1 := rest_le r1
  rw [← hD.1] at r1
  rcases item_complete hs h' hst' hq hn' (by omega) ho' hG hnext' with ⟨rfl, rfl, he⟩ | ⟨ys, a, rfl, he, hW⟩
  · rw [← hB.2] at he
    refine ⟨xs, [], ?_, hV, .none⟩
    rw [List.append_nil]
    exact sor_next (seq_fail.2 (.inr ⟨xs, _, r1, he⟩)) r1
  · rw [← hB.1] at he
    exact ⟨xs, ys, sor_ok.2 (.inl (seq_ok.2 ⟨xs, u, ys, r1, he, rfl⟩)), hV, .some hW⟩

/-! ## Brackets -/

/-- `o`, items, `c` -/
theorem brackets_sound (hs : Sels sel) {O I r : Rule R} {o c : Char} {m : Str} {α : Type} {P : Str → α → Str → Prop}
    {W : Node R → α → Prop} {n : Nat} (hO : SameOk sel O (Rule.chr o)) (hI : SameOk sel I (items r m c))
    (hnul : nullable nulTable r = false) (h : Sound n sel r P W) {s t : Str} {ns : List (Node R)} (hl : s.length < n + 1)
    (he : eval sel (.seq O I) s = .ok ns t) :
    ∃ xs, Between (ch o) (ch c) P s xs t ∧ List.Forall₂ W ns xs := by
  obtain ⟨_, u, ys, h2, h3, rfl⟩ := seq_ok.1 he
  rw [hO _ _ _] at h2
  obtain ⟨rfl, rfl⟩ := chr_ok.1 h2
  rw [hI _ _ _] at h3
  simp only [List.length_cons] at hl
  obtain ⟨v, xs, w, k1, hx, k2, hf⟩ := items_sound hs hnul h (by omega) h3
  exact ⟨xs, .mk k1 hx k2, hf⟩

theorem brackets_complete (hs : Sels sel) {O I r : Rule R} {o c : Char} {m : Str} {α : Type}
    {P : Str → α → Str → Prop} {W : Node R → α → Prop} {F : Str → Prop} {p : Byte → Bool} {n : Nat}
    (hO : SameOk sel O (Rule.chr o)) (hI : SameOk sel I (items r m c))
    (hnul : nullable nulTable r = false) (hc : gapStart (ch c) = false) (hpc : p (ch c) = false)
    (h : Complete n sel r P W F) (hst : Starts P p) (hp : ∀ c, p c = true → gapStart c = false) (hn : Needs sel r p)
    (hF : ∀ t u, Space t u → (∃ c v, u = c :: v ∧ p c = true) → F t) (hFc : ∀ w t, Skip w (ch c :: t) → F w)
    {s t : Str} {xs : List α} (hl : s.length < n + 1) (hb : Between (ch o) (ch c) P s xs t) :
    ∃ cs, eval sel (.seq O I) s = .ok cs t ∧ List.Forall₂ W cs xs := by
  cases hb with
  | @mk u v _ w _ k1 hx k2 =>
    simp only [List.length_cons] at hl
    obtain ⟨cs, he, hf⟩ := items_complete hs (m := m) hnul h hst hp hn hF (by omega) k1 hx k2 (hFc w t) hpc hc
    exact ⟨cs, seq_ok.2 ⟨[], u, cs, (hO _ _ _).2 (chr_ok.2 ⟨rfl, rfl⟩), (hI _ _ _).2 he, rfl⟩, hf⟩

end Verif.Peg
