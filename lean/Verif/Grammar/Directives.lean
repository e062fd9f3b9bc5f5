import Verif.Grammar.Values

/-!
# Arguments and directives
-/
namespace Verif.Peg
open Verif.Value Verif.Text Rule

variable {sel : R → Sel} {rd : Read}

theorem firstChild_nil (n : R) : firstChild n [] = none := rfl

theorem firstChild_cons (n : R) (x : Node R) (xs : List (Node R)) :
    firstChild n (x :: xs) = if x.rule = n then some x else firstChild n xs := by
  unfold firstChild
  by_cases h : x.rule = n <;> simp [h]

theorem rule_mk (r : R) (l : Nat) (c : Str) (cs : List (Node R)) : (Node.mk r l c cs).rule = r := rfl
theorem content_mk (r : R) (l : Nat) (c : Str) (cs : List (Node R)) : (Node.mk r l c cs).content = c := rfl
theorem children_mk (r : R) (l : Nat) (c : Str) (cs : List (Node R)) : (Node.mk r l c cs).children = cs := rfl

theorem mapM_of {α β : Type} {f : α → Option β} {ns : List α} {xs : List β}
    (h : List.Forall₂ (fun x a => f x = some a) ns xs) : ns.mapM f = some xs := by
  induction h with
  | nil => rfl
  | cons h _ ih => simp [List.mapM_cons, h, ih]

theorem items_bracket_sound (hs : Sels sel) {k kc : R} {r : Rule R} {o c : Char} {m : Str} {α : Type}
    {P : Str → α → Str → Prop} {W : Node R → α → Prop} {n : Nat} (hk : sel k = .store) (hkc : sel kc = .discard)
    (hg : grammar k = .seq (Rule.chr o) (need kc)) (hgc : grammar kc = items r m c)
    (hnul : nullable nulTable r = false)
    (h : Sound n sel r P W) {s t : Str} {ns : List (Node R)} (hl : s.length < n + 1)
    (he : eval sel (.ref k) s = .ok ns t) :
    ∃ cs xs, ns = [.mk k s.length (consumed s t) cs] ∧ Between (ch o) (ch c) P s xs t ∧ List.Forall₂ W cs xs := by
  obtain ⟨cs, h1, rfl⟩ := (ref_store_ok hk).1 he
  rw [hg] at h1
  obtain ⟨_, u, ys, h2, h3, rfl⟩ := seq_ok.1 h1
  obtain ⟨rfl, rfl⟩ := chr_ok.1 h2
  rw [need_ok, ref_discard_ok hkc, hgc] at h3
  simp only [List.length_cons] at hl
  obtain ⟨v, xs, w, k1, hx, k2, hf⟩ := items_sound hs hnul h (by omega) h3
  exact ⟨_, xs, rfl, .mk k1 hx k2, hf⟩

/-- What follows items which are followed by ignored text and an item or the closing byte. -/
theorem follow_items {p q st : Byte → Bool} (hp : ∀ c, gapStart c = true → p c = false)
    (hst : ∀ c, st c = true → gapStart c = false ∧ q c = false) :
    ∀ t u, Space t u → (∃ c v, u = c :: v ∧ st c = true) → Follow p q t := by
  rintro t u h ⟨c, v, rfl, hc⟩
  exact follow_space h hp (ends_cons (hst c hc).1) (ends_cons (hst c hc).2)

theorem follow_close {p q : Byte → Bool} (hp : ∀ c, gapStart c = true → p c = false) {c : Char} (hc : p (ch c) = false)
    (hg : gapStart (ch c) = false) (hq : q (ch c) = false) : ∀ w t, Skip w (ch c :: t) → Follow p q w :=
  fun _ _ h => follow_skip h hp (ends_cons hc) (ends_cons hg) (ends_cons hq)

theorem nameCont_gap : ∀ c : Byte, gapStart c = true → nameCont c = false := by decide +kernel

/-! ## Arguments -/

/-- The node stands for the arguments. -/
def IsArgs (rd : Read) (x : Node R) (a : Ast.Args) : Prop := x.rule = .arguments ∧ pairsOf rd x.children = some a

/-- The first byte of arguments. -/
def isParen (c : Byte) : Bool := c == ch '('
/-- The first byte of directives. -/
def isAt (c : Byte) : Bool := c == ch '@'
/-- The first byte of a selection set. -/
def isBrace (c : Byte) : Bool := c == ch '{'

theorem arguments_sound (hs : Sels sel) (rd : Read) (n : Nat) :
    Sound n sel (.ref .arguments) (ArgumentsText rd.pos rd.atof) (IsArgs rd) := by
  intro s ns t hl he
  obtain ⟨cs, xs, rfl, hb, hf⟩ := items_bracket_sound hs (k := .arguments) (kc := .arguments_content)
    (r := .ref .argument) (o := '(') (c := ')') (m := str "Expected )") (n := n) (hs.at ⟨rfl, rfl⟩) (hs.at ⟨rfl, rfl⟩) rfl rfl rfl
    (pair_sound hs (argument_rule hs) (value_sound hs rd n)) (by omega) he
  exact ⟨_, xs, rfl, hb, rfl, pairsOf_of hf⟩

theorem arguments_complete (hs : Sels sel) (rd : Read) (n : Nat) :
    Complete n sel (.ref .arguments) (ArgumentsText rd.pos rd.atof) (IsArgs rd) (fun _ => True) := by
  intro s a t hl hb _
  obtain ⟨cs, he, hf⟩ := bracket_complete hs (k := .arguments) (kc := .arguments_content)
    (r := .ref .argument) (o := '(') (c := ')') (m := str "Expected )") (n := n) (hs.at ⟨rfl, rfl⟩) (hs.at ⟨rfl, rfl⟩) rfl (.inr rfl) rfl
    (by decide) (by decide) (pair_complete hs (argument_rule hs) (value_complete hs rd n)) pair_starts nameStart_gap
    (needs_of (by decide +kernel) (by decide +kernel))
    (fun t u h h' => (follow_items (q := fun _ => false) valCont_gap (fun c hc => ⟨nameStart_gap c hc, rfl⟩) t u h h').1)
    (fun w t h => (follow_close (q := fun _ => false) valCont_gap (by decide) (by decide) rfl w t h).1)
    (by omega) hb
  exact ⟨_, he, rfl, pairsOf_of hf⟩

theorem arguments_starts : Starts (ArgumentsText rd.pos rd.atof) isParen := by
  intro s a t h
  obtain ⟨u, rfl⟩ := between_starts h
  exact ⟨_, _, rfl, by decide⟩

theorem arguments_needs : Needs sel (.ref .arguments) isParen := needs_of (by decide +kernel) (by decide +kernel)

theorem isParen_gap : ∀ c : Byte, isParen c = true → gapStart c = false := by decide +kernel
theorem isAt_gap : ∀ c : Byte, isAt c = true → gapStart c = false := by decide +kernel
theorem isBrace_gap : ∀ c : Byte, isBrace c = true → gapStart c = false := by decide +kernel

/-! ## Directives -/

/-- The node stands for the directives. -/
def IsDirectives (rd : Read) (x : Node R) (a : List Ast.Directive) : Prop :=
  x.rule = .directives ∧ x.children.mapM (directiveOf rd) = some a

theorem directive_sound (hs : Sels sel) (rd : Read) (n : Nat) :
    Sound n sel (.ref .directive) (DirectiveText rd.pos rd.atof) (fun x a => directiveOf rd x = some a) := by
  intro s ns t hl he
  obtain ⟨cs, h1, rfl⟩ := (ref_store_ok (hs.at ⟨rfl, rfl⟩)).1 he
  obtain ⟨_, u, ys, h2, h3, rfl⟩ := seq_ok.1 h1
  obtain ⟨rfl, rfl⟩ := chr_ok.1 h2
  obtain ⟨_, v, zs, h4, h5, rfl⟩ := seq_ok.1 ((ref_discard_ok (n := .directive_content) (hs.at ⟨rfl, rfl⟩)).1 (need_ok.1 h3))
  obtain ⟨m, ⟨hm, rfl⟩, _, rfl⟩ := (nameText_ok (k := .directive_name) (hs.at ⟨rfl, rfl⟩) rfl).1 h4
  have l1 := rest_le h2
  have l2 := rest_le h4
  rcases opt_sound hs (arguments_sound hs rd n) (by omega) h5 with ⟨rfl, rfl, ho⟩ | ⟨x, a, rfl, ho, hx, hx'⟩
  · refine ⟨_, _, rfl, .mk hm ho, ?_⟩
    simp [directiveOf, argsOf, optChild, firstChild_cons, firstChild_nil, rule_mk, content_mk, children_mk]
  · refine ⟨_, _, rfl, .mk hm ho, ?_⟩
    simp [directiveOf, argsOf, optChild, firstChild_cons, rule_mk, content_mk, children_mk, hx, hx']

theorem directive_complete_of (hs : Sels sel) (rd : Read) (n : Nat) {s t : Str} {a : Ast.Directive} (hl : s.length < n)
    (hd : DirectiveText rd.pos rd.atof s a t) (hend : ∀ m, IsName m → s = ch '@' :: m ++ t → Ends nameCont t)
    (hF : NotNext isParen t) : ∃ x, eval sel (.ref .directive) s = .ok [x] t ∧ directiveOf rd x = some a := by
  cases hd with
  | @mk m u args _ hm ho =>
    have hu : Ends nameCont u := by
      cases ho with
      | none => exact hend m hm rfl
      | some hk ha =>
        exact (follow_skip (p := nameCont) (q := fun _ => false) hk nameCont_gap
          (arguments_starts.ends (by decide +kernel) ha) (arguments_starts.ends isParen_gap ha)
          (arguments_starts.ends (fun _ _ => rfl) ha)).1
    have r1 := (nameText_ok (sel := sel) (k := .directive_name) (hs.at ⟨rfl, rfl⟩) rfl).2 ⟨m, ⟨hm, rfl⟩, hu, rfl⟩
    have l1 := rest_le r1
    simp only [List.cons_append, List.length_cons, List.length_append] at hl l1
    have build : ∀ {ns}, eval sel (.opt (.seq (.star (.ref .ignored)) (.ref .arguments))) u = .ok ns t →
        eval sel (.ref .directive) (ch '@' :: m ++ u) = .ok [.mk .directive (ch '@' :: m ++ u).length
          (consumed (ch '@' :: m ++ u) t) ([.mk .directive_name (m ++ u).length m []] ++ ns)] t := by
      intro ns h
      exact (ref_store_ok (hs.at ⟨rfl, rfl⟩)).2 ⟨_, seq_ok.2 ⟨[], m ++ u, _, chr_ok.2 ⟨rfl, rfl⟩, need_ok.2
        ((ref_discard_ok (n := .directive_content) (hs.at ⟨rfl, rfl⟩)).2 (seq_ok.2 ⟨_, u, ns, r1, h, rfl⟩)), rfl⟩, rfl⟩
    rcases opt_complete hs (arguments_complete hs rd n) arguments_starts isParen_gap arguments_needs (by omega) ho trivial hF
      with ⟨rfl, rfl, he⟩ | ⟨x, a, rfl, he, hx, hx'⟩
    · refine ⟨_, build he, ?_⟩
      simp [directiveOf, argsOf, optChild, firstChild_cons, firstChild_nil, rule_mk, content_mk, children_mk]
    · refine ⟨_, build he, ?_⟩
      simp [directiveOf, argsOf, optChild, firstChild_cons, rule_mk, content_mk, children_mk, hx, hx']

theorem directive_complete (hs : Sels sel) (rd : Read) (n : Nat) :
    Complete n sel (.ref .directive) (DirectiveText rd.pos rd.atof) (fun x a => directiveOf rd x = some a)
      (Follow nameCont isParen) :=
  fun _ _ _ hl hd hF => directive_complete_of hs rd n hl hd (fun _ _ _ => hF.1) hF.2

theorem directive_starts : Starts (DirectiveText rd.pos rd.atof) isAt := by
  intro s a t h
  cases h with
  | mk _ _ => exact ⟨_, _, rfl, by decide⟩

theorem directives_sound (hs : Sels sel) (rd : Read) (n : Nat) :
    Sound n sel (.ref .directives) (DirectivesText rd.pos rd.atof) (IsDirectives rd) := by
  intro s ns t hl he
  obtain ⟨cs, h1, rfl⟩ := (ref_store_ok (hs.at ⟨rfl, rfl⟩)).1 he
  obtain ⟨xs, hx, hf⟩ := list_sound hs rfl (directive_sound hs rd n) hl h1
  exact ⟨_, xs, rfl, hx, rfl, mapM_of hf⟩

/-- What cannot follow directives, after ignored text. -/
def dirNext (c : Byte) : Bool := isAt c || isParen c

theorem directives_complete (hs : Sels sel) (rd : Read) (n : Nat) :
    Complete n sel (.ref .directives) (DirectivesText rd.pos rd.atof) (IsDirectives rd) (Follow nameCont dirNext) := by
  intro s a t hl hx hF
  obtain ⟨cs, he, hf⟩ := list_complete hs (r := .ref .directive) rfl (directive_complete hs rd n) directive_starts isAt_gap
    (needs_of (by decide +kernel) (by decide +kernel)) (follow_items nameCont_gap (by decide +kernel)) hl hx
    (hF.weaken (fun _ => id) (by decide +kernel)) (hF.weaken (p' := nameCont) (fun _ => id) (by decide +kernel)).2
  exact ⟨_, (ref_store_ok (hs.at ⟨rfl, rfl⟩)).2 ⟨cs, he, rfl⟩, rfl, mapM_of hf⟩

theorem directives_starts : Starts (DirectivesText rd.pos rd.atof) isAt := by
  intro s a t h
  cases h with
  | one h => exact directive_starts _ _ _ h
  | more h _ _ => exact directive_starts _ _ _ h

theorem directives_needs : Needs sel (.ref .directives) isAt := needs_of (by decide +kernel) (by decide +kernel)

end Verif.Peg
