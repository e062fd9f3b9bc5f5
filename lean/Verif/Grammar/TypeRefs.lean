import Verif.Grammar.Directives

/-!
# Type references and variables
-/
namespace Verif.Peg
open Verif.Value Verif.Text Rule

variable {sel : R → Sel} {rd : Read}

/-- The alternatives for a type. -/
def typeRule : Rule R := Rule.sors [.ref .nonnull_type, .ref .list_type, .ref .named_type]
/-- The alternatives for a type which may be null. -/
def baseRule : Rule R := Rule.sors [.ref .list_type, .ref .named_type]

/-- The node stands for the type. -/
def IsType (x : Node R) (a : Ast.TypeRef) : Prop := typeOf x = some a

/-- A type which may be null. -/
def BaseText (s : Str) (a : Ast.TypeRef) (t : Str) : Prop := TypeText s a t ∧ ∀ y, a ≠ .nonNull y

/-- The first bytes of types. -/
def typeStart (c : Byte) : Bool := nameStart c || c == ch '['
/-- `!` -/
def isBang (c : Byte) : Bool := c == ch '!'

theorem typeStart_gap : ∀ c : Byte, typeStart c = true → gapStart c = false := by decide +kernel

theorem type_starts : Starts TypeText typeStart := by
  intro s a t h
  induction h with
  | named h =>
    obtain ⟨c, u, e, hc⟩ := name_starts _ _ _ h
    exact ⟨c, u, e, by simp [typeStart, hc]⟩
  | list _ _ _ _ => exact ⟨_, _, rfl, by decide⟩
  | nonNull _ _ _ ih => exact ih

theorem base_sound_of (hs : Sels sel) {n : Nat} (ih : Sound n sel typeRule TypeText IsType) :
    Sound (n + 1) sel baseRule BaseText IsType := by
  intro s ns t hl he
  rcases sor_ok.1 he with h | ⟨_, h⟩
  · obtain ⟨cs, h1, rfl⟩ := (ref_store_ok (hs.at ⟨rfl, rfl⟩)).1 h
    obtain ⟨_, u, ys, h2, h3, rfl⟩ := seq_ok.1 h1
    obtain ⟨rfl, rfl⟩ := chr_ok.1 h2
    have h4 := (ref_discard_ok (n := .list_type_content) (hs.at ⟨rfl, rfl⟩)).1 (need_ok.1 h3)
    obtain ⟨_, v, _, h5, h6, rfl⟩ := seq_ok.1 h4
    obtain ⟨zs, w, _, h7, h8, rfl⟩ := seq_ok.1 h6
    obtain ⟨_, x, _, h9, h10, rfl⟩ := seq_ok.1 h8
    obtain ⟨rfl, k1, _⟩ := star_skip hs h5
    obtain ⟨rfl, k2, _⟩ := star_skip hs h9
    obtain ⟨rfl, rfl⟩ := chr_ok.1 (must_ok.1 h10)
    have l1 := rest_le h5
    simp only [List.length_cons] at hl
    obtain ⟨y, a, rfl, hT, hW⟩ := ih v zs w (by omega) h7
    refine ⟨_, _, rfl, ⟨.list k1 hT k2, nofun⟩, ?_⟩
    simp only [IsType] at hW
    simp [IsType, typeOf, frontType, hW]
  · obtain ⟨m, hm, _, rfl⟩ := (nameText_ok (k := .named_type) (hs.at ⟨rfl, rfl⟩) rfl).1 h
    exact ⟨_, _, rfl, ⟨.named hm, nofun⟩, rfl⟩

/-- Every type which is read is a type of the specification, and the visitors give this type. -/
theorem type_sound (hs : Sels sel) (n : Nat) : Sound n sel typeRule TypeText IsType := by
  induction n with
  | zero => intro s ns t h; omega
  | succ n ih =>
    have hb := base_sound_of hs ih
    intro s ns t hl he
    rcases sor_ok.1 he with h | ⟨_, h⟩
    · obtain ⟨cs, h1, rfl⟩ := (ref_store_ok (hs.at ⟨rfl, rfl⟩)).1 h
      obtain ⟨ys, u, _, h2, h3, rfl⟩ := seq_ok.1 h1
      obtain ⟨_, v, _, h4, h5, rfl⟩ := seq_ok.1 h3
      obtain ⟨rfl, k1, _⟩ := star_skip hs h4
      obtain ⟨rfl, rfl⟩ := chr_ok.1 h5
      obtain ⟨y, a, rfl, ⟨hT, hn⟩, hW⟩ := hb s ys u hl h2
      refine ⟨_, _, rfl, .nonNull hT hn k1, ?_⟩
      simp only [IsType] at hW
      simp [IsType, typeOf, frontType, hW]
    · obtain ⟨y, a, rfl, hT, hW⟩ := hb s ns t hl h
      exact ⟨y, a, rfl, hT.1, hW⟩

theorem base_complete_of (hs : Sels sel) {n : Nat}
    (ih : Complete n sel typeRule TypeText IsType (Follow nameCont isBang)) :
    Complete (n + 1) sel baseRule BaseText IsType (Ends nameCont) := by
  intro s a t hl hB hF
  obtain ⟨hT, hn⟩ := hB
  cases hT with
  | @named _ m _ hm =>
    obtain ⟨c, u, e, hc⟩ := name_starts _ _ _ hm
    have r1 := (nameText_ok (sel := sel) (k := .named_type) (hs.at ⟨rfl, rfl⟩) rfl).2 ⟨m, hm, hF, rfl⟩
    refine ⟨_, sor_next ?_ r1, rfl⟩
    rw [e]
    refine dead_cons ?_
    clear e r1; revert c; decide +kernel
  | @list u v b w _ k1 hb k2 =>
    have hc : Ends gapStart (ch ']' :: t) := ends_cons (by decide)
    have r1 := skip_star hs k1 (type_starts.ends typeStart_gap hb)
    have r2 := skip_star hs k2 hc
    have l1 := rest_le r1
    simp only [List.length_cons] at hl
    obtain ⟨y, he, hW⟩ := ih v b w (by omega) hb
      (follow_skip k2 nameCont_gap (ends_cons (by decide)) hc (ends_cons (by decide)))
    have r3 : eval sel (Rule.must (str "Expected ]") (Rule.chr ']')) (ch ']' :: t) = .ok [] t :=
      must_ok.2 (chr_ok.2 ⟨rfl, rfl⟩)
    have : eval sel (.ref .list_type) (ch '[' :: u) =
        .ok [.mk .list_type (ch '[' :: u).length (consumed (ch '[' :: u) t) [y]] t :=
      (ref_store_ok (hs.at ⟨rfl, rfl⟩)).2 ⟨[y], seq_ok.2 ⟨[], u, [y], chr_ok.2 ⟨rfl, rfl⟩, need_ok.2
        ((ref_discard_ok (n := .list_type_content) (hs.at ⟨rfl, rfl⟩)).2 (seq_ok.2 ⟨[], v, [y], r1,
          seq_ok.2 ⟨[y], w, [], he, seq_ok.2 ⟨[], _, [], r2, r3, rfl⟩, rfl⟩, rfl⟩)), rfl⟩, rfl⟩
    refine ⟨_, sor_ok.2 (.inl this), ?_⟩
    simp only [IsType] at hW
    simp [IsType, typeOf, frontType, hW]
  | nonNull _ _ _ => exact absurd rfl (hn _)

/-- Every type of the specification is read, if what follows is not part of it, and the visitors give this type. -/
theorem type_complete (hs : Sels sel) (n : Nat) :
    Complete n sel typeRule TypeText IsType (Follow nameCont isBang) := by
  induction n with
  | zero => intro s a t h; omega
  | succ n ih =>
    have hb := base_complete_of hs ih
    have plain : ∀ s a t, s.length < n + 1 → BaseText s a t → Follow nameCont isBang t →
        ∃ x, eval sel typeRule s = .ok [x] t ∧ IsType x a := by
      intro s a t hl hB hF
      obtain ⟨x, he, hW⟩ := hb s a t hl hB hF.1
      refine ⟨x, sor_next (ref_fail.2 ?_) he, hW⟩
      obtain ⟨g, u, e, hg, hu, hr⟩ := star_ignored hs t
      refine seq_fail.2 (.inr ⟨[x], t, he, seq_fail.2 (.inr ⟨[], u, hr, ?_⟩)⟩)
      refine chr_fail.2 ?_
      rintro v rfl
      exact absurd (hF.2 _ ⟨g, e, hg⟩ hu _ _ rfl) (by decide)
    intro s a t hl hT hF
    cases hT with
    | named h => exact plain s _ t hl ⟨.named h, nofun⟩ hF
    | list h1 h2 h3 => exact plain _ _ t hl ⟨.list h1 h2 h3, nofun⟩ hF
    | @nonNull _ b u _ h hn hk =>
      have hc : Ends gapStart (ch '!' :: t) := ends_cons (by decide)
      obtain ⟨x, he, hW⟩ := hb s b u hl ⟨h, hn⟩
        (follow_skip (q := fun _ => false) hk nameCont_gap (ends_cons (by decide)) hc (ends_cons rfl)).1
      have r2 := skip_star hs hk hc
      have : eval sel (.ref .nonnull_type) s = .ok [.mk .nonnull_type s.length (consumed s t) [x]] t :=
        (ref_store_ok (hs.at ⟨rfl, rfl⟩)).2 ⟨[x], seq_ok.2 ⟨[x], u, [], he, seq_ok.2 ⟨[], _, [], r2, chr_ok.2 ⟨rfl, rfl⟩, rfl⟩,
          rfl⟩, rfl⟩
      refine ⟨_, sor_ok.2 (.inl this), ?_⟩
      simp only [IsType] at hW
      simp [IsType, typeOf, frontType, hW]

theorem type_name_iff (hs : Sels sel) {s t : Str} {ns : List (Node R)} :
    eval sel (.ref .type_name) s = .ok ns t ↔ eval sel typeRule s = .ok ns t := by
  rw [ref_discard_ok (hs.at ⟨rfl, rfl⟩), show grammar .type_name = need .type_name_content from rfl, need_ok,
    ref_discard_ok (hs.at ⟨rfl, rfl⟩)]
  exact Iff.rfl

theorem isType_rule {x : Node R} {a : Ast.TypeRef} (h : IsType x a) :
    x.rule = .named_type ∨ x.rule = .list_type ∨ x.rule = .nonnull_type := by
  obtain ⟨r, l, c, cs⟩ := x
  simp only [IsType, typeOf] at h
  split at h <;> simp_all [rule_mk]

/-! ## Default values -/

/-- The node stands for the default value. -/
def IsDefault (rd : Read) (x : Node R) (a : Ast.Lit) : Prop := x.rule = .default_value ∧ lastLit rd x.children = some a

/-- `=` -/
def isEquals (c : Byte) : Bool := c == ch '='

theorem default_sound (hs : Sels sel) (rd : Read) (n : Nat) :
    Sound n sel (.ref .default_value) (DefaultText rd.pos rd.atof) (IsDefault rd) := by
  intro s ns t hl he
  obtain ⟨cs, h1, rfl⟩ := (ref_store_ok (hs.at ⟨rfl, rfl⟩)).1 he
  obtain ⟨_, u, ys, h2, h3, rfl⟩ := seq_ok.1 h1
  obtain ⟨rfl, rfl⟩ := chr_ok.1 h2
  have h4 := (ref_discard_ok (n := .default_value_content) (hs.at ⟨rfl, rfl⟩)).1 (need_ok.1 h3)
  obtain ⟨_, v, _, h5, h6, rfl⟩ := seq_ok.1 h4
  obtain ⟨rfl, k1, _⟩ := star_skip hs h5
  have l1 := rest_le h2
  have l2 := rest_le h5
  obtain ⟨x, a, rfl, hV, hW⟩ := value_sound hs rd n v _ t (by omega) ((value_of_need hs).1 h6)
  exact ⟨_, a, rfl, .mk k1 hV, rfl, hW⟩

theorem default_complete (hs : Sels sel) (rd : Read) (n : Nat) :
    Complete n sel (.ref .default_value) (DefaultText rd.pos rd.atof) (IsDefault rd) (Ends valCont) := by
  intro s a t hl hd hF
  cases hd with
  | @mk u v _ _ hk hV =>
    have r1 := skip_star hs hk (value_starts.ends valueStart_gap hV)
    have l1 := rest_le r1
    simp only [List.length_cons] at hl
    obtain ⟨x, he, hW⟩ := value_complete hs rd n v a t (by omega) hV hF
    refine ⟨_, (ref_store_ok (hs.at ⟨rfl, rfl⟩)).2 ⟨[x], seq_ok.2 ⟨[], u, [x], chr_ok.2 ⟨rfl, rfl⟩, need_ok.2
        ((ref_discard_ok (n := .default_value_content) (hs.at ⟨rfl, rfl⟩)).2 (seq_ok.2 ⟨[], v, [x], r1,
          (value_of_need hs).2 he, rfl⟩)), rfl⟩, rfl⟩, rfl, hW⟩

theorem default_starts : Starts (DefaultText rd.pos rd.atof) isEquals := by
  intro s a t h
  cases h with
  | mk _ _ => exact ⟨_, _, rfl, by decide⟩

theorem default_needs : Needs sel (.ref .default_value) isEquals := needs_of (by decide +kernel) (by decide +kernel)
theorem isEquals_gap : ∀ c : Byte, isEquals c = true → gapStart c = false := by decide +kernel

/-! ## Variables -/

/-- The node stands for the variable definition. -/
def IsVar (rd : Read) (x : Node R) (a : Ast.VarDef) : Prop := x.rule = .«variable» ∧ varOf rd x = some a

theorem varOf_plain {l : Nat} {c n : Str} {l' : Nat} {x : Node R} {a : Ast.TypeRef} (h : IsType x a) :
    varOf rd (.mk .«variable» l c [.mk .variable_name l' (ch '$' :: n) [], x]) = some ⟨n, a, none⟩ := by
  have hr := isType_rule h
  simp only [IsType] at h
  rcases hr with hr | hr | hr <;>
    simp [varOf, children_mk, firstChild_cons, firstChild_nil, rule_mk, content_mk, optChild, hr, h, List.find?]

theorem varOf_default {l : Nat} {c n : Str} {l' : Nat} {x y : Node R} {a : Ast.TypeRef} {d : Ast.Lit} (h : IsType x a)
    (hy : IsDefault rd y d) :
    varOf rd (.mk .«variable» l c [.mk .variable_name l' (ch '$' :: n) [], x, y]) = some ⟨n, a, some d⟩ := by
  have hr := isType_rule h
  obtain ⟨hy1, hy2⟩ := hy
  simp only [IsType] at h
  rcases hr with hr | hr | hr <;>
    simp [varOf, children_mk, firstChild_cons, rule_mk, content_mk, optChild, hr, h, hy1, hy2, List.find?]

theorem variable_sound (rd : Read) (n : Nat) :
    Sound n executableSelector (.ref .«variable») (VariableText rd.pos rd.atof) (IsVar rd) := by
  have hs : Sels executableSelector := .inl rfl
  intro s ns t hl he
  obtain ⟨cs, h1, rfl⟩ := (ref_store_ok rfl).1 he
  obtain ⟨_, u, ys, h2, h3, rfl⟩ := seq_ok.1 h1
  obtain ⟨_, h2', rfl⟩ := (ref_store_ok (n := .variable_name) rfl).1 h2
  obtain ⟨_, u', _, e1, e2, rfl⟩ := seq_ok.1 h2'
  obtain ⟨rfl, rfl⟩ := chr_ok.1 e1
  obtain ⟨rfl, m, rfl, hm, _⟩ := identifier_ok.1
    ((ref_discard_ok (n := .variable_name_content) rfl).1 (need_ok.1 e2))
  have hcon : consumed (BitVec.ofNat 8 '$'.toNat :: (m ++ u)) u = ch '$' :: m := consumed_append (ch '$' :: m) u
  have h4 := (ref_discard_ok (n := .variable_content) rfl).1 (need_ok.1 h3)
  obtain ⟨_, v, _, h5, h6, rfl⟩ := seq_ok.1 h4
  obtain ⟨_, w, _, h7, h8, rfl⟩ := seq_ok.1 h6
  obtain ⟨_, x, _, h9, h10, rfl⟩ := seq_ok.1 h8
  obtain ⟨zs, y, os, h11, h12, rfl⟩ := seq_ok.1 h10
  obtain ⟨rfl, k1, _⟩ := star_skip hs h5
  obtain ⟨rfl, rfl⟩ := chr_ok.1 h7
  obtain ⟨rfl, k2, _⟩ := star_skip hs h9
  have l1 := rest_le h2
  have l2 := rest_le h5
  have l3 := rest_le h7
  have l4 := rest_le h9
  have l5 := rest_le h11
  obtain ⟨tn, a, rfl, hT, hW⟩ := type_sound hs n x zs y (by omega) ((type_name_iff hs).1 h11)
  rcases opt_sound hs (default_sound hs rd n) (by omega) h12 with ⟨rfl, rfl, ho⟩ | ⟨d, b, rfl, ho, hd⟩
  · exact ⟨_, _, rfl, .mk hm k1 k2 hT ho, rfl, by rw [hcon]; exact varOf_plain hW⟩
  · exact ⟨_, _, rfl, .mk hm k1 k2 hT ho, rfl, by rw [hcon]; exact varOf_default hW hd⟩

/-- What cannot follow a variable definition, after ignored text. -/
def varNext (c : Byte) : Bool := isBang c || isEquals c

theorem variable_complete (rd : Read) (n : Nat) :
    Complete n executableSelector (.ref .«variable») (VariableText rd.pos rd.atof) (IsVar rd) (Follow valCont varNext) := by
  have hs : Sels executableSelector := .inl rfl
  intro s a t hl hv hF
  cases hv with
  | @mk m u v w ty x dflt _ hm k1 k2 hT ho =>
    have hc : Ends gapStart (ch ':' :: v) := ends_cons (by decide)
    have hu : Ends nameCont u := (follow_skip (p := nameCont) (q := fun _ => false) k1 nameCont_gap
      (ends_cons (by decide)) hc (ends_cons rfl)).1
    have r1 : eval executableSelector (.ref .variable_name) (ch '$' :: m ++ u) =
        .ok [.mk .variable_name (ch '$' :: m ++ u).length (ch '$' :: m) []] u :=
      (ref_store_ok rfl).2 ⟨[], seq_ok.2 ⟨[], m ++ u, [], chr_ok.2 ⟨rfl, rfl⟩, need_ok.2 ((ref_discard_ok rfl).2
        (identifier_ok.2 ⟨rfl, m, rfl, hm, hu⟩)), rfl⟩, by rw [consumed_append]⟩
    have r2 := skip_star hs k1 hc
    have r3 : eval executableSelector (Rule.chr ':') (ch ':' :: v) = .ok [] v := chr_ok.2 ⟨rfl, rfl⟩
    have r4 := skip_star hs k2 (type_starts.ends typeStart_gap hT)
    have l1 := rest_le r1
    have l2 := rest_le r2
    have l3 := rest_le r3
    have l4 := rest_le r4
    have hx : Follow nameCont isBang x := by
      cases ho with
      | none => exact hF.weaken valCont_name (by decide +kernel)
      | some hk hd =>
        exact follow_skip hk nameCont_gap (default_starts.ends (by decide +kernel) hd) (default_starts.ends isEquals_gap hd)
          (default_starts.ends (by decide +kernel) hd)
    obtain ⟨tn, he, hW⟩ := type_complete hs n w ty x (by omega) hT hx
    have r5 := (type_name_iff hs).2 he
    have l5 := rest_le r5
    have build : ∀ {ns}, eval executableSelector (.opt (.seq (.star (.ref .ignored)) (.ref .default_value))) x = .ok ns t →
        eval executableSelector (.ref .«variable») (ch '$' :: m ++ u) = .ok [.mk .«variable» (ch '$' :: m ++ u).length
          (consumed (ch '$' :: m ++ u) t) ([.mk .variable_name (ch '$' :: m ++ u).length (ch '$' :: m) []] ++ ([tn] ++ ns))] t := by
      intro ns h
      exact (ref_store_ok rfl).2 ⟨_, seq_ok.2 ⟨_, u, _, r1, need_ok.2
        ((ref_discard_ok (n := .variable_content) rfl).2 (seq_ok.2 ⟨[], _, _, r2, seq_ok.2 ⟨[], _, _, r3,
          seq_ok.2 ⟨[], _, _, r4, seq_ok.2 ⟨_, _, _, r5, h, rfl⟩, rfl⟩, rfl⟩, rfl⟩)), rfl⟩, rfl⟩
    rcases opt_complete hs (default_complete hs rd n) default_starts isEquals_gap default_needs (by omega) ho hF.1
      (hF.weaken (p' := valCont) (fun _ => id) (by decide +kernel)).2 with ⟨rfl, rfl, he'⟩ | ⟨d, b, rfl, he', hd⟩
    · exact ⟨_, build he', rfl, varOf_plain hW⟩
    · exact ⟨_, build he', rfl, varOf_default hW hd⟩

theorem variable_starts : Starts (VariableText rd.pos rd.atof) (· == ch '$') := by
  intro s a t h
  cases h with
  | mk _ _ _ _ _ => exact ⟨_, _, rfl, by decide⟩

/-! ## Variable definitions -/

theorem mem_forall₂_left {α β : Type} {W : α → β → Prop} {p : α → Prop} (hp : ∀ x a, W x a → p x) {ns : List α}
    {xs : List β} (h : List.Forall₂ W ns xs) : ∀ x ∈ ns, p x := by
  induction h with
  | nil => simp
  | cons h _ ih => simp only [List.mem_cons, forall_eq_or_imp]; exact ⟨hp _ _ h, ih⟩

/-- The optional variable definitions of an operation; they are children of the operation. -/
theorem variables_sound (rd : Read) (n : Nat) {s t : Str} {ns : List (Node R)} (hl : s.length < n)
    (he : eval executableSelector (.opt (.seq (.star (.ref .ignored)) (.ref .variable_definitions))) s = .ok ns t) :
    ∃ xs, VariablesText rd.pos rd.atof s xs t ∧ List.Forall₂ (IsVar rd) ns xs := by
  have hs : Sels executableSelector := .inl rfl
  rcases opt_ok.1 he with h1 | ⟨_, rfl, rfl⟩
  · obtain ⟨_, u, zs, h2, h3, rfl⟩ := seq_ok.1 h1
    obtain ⟨rfl, hk, _⟩ := star_skip hs h2
    obtain ⟨_, v, ys, h4, h5, rfl⟩ := seq_ok.1 ((ref_discard_ok (n := .variable_definitions) rfl).1 h3)
    obtain ⟨rfl, rfl⟩ := chr_ok.1 h4
    have l1 := rest_le h2
    have l2 := rest_le h4
    obtain ⟨a, xs, b, k1, hx, k2, hf⟩ := items_sound hs (r := .ref .«variable») (c := ')') (m := str "Expected )") rfl
      (variable_sound rd n) (by omega) ((ref_discard_ok (n := .variable_definitions_content) rfl).1 (need_ok.1 h5))
    exact ⟨xs, .some hk (.mk k1 hx k2), hf⟩
  · exact ⟨[], .none, .nil⟩

theorem variables_complete (rd : Read) (n : Nat) {s t : Str} {xs : List Ast.VarDef} (hl : s.length < n)
    (hv : VariablesText rd.pos rd.atof s xs t) (hF : NotNext isParen t) :
    ∃ ns, eval executableSelector (.opt (.seq (.star (.ref .ignored)) (.ref .variable_definitions))) s = .ok ns t ∧
      List.Forall₂ (IsVar rd) ns xs := by
  have hs : Sels executableSelector := .inl rfl
  cases hv with
  | none =>
    obtain ⟨g, u, e, hg, hu, hr⟩ := star_ignored hs s
    exact ⟨[], opt_ok.2 (.inr ⟨seq_fail.2 (.inr ⟨[], u, hr, needs_of (p := isParen) (by decide +kernel) (by decide +kernel)
      u (hF u ⟨g, e, hg⟩ hu)⟩), rfl, rfl⟩), .nil⟩
  | some hk hb =>
    cases hb with
    | @mk v a _ b _ k1 hx k2 =>
      have r1 := skip_star hs hk (ends_cons (t := v) (by decide))
      have l1 := rest_le r1
      simp only [List.length_cons] at l1
      obtain ⟨ns, he, hf⟩ := items_complete hs (r := .ref .«variable») (c := ')') (m := str "Expected )") rfl
        (variable_complete rd n) variable_starts (by decide +kernel) (needs_of (by decide +kernel) (by decide +kernel))
        (follow_items valCont_gap (by decide +kernel)) (by omega) k1 hx k2
        (follow_close valCont_gap (by decide) (by decide) (by decide) b t) (by decide) (by decide)
      exact ⟨ns, opt_ok.2 (.inl (seq_ok.2 ⟨[], _, ns, r1, (ref_discard_ok rfl).2 (seq_ok.2 ⟨[], v, ns, chr_ok.2 ⟨rfl, rfl⟩,
        need_ok.2 ((ref_discard_ok (n := .variable_definitions_content) rfl).2 he), rfl⟩), rfl⟩)), hf⟩

end Verif.Peg
