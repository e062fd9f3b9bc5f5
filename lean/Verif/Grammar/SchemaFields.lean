import Verif.Grammar.SchemaParts

/-!
# Arguments, fields and enum values
-/
namespace Verif.Peg
open Verif.Value Verif.Text Verif.Gen Rule

variable {sel : R → Sel} {rd : Read}

/-! ## Looking for children -/

/-- Every node is of one of the kinds. -/
def Kinds (ks : List R) (xs : List (Node R)) : Prop := ∀ x ∈ xs, x.rule ∈ ks

theorem Kinds.append {ks ls : List R} {xs ys : List (Node R)} (h : Kinds ks xs) (h' : Kinds ls ys) :
    Kinds (ks ++ ls) (xs ++ ys) := by
  intro x hx
  rcases List.mem_append.1 hx with hx | hx
  · exact List.mem_append.2 (.inl (h x hx))
  · exact List.mem_append.2 (.inr (h' x hx))

theorem Kinds.no {ks : List R} {xs : List (Node R)} (h : Kinds ks xs) {k : R} (hk : k ∉ ks) : ∀ x ∈ xs, x.rule ≠ k := by
  rintro x hx rfl
  exact hk (h x hx)

theorem Kinds.none {ks : List R} {xs : List (Node R)} (h : Kinds ks xs) {k : R} (hk : k ∉ ks) : firstChild k xs = none := by
  rw [← List.append_nil xs, firstChild_skip (h.no hk), firstChild_nil]

theorem kinds_nil : Kinds [] [] := by simp [Kinds]

theorem kinds_opt {α : Type} {W : Node R → α → Prop} {k : R} (hW : ∀ x a, W x a → x.rule = k) {ns : List (Node R)}
    {o : Option α} (h : OptNodes (One W) ns o) : Kinds [k] ns := by
  cases h with
  | none => simp [Kinds]
  | some h => cases h with | mk h => simp [Kinds, hW _ _ h]

theorem kinds_all {α : Type} {W : Node R → α → Prop} {k : R} (hW : ∀ x a, W x a → x.rule = k) {ns : List (Node R)}
    {as : List α} (h : List.Forall₂ W ns as) : Kinds [k] ns := by
  intro x hx
  simpa using mem_forall₂_left (p := fun x => x.rule = k) hW h x hx

theorem kinds_type {x : Node R} {a : Ast.TypeRef} (h : IsType x a) : Kinds [.named_type, .list_type, .nonnull_type] [x] := by
  rcases isType_rule h with h | h | h <;> simp [Kinds, h]

theorem rev_opt {α : Type} {W : Node R → α → Prop} {ns : List (Node R)} {o : Option α} (h : OptNodes (One W) ns o) :
    ns.reverse = ns := by
  cases h with
  | none => rfl
  | some h => cases h with | mk h => rfl

theorem optChild_skip {α : Type} {k : R} {f : Node R → Option α} {ks : List R} {xs : List (Node R)} (h : Kinds ks xs)
    (hk : k ∉ ks) (ys : List (Node R)) : optChild k f (xs ++ ys) = optChild k f ys := by
  unfold optChild
  rw [firstChild_skip (h.no hk)]

theorem optChild_none {α : Type} {k : R} {f : Node R → Option α} {ks : List R} {xs : List (Node R)} (h : Kinds ks xs)
    (hk : k ∉ ks) : optChild k f xs = some none := by
  unfold optChild
  rw [h.none hk]

theorem optChild_nodes {α : Type} {k : R} {f : Node R → Option α} {W : Node R → α → Prop}
    (hW : ∀ x a, W x a → x.rule = k ∧ f x = some a) {ns : List (Node R)} {o : Option α} (h : OptNodes (One W) ns o)
    {ks : List R} {ys : List (Node R)} (hy : Kinds ks ys) (hk : k ∉ ks) : optChild k f (ns ++ ys) = some o := by
  cases h with
  | none => rw [List.nil_append]; exact optChild_none hy hk
  | some h =>
    cases h with
    | mk h => simp [optChild, firstChild_cons, (hW _ _ h).1, (hW _ _ h).2]

theorem optChild_nodes' {α : Type} {k : R} {f : Node R → Option α} {W : Node R → α → Prop}
    (hW : ∀ x a, W x a → x.rule = k ∧ f x = some a) {ns : List (Node R)} {o : Option α} (h : OptNodes (One W) ns o) :
    optChild k f ns = some o := by
  have := optChild_nodes hW h kinds_nil (by simp)
  rwa [List.append_nil] at this

theorem find_skip {ks : List R} {xs : List (Node R)} (h : Kinds ks xs)
    (hk : R.named_type ∉ ks ∧ R.list_type ∉ ks ∧ R.nonnull_type ∉ ks) (ys : List (Node R)) :
    (xs ++ ys).find? isTypeNode = ys.find? isTypeNode := by
  rw [List.find?_append]
  have : xs.find? isTypeNode = none := by
    rw [List.find?_eq_none]
    intro x hx
    have := h x hx
    simp only [isTypeNode, Bool.or_eq_true, beq_iff_eq, not_or]
    refine ⟨⟨?_, ?_⟩, ?_⟩
    · intro e; exact hk.1 (e ▸ this)
    · intro e; exact hk.2.1 (e ▸ this)
    · intro e; exact hk.2.2 (e ▸ this)
  rw [this]
  rfl

theorem find_type {x : Node R} {a : Ast.TypeRef} (h : IsType x a) (ys : List (Node R)) :
    ([x] ++ ys).find? isTypeNode = some x := by
  have : isTypeNode x = true := by rcases isType_rule h with h | h | h <;> simp [isTypeNode, h]
  simp [List.find?, this]

/-! ## Optional descriptions -/

/-- An optional description and ignored text. -/
def describedRule : Rule R := Rule.opt (Rule.seqs [.ref .description, Rule.star (.ref .ignored)])

/-- The nodes for the description. -/
inductive DescNodes (J : Str → Str) : List (Node R) → Str → Prop where
  | none : DescNodes J [] []
  | some {x d} : IsDescription J x d → DescNodes J [x] d

theorem described_sound (J : Str → Str) {s a : Str} {ns : List (Node R)}
    (he : eval schemaSelector describedRule s = .ok ns a) : ∃ d, Described J s d a ∧ DescNodes J ns d := by
  rcases opt_ok.1 he with h | ⟨_, rfl, rfl⟩
  · obtain ⟨xs, u, _, h1, h2, rfl⟩ := seq_ok.1 h
    obtain ⟨rfl, hk, _⟩ := star_skip schema_sels h2
    obtain ⟨x, d, rfl, hd, hx⟩ := description_sound J (s.length + 1) s xs u (by omega) h1
    exact ⟨d, .some hd hk, .some hx⟩
  · exact ⟨[], .none, .none⟩

/-- A quote -/
def isQuote (c : Byte) : Bool := c == 0x22

theorem description_needs : Needs sel (.ref .description) isQuote := needs_of (by decide +kernel) (by decide +kernel)

theorem described_complete (J : Str → Str) {s d a : Str} (h : Described J s d a) (ha : Ends gapStart a) (ha' : Ends isQuote a) :
    ∃ ns, eval schemaSelector describedRule s = .ok ns a ∧ DescNodes J ns d := by
  cases h with
  | none =>
    exact ⟨[], opt_ok.2 (.inr ⟨seq_fail.2 (.inl (description_needs _ ha')), rfl, rfl⟩), .none⟩
  | @some _ u _ hd hk =>
    obtain ⟨x, he, hx⟩ := description_complete J (s.length + 1) s d u (by omega) hd trivial
    exact ⟨[x], opt_ok.2 (.inl (seq_ok.2 ⟨[x], u, [], he, skip_star schema_sels hk ha, rfl⟩)), .some hx⟩

theorem descNodes_rule {J : Str → Str} {ns : List (Node R)} {d : Str} (h : DescNodes J ns d) :
    ∀ x ∈ ns, x.rule = .description := by
  cases h with
  | none => simp
  | some h => simpa using h.1

theorem kinds_desc {J : Str → Str} {ns : List (Node R)} {d : Str} (h : DescNodes J ns d) : Kinds [.description] ns := by
  intro x hx
  simpa using descNodes_rule h x hx

theorem rev_desc {J : Str → Str} {ns : List (Node R)} {d : Str} (h : DescNodes J ns d) : ns.reverse = ns := by
  cases h <;> rfl

/-- The first bytes of what may have a description. -/
def descStart (p : Byte → Bool) (c : Byte) : Bool := p c || isQuote c

theorem described_starts {J : Str → Str} {p : Byte → Bool} {s d a : Str} (h : Described J s d a)
    (ha : ∃ c u, a = c :: u ∧ p c = true) : ∃ c u, s = c :: u ∧ descStart p c = true := by
  cases h with
  | none =>
    obtain ⟨c, u, rfl, hc⟩ := ha
    exact ⟨c, u, rfl, by simp [descStart, hc]⟩
  | some hd _ =>
    obtain ⟨c, u, rfl, hc⟩ := description_starts _ _ _ hd
    exact ⟨c, u, rfl, by simp only [descStart, Bool.or_eq_true]; exact .inr hc⟩

theorem descriptionOf_nodes {ns ys : List (Node R)} {d : Str} (h : DescNodes rd.unescapeJ ns d)
    (hy : ∀ y ∈ ys, y.rule ≠ .description) : descriptionOf rd (ns ++ ys) = d := by
  have hn : firstChild .description ys = none := by
    rw [← List.append_nil ys, firstChild_skip hy, firstChild_nil]
  cases h with
  | none => simp [descriptionOf, hn]
  | some h => simp [descriptionOf, firstChild_cons, h.1, h.2]

theorem lastDescription_nodes {ns ys : List (Node R)} {d : Str} (h : DescNodes rd.unescapeJ ns d)
    (hy : ∀ y ∈ ys, y.rule ≠ .description) : lastDescription rd (ns ++ ys) = d := by
  have hr : ns.reverse = ns := by cases h <;> rfl
  have := descriptionOf_nodes (ys := []) h (by simp)
  unfold lastDescription
  rw [List.reverse_append, hr]
  unfold descriptionOf at this ⊢
  rw [firstChild_skip (by simpa using hy)]
  simpa using this

/-! ## Default values -/

theorem store_content {k : R} (hk : sel k = .store) {s t : Str} {x : Node R} (h : eval sel (.ref k) s = .ok [x] t) :
    s = x.content ++ t := by
  obtain ⟨a, rfl⟩ := (eval_rest h).1
  obtain ⟨ys, _, e⟩ := (ref_store_ok hk).1 h
  rw [consumed_append] at e
  cases e
  rfl

theorem value_content (hs : Sels sel) {s t : Str} {x : Node R}
    (h : eval sel (.ref .input_value_content) s = .ok [x] t) : s = x.content ++ t := by
  obtain ⟨r, hr, h⟩ := sors_ok (by simp) ((value_alternatives hs).1 h)
  simp only [List.mem_cons, List.not_mem_nil, or_false] at hr
  rcases hr with rfl | rfl | rfl | rfl | rfl | rfl | rfl | rfl | rfl
  iterate 6 exact store_content (hs.at ⟨rfl, rfl⟩) h
  · obtain ⟨r, hr, h⟩ := sors_ok (l := [.ref .true_keyword, .ref .false_keyword]) (by simp)
      ((ref_discard_ok (n := .bool_value) (hs.at ⟨rfl, rfl⟩)).1 h)
    simp only [List.mem_cons, List.not_mem_nil, or_false] at hr
    rcases hr with rfl | rfl
    · exact store_content (hs.at ⟨rfl, rfl⟩) h
    · exact store_content (hs.at ⟨rfl, rfl⟩) h
  iterate 2 exact store_content (hs.at ⟨rfl, rfl⟩) h

/-- The node stands for the default value. -/
def IsDefaultDef (rd : Read) (x : Node R) (a : DefaultValue) : Prop := x.rule = .default_value ∧ defaultOf rd x = some a

theorem default_def_sound (hs : Sels sel) (rd : Read) (n : Nat) :
    Sound n sel (.ref .default_value) (DefaultDefText rd.pos rd.atof) (IsDefaultDef rd) := by
  intro s ns t hl he
  obtain ⟨cs, h1, rfl⟩ := (ref_store_ok (hs.at ⟨rfl, rfl⟩)).1 he
  obtain ⟨_, u, ys, h2, h3, rfl⟩ := seq_ok.1 h1
  obtain ⟨rfl, rfl⟩ := chr_ok.1 h2
  have h4 := (ref_discard_ok (n := .default_value_content) (hs.at ⟨rfl, rfl⟩)).1 (need_ok.1 h3)
  obtain ⟨_, v, _, h5, h6, rfl⟩ := seq_ok.1 h4
  obtain ⟨rfl, k1, _⟩ := star_skip hs h5
  have l1 := rest_le h2
  have l2 := rest_le h5
  have h7 := (value_of_need hs).1 h6
  obtain ⟨x, a, rfl, hV, hW⟩ := value_sound hs rd n v _ t (by omega) h7
  have hc : v = x.content ++ t := value_content hs h7
  refine ⟨_, ⟨a, x.content⟩, rfl, .mk k1 hV hc, rfl, ?_⟩
  have hW : litOf rd x = some a := hW
  simp [defaultOf, children_mk, lastLit, hW]

theorem default_def_complete (hs : Sels sel) (rd : Read) (n : Nat) :
    Complete n sel (.ref .default_value) (DefaultDefText rd.pos rd.atof) (IsDefaultDef rd) (Ends valCont) := by
  intro s a t hl hd hF
  cases hd with
  | @mk u v y text _ hk hV hc =>
    have r1 := skip_star hs hk (value_starts.ends valueStart_gap hV)
    have l1 := rest_le r1
    simp only [List.length_cons] at hl
    obtain ⟨x, he, hW⟩ := value_complete hs rd n v y t (by omega) hV hF
    have hc' : v = x.content ++ t := value_content hs he
    have : x.content = text := List.append_cancel_right (hc'.symm.trans hc)
    refine ⟨_, (ref_store_ok (hs.at ⟨rfl, rfl⟩)).2 ⟨[x], seq_ok.2 ⟨[], u, [x], chr_ok.2 ⟨rfl, rfl⟩, need_ok.2
        ((ref_discard_ok (n := .default_value_content) (hs.at ⟨rfl, rfl⟩)).2 (seq_ok.2 ⟨[], v, [x], r1,
          (value_of_need hs).2 he, rfl⟩)), rfl⟩, rfl⟩, rfl, ?_⟩
    have hW : litOf rd x = some y := hW
    simp [defaultOf, children_mk, lastLit, hW, this]

theorem default_def_starts : Starts (DefaultDefText rd.pos rd.atof) isEquals := by
  intro s a t h
  cases h with
  | mk _ _ _ => exact ⟨_, _, rfl, by decide⟩

/-! ## Arguments and input fields -/

/-- The node stands for the argument or input field. -/
def IsInputValue (rd : Read) (x : Node R) (a : InputValueDef) : Prop :=
  x.rule = .input_field_definition ∧ inputValueOf rd x = some a

theorem inputValueOf_nodes {ds vs rs : List (Node R)} {d n : Str} {x : Node R} {a : Ast.TypeRef} {v : Option DefaultValue}
    {r : Option (List Ast.Directive)} {l l' : Nat} {c : Str} (hd : DescNodes rd.unescapeJ ds d) (hx : IsType x a)
    (hv : OptNodes (One (IsDefaultDef rd)) vs v) (hr : OptNodes (One (IsDirectives rd)) rs r) :
    inputValueOf rd (.mk .input_field_definition l c (ds ++ ([.mk .argument_name l' n []] ++ ([x] ++ (vs ++ rs))))) =
      some { description := d, name := n, type := a, default := v } := by
  have kd := kinds_desc hd
  have kx := kinds_type hx
  have kv := kinds_opt (k := .default_value) (fun _ _ h => h.1) hv
  have kr := kinds_opt (k := .directives) (fun _ _ h => h.1) hr
  have kn : Kinds [.argument_name] [.mk .argument_name l' n []] := by simp [Kinds, rule_mk]
  have e1 := lastDescription_nodes (rd := rd) hd (((kn.append (kx.append (kv.append kr)))).no (k := .description) (by decide))
  unfold inputValueOf
  rw [children_mk, e1]
  simp only [List.reverse_append, List.append_assoc, rev_desc hd, rev_opt hv, rev_opt hr, List.reverse_singleton]
  have e2 : lastChild .argument_name (ds ++ ([.mk .argument_name l' n []] ++ ([x] ++ (vs ++ rs)))) =
      some (.mk .argument_name l' n []) := by
    unfold lastChild
    simp only [List.reverse_append, List.append_assoc, rev_desc hd, rev_opt hv, rev_opt hr, List.reverse_singleton]
    rw [firstChild_skip (kr.no (by decide)), firstChild_skip (kv.no (by decide)), firstChild_skip (kx.no (by decide))]
    rfl
  rw [e2, find_skip kr (by decide), find_skip kv (by decide), find_type hx, optChild_skip kr (by decide),
    optChild_nodes (fun _ _ h => h) hv ((kx.append (kn.append kd))) (by decide)]
  simp only [IsType] at hx
  simp [hx, content_mk]

/-- The rule reads a name. -/
def NameRule (sel : R → Sel) (k : R) : Prop :=
  ∀ s t xs, eval sel (.ref k) s = .ok xs t ↔ ∃ n, Name s n t ∧ Ends nameCont t ∧ xs = [.mk k s.length n []]

theorem nameRule_of {k : R} (hk : sel k = .store) (hg : grammar k = Rule.identifier) : NameRule sel k :=
  fun _ _ _ => nameText_ok hk hg

theorem nameRule_enum (hs : Sels sel) : NameRule sel .enum_value := by
  intro s t xs
  rw [ref_store_ok (hs.at ⟨rfl, rfl⟩)]
  constructor
  · rintro ⟨ys, h, rfl⟩
    obtain ⟨rfl, n, ⟨hn, rfl⟩, he⟩ := (enum_value_ok hs).1 h
    exact ⟨n, ⟨hn, rfl⟩, he, by rw [consumed_append]⟩
  · rintro ⟨n, ⟨hn, rfl⟩, he, rfl⟩
    exact ⟨[], (enum_value_ok hs).2 ⟨rfl, n, ⟨hn, rfl⟩, he⟩, by rw [consumed_append]⟩

/-- A description and a name. -/
theorem named_sound (J : Str → Str) {k kn : R} (hk : schemaSelector k = .discard)
    (hg : grammar k = Rule.seqs [describedRule, .ref kn]) (hkn : NameRule schemaSelector kn) {s b : Str} {ns : List (Node R)}
    (he : eval schemaSelector (.ref k) s = .ok ns b) :
    ∃ d a n ds, Described J s d a ∧ Name a n b ∧ Ends nameCont b ∧ ns = ds ++ [.mk kn a.length n []] ∧ DescNodes J ds d := by
  rw [ref_discard_ok hk, hg] at he
  obtain ⟨ds, a, _, h1, h2, rfl⟩ := seq_ok.1 he
  obtain ⟨d, hd, hd'⟩ := described_sound J h1
  obtain ⟨n, hn, hb, rfl⟩ := (hkn _ _ _).1 h2
  exact ⟨d, a, n, ds, hd, hn, hb, rfl, hd'⟩

theorem named_complete (J : Str → Str) {k kn : R} (hk : schemaSelector k = .discard)
    (hg : grammar k = Rule.seqs [describedRule, .ref kn]) (hkn : NameRule schemaSelector kn) {s d a n b : Str}
    (hd : Described J s d a) (hn : Name a n b) (hb : Ends nameCont b) :
    ∃ ds, eval schemaSelector (.ref k) s = .ok (ds ++ [.mk kn a.length n []]) b ∧ DescNodes J ds d := by
  obtain ⟨ds, h1, hd'⟩ := described_complete J hd (name_starts.ends nameStart_gap hn) (name_starts.ends (by decide +kernel) hn)
  refine ⟨ds, ?_, hd'⟩
  rw [ref_discard_ok hk, hg]
  exact seq_ok.2 ⟨ds, a, _, h1, (hkn _ _ _).2 ⟨n, hn, hb, rfl⟩, rfl⟩

theorem named_starts {J : Str → Str} {s d a n b : Str} (hd : Described J s d a) (hn : Name a n b) :
    ∃ c u, s = c :: u ∧ descStart nameStart c = true := described_starts hd (name_starts _ _ _ hn)

theorem input_value_sound (rd : Read) (n : Nat) :
    Sound n schemaSelector (.ref .input_field_definition) (InputValueText rd.pos rd.atof rd.unescapeJ) (IsInputValue rd) := by
  intro s ns t hl he
  obtain ⟨cs, h1, rfl⟩ := (ref_store_ok rfl).1 he
  obtain ⟨xs, b, ys, h2, h3, rfl⟩ := seq_ok.1 h1
  obtain ⟨d, a, m, ds, hd, hm, _, rfl, hd'⟩ := named_sound rd.unescapeJ (k := .input_field_definition_start)
    (kn := .argument_name) rfl rfl (nameRule_of rfl rfl) h2
  have h4 := (ref_discard_ok (n := .input_field_definition_content) rfl).1 (need_ok.1 h3)
  obtain ⟨zs, e, rs, h5, h6, rfl⟩ := seq_ok.1 h4
  have h7 := (ref_discard_ok (n := .input_field_definition_type_name) rfl).1 h5
  obtain ⟨_, v, _, h8, h9, rfl⟩ := seq_ok.1 h7
  obtain ⟨_, w, _, h10, h11, rfl⟩ := seq_ok.1 h9
  obtain ⟨_, x, _, h12, h13, rfl⟩ := seq_ok.1 h11
  obtain ⟨rfl, k1, _⟩ := star_skip schema_sels h8
  obtain ⟨rfl, rfl⟩ := chr_ok.1 h10
  obtain ⟨rfl, k2, _⟩ := star_skip schema_sels h12
  have l1 := rest_le h2
  have l2 := rest_le h8
  have l3 := rest_le h10
  have l4 := rest_le h12
  have l5 := rest_le h13
  obtain ⟨tn, ty, rfl, hT, hW⟩ := type_sound schema_sels n x _ e (by omega) ((type_name_iff schema_sels).1 h13)
  obtain ⟨o, f, o', vs, us, ho, ho', rfl, hv, hu⟩ := tail_sound schema_sels
    (SameRule.ref (n := .input_field_definition_default_value) rfl) (SameRule.ref (n := .input_field_definition_directives) rfl)
    (default_def_sound schema_sels rd n).list (directives_sound schema_sels rd n).list (by omega) h6
  refine ⟨_, _, rfl, .mk hd hm k1 k2 hT ho ho', rfl, ?_⟩
  simpa using inputValueOf_nodes (l := s.length) (l' := a.length) (n := m) hd' hW hv hu

/-- What cannot follow an argument definition, after ignored text. -/
def argNext (c : Byte) : Bool := isAt c || isParen c || isBang c || isEquals c

theorem input_value_complete (rd : Read) (n : Nat) :
    Complete n schemaSelector (.ref .input_field_definition) (InputValueText rd.pos rd.atof rd.unescapeJ) (IsInputValue rd)
      (Follow valCont argNext) := by
  intro s v t hl hv hF
  cases hv with
  | @mk _ d a m b c e ty f o g dirs _ hd hm k1 k2 hT ho ho' =>
    have hc : Ends gapStart (ch ':' :: c) := ends_cons (by decide)
    have hb : Ends nameCont b := (follow_skip (p := nameCont) (q := fun _ => false) k1 nameCont_gap
      (ends_cons (by decide)) hc (ends_cons rfl)).1
    obtain ⟨ds, r1, hd'⟩ := named_complete rd.unescapeJ (k := .input_field_definition_start)
      (kn := .argument_name) rfl rfl (nameRule_of rfl rfl) hd hm hb
    have r2 := skip_star schema_sels k1 hc
    have r3 : eval schemaSelector (Rule.chr ':') (ch ':' :: c) = .ok [] c := chr_ok.2 ⟨rfl, rfl⟩
    have r4 := skip_star schema_sels k2 (type_starts.ends typeStart_gap hT)
    have l1 := rest_le r1
    have l2 := rest_le r2
    have l3 := rest_le r3
    have l4 := rest_le r4
    have hg : Follow valCont (fun c => isBang c || isEquals c) g :=
      opt_follow directives_starts valCont_gap (by decide +kernel) ho' (hF.weaken (fun _ => id) (by decide +kernel))
    have hf : Follow nameCont isBang f := (opt_follow (p := nameCont) default_def_starts nameCont_gap (by decide +kernel) ho
      (hg.weaken valCont_name (by decide +kernel)))
    obtain ⟨tn, he, hW⟩ := type_complete schema_sels n e ty f (by omega) hT hf
    have r5 := (type_name_iff schema_sels).2 he
    have l5 := rest_le r5
    obtain ⟨vs, us, r6, hv', hu⟩ := tail_complete schema_sels
      (SameRule.ref (n := .input_field_definition_default_value) rfl) (SameRule.ref (n := .input_field_definition_directives) rfl)
      (default_def_complete schema_sels rd n).list default_def_starts isEquals_gap default_needs
      (directives_complete schema_sels rd n).list directives_starts isAt_gap directives_needs (by omega) ho ho' hg.1
      (hg.weaken (p' := valCont) (fun _ => id) (by decide +kernel)).2 (hF.weaken valCont_name (by decide +kernel))
      (hF.weaken (p' := valCont) (fun _ => id) (by decide +kernel)).2
    refine ⟨_, (ref_store_ok rfl).2 ⟨_, seq_ok.2 ⟨_, b, _, r1, need_ok.2 ((ref_discard_ok
      (n := .input_field_definition_content) rfl).2 (seq_ok.2 ⟨_, f, _, (ref_discard_ok
        (n := .input_field_definition_type_name) rfl).2 (seq_ok.2 ⟨[], _, _, r2, seq_ok.2 ⟨[], _, _, r3,
          seq_ok.2 ⟨[], _, _, r4, r5, rfl⟩, rfl⟩, rfl⟩), r6, rfl⟩)), rfl⟩, rfl⟩, rfl, ?_⟩
    simpa using inputValueOf_nodes (l := s.length) (l' := a.length) (n := m) hd' hW hv' hu

theorem input_value_starts : Starts (InputValueText rd.pos rd.atof rd.unescapeJ) (descStart nameStart) := by
  intro s a t h
  cases h with
  | mk hd hm _ _ _ _ _ => exact named_starts hd hm

theorem input_value_needs : Needs sel (.ref .input_field_definition) (descStart nameStart) :=
  needs_of (by decide +kernel) (by decide +kernel)

theorem descName_gap : ∀ c : Byte, descStart nameStart c = true → gapStart c = false := by decide +kernel

/-! ## Lists of arguments and input fields -/

/-- The node stands for the argument definitions. -/
def IsArgsDef (rd : Read) (x : Node R) (a : List InputValueDef) : Prop :=
  x.rule = .arguments_definition ∧ inputValuesOf rd x.children = some a

/-- The node stands for the input fields. -/
def IsInputFields (rd : Read) (x : Node R) (a : List InputValueDef) : Prop :=
  x.rule = .input_fields_definition ∧ inputValuesOf rd x.children = some a

theorem args_def_sound (rd : Read) (n : Nat) :
    Sound n schemaSelector (.ref .arguments_definition) (ArgumentsDefText rd.pos rd.atof rd.unescapeJ) (IsArgsDef rd) := by
  intro s ns t hl he
  obtain ⟨cs, h1, rfl⟩ := (ref_store_ok rfl).1 he
  obtain ⟨xs, hb, hf⟩ := brackets_sound schema_sels (r := .ref .input_field_definition) (o := '(') (c := ')')
    (m := str "Expected )") (SameOk.ref (n := .arguments_definition_start) rfl)
    (SameOk.need (n := .arguments_definition_content) rfl) rfl (input_value_sound rd n) (by omega) h1
  exact ⟨_, xs, rfl, hb, rfl, mapM_of (hf.imp fun _ _ h => h.2)⟩

theorem args_def_complete (rd : Read) (n : Nat) :
    Complete n schemaSelector (.ref .arguments_definition) (ArgumentsDefText rd.pos rd.atof rd.unescapeJ) (IsArgsDef rd)
      (fun _ => True) := by
  intro s a t hl hb _
  obtain ⟨cs, he, hf⟩ := brackets_complete schema_sels (r := .ref .input_field_definition) (o := '(') (c := ')')
    (m := str "Expected )") (SameOk.ref (n := .arguments_definition_start) rfl)
    (SameOk.need (n := .arguments_definition_content) rfl) rfl (by decide) (by decide) (input_value_complete rd n)
    input_value_starts descName_gap input_value_needs (follow_items valCont_gap (by decide +kernel))
    (follow_close valCont_gap (by decide) (by decide) (by decide)) (by omega) hb
  exact ⟨_, (ref_store_ok rfl).2 ⟨cs, he, rfl⟩, rfl, mapM_of (hf.imp fun _ _ h => h.2)⟩

theorem args_def_starts : Starts (ArgumentsDefText rd.pos rd.atof rd.unescapeJ) isParen := by
  intro s a t h
  obtain ⟨u, rfl⟩ := between_starts h
  exact ⟨_, _, rfl, by decide⟩

theorem args_def_needs : Needs sel (.ref .arguments_definition) isParen := needs_of (by decide +kernel) (by decide +kernel)

theorem input_fields_sound (rd : Read) (n : Nat) :
    Sound n schemaSelector (.ref .input_fields_definition) (InputFieldsText rd.pos rd.atof rd.unescapeJ) (IsInputFields rd) := by
  intro s ns t hl he
  obtain ⟨cs, h1, rfl⟩ := (ref_store_ok rfl).1 he
  obtain ⟨xs, hb, hf⟩ := brackets_sound schema_sels (r := .ref .input_field_definition) (o := '{') (c := '}')
    (m := str "Expected }") (SameOk.ref (n := .input_fields_definition_start) rfl)
    (SameOk.need (n := .input_fields_definition_content) rfl) rfl (input_value_sound rd n) (by omega) h1
  exact ⟨_, xs, rfl, hb, rfl, mapM_of (hf.imp fun _ _ h => h.2)⟩

theorem input_fields_complete (rd : Read) (n : Nat) :
    Complete n schemaSelector (.ref .input_fields_definition) (InputFieldsText rd.pos rd.atof rd.unescapeJ)
      (IsInputFields rd) (fun _ => True) := by
  intro s a t hl hb _
  obtain ⟨cs, he, hf⟩ := brackets_complete schema_sels (r := .ref .input_field_definition) (o := '{') (c := '}')
    (m := str "Expected }") (SameOk.ref (n := .input_fields_definition_start) rfl)
    (SameOk.need (n := .input_fields_definition_content) rfl) rfl (by decide) (by decide) (input_value_complete rd n)
    input_value_starts descName_gap input_value_needs (follow_items valCont_gap (by decide +kernel))
    (follow_close valCont_gap (by decide) (by decide) (by decide)) (by omega) hb
  exact ⟨_, (ref_store_ok rfl).2 ⟨cs, he, rfl⟩, rfl, mapM_of (hf.imp fun _ _ h => h.2)⟩

theorem input_fields_starts : Starts (InputFieldsText rd.pos rd.atof rd.unescapeJ) isBrace := by
  intro s a t h
  obtain ⟨u, rfl⟩ := between_starts h
  exact ⟨_, _, rfl, by decide⟩

theorem input_fields_needs : Needs sel (.ref .input_fields_definition) isBrace := needs_of (by decide +kernel) (by decide +kernel)

/-! ## Fields -/

/-- The node stands for the field. -/
def IsFieldDef (rd : Read) (x : Node R) (a : FieldDef) : Prop := x.rule = .field_definition ∧ fieldDefOf rd x = some a

theorem defDirectives_nodes {rs ys : List (Node R)} {r : Option (List Ast.Directive)} (hr : OptNodes (One (IsDirectives rd)) rs r)
    {ks : List R} (hy : Kinds ks ys) (hk : R.directives ∉ ks) : defDirectivesOf rd (rs ++ ys) = some (r.getD []) := by
  unfold defDirectivesOf directivesOf
  rw [optChild_nodes (fun _ _ h => h) hr hy hk]
  cases r <;> rfl

theorem fieldDefOf_nodes {ds as rs : List (Node R)} {d n : Str} {x : Node R} {a : Ast.TypeRef}
    {v : Option (List InputValueDef)} {r : Option (List Ast.Directive)} {l l' : Nat} {c : Str}
    (hd : DescNodes rd.unescapeJ ds d) (hv : OptNodes (One (IsArgsDef rd)) as v) (hx : IsType x a)
    (hr : OptNodes (One (IsDirectives rd)) rs r) :
    fieldDefOf rd (.mk .field_definition l c (ds ++ ([.mk .field_name l' n []] ++ (as ++ ([x] ++ rs))))) =
      some { description := d, name := n, arguments := v.getD [], type := a, directives := r.getD [] } := by
  have kd := kinds_desc hd
  have kx := kinds_type hx
  have kv := kinds_opt (k := .arguments_definition) (fun _ _ h => h.1) hv
  have kr := kinds_opt (k := .directives) (fun _ _ h => h.1) hr
  have kn : Kinds [.field_name] [.mk .field_name l' n []] := by simp [Kinds, rule_mk]
  have e1 := lastDescription_nodes (rd := rd) hd (((kn.append (kv.append (kx.append kr)))).no (k := .description) (by decide))
  unfold fieldDefOf
  rw [children_mk, e1]
  simp only [List.reverse_append, List.append_assoc, rev_desc hd, rev_opt hv, rev_opt hr, List.reverse_singleton]
  have e2 : lastChild .field_name (ds ++ ([.mk .field_name l' n []] ++ (as ++ ([x] ++ rs)))) =
      some (.mk .field_name l' n []) := by
    unfold lastChild
    simp only [List.reverse_append, List.append_assoc, rev_desc hd, rev_opt hv, rev_opt hr, List.reverse_singleton]
    rw [firstChild_skip (kr.no (by decide)), firstChild_skip (kx.no (by decide)), firstChild_skip (kv.no (by decide))]
    rfl
  rw [e2, find_skip kr (by decide), find_type hx, optChild_skip kr (by decide), optChild_skip kx (by decide),
    optChild_nodes (fun _ _ h => h) hv (kn.append kd) (by decide),
    defDirectives_nodes hr (kx.append (kv.append (kn.append kd))) (by decide)]
  simp only [IsType] at hx
  simp [hx, content_mk]

theorem field_def_sound (rd : Read) (n : Nat) :
    Sound n schemaSelector (.ref .field_definition) (FieldDefText rd.pos rd.atof rd.unescapeJ) (IsFieldDef rd) := by
  intro s ns t hl he
  obtain ⟨cs, h1, rfl⟩ := (ref_store_ok rfl).1 he
  obtain ⟨xs, b, ys, h2, h3, rfl⟩ := seq_ok.1 h1
  obtain ⟨d, a, m, ds, hd, hm, _, rfl, hd'⟩ := named_sound rd.unescapeJ (k := .field_definition_start)
    (kn := .field_name) rfl rfl (nameRule_of rfl rfl) h2
  have h4 := (ref_discard_ok (n := .field_definition_content) rfl).1 (need_ok.1 h3)
  obtain ⟨as, e, _, h5, h6, rfl⟩ := seq_ok.1 h4
  obtain ⟨_, v, _, h8, h9, rfl⟩ := seq_ok.1 h6
  obtain ⟨_, w, _, h10, h11, rfl⟩ := seq_ok.1 h9
  obtain ⟨_, x, _, h12, h13, rfl⟩ := seq_ok.1 h11
  obtain ⟨_, y, us, h14, h15, rfl⟩ := seq_ok.1 h13
  obtain ⟨rfl, k1, _⟩ := star_skip schema_sels h8
  obtain ⟨rfl, rfl⟩ := chr_ok.1 h10
  obtain ⟨rfl, k2, _⟩ := star_skip schema_sels h12
  have l1 := rest_le h2
  have l2 := rest_le h5
  have l3 := rest_le h8
  have l4 := rest_le h10
  have l5 := rest_le h12
  have l6 := rest_le h14
  obtain ⟨v, ho, hv⟩ := optNodes_sound schema_sels (args_def_sound rd n).list (by omega) h5
  obtain ⟨tn, ty, rfl, hT, hW⟩ := type_sound schema_sels n x _ y (by omega) ((type_name_iff schema_sels).1 h14)
  obtain ⟨o', ho', hu⟩ := optNodes_sound schema_sels (directives_sound schema_sels rd n).list (by omega) h15
  refine ⟨_, _, rfl, .mk hd hm ho k1 k2 hT ho', rfl, ?_⟩
  simpa using fieldDefOf_nodes (l := s.length) (l' := a.length) (n := m) hd' hv hW hu

/-- What cannot follow a field definition, after ignored text. -/
def fieldDefNext (c : Byte) : Bool := isAt c || isParen c || isBang c

theorem field_def_complete (rd : Read) (n : Nat) :
    Complete n schemaSelector (.ref .field_definition) (FieldDefText rd.pos rd.atof rd.unescapeJ) (IsFieldDef rd)
      (Follow nameCont fieldDefNext) := by
  intro s v t hl hv hF
  cases hv with
  | @mk _ d a m b args c e f ty g dirs _ hd hm ho k1 k2 hT ho' =>
    have hc : Ends gapStart (ch ':' :: e) := ends_cons (by decide)
    have hc0 : Follow nameCont isParen c := follow_skip k1 nameCont_gap (ends_cons (by decide)) hc (ends_cons (by decide))
    have hb : Ends nameCont b := (opt_follow (q := fun _ => false) args_def_starts nameCont_gap (by decide +kernel) ho
      (hc0.weaken (fun _ => id) (fun _ _ => rfl))).1
    obtain ⟨ds, r1, hd'⟩ := named_complete rd.unescapeJ (k := .field_definition_start)
      (kn := .field_name) rfl rfl (nameRule_of rfl rfl) hd hm hb
    have l1 := rest_le r1
    obtain ⟨as, r0, hv'⟩ := optNodes_complete schema_sels (args_def_complete rd n).list args_def_starts isParen_gap
      args_def_needs (by omega) ho trivial hc0.2
    have r2 := skip_star schema_sels k1 hc
    have r3 : eval schemaSelector (Rule.chr ':') (ch ':' :: e) = .ok [] e := chr_ok.2 ⟨rfl, rfl⟩
    have r4 := skip_star schema_sels k2 (type_starts.ends typeStart_gap hT)
    have l0 := rest_le r0
    have l2 := rest_le r2
    have l3 := rest_le r3
    have l4 := rest_le r4
    have hg : Follow nameCont isBang g :=
      opt_follow directives_starts nameCont_gap (by decide +kernel) ho' (hF.weaken (fun _ => id) (by decide +kernel))
    obtain ⟨tn, he, hW⟩ := type_complete schema_sels n f ty g (by omega) hT hg
    have r5 := (type_name_iff schema_sels).2 he
    have l5 := rest_le r5
    obtain ⟨us, r6, hu⟩ := optNodes_complete schema_sels (directives_complete schema_sels rd n).list directives_starts
      isAt_gap directives_needs (by omega) ho' (hF.weaken (fun _ => id) (by decide +kernel))
      (hF.weaken (p' := nameCont) (fun _ => id) (by decide +kernel)).2
    refine ⟨_, (ref_store_ok rfl).2 ⟨_, seq_ok.2 ⟨_, b, _, r1, need_ok.2 ((ref_discard_ok
      (n := .field_definition_content) rfl).2 (seq_ok.2 ⟨_, c, _, r0, seq_ok.2 ⟨[], _, _, r2, seq_ok.2 ⟨[], _, _, r3,
          seq_ok.2 ⟨[], _, _, r4, seq_ok.2 ⟨_, _, _, r5, r6, rfl⟩, rfl⟩, rfl⟩, rfl⟩, rfl⟩)), rfl⟩, rfl⟩, rfl, ?_⟩
    simpa using fieldDefOf_nodes (l := s.length) (l' := a.length) (n := m) hd' hv' hW hu

theorem field_def_starts : Starts (FieldDefText rd.pos rd.atof rd.unescapeJ) (descStart nameStart) := by
  intro s a t h
  cases h with
  | mk hd hm _ _ _ _ _ => exact named_starts hd hm

theorem field_def_needs : Needs sel (.ref .field_definition) (descStart nameStart) :=
  needs_of (by decide +kernel) (by decide +kernel)

/-- The node stands for the fields. -/
def IsFieldsDef (rd : Read) (x : Node R) (a : List FieldDef) : Prop :=
  x.rule = .fields_definition ∧ x.children.mapM (fieldDefOf rd) = some a

theorem fields_def_sound (rd : Read) (n : Nat) :
    Sound n schemaSelector (.ref .fields_definition) (FieldsDefText rd.pos rd.atof rd.unescapeJ) (IsFieldsDef rd) := by
  intro s ns t hl he
  obtain ⟨cs, h1, rfl⟩ := (ref_store_ok rfl).1 he
  obtain ⟨xs, hb, hf⟩ := brackets_sound schema_sels (r := .ref .field_definition) (o := '{') (c := '}')
    (m := str "Expected }") (SameOk.refl _)
    (SameOk.need (n := .fields_definition_content) rfl) rfl (field_def_sound rd n) (by omega) h1
  exact ⟨_, xs, rfl, hb, rfl, mapM_of (hf.imp fun _ _ h => h.2)⟩

theorem fields_def_complete (rd : Read) (n : Nat) :
    Complete n schemaSelector (.ref .fields_definition) (FieldsDefText rd.pos rd.atof rd.unescapeJ)
      (IsFieldsDef rd) (fun _ => True) := by
  intro s a t hl hb _
  obtain ⟨cs, he, hf⟩ := brackets_complete schema_sels (r := .ref .field_definition) (o := '{') (c := '}')
    (m := str "Expected }") (SameOk.refl _)
    (SameOk.need (n := .fields_definition_content) rfl) rfl (by decide) (by decide) (field_def_complete rd n)
    field_def_starts descName_gap field_def_needs (follow_items nameCont_gap (by decide +kernel))
    (follow_close nameCont_gap (by decide) (by decide) (by decide)) (by omega) hb
  exact ⟨_, (ref_store_ok rfl).2 ⟨cs, he, rfl⟩, rfl, mapM_of (hf.imp fun _ _ h => h.2)⟩

theorem fields_def_starts : Starts (FieldsDefText rd.pos rd.atof rd.unescapeJ) isBrace := by
  intro s a t h
  obtain ⟨u, rfl⟩ := between_starts h
  exact ⟨_, _, rfl, by decide⟩

theorem fields_def_needs : Needs sel (.ref .fields_definition) isBrace := needs_of (by decide +kernel) (by decide +kernel)

/-! ## Enum values -/

/-- The node stands for the enum value. -/
def IsEnumValue (rd : Read) (x : Node R) (a : EnumValueDef) : Prop :=
  x.rule = .enum_value_definition ∧ enumValueOf rd x = some a

theorem enumValueOf_nodes {ds rs : List (Node R)} {d n : Str} {r : Option (List Ast.Directive)} {l l' : Nat} {c : Str}
    (hd : DescNodes rd.unescapeJ ds d) (hr : OptNodes (One (IsDirectives rd)) rs r) :
    enumValueOf rd (.mk .enum_value_definition l c (ds ++ ([.mk .enum_value l' n []] ++ rs))) =
      some { description := d, value := n, directives := r.getD [] } := by
  have kd := kinds_desc hd
  have kr := kinds_opt (k := .directives) (fun _ _ h => h.1) hr
  have kn : Kinds [.enum_value] [.mk .enum_value l' n []] := by simp [Kinds, rule_mk]
  have e1 := descriptionOf_nodes (rd := rd) hd ((kn.append kr).no (k := .description) (by decide))
  unfold enumValueOf
  rw [children_mk, e1, firstChild_skip (kd.no (by decide))]
  have e2 : defDirectivesOf rd (ds ++ ([.mk .enum_value l' n []] ++ rs)) = some (r.getD []) := by
    have := defDirectives_nodes hr kinds_nil (by simp)
    rw [List.append_nil] at this
    unfold defDirectivesOf directivesOf at this ⊢
    rwa [optChild_skip kd (by decide), optChild_skip kn (by decide)]
  rw [e2]
  rfl

theorem enum_def_sound (rd : Read) (n : Nat) :
    Sound n schemaSelector (.ref .enum_value_definition) (EnumValueText rd.pos rd.atof rd.unescapeJ) (IsEnumValue rd) := by
  intro s ns t hl he
  obtain ⟨cs, h1, rfl⟩ := (ref_store_ok rfl).1 he
  obtain ⟨xs, b, ys, h2, h3, rfl⟩ := seq_ok.1 h1
  obtain ⟨d, a, m, ds, hd, hm, _, rfl, hd'⟩ := named_sound rd.unescapeJ (k := .enum_value_definition_start)
    (kn := .enum_value) rfl rfl (nameRule_enum schema_sels) h2
  have h4 := (ref_discard_ok (n := .enum_value_definition_content) rfl).1 (need_ok.1 h3)
  have l1 := rest_le h2
  obtain ⟨o', ho', hu⟩ := optNodes_sound schema_sels (directives_sound schema_sels rd n).list (by omega) h4
  refine ⟨_, _, rfl, .mk hd hm ho', rfl, ?_⟩
  simpa using enumValueOf_nodes (l := s.length) (l' := a.length) (n := m) hd' hu

theorem enum_def_complete (rd : Read) (n : Nat) :
    Complete n schemaSelector (.ref .enum_value_definition) (EnumValueText rd.pos rd.atof rd.unescapeJ) (IsEnumValue rd)
      (Follow nameCont dirNext) := by
  intro s v t hl hv hF
  cases hv with
  | @mk _ d a m b dirs _ hd hm ho' =>
    have hb : Ends nameCont b := (opt_follow (q := fun _ => false) directives_starts nameCont_gap (by decide +kernel) ho'
      (hF.weaken (fun _ => id) (fun _ _ => rfl))).1
    obtain ⟨ds, r1, hd'⟩ := named_complete rd.unescapeJ (k := .enum_value_definition_start)
      (kn := .enum_value) rfl rfl (nameRule_enum schema_sels) hd hm hb
    have l1 := rest_le r1
    obtain ⟨us, r6, hu⟩ := optNodes_complete schema_sels (directives_complete schema_sels rd n).list directives_starts
      isAt_gap directives_needs (by omega) ho' hF (hF.weaken (p' := nameCont) (fun _ => id) (by decide +kernel)).2
    refine ⟨_, (ref_store_ok rfl).2 ⟨_, seq_ok.2 ⟨_, b, _, r1, need_ok.2 ((ref_discard_ok
      (n := .enum_value_definition_content) rfl).2 r6), rfl⟩, rfl⟩, rfl, ?_⟩
    simpa using enumValueOf_nodes (l := s.length) (l' := a.length) (n := m) hd' hu

theorem enum_def_starts : Starts (EnumValueText rd.pos rd.atof rd.unescapeJ) (descStart nameStart) := by
  intro s a t h
  cases h with
  | mk hd hm _ => exact named_starts hd hm

theorem enum_def_needs : Needs sel (.ref .enum_value_definition) (descStart nameStart) :=
  needs_of (by decide +kernel) (by decide +kernel)

theorem enum_defs_sound (rd : Read) (n : Nat) :
    SoundL n schemaSelector (.ref .enum_values_definition) (EnumValuesText rd.pos rd.atof rd.unescapeJ)
      (List.Forall₂ (IsEnumValue rd)) := by
  intro s ns t hl he
  exact brackets_sound schema_sels (r := .ref .enum_value_definition) (o := '{') (c := '}')
    (m := str "Expected }") (SameOk.ref (n := .enum_values_definition_start) rfl)
    (SameOk.need (n := .enum_values_definition_content) rfl) rfl (enum_def_sound rd n) (by omega)
    ((ref_discard_ok (n := .enum_values_definition) rfl).1 he)

theorem enum_defs_complete (rd : Read) (n : Nat) :
    CompleteL n schemaSelector (.ref .enum_values_definition) (EnumValuesText rd.pos rd.atof rd.unescapeJ)
      (List.Forall₂ (IsEnumValue rd)) (fun _ => True) := by
  intro s a t hl hb _
  obtain ⟨cs, he, hf⟩ := brackets_complete schema_sels (r := .ref .enum_value_definition) (o := '{') (c := '}')
    (m := str "Expected }") (SameOk.ref (n := .enum_values_definition_start) rfl)
    (SameOk.need (n := .enum_values_definition_content) rfl) rfl (by decide) (by decide) (enum_def_complete rd n)
    enum_def_starts descName_gap enum_def_needs (follow_items nameCont_gap (by decide +kernel))
    (follow_close nameCont_gap (by decide) (by decide) (by decide)) (n := n) (by omega) hb
  exact ⟨cs, (ref_discard_ok (n := .enum_values_definition) rfl).2 he, hf⟩

theorem enum_defs_starts : Starts (EnumValuesText rd.pos rd.atof rd.unescapeJ) isBrace := by
  intro s a t h
  obtain ⟨u, rfl⟩ := between_starts h
  exact ⟨_, _, rfl, by decide⟩

theorem enum_defs_needs : Needs sel (.ref .enum_values_definition) isBrace := needs_of (by decide +kernel) (by decide +kernel)

end Verif.Peg
