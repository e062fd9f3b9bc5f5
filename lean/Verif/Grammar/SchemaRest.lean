import Verif.Grammar.SchemaReads

/-!
# Schemas, scalars and directives
-/
namespace Verif.Peg
open Verif.Value Verif.Text Verif.Gen Rule

variable {sel : R → Sel} {rd : Read}

/-- Optional directives. -/
def optDirectives : Rule R := .opt (.seq (.star (.ref .ignored)) (.ref .directives))

theorem optDirectives_sound {s t : Str} {ns : List (Node R)} (he : eval schemaSelector optDirectives s = .ok ns t) :
    ∃ o, Opt (DirectivesText rd.pos rd.atof) s o t ∧ OptNodes (One (IsDirectives rd)) ns o :=
  optNodes_sound schema_sels (directives_sound schema_sels rd (s.length + 1)).list (by omega) he

theorem optDirectives_complete {s t : Str} {o : Option (List Ast.Directive)} (ho : Opt (DirectivesText rd.pos rd.atof) s o t)
    (ha : Apart s t) (hF : NotNext dirNext t) :
    ∃ ns, eval schemaSelector optDirectives s = .ok ns t ∧ OptNodes (One (IsDirectives rd)) ns o := by
  have hF' : Follow (fun _ => false) dirNext t := ⟨fun _ _ _ => rfl, hF⟩
  have ho' : Opt (DirectivesEnd rd) s o t := by
    cases ho with
    | none => exact .none
    | some hk hd => exact .some hk ⟨hd, apart_suffix ha (skip_suffix hk)⟩
  exact optNodes_complete schema_sels (directives_end schema_sels rd (s.length + 1)).list directives_end_starts isAt_gap
    directives_needs (by omega) ho' hF (hF'.weaken (p' := fun _ => false) (fun _ => id) (by decide +kernel)).2

/-- What follows the optional directives begins before them, or there are directives. -/
theorem optDirectives_ends {s t : Str} {o : Option (List Ast.Directive)} (ho : Opt (DirectivesText rd.pos rd.atof) s o t) :
    Ends nameCont s ∨ s = t := by
  cases ho with
  | none => exact .inr rfl
  | some hk hd =>
    exact .inl (follow_skip (q := fun _ => false) hk nameCont_gap (directives_starts.ends (by decide +kernel) hd)
      (directives_starts.ends isAt_gap hd) (directives_starts.ends (fun _ _ => rfl) hd)).1

/-! ## Scalars -/

theorem scalar_start : StartRule .scalar_type_definition_start (.ref .scalar_keyword) "scalar" :=
  ⟨rfl, rfl, word_ref rfl rfl, by decide +kernel⟩

theorem scalar_ext : ExtRule .scalar_type_extension_start .scalar_keyword "scalar" := ⟨rfl, rfl, rfl, rfl, by decide +kernel⟩

theorem scalar_name_rule : NameRule schemaSelector .scalar_name := nameRule_of rfl rfl

/-- The nodes of a scalar. -/
def ScalarNodes (rd : Read) (cs : List (Node R)) (d n : Str) : Prop :=
  ∃ ds l xs o, cs = ds ++ ([.mk .scalar_name l n []] ++ xs) ∧ DescNodes rd.unescapeJ ds d ∧ OptNodes (One (IsDirectives rd)) xs o

theorem scalar_nodes {cs : List (Node R)} {d n : Str} (h : ScalarNodes rd cs d n) :
    nameOf .scalar_name cs = some n ∧ descriptionOf rd cs = d := by
  obtain ⟨ds, l, xs, o, rfl, hd, hx⟩ := h
  exact ⟨nameOf_nodes hd (by decide), description_nodes hd ((kinds_name .scalar_name l n).append (kinds_dirs hx)) (by decide)⟩

theorem scalar_sound {s t : Str} {ns : List (Node R)} (he : eval schemaSelector (.ref .scalar_type_definition) s = .ok ns t) :
    ∃ d a n b o cs, Head rd.unescapeJ "scalar" s d a ∧ Name a n b ∧ Opt (DirectivesText rd.pos rd.atof) b o t ∧
      ns = [.mk .scalar_type_definition s.length (consumed s t) cs] ∧ ScalarNodes rd cs d n := by
  obtain ⟨cs, h1, rfl⟩ := (ref_store_ok rfl).1 he
  obtain ⟨ds, u, zs, h2, h3, rfl⟩ := seq_ok.1 h1
  obtain ⟨d, a', hd, hk, hd'⟩ := head_sound scalar_start rd.unescapeJ h2
  have h3 : eval schemaSelector (need .scalar_type_definition_content) u = .ok zs t := h3
  have h3 := (SameOk.need (sel := schemaSelector) (n := .scalar_type_definition_content) rfl _ _ _).1 h3
  obtain ⟨_, a, _, h4, h5, rfl⟩ := seq_ok.1 h3
  obtain ⟨_, b, xs, h6, h7, rfl⟩ := seq_ok.1 h5
  obtain ⟨rfl, hs, _⟩ := plus_space schema_sels h4
  obtain ⟨n, hn, _, rfl⟩ := (scalar_name_rule _ _ _).1 h6
  have h7 : eval schemaSelector optDirectives b = .ok xs t := h7
  obtain ⟨o, ho, hx⟩ := optDirectives_sound (rd := rd) h7
  exact ⟨d, a, n, b, o, ds ++ ([.mk .scalar_name a.length n []] ++ xs), ⟨a', u, hd, hk, hs⟩, hn, ho, rfl, ds, a.length, xs, o, rfl,
    hd', hx⟩

theorem scalar_complete {s d a n b t : Str} {o : Option (List Ast.Directive)} (hh : Head rd.unescapeJ "scalar" s d a)
    (hn : Name a n b) (ho : Opt (DirectivesText rd.pos rd.atof) b o t) (ha : Apart s t) (hend : DefEnd t) :
    ∃ cs, eval schemaSelector (.ref .scalar_type_definition) s = .ok [.mk .scalar_type_definition s.length (consumed s t) cs] t ∧
      ScalarNodes rd cs d n := by
  have ha1 := apart_suffix ha (head_suffix hh)
  have ha2 := apart_suffix ha1 (name_suffix hn)
  obtain ⟨a', u, hd, hk, hs⟩ := hh
  obtain ⟨ds, h2, hd'⟩ := head_complete scalar_start rd.unescapeJ hd hk
  have he := name_ends hn ha1 (optDirectives_ends ho)
  have h6 := space_plus schema_sels hs (name_starts.ends nameStart_gap hn)
  have h7 := (scalar_name_rule _ _ _).2 ⟨n, hn, he, rfl⟩
  obtain ⟨xs, h5, hx⟩ := optDirectives_complete ho ha2 (hend.notNext (by decide +kernel))
  have h1 : eval schemaSelector (grammar .scalar_type_definition) s = .ok (ds ++ ([.mk .scalar_name a.length n []] ++ xs)) t :=
    seq_ok.2 ⟨ds, u, _, h2, (SameOk.need (sel := schemaSelector) (n := .scalar_type_definition_content) rfl _ _ _).2
      (seq_ok.2 ⟨[], a, _, h6, seq_ok.2 ⟨_, b, xs, h7, h5, rfl⟩, rfl⟩), rfl⟩
  exact ⟨_, (ref_store_ok rfl).2 ⟨_, h1, rfl⟩, ds, _, xs, o, rfl, hd', hx⟩

theorem scalar_ext_sound {s t : Str} {ns : List (Node R)} (he : eval schemaSelector (.ref .scalar_type_extension) s = .ok ns t) :
    ∃ a b n c e dirs cs, Extend "scalar" s a ∧ Skip a b ∧ Name b n c ∧ Skip c e ∧ DirectivesText rd.pos rd.atof e dirs t ∧
      ns = [.mk .scalar_type_extension s.length (consumed s t) cs] ∧ ScalarNodes rd cs [] n := by
  obtain ⟨cs, h1, rfl⟩ := (ref_store_ok rfl).1 he
  obtain ⟨_, a, zs, h2, h3, rfl⟩ := seq_ok.1 h1
  obtain ⟨rfl, hk⟩ := (ext_ok scalar_ext).1 h2
  have h3 : eval schemaSelector (need .scalar_type_extension_content) a = .ok zs t := h3
  have h3 := (SameOk.need (sel := schemaSelector) (n := .scalar_type_extension_content) rfl _ _ _).1 h3
  obtain ⟨_, b, _, h4, h5, rfl⟩ := seq_ok.1 h3
  obtain ⟨_, c, _, h6, h7, rfl⟩ := seq_ok.1 h5
  obtain ⟨_, e, xs, h8, h9, rfl⟩ := seq_ok.1 h7
  obtain ⟨rfl, hs, _⟩ := star_skip schema_sels h4
  obtain ⟨n, hn, _, rfl⟩ := (scalar_name_rule _ _ _).1 h6
  obtain ⟨rfl, hs', _⟩ := star_skip schema_sels h8
  have h9 : eval schemaSelector (.ref .directives) e = .ok xs t := h9
  obtain ⟨dirs, hP, hV⟩ := (directives_sound schema_sels rd (e.length + 1)).list e xs t (by omega) h9
  exact ⟨a, b, n, c, e, dirs, [.mk .scalar_name b.length n []] ++ xs, hk, hs, hn, hs', hP, by simp, [], b.length, xs, some dirs, rfl,
    .none, .some hV⟩

theorem scalar_ext_complete {s a b n c e t : Str} {dirs : List Ast.Directive} (hh : Extend "scalar" s a) (hs : Skip a b)
    (hn : Name b n c) (hs' : Skip c e) (hd : DirectivesText rd.pos rd.atof e dirs t) (ha : Apart s t) (hend : DefEnd t) :
    ∃ cs, eval schemaSelector (.ref .scalar_type_extension) s = .ok [.mk .scalar_type_extension s.length (consumed s t) cs] t ∧
      ScalarNodes rd cs [] n := by
  have ha1 := apart_suffix ha ((skip_suffix hs).trans (extend_suffix hh))
  have ha2 := apart_suffix ha1 (name_suffix hn)
  have h2 := (ext_ok scalar_ext).2 ⟨rfl, hh⟩
  have he := name_ends hn ha1 (optDirectives_ends (.some hs' hd))
  have h6 := skip_star schema_sels hs (name_starts.ends nameStart_gap hn)
  have h7 := (scalar_name_rule _ _ _).2 ⟨n, hn, he, rfl⟩
  have h8 := skip_star schema_sels hs' (directives_starts.ends isAt_gap hd)
  obtain ⟨xs, h9, hV⟩ := (directives_end schema_sels rd (e.length + 1)).list e dirs t (by omega)
    ⟨hd, apart_suffix ha2 (skip_suffix hs')⟩ (hend.notNext (by decide +kernel))
  have h1 : eval schemaSelector (grammar .scalar_type_extension) s = .ok ([.mk .scalar_name b.length n []] ++ xs) t :=
    seq_ok.2 ⟨[], a, _, h2, (SameOk.need (sel := schemaSelector) (n := .scalar_type_extension_content) rfl _ _ _).2
      (seq_ok.2 ⟨[], b, _, h6, seq_ok.2 ⟨_, c, xs, h7, seq_ok.2 ⟨[], e, xs, h8, h9, rfl⟩, rfl⟩, rfl⟩), rfl⟩
  exact ⟨_, (ref_store_ok rfl).2 ⟨_, h1, rfl⟩, [], _, xs, some dirs, rfl, .none, .some hV⟩

/-! ## Schemas -/

/-- The nodes of a schema. -/
def SchemaNodes (rd : Read) (k : R) (cs : List (Node R)) (rs : List (Str × Str)) : Prop :=
  ∃ xs ys o, cs = xs ++ ys ∧ OptNodes (One (IsDirectives rd)) xs o ∧ List.Forall₂ (IsRoot k) ys rs

theorem schema_nodes {k : R} (hk : k ≠ .directives) {cs : List (Node R)} {rs : List (Str × Str)} (h : SchemaNodes rd k cs rs) :
    (childrenOf k cs).mapM rootOf = some rs := by
  obtain ⟨xs, ys, o, rfl, hx, hy⟩ := h
  rw [childrenOf_append, childrenOf_none (kinds_dirs hx) (by simpa using hk),
    childrenOf_all (kinds_all (k := k) (fun _ _ h => h.1) hy)]
  exact mapM_of (hy.imp fun _ _ h => h.2)

theorem schema_roots_sound (n : Nat) : SoundL n schemaSelector (rootsRule .root_operation_definition) RootsText
    (List.Forall₂ (IsRoot .root_operation_definition)) := roots_sound rfl rfl rfl n

theorem schema_roots_complete (n : Nat) : CompleteL n schemaSelector (rootsRule .root_operation_definition) RootsText
    (List.Forall₂ (IsRoot .root_operation_definition)) (fun _ => True) :=
  roots_complete rfl rfl rfl (needs_of (by decide +kernel) (by decide +kernel)) n

theorem schema_sound {s t : Str} {ns : List (Node R)} (he : eval schemaSelector (.ref .schema_definition) s = .ok ns t) :
    ∃ a o b c rs cs, Keyword "schema" s a ∧ Opt (DirectivesText rd.pos rd.atof) a o b ∧ Skip b c ∧ RootsText c rs t ∧
      ns = [.mk .schema_definition s.length (consumed s t) cs] ∧ SchemaNodes rd .root_operation_definition cs rs := by
  obtain ⟨cs, h1, rfl⟩ := (ref_store_ok rfl).1 he
  obtain ⟨_, a, zs, h2, h3, rfl⟩ := seq_ok.1 h1
  obtain ⟨rfl, hk, ha⟩ := keyword_ok.1 ((ref_discard_ok (n := .schema_keyword) rfl).1 h2)
  have h3 : eval schemaSelector (need .schema_definition_content) a = .ok zs t := h3
  have h3 := (SameOk.need (sel := schemaSelector) (n := .schema_definition_content) rfl _ _ _).1 h3
  obtain ⟨xs, b, _, h4, h5, rfl⟩ := seq_ok.1 h3
  obtain ⟨_, c, ys, h6, h7, rfl⟩ := seq_ok.1 h5
  have h4 : eval schemaSelector optDirectives a = .ok xs b := h4
  obtain ⟨o, ho, hx⟩ := optDirectives_sound (rd := rd) h4
  obtain ⟨rfl, hs, _⟩ := star_skip schema_sels h6
  obtain ⟨rs, hr, hy⟩ := schema_roots_sound (c.length + 1) c ys t (by omega) h7
  exact ⟨a, o, b, c, rs, xs ++ ys, ⟨hk, ha⟩, ho, hs, hr, by simp, xs, ys, o, rfl, hx, hy⟩

theorem schema_complete {s a b c t : Str} {o : Option (List Ast.Directive)} {rs : List (Str × Str)} (hk : Keyword "schema" s a)
    (ho : Opt (DirectivesText rd.pos rd.atof) a o b) (hs : Skip b c) (hr : RootsText c rs t) :
    ∃ cs, eval schemaSelector (.ref .schema_definition) s = .ok [.mk .schema_definition s.length (consumed s t) cs] t ∧
      SchemaNodes rd .root_operation_definition cs rs := by
  have hF : Follow nameCont dirNext b := follow_skip hs nameCont_gap (roots_starts.ends (by decide +kernel) hr)
    (roots_starts.ends isBrace_gap hr) (roots_starts.ends (by decide +kernel) hr)
  obtain ⟨xs, h4, hx⟩ := optDirectives_complete ho (apart_of_ends hF.1) hF.2
  have h6 := skip_star schema_sels hs (roots_starts.ends isBrace_gap hr)
  obtain ⟨ys, h7, hy⟩ := schema_roots_complete (c.length + 1) c rs t (by omega) hr trivial
  have h1 : eval schemaSelector (grammar .schema_definition) s = .ok (xs ++ ys) t :=
    seq_ok.2 ⟨[], a, _, (ref_discard_ok (n := .schema_keyword) rfl).2 (keyword_ok.2 ⟨rfl, hk.1, hk.2⟩),
      (SameOk.need (sel := schemaSelector) (n := .schema_definition_content) rfl _ _ _).2
        (seq_ok.2 ⟨xs, b, _, h4, seq_ok.2 ⟨[], c, ys, h6, h7, rfl⟩, rfl⟩), rfl⟩
  exact ⟨_, (ref_store_ok rfl).2 ⟨_, h1, rfl⟩, xs, ys, o, rfl, hx, hy⟩

theorem schema_ext : ExtRule .schema_extension_start .schema_keyword "schema" := ⟨rfl, rfl, rfl, rfl, by decide +kernel⟩

theorem ext_roots_sound (n : Nat) : SoundL n schemaSelector (.ref .schema_extension_operation_type_definitions) RootsText
    (List.Forall₂ (IsRoot .operation_type_definition)) := fun s ns t hl he =>
  roots_sound (k := .operation_type_definition) rfl rfl rfl n s ns t hl
    ((ref_discard_ok (n := .schema_extension_operation_type_definitions) rfl).1 he)

theorem ext_roots_complete (n : Nat) : CompleteL n schemaSelector (.ref .schema_extension_operation_type_definitions) RootsText
    (List.Forall₂ (IsRoot .operation_type_definition)) (fun _ => True) := fun s a t hl h _ => by
  obtain ⟨ns, he, hf⟩ := roots_complete (k := .operation_type_definition) rfl rfl rfl
    (needs_of (by decide +kernel) (by decide +kernel)) n s a t hl h trivial
  exact ⟨ns, (ref_discard_ok (n := .schema_extension_operation_type_definitions) rfl).2 he, hf⟩

theorem ext_roots_needs : Needs sel (.ref .schema_extension_operation_type_definitions) isBrace :=
  needs_of (by decide +kernel) (by decide +kernel)

theorem schema_ext_sound {s t : Str} {ns : List (Node R)} (he : eval schemaSelector (.ref .schema_extension) s = .ok ns t) :
    ∃ a b rs cs, Extend "schema" s a ∧ Skip a b ∧
      (RootsText b rs t ∨ (∃ dirs c, DirectivesText rd.pos rd.atof b dirs c ∧ RootsText c rs t) ∨
        (rs = [] ∧ ∃ dirs, DirectivesText rd.pos rd.atof b dirs t)) ∧
      ns = [.mk .schema_extension s.length (consumed s t) cs] ∧ SchemaNodes rd .operation_type_definition cs rs := by
  obtain ⟨cs, h1, rfl⟩ := (ref_store_ok rfl).1 he
  obtain ⟨_, a, zs, h2, h3, rfl⟩ := seq_ok.1 h1
  obtain ⟨rfl, hk⟩ := (ext_ok schema_ext).1 h2
  have h3 : eval schemaSelector (need .schema_extension_content) a = .ok zs t := h3
  have h3 := (SameOk.need (sel := schemaSelector) (n := .schema_extension_content) rfl _ _ _).1 h3
  obtain ⟨_, b, zs, h4, h5, rfl⟩ := seq_ok.1 h3
  obtain ⟨rfl, hs, _⟩ := star_skip schema_sels h4
  rcases sor_ok.1 h5 with h6 | ⟨_, h6⟩
  · obtain ⟨xs, c, ys, h7, h8, rfl⟩ := seq_ok.1 h6
    have h8 : eval schemaSelector (.ref .schema_extension_operation_type_definitions) c = .ok ys t := h8
    obtain ⟨rs, hr, hy⟩ := ext_roots_sound (c.length + 1) c ys t (by omega) h8
    rcases opt_ok.1 h7 with h7 | ⟨_, rfl, rfl⟩
    · obtain ⟨dirs, hP, hV⟩ := (directives_sound schema_sels rd (b.length + 1)).list b xs c (by omega) h7
      exact ⟨a, b, rs, xs ++ ys, hk, hs, .inr (.inl ⟨dirs, c, hP, hr⟩), by simp, xs, ys, some dirs, rfl, .some hV, hy⟩
    · exact ⟨a, _, rs, ys, hk, hs, .inl hr, by simp, [], ys, none, rfl, .none, hy⟩
  · have h6 : eval schemaSelector (.ref .directives) b = .ok zs t := h6
    obtain ⟨dirs, hP, hV⟩ := (directives_sound schema_sels rd (b.length + 1)).list b zs t (by omega) h6
    exact ⟨a, b, [], zs, hk, hs, .inr (.inr ⟨rfl, dirs, hP⟩), by simp, zs, [], some dirs, by simp, .some hV, .nil⟩

theorem schema_ext_complete {s a b t : Str} {rs : List (Str × Str)} (hk : Extend "schema" s a) (hs : Skip a b)
    (h : RootsText b rs t ∨ (∃ dirs c, DirectivesText rd.pos rd.atof b dirs c ∧ RootsText c rs t) ∨
        (rs = [] ∧ ∃ dirs, DirectivesText rd.pos rd.atof b dirs t)) (ha : Apart s t) (hend : DefEnd t) :
    ∃ cs, eval schemaSelector (.ref .schema_extension) s = .ok [.mk .schema_extension s.length (consumed s t) cs] t ∧
      SchemaNodes rd .operation_type_definition cs rs := by
  have ha1 := apart_suffix ha ((skip_suffix hs).trans (extend_suffix hk))
  have hb : Ends gapStart b := by
    rcases h with hr | ⟨dirs, c, hd, _⟩ | ⟨_, dirs, hd⟩
    · exact roots_starts.ends isBrace_gap hr
    · exact directives_starts.ends isAt_gap hd
    · exact directives_starts.ends isAt_gap hd
  have h4 := skip_star schema_sels hs hb
  have main : ∃ zs, eval schemaSelector (Rule.sors [Rule.seqs [Rule.opt (.ref .directives),
      .ref .schema_extension_operation_type_definitions], .ref .directives]) b = .ok zs t ∧
      SchemaNodes rd .operation_type_definition zs rs := by
    rcases h with hr | ⟨dirs, c, hd, hr⟩ | ⟨rfl, dirs, hd⟩
    · obtain ⟨ys, h7, hy⟩ := ext_roots_complete (b.length + 1) b rs t (by omega) hr trivial
      have h8 : eval schemaSelector (.ref .directives) b = .fail := directives_needs b (roots_starts.ends (by decide +kernel) hr)
      exact ⟨ys, sor_ok.2 (.inl (seq_ok.2 ⟨[], b, ys, opt_ok.2 (.inr ⟨h8, rfl, rfl⟩), h7, rfl⟩)), [], ys, none, rfl, .none, hy⟩
    · obtain ⟨ys, h7, hy⟩ := ext_roots_complete (c.length + 1) c rs t (by omega) hr trivial
      obtain ⟨xs, h8, hV⟩ := (directives_complete schema_sels rd (b.length + 1)).list b dirs c (by omega) hd
        ⟨roots_starts.ends (by decide +kernel) hr, notNext_of ⟨[], rfl, .nil⟩ (roots_starts.ends isBrace_gap hr)
          (roots_starts.ends (by decide +kernel) hr)⟩
      exact ⟨xs ++ ys, sor_ok.2 (.inl (seq_ok.2 ⟨xs, c, ys, opt_ok.2 (.inl h8), h7, rfl⟩)), xs, ys, some dirs, rfl, .some hV, hy⟩
    · obtain ⟨xs, h8, hV⟩ := (directives_end schema_sels rd (b.length + 1)).list b dirs t (by omega) ⟨hd, ha1⟩
        (hend.notNext (by decide +kernel))
      have h9 : eval schemaSelector (.ref .schema_extension_operation_type_definitions) t = .fail :=
        ext_roots_needs t (hend.ends (by decide +kernel) (by decide +kernel))
      exact ⟨xs, sor_next (seq_fail.2 (.inr ⟨xs, t, opt_ok.2 (.inl h8), h9⟩)) h8, xs, [], some dirs, by simp, .some hV, .nil⟩
  obtain ⟨zs, h5, hz⟩ := main
  have h1 : eval schemaSelector (grammar .schema_extension) s = .ok zs t :=
    seq_ok.2 ⟨[], a, _, (ext_ok schema_ext).2 ⟨rfl, hk⟩,
      (SameOk.need (sel := schemaSelector) (n := .schema_extension_content) rfl _ _ _).2 (seq_ok.2 ⟨[], b, zs, h4, h5, rfl⟩), rfl⟩
  exact ⟨zs, (ref_store_ok rfl).2 ⟨_, h1, rfl⟩, hz⟩

/-! ## Directives -/

theorem directive_start : StartRule .directive_definition_start (Rule.keyword "directive") "directive" :=
  ⟨rfl, rfl, SameRule.refl _, by decide +kernel⟩

theorem directive_name_rule : NameRule schemaSelector .directive_name := nameRule_of rfl rfl

/-- Optional arguments. -/
def optArgsDef : Rule R := .opt (.seq (.star (.ref .ignored)) (.ref .arguments_definition))

/-- The nodes of a directive. -/
def DirectiveNodes (rd : Read) (cs : List (Node R)) (d n : Str) (o : Option (List InputValueDef)) (ls : List Str) : Prop :=
  ∃ ds l xs ys, cs = ds ++ ([.mk .directive_name l n []] ++ (xs ++ ys)) ∧ DescNodes rd.unescapeJ ds d ∧
    OptNodes (One (IsArgsDef rd)) xs o ∧ List.Forall₂ (IsNamed .directive_location) ys ls

theorem directive_nodes {cs : List (Node R)} {d n : Str} {o : Option (List InputValueDef)} {ls : List Str}
    (h : DirectiveNodes rd cs d n o ls) :
    nameOf .directive_name cs = some n ∧ optChild .arguments_definition (fun y => inputValuesOf rd y.children) cs = some o ∧
      (childrenOf .directive_location cs).map Node.content = ls ∧ descriptionOf rd cs = d := by
  obtain ⟨ds, l, xs, ys, rfl, hd, hx, hy⟩ := h
  have kd := kinds_desc hd
  have kn := kinds_name .directive_name l n
  have kx := kinds_opt (k := .arguments_definition) (fun _ _ h => h.1) hx
  have ky := kinds_named hy
  refine ⟨nameOf_nodes hd (by decide), ?_, ?_, description_nodes hd (kn.append (kx.append ky)) (by decide)⟩
  · rw [optChild_skip kd (by decide), optChild_skip kn (by decide)]
    exact optChild_nodes (fun _ _ h => h) hx ky (by decide)
  · rw [same_append4, childrenOf_append, childrenOf_none (kd.append (kn.append kx)) (by decide), childrenOf_all ky]
    exact contents_named hy

theorem directive_def_sound {s t : Str} {ns : List (Node R)} (he : eval schemaSelector (.ref .directive_definition) s = .ok ns t) :
    ∃ d a b c n e o f g h ls cs, Described rd.unescapeJ s d a ∧ Keyword "directive" a b ∧ Skip b (ch '@' :: c) ∧ Name c n e ∧
      Opt (ArgumentsDefText rd.pos rd.atof rd.unescapeJ) e o f ∧ Space f g ∧ Keyword "on" g h ∧ LocationsText h ls t ∧
      ns = [.mk .directive_definition s.length (consumed s t) cs] ∧ DirectiveNodes rd cs d n o ls := by
  obtain ⟨cs, h1, rfl⟩ := (ref_store_ok rfl).1 he
  obtain ⟨ds, b, zs, h2, h3, rfl⟩ := seq_ok.1 h1
  obtain ⟨d, a, hd, hk, hd'⟩ := head_sound directive_start rd.unescapeJ h2
  have h3 : eval schemaSelector (need .directive_definition_content) b = .ok zs t := h3
  have h3 := (SameOk.need (sel := schemaSelector) (n := .directive_definition_content) rfl _ _ _).1 h3
  obtain ⟨_, b', _, h4, k1, rfl⟩ := seq_ok.1 h3
  obtain ⟨_, c, _, h5, k2, rfl⟩ := seq_ok.1 k1
  obtain ⟨_, e, _, h6, k3, rfl⟩ := seq_ok.1 k2
  obtain ⟨xs, f, _, h7, k4, rfl⟩ := seq_ok.1 k3
  obtain ⟨_, g, _, h8, k5, rfl⟩ := seq_ok.1 k4
  obtain ⟨_, h, ys, h9, h10, rfl⟩ := seq_ok.1 k5
  obtain ⟨rfl, hs, _⟩ := star_skip schema_sels h4
  obtain ⟨rfl, rfl⟩ := chr_ok.1 h5
  obtain ⟨n, hn, _, rfl⟩ := (directive_name_rule _ _ _).1 h6
  have h7 : eval schemaSelector optArgsDef e = .ok xs f := h7
  obtain ⟨o, ho, hx⟩ := optNodes_sound schema_sels (args_def_sound rd (e.length + 1)).list (by omega) h7
  obtain ⟨rfl, hs', _⟩ := plus_space schema_sels h8
  obtain ⟨rfl, hon, hon'⟩ := keyword_ok.1 ((ref_discard_ok (n := .on_keyword) rfl).1 h9)
  obtain ⟨ls, hl, hy⟩ := locations_sound (h.length + 1) h ys t (by omega) h10
  exact ⟨d, a, b, c, n, e, o, f, g, h, ls, ds ++ ([.mk .directive_name c.length n []] ++ (xs ++ ys)), hd, hk, hs, hn, ho, hs',
    ⟨hon, hon'⟩, hl, by simp, ds, c.length, xs, ys, rfl, hd', hx, hy⟩

theorem directive_def_complete {s d a b c n e f g h t : Str} {o : Option (List InputValueDef)} {ls : List Str}
    (hd : Described rd.unescapeJ s d a) (hk : Keyword "directive" a b) (hs : Skip b (ch '@' :: c)) (hn : Name c n e)
    (ho : Opt (ArgumentsDefText rd.pos rd.atof rd.unescapeJ) e o f) (hs' : Space f g) (hon : Keyword "on" g h)
    (hl : LocationsText h ls t) (ha : Apart s t) (hend : DefEnd t) :
    ∃ cs, eval schemaSelector (.ref .directive_definition) s = .ok [.mk .directive_definition s.length (consumed s t) cs] t ∧
      DirectiveNodes rd cs d n o ls := by
  obtain ⟨ds, h2, hd'⟩ := head_complete directive_start rd.unescapeJ hd hk
  have h4 := skip_star schema_sels hs (ends_cons (by decide))
  have hong := keyword_name (by decide +kernel) hon
  have hg : Ends gapStart g := name_starts.ends nameStart_gap hong
  have hf : Follow nameCont isParen f := follow_space hs' nameCont_gap hg (name_starts.ends (by decide +kernel) hong)
  have he : Ends nameCont e := by
    cases ho with
    | none => exact hf.1
    | some hk' hd =>
      exact (follow_skip (q := fun _ => false) hk' nameCont_gap (args_def_starts.ends (by decide +kernel) hd)
        (args_def_starts.ends isParen_gap hd) (args_def_starts.ends (fun _ _ => rfl) hd)).1
  have h6 := (directive_name_rule _ _ _).2 ⟨n, hn, he, rfl⟩
  obtain ⟨xs, h7, hx⟩ := optNodes_complete schema_sels (args_def_complete rd (e.length + 1)).list args_def_starts isParen_gap
    args_def_needs (by omega) ho trivial hf.2
  have h8 := space_plus schema_sels hs' hg
  have ha2 : Apart h t := apart_suffix ha ((keyword_suffix hon).trans ((space_suffix hs').trans
    ((opt_suffix (fun _ _ _ => args_def_suffix) ho).trans ((name_suffix hn).trans (List.IsSuffix.trans ⟨[ch '@'], rfl⟩
      ((skip_suffix hs).trans ((keyword_suffix hk).trans (described_suffix hd))))))))
  obtain ⟨ys, h10, hy⟩ := locations_complete (h.length + 1) h ls t (by omega) hl
    ⟨Apart.locations ha2 hl, hend.notNext (by decide +kernel)⟩
  have h1 : eval schemaSelector (grammar .directive_definition) s =
      .ok (ds ++ ([.mk .directive_name c.length n []] ++ (xs ++ ys))) t :=
    seq_ok.2 ⟨ds, b, _, h2, (SameOk.need (sel := schemaSelector) (n := .directive_definition_content) rfl _ _ _).2
      (seq_ok.2 ⟨[], _, _, h4, seq_ok.2 ⟨[], c, _, chr_ok.2 ⟨rfl, rfl⟩, seq_ok.2 ⟨_, e, _, h6, seq_ok.2 ⟨xs, f, _, h7,
        seq_ok.2 ⟨[], g, _, h8, seq_ok.2 ⟨[], h, ys, (ref_discard_ok (n := .on_keyword) rfl).2 (keyword_ok.2 ⟨rfl, hon.1, hon.2⟩),
          h10, rfl⟩, rfl⟩, rfl⟩, rfl⟩, rfl⟩, rfl⟩), rfl⟩
  exact ⟨_, (ref_store_ok rfl).2 ⟨_, h1, rfl⟩, ds, _, xs, ys, rfl, hd', hx, hy⟩

end Verif.Peg
