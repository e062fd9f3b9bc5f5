import Verif.Grammar.SchemaDefs

/-!
# Type system definitions with a body
-/
namespace Verif.Peg
open Verif.Value Verif.Text Verif.Gen Rule

variable {sel : R → Sel} {rd : Read}

/-- What is known of the body of a definition. -/
structure Body (rd : Read) (b : Rule R) {α : Type} (Q : Str → α → Str → Prop) (W : List (Node R) → α → Prop)
    (q : Byte → Bool) : Prop where
  /-- soundness -/
  sound : ∀ n, SoundL n schemaSelector b Q W
  /-- completeness -/
  complete : ∀ n, CompleteL n schemaSelector b (fun s a t => Q s a t ∧ Apart s t) W (NotNext (· == ch '|'))
  /-- the first byte -/
  starts : Starts Q q
  /-- the first byte -/
  needs : Needs schemaSelector b q
  /-- what the first byte is not -/
  first : ∀ c, q c = true → gapStart c = false ∧ nameCont c = false ∧ dirNext c = false ∧ notDef c = true

theorem body_fields (rd : Read) : Body rd (.ref .fields_definition) (FieldsDefText rd.pos rd.atof rd.unescapeJ)
    (One (IsFieldsDef rd)) isBrace where
  sound n := (fields_def_sound rd n).list
  complete n := fun s a t hl h _ => (fields_def_complete rd n).list s a t hl h.1 trivial
  starts := fields_def_starts
  needs := fields_def_needs
  first := by decide +kernel

theorem body_input (rd : Read) : Body rd (.ref .input_fields_definition) (InputFieldsText rd.pos rd.atof rd.unescapeJ)
    (One (IsInputFields rd)) isBrace where
  sound n := (input_fields_sound rd n).list
  complete n := fun s a t hl h _ => (input_fields_complete rd n).list s a t hl h.1 trivial
  starts := input_fields_starts
  needs := input_fields_needs
  first := by decide +kernel

theorem body_enum (rd : Read) : Body rd (.ref .enum_values_definition) (EnumValuesText rd.pos rd.atof rd.unescapeJ)
    (List.Forall₂ (IsEnumValue rd)) isBrace where
  sound n := enum_defs_sound rd n
  complete n := fun s a t hl h _ => enum_defs_complete rd n s a t hl h.1 trivial
  starts := enum_defs_starts
  needs := enum_defs_needs
  first := by decide +kernel

theorem body_union (rd : Read) : Body rd (.ref .union_member_types) MembersText (List.Forall₂ (IsNamed .union_type)) isEquals where
  sound n := by
    intro s ns t hl he
    obtain ⟨_, u, ys, h1, h2, rfl⟩ := seq_ok.1 ((ref_discard_ok (n := .union_member_types) rfl).1 he)
    obtain ⟨rfl, rfl⟩ := chr_ok.1 ((ref_discard_ok (n := .union_member_types_start) rfl).1 h1)
    have l1 := rest_le h1
    obtain ⟨xs, hx, hf⟩ := names_sound schema_sels (nameRule_of (k := .union_type) rfl rfl) (c := '|') (by decide) n u ys t
      (by omega) ((ref_discard_ok (n := .union_member_types_content) rfl).1 (need_ok.1 h2))
    exact ⟨xs, .mk hx, hf⟩
  complete n := by
    rintro s xs t hl ⟨h, ha⟩ hF
    cases h with
    | @mk u _ _ hx =>
      simp only [List.length_cons] at hl
      have he := Apart.names (apart_suffix (u := u) ha ⟨[ch '='], rfl⟩) hx
      obtain ⟨ns, h1, hf⟩ := names_complete schema_sels (nameRule_of (k := .union_type) rfl rfl) (c := '|') (by decide)
        (by decide) (by decide) n u xs t (by omega) hx ⟨he, hF⟩
      exact ⟨ns, (ref_discard_ok (n := .union_member_types) rfl).2 (seq_ok.2 ⟨[], u, ns,
        (ref_discard_ok (n := .union_member_types_start) rfl).2 (chr_ok.2 ⟨rfl, rfl⟩),
        need_ok.2 ((ref_discard_ok (n := .union_member_types_content) rfl).2 h1), rfl⟩), hf⟩
  starts := by
    intro s a t h
    cases h with
    | mk _ => exact ⟨_, _, rfl, by decide⟩
  needs := needs_of (by decide +kernel) (by decide +kernel)
  first := by decide +kernel

/-! ## Directives and a body -/

section
variable {b D B : Rule R} {α : Type} {Q : Str → α → Str → Prop} {W : List (Node R) → α → Prop} {q : Byte → Bool}

theorem starts_follow {p : Byte → Bool} (hB : Body rd b Q W q) (hp : ∀ c, q c = true → p c = false) {s u t : Str} {a : α}
    (hk : Skip s u) (h : Q u a t) : Follow nameCont p s :=
  follow_skip hk nameCont_gap (hB.starts.ends (fun c hc => (hB.first c hc).2.1) h)
    (hB.starts.ends (fun c hc => (hB.first c hc).1) h) (hB.starts.ends hp h)

/-- What follows the directives and the name of a definition. -/
theorem tail_end (hB : Body rd b Q W q) {s u t : Str} {o : Option (List Ast.Directive)} {o' : Option α}
    (ho : Opt (DirectivesText rd.pos rd.atof) s o u) (ho' : Opt Q u o' t) (ha : Apart s t) (hend : DefEnd t) :
    Opt (DirectivesEnd rd) s o u ∧ Opt (fun s a t => Q s a t ∧ Apart s t) u o' t ∧ NotNext dirNext u ∧
      (Ends nameCont s ∨ s = t) := by
  have hdir := hend.notNext (q := dirNext) (by decide +kernel)
  have hs1 : u <:+ s := opt_suffix (fun _ _ _ => directives_suffix) ho
  have h1 : Opt (DirectivesEnd rd) s o u ∧ NotNext dirNext u ∧ (Ends nameCont u ∨ u = t) := by
    cases ho' with
    | none =>
      refine ⟨?_, hdir, .inr rfl⟩
      cases ho with
      | none => exact .none
      | some hk hd => exact .some hk ⟨hd, apart_suffix ha (skip_suffix hk)⟩
    | @some _ v a _ hk hq =>
      have hf := starts_follow (p := dirNext) hB (fun c hc => (hB.first c hc).2.2.1) hk hq
      refine ⟨?_, hf.2, .inl hf.1⟩
      cases ho with
      | none => exact .none
      | some hk hd => exact .some hk ⟨hd, apart_of_ends hf.1⟩
  have h2 : Opt (fun s a t => Q s a t ∧ Apart s t) u o' t := by
    cases ho' with
    | none => exact .none
    | some hk hq => exact .some hk ⟨hq, apart_suffix ha ((skip_suffix hk).trans hs1)⟩
  refine ⟨h1.1, h2, h1.2.1, ?_⟩
  cases ho with
  | none => exact h1.2.2
  | some hk hd =>
    exact .inl (follow_skip (q := fun _ => false) hk nameCont_gap (directives_starts.ends (by decide +kernel) hd)
      (directives_starts.ends isAt_gap hd) (directives_starts.ends (fun _ _ => rfl) hd)).1

theorem bodyTail_sound (hB : Body rd b Q W q) (hD : SameRule schemaSelector D (.opt (.seq (.star (.ref .ignored)) (.ref .directives))))
    (hBr : SameRule schemaSelector B (.seq (.star (.ref .ignored)) b)) {s t : Str} {ns : List (Node R)}
    (he : eval schemaSelector (Rule.sors [Rule.seqs [D, B], D]) s = .ok ns t) :
    ∃ o u o' xs ys, Opt (DirectivesText rd.pos rd.atof) s o u ∧ Opt Q u o' t ∧ ns = xs ++ ys ∧
      OptNodes (One (IsDirectives rd)) xs o ∧ OptNodes W ys o' :=
  tail_sound schema_sels hD hBr (directives_sound schema_sels rd (s.length + 1)).list (hB.sound (s.length + 1)) (by omega) he

theorem bodyTail_complete (hB : Body rd b Q W q)
    (hD : SameRule schemaSelector D (.opt (.seq (.star (.ref .ignored)) (.ref .directives))))
    (hBr : SameRule schemaSelector B (.seq (.star (.ref .ignored)) b)) {s u t : Str} {o : Option (List Ast.Directive)}
    {o' : Option α} (ho : Opt (DirectivesText rd.pos rd.atof) s o u) (ho' : Opt Q u o' t) (ha : Apart s t) (hend : DefEnd t) :
    ∃ xs ys, eval schemaSelector (Rule.sors [Rule.seqs [D, B], D]) s = .ok (xs ++ ys) t ∧
      OptNodes (One (IsDirectives rd)) xs o ∧ OptNodes W ys o' := by
  obtain ⟨h1, h2, h3, _⟩ := tail_end hB ho ho' ha hend
  have h3' : Follow (fun _ => false) dirNext u := ⟨fun _ _ _ => rfl, h3⟩
  exact tail_complete schema_sels hD hBr (directives_end schema_sels rd (s.length + 1)).list directives_end_starts isAt_gap
    directives_needs (hB.complete (s.length + 1)) (fun s a t h => hB.starts s a t h.1) (fun c hc => (hB.first c hc).1) hB.needs
    (by omega) h1 h2 h3 (h3'.weaken (p' := fun _ => false) (fun _ => id) (by decide +kernel)).2
    (hend.notNext (by decide +kernel)) (hend.notNext (fun c hc => by
      cases hq : q c
      · rfl
      · rw [(hB.first c hq).2.2.2] at hc; cases hc))

/-! ## Definitions -/

/-- A definition: description, keyword, name, directives, body. -/
structure DefRule (k start : R) (kw : Rule R) (word : String) (kn : R) (D B : Rule R) (b : Rule R) : Prop where
  /-- the node -/
  store : schemaSelector k = .store
  /-- the rule -/
  content : ∃ c, grammar k = Rule.seqs [.ref start, need c] ∧ SameOk schemaSelector (need c)
    (.seq (.seq (Rule.plus (.ref .ignored)) (.ref kn)) (Rule.sors [Rule.seqs [D, B], D]))
  /-- the beginning -/
  start : StartRule start kw word
  /-- the name -/
  name : NameRule schemaSelector kn
  /-- directives -/
  dirs : SameRule schemaSelector D (.opt (.seq (.star (.ref .ignored)) (.ref .directives)))
  /-- the body -/
  body : SameRule schemaSelector B (.seq (.star (.ref .ignored)) b)

/-- The nodes of a definition. -/
def DefNodes (rd : Read) (kn : R) (W : List (Node R) → α → Prop) (cs : List (Node R)) (d n : Str)
    (o : Option (List Ast.Directive)) (o' : Option α) : Prop :=
  ∃ ds l xs ys, cs = ds ++ ([.mk kn l n []] ++ (xs ++ ys)) ∧ DescNodes rd.unescapeJ ds d ∧
    OptNodes (One (IsDirectives rd)) xs o ∧ OptNodes W ys o'

theorem def_sound {k start kn : R} {kw : Rule R} {word : String} (hR : DefRule k start kw word kn D B b) (hB : Body rd b Q W q)
    {s t : Str} {ns : List (Node R)} (he : eval schemaSelector (.ref k) s = .ok ns t) :
    ∃ d a n e o f o' cs, Head rd.unescapeJ word s d a ∧ Name a n e ∧ Opt (DirectivesText rd.pos rd.atof) e o f ∧
      Opt Q f o' t ∧ ns = [.mk k s.length (consumed s t) cs] ∧ DefNodes rd kn W cs d n o o' := by
  obtain ⟨cs, h1, rfl⟩ := (ref_store_ok hR.store).1 he
  obtain ⟨c, hg, hc⟩ := hR.content
  rw [hg] at h1
  obtain ⟨ds, u, zs, h2, h3, rfl⟩ := seq_ok.1 h1
  obtain ⟨d, a', hd, hk, hd'⟩ := head_sound hR.start rd.unescapeJ h2
  have h3 : eval schemaSelector (need c) u = .ok zs t := h3
  rw [hc _ _ _] at h3
  obtain ⟨_, e, rs, h4, h5, rfl⟩ := seq_ok.1 h3
  obtain ⟨_, a, _, h6, h7, rfl⟩ := seq_ok.1 h4
  obtain ⟨rfl, hs, _⟩ := plus_space schema_sels h6
  obtain ⟨n, hn, _, rfl⟩ := (hR.name _ _ _).1 h7
  obtain ⟨o, f, o', xs, ys, ho, ho', rfl, hx, hy⟩ := bodyTail_sound hB hR.dirs hR.body h5
  exact ⟨d, a, n, e, o, f, o', ds ++ ([.mk kn a.length n []] ++ (xs ++ ys)), ⟨a', u, hd, hk, hs⟩, hn, ho, ho', rfl, ds, a.length, xs, ys, rfl, hd', hx, hy⟩

theorem name_ends {a n e t : Str} (hn : Name a n e) (ha : Apart a t) (h : Ends nameCont e ∨ e = t) : Ends nameCont e := by
  rcases h with h | rfl
  · exact h
  · exact Apart.name ha hn

theorem def_complete {k start kn : R} {kw : Rule R} {word : String} (hR : DefRule k start kw word kn D B b) (hB : Body rd b Q W q)
    {s d a n e f t : Str} {o : Option (List Ast.Directive)} {o' : Option α} (hh : Head rd.unescapeJ word s d a) (hn : Name a n e)
    (ho : Opt (DirectivesText rd.pos rd.atof) e o f) (ho' : Opt Q f o' t) (ha : Apart s t) (hend : DefEnd t) :
    ∃ cs, eval schemaSelector (.ref k) s = .ok [.mk k s.length (consumed s t) cs] t ∧ DefNodes rd kn W cs d n o o' := by
  have ha1 := apart_suffix ha (head_suffix hh)
  have ha2 := apart_suffix ha1 (name_suffix hn)
  obtain ⟨a', u, hd, hk, hs⟩ := hh
  obtain ⟨ds, h2, hd'⟩ := head_complete hR.start rd.unescapeJ hd hk
  have he := name_ends hn ha1 (tail_end hB ho ho' ha2 hend).2.2.2
  have h6 := space_plus schema_sels hs (name_starts.ends nameStart_gap hn)
  have h7 := (hR.name _ _ _).2 ⟨n, hn, he, rfl⟩
  obtain ⟨xs, ys, h5, hx, hy⟩ := bodyTail_complete hB hR.dirs hR.body ho ho' ha2 hend
  obtain ⟨c, hg, hc⟩ := hR.content
  have h3 : eval schemaSelector (need c) u = .ok ([.mk kn a.length n []] ++ (xs ++ ys)) t := by
    rw [hc _ _ _]
    exact seq_ok.2 ⟨_, e, _, seq_ok.2 ⟨[], a, _, h6, h7, rfl⟩, h5, rfl⟩
  have h1 : eval schemaSelector (grammar k) s = .ok (ds ++ ([.mk kn a.length n []] ++ (xs ++ ys))) t := by
    rw [hg]
    exact seq_ok.2 ⟨ds, u, _, h2, h3, rfl⟩
  exact ⟨_, (ref_store_ok hR.store).2 ⟨_, h1, rfl⟩, ds, _, xs, ys, rfl, hd', hx, hy⟩

end

/-- The two ways to write `a b c`. -/
theorem same_assoc {r a b c : Rule R} (h : SameOk sel r (.seq a (.seq b c))) : SameOk sel r (.seq (.seq a b) c) := by
  intro s xs t
  rw [h _ _ _]
  constructor
  · intro h
    obtain ⟨as, u, _, h1, h2, rfl⟩ := seq_ok.1 h
    obtain ⟨bs, v, cs, h3, h4, rfl⟩ := seq_ok.1 h2
    exact seq_ok.2 ⟨as ++ bs, v, cs, seq_ok.2 ⟨as, u, bs, h1, h3, rfl⟩, h4, by simp⟩
  · intro h
    obtain ⟨_, v, cs, h1, h4, rfl⟩ := seq_ok.1 h
    obtain ⟨as, u, bs, h2, h3, rfl⟩ := seq_ok.1 h1
    exact seq_ok.2 ⟨as, u, bs ++ cs, h2, seq_ok.2 ⟨bs, v, cs, h3, h4, rfl⟩, by simp⟩

theorem same_left {r a a' b : Rule R} (h : SameOk sel r (.seq a b)) (ha : SameOk sel a a') : SameOk sel r (.seq a' b) := by
  intro s xs t
  rw [h _ _ _, seq_ok, seq_ok]
  constructor <;> rintro ⟨ys, u, zs, h1, h2, rfl⟩
  · exact ⟨ys, u, zs, (ha _ _ _).1 h1, h2, rfl⟩
  · exact ⟨ys, u, zs, (ha _ _ _).2 h1, h2, rfl⟩

theorem word_ref {kw : R} {k : String} (h : schemaSelector kw = .discard) (hg : grammar kw = Rule.keyword k) : WordRule (.ref kw) k := by
  have := SameRule.ref (sel := schemaSelector) h
  rw [hg] at this
  exact this

theorem interface_rule : DefRule .interface_type_definition .interface_type_definition_start (.ref .interface_keyword) "interface"
    .interface_name (.ref .interface_type_definition_directives) (.ref .interface_type_definition_fields_definition)
    (.ref .fields_definition) where
  store := rfl
  content := ⟨.interface_type_definition_content, rfl, same_left (SameOk.need rfl)
    (SameOk.ref (n := .interface_type_definition_interface_name) rfl)⟩
  start := ⟨rfl, rfl, word_ref rfl rfl, by decide +kernel⟩
  name := nameRule_of rfl rfl
  dirs := SameRule.ref rfl
  body := SameRule.ref rfl

theorem union_rule : DefRule .union_type_definition .union_type_definition_start (.ref .union_keyword) "union"
    .union_name (.ref .union_type_definition_directives) (.seq (.star (.ref .ignored)) (.ref .union_member_types))
    (.ref .union_member_types) where
  store := rfl
  content := ⟨.union_type_definition_content, rfl, same_assoc (SameOk.need rfl)⟩
  start := ⟨rfl, rfl, word_ref rfl rfl, by decide +kernel⟩
  name := nameRule_of rfl rfl
  dirs := SameRule.ref rfl
  body := SameRule.refl _

theorem enum_rule : DefRule .enum_type_definition .enum_type_definition_start (.ref .enum_keyword) "enum"
    .enum_name (.ref .enum_type_definition_directives) (.ref .enum_type_definition_enum_values_definition)
    (.ref .enum_values_definition) where
  store := rfl
  content := ⟨.enum_type_definition_content, rfl, same_left (SameOk.need rfl)
    (SameOk.ref (n := .enum_type_definition_name) rfl)⟩
  start := ⟨rfl, rfl, word_ref rfl rfl, by decide +kernel⟩
  name := nameRule_of rfl rfl
  dirs := SameRule.ref rfl
  body := SameRule.ref rfl

theorem input_rule : DefRule .input_object_type_definition .input_object_type_definition_start (.ref .input_keyword) "input"
    .object_name (.ref .input_object_type_definition_directives) (.ref .input_object_type_definition_fields_definition)
    (.ref .input_fields_definition) where
  store := rfl
  content := ⟨.input_object_type_definition_content, rfl, same_left (SameOk.need rfl)
    (SameOk.ref (n := .input_object_type_definition_object_name) rfl)⟩
  start := ⟨rfl, rfl, word_ref rfl rfl, by decide +kernel⟩
  name := nameRule_of rfl rfl
  dirs := SameRule.ref rfl
  body := SameRule.ref rfl

end Verif.Peg
