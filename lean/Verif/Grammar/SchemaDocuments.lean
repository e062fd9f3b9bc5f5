import Verif.Grammar.SchemaRest

/-!
# C63: schema documents

Which texts `parseSchemaString` accepts, and which definitions `schemagen` reads from their trees: those of
`SchemaSpec.lean`, in both directions.
-/
namespace Verif.Peg
open Verif.Value Verif.Text Verif.Gen Rule

variable {sel : R → Sel} {rd : Read}

/-! ## The alternatives -/

/-- The rules of definitions, in their order, and their words. -/
def defRules : List (R × String) :=
  [(.schema_definition, "schema"), (.scalar_type_definition, "scalar"), (.object_type_definition, "type"),
    (.interface_type_definition, "interface"), (.union_type_definition, "union"), (.enum_type_definition, "enum"),
    (.input_object_type_definition, "input"), (.directive_definition, "directive")]

/-- The rules of extensions, in their order, and their words. -/
def extRules : List (R × String) :=
  [(.schema_extension, "schema"), (.scalar_type_extension, "scalar"), (.object_type_extension, "type"),
    (.interface_type_extension, "interface"), (.union_type_extension, "union"), (.enum_type_extension, "enum"),
    (.input_object_type_extension, "input")]

theorem sors_pick {l m : List (Rule R)} {r : Rule R} {s t : Str} {xs : List (Node R)} (hl : ∀ q ∈ l, eval sel q s = .fail)
    (h : eval sel r s = .ok xs t) : eval sel (Rule.sors (l ++ r :: m)) s = .ok xs t := by
  induction l with
  | nil =>
    cases m with
    | nil => exact h
    | cons => exact sor_ok.2 (.inl h)
  | cons q l ih =>
    have hl' : eval sel (Rule.sors (l ++ r :: m)) s = .ok xs t := ih fun q hq => hl q (by simp [hq])
    cases l with
    | nil => exact sor_next (hl q (by simp)) hl'
    | cons => exact sor_next (hl q (by simp)) hl'

theorem sors_append {l m : List (Rule R)} (hl : l ≠ []) (hm : m ≠ []) {s t : Str} {xs : List (Node R)} :
    eval sel (Rule.sors (l ++ m)) s = .ok xs t ↔ eval sel (.sor (Rule.sors l) (Rule.sors m)) s = .ok xs t := by
  induction l with
  | nil => exact absurd rfl hl
  | cons q l ih =>
    cases l with
    | nil =>
      cases m with
      | nil => exact absurd rfl hm
      | cons => exact Iff.rfl
    | cons q' l =>
      have ih := ih (by simp)
      have e : eval sel (Rule.sors (q :: q' :: l ++ m)) s = .ok xs t ↔
          eval sel (.sor q (Rule.sors (q' :: l ++ m))) s = .ok xs t := Iff.rfl
      have e' : eval sel (.sor (Rule.sors (q :: q' :: l)) (Rule.sors m)) s = .ok xs t ↔
          eval sel (.sor (.sor q (Rule.sors (q' :: l))) (Rule.sors m)) s = .ok xs t := Iff.rfl
      rw [e, e', sor_ok, ih, sor_ok, sor_ok, sor_ok, sor_fail]
      grind

/-- One of the rules of definitions and extensions is used, and those before it fail. -/
theorem pick {l m : List (R × String)} {p : R × String} (h : defRules ++ extRules = l ++ p :: m) {s t : Str}
    {xs : List (Node R)} (hl : ∀ q ∈ l, eval schemaSelector (.ref q.1) s = .fail)
    (he : eval schemaSelector (.ref p.1) s = .ok xs t) : eval schemaSelector (.ref .schema_type_definition) s = .ok xs t := by
  have h1 : eval schemaSelector (Rule.sors ((defRules ++ extRules).map fun q => .ref q.1)) s = .ok xs t := by
    rw [h, List.map_append, List.map_cons]
    refine sors_pick ?_ he
    simp only [List.mem_map, forall_exists_index, and_imp]
    rintro _ q hq rfl
    exact hl q hq
  have h2 := (sors_append (l := [.ref .schema_definition]) (m := [.ref .scalar_type_definition, .ref .object_type_definition,
    .ref .interface_type_definition, .ref .union_type_definition, .ref .enum_type_definition, .ref .input_object_type_definition,
    .ref .directive_definition, .ref .schema_extension, .ref .scalar_type_extension, .ref .object_type_extension,
    .ref .interface_type_extension, .ref .union_type_extension, .ref .enum_type_extension, .ref .input_object_type_extension])
    (by simp) (by simp)).1 h1
  rw [ref_discard_ok rfl]
  have tsd : ∀ {xs t}, eval schemaSelector (.ref .type_system_definition) s = .ok xs t ↔
      eval schemaSelector (Rule.sors [.ref .schema_definition, .ref .type_definition, .ref .directive_definition]) s = .ok xs t :=
    ref_discard_ok rfl
  have td : ∀ {xs t}, eval schemaSelector (.ref .type_definition) s = .ok xs t ↔
      eval schemaSelector (Rule.sors [.ref .scalar_type_definition, .ref .object_type_definition,
        .ref .interface_type_definition, .ref .union_type_definition, .ref .enum_type_definition,
        .ref .input_object_type_definition]) s = .ok xs t := ref_discard_ok rfl
  have tse : ∀ {xs t}, eval schemaSelector (.ref .type_system_extension) s = .ok xs t ↔
      eval schemaSelector (Rule.sors [.ref .schema_extension, .ref .type_extension]) s = .ok xs t := ref_discard_ok rfl
  have te : ∀ {xs t}, eval schemaSelector (.ref .type_extension) s = .ok xs t ↔
      eval schemaSelector (Rule.sors [.ref .scalar_type_extension, .ref .object_type_extension,
        .ref .interface_type_extension, .ref .union_type_extension, .ref .enum_type_extension,
        .ref .input_object_type_extension]) s = .ok xs t := ref_discard_ok rfl
  have ftsd : eval schemaSelector (.ref .type_system_definition) s = .fail ↔
      eval schemaSelector (Rule.sors [.ref .schema_definition, .ref .type_definition, .ref .directive_definition]) s = .fail :=
    ref_fail
  have ftd : eval schemaSelector (.ref .type_definition) s = .fail ↔
      eval schemaSelector (Rule.sors [.ref .scalar_type_definition, .ref .object_type_definition,
        .ref .interface_type_definition, .ref .union_type_definition, .ref .enum_type_definition,
        .ref .input_object_type_definition]) s = .fail := ref_fail
  have e2 : ∀ {a b : Rule R} {l : List (Rule R)}, Rule.sors (a :: b :: l) = .sor a (Rule.sors (b :: l)) := rfl
  have e1 : ∀ {a : Rule R}, Rule.sors [a] = a := rfl
  have goal_eq : grammar .schema_type_definition = .sor (.ref .type_system_definition) (.ref .type_system_extension) := rfl
  rw [goal_eq]
  simp only [e2, e1, sor_ok, sor_fail, defRules, extRules, List.cons_append, List.nil_append, List.map_cons, List.map_nil] at h1 tsd td tse te ftsd ftd ⊢
  rw [tsd, tse, ftsd, td, te, ftd]
  grind

theorem def_fails {k start c : R} {kw : Rule R} {word w : String} (hg : grammar k = Rule.seqs [.ref start, need c])
    (h : StartRule start kw word) (hne : differ word w = true) {J : Str → Str} {s d a b : Str} (hd : Described J s d a)
    (hk : Keyword w a b) : eval schemaSelector (.ref k) s = .fail := by
  rw [ref_fail, hg]
  exact seq_fail.2 (.inl (head_other h J hne hd hk))

theorem defs_fail {J : Str → Str} {s d a b : Str} {w : String} (hd : Described J s d a) (hk : Keyword w a b) :
    ∀ p ∈ defRules, differ p.2 w = true → eval schemaSelector (.ref p.1) s = .fail := by
  intro p hp hne
  simp only [defRules, List.mem_cons, List.not_mem_nil, or_false] at hp
  rcases hp with rfl | rfl | rfl | rfl | rfl | rfl | rfl | rfl
  · rw [ref_fail]
    refine seq_fail.2 (.inl (ref_fail.2 ?_))
    cases hd with
    | none => exact keyword_other hne hk
    | some hd _ =>
      cases hd with
      | quoted _ _ => exact dead_cons (by decide +kernel)
      | block _ => exact dead_cons (by decide +kernel)
  · exact def_fails (c := .scalar_type_definition_content) rfl scalar_start hne hd hk
  · exact def_fails (c := .object_type_definition_content) rfl object_start hne hd hk
  · exact def_fails (c := .interface_type_definition_content) rfl interface_rule.start hne hd hk
  · exact def_fails (c := .union_type_definition_content) rfl union_rule.start hne hd hk
  · exact def_fails (c := .enum_type_definition_content) rfl enum_rule.start hne hd hk
  · exact def_fails (c := .input_object_type_definition_content) rfl input_rule.start hne hd hk
  · exact def_fails (c := .directive_definition_content) rfl directive_start hne hd hk

theorem ext_fails {k start c kw : R} {word w : String} (hg : grammar k = Rule.seqs [.ref start, need c])
    (h : ExtRule start kw word) (hne : differ word w = true) {s t : Str} (he : Extend w s t) :
    eval schemaSelector (.ref k) s = .fail := by
  rw [ref_fail, hg]
  exact seq_fail.2 (.inl (ext_other h hne he))

theorem exts_fail {s t : Str} {w : String} (he : Extend w s t) :
    ∀ p ∈ extRules, differ p.2 w = true → eval schemaSelector (.ref p.1) s = .fail := by
  intro p hp hne
  simp only [extRules, List.mem_cons, List.not_mem_nil, or_false] at hp
  rcases hp with rfl | rfl | rfl | rfl | rfl | rfl | rfl
  · exact ext_fails (c := .schema_extension_content) rfl schema_ext hne he
  · exact ext_fails (c := .scalar_type_extension_content) rfl scalar_ext hne he
  · exact ext_fails (c := .object_type_extension_content) rfl object_ext hne he
  · exact ext_fails (c := .interface_type_extension_content) rfl interface_ext.start hne he
  · exact ext_fails (c := .union_type_extension_content) rfl union_ext.start hne he
  · exact ext_fails (c := .enum_type_extension_content) rfl enum_ext.start hne he
  · exact ext_fails (c := .input_object_type_extension_content) rfl input_ext.start hne he

/-- The definition with the word `w` is the `i`th. -/
theorem pick_def (i : Nat) {p : R × String} {m : List (R × String)} (h : defRules ++ extRules = defRules.take i ++ p :: m)
    (hw : ∀ q ∈ defRules.take i, q ∈ defRules ∧ differ q.2 p.2 = true) {J : Str → Str} {s d a b t : Str}
    (hd : Described J s d a) (hk : Keyword p.2 a b) {xs : List (Node R)} (he : eval schemaSelector (.ref p.1) s = .ok xs t) :
    eval schemaSelector (.ref .schema_type_definition) s = .ok xs t :=
  pick h (fun q hq => defs_fail hd hk q (hw q hq).1 (hw q hq).2) he

/-- The extension with the word `w` is the `i`th. -/
theorem pick_ext (i : Nat) {p : R × String} {m : List (R × String)}
    (h : defRules ++ extRules = (defRules ++ extRules.take i) ++ p :: m)
    (hw : ∀ q ∈ extRules.take i, q ∈ extRules ∧ differ q.2 p.2 = true) {s a t : Str}
    (hk : Extend p.2 s a) {xs : List (Node R)} (he : eval schemaSelector (.ref p.1) s = .ok xs t) :
    eval schemaSelector (.ref .schema_type_definition) s = .ok xs t := by
  refine pick h (fun q hq => ?_) he
  rcases List.mem_append.1 hq with hq | hq
  · obtain ⟨a, b, hk, _, _⟩ := hk
    have : ∀ q ∈ defRules, differ q.2 "extend" = true := by decide +kernel
    exact defs_fail (J := id) .none hk q hq (this q hq)
  · exact exts_fail hk q (hw q hq).1 (hw q hq).2

/-! ## Definitions -/

/-- The node stands for the definition. -/
def IsTypeDef (rd : Read) (x : Node R) (a : TypeDef) : Prop := typeDefOf rd x = some a

theorem typeDef_complete (rd : Read) {s t : Str} {a : TypeDef} (h : TypeDefText rd.pos rd.atof rd.unescapeJ s a t) (ha : Apart s t)
    (hend : DefEnd t) : ∃ x, eval schemaSelector (.ref .schema_type_definition) s = .ok [x] t ∧ IsTypeDef rd x a := by
  cases h with
  | schema hk ho hs hr =>
    obtain ⟨cs, he, hc⟩ := schema_complete hk ho hs hr
    refine ⟨_, pick_def (J := id) 0 (p := (.schema_definition, "schema")) rfl (by decide +kernel) .none hk he, ?_⟩
    simp [IsTypeDef, typeDefOf, schema_nodes (by decide) hc]
  | scalar hh hn ho =>
    obtain ⟨cs, he, hc⟩ := scalar_complete hh hn ho ha hend
    obtain ⟨_, _, hd, hk, _⟩ := hh
    refine ⟨_, pick_def 1 (p := (.scalar_type_definition, "scalar")) rfl (by decide +kernel) hd hk he, ?_⟩
    simp [IsTypeDef, typeDefOf, scalar_nodes hc]
  | object hh hn hi ho ho' =>
    obtain ⟨cs, he, hc⟩ := object_complete hh hn hi ho ho' ha hend
    obtain ⟨_, _, hd, hk, _⟩ := hh
    refine ⟨_, pick_def 2 (p := (.object_type_definition, "type")) rfl (by decide +kernel) hd hk he, ?_⟩
    simp [IsTypeDef, typeDefOf, object_nodes hc]
  | interface hh hn ho ho' =>
    obtain ⟨cs, he, hc⟩ := def_complete interface_rule (body_fields rd) hh hn ho ho' ha hend
    obtain ⟨_, _, hd, hk, _⟩ := hh
    refine ⟨_, pick_def 3 (p := (.interface_type_definition, "interface")) rfl (by decide +kernel) hd hk he, ?_⟩
    simp [IsTypeDef, typeDefOf, interface_nodes hc]
  | union hh hn ho ho' =>
    obtain ⟨cs, he, hc⟩ := def_complete union_rule (body_union rd) hh hn ho ho' ha hend
    obtain ⟨_, _, hd, hk, _⟩ := hh
    refine ⟨_, pick_def 4 (p := (.union_type_definition, "union")) rfl (by decide +kernel) hd hk he, ?_⟩
    simp [IsTypeDef, typeDefOf, union_nodes hc]
  | enum hh hn ho ho' =>
    obtain ⟨cs, he, hc⟩ := def_complete enum_rule (body_enum rd) hh hn ho ho' ha hend
    obtain ⟨_, _, hd, hk, _⟩ := hh
    refine ⟨_, pick_def 5 (p := (.enum_type_definition, "enum")) rfl (by decide +kernel) hd hk he, ?_⟩
    simp [IsTypeDef, typeDefOf, enum_nodes hc]
  | input hh hn ho ho' =>
    obtain ⟨cs, he, hc⟩ := def_complete input_rule (body_input rd) hh hn ho ho' ha hend
    obtain ⟨_, _, hd, hk, _⟩ := hh
    refine ⟨_, pick_def 6 (p := (.input_object_type_definition, "input")) rfl (by decide +kernel) hd hk he, ?_⟩
    simp [IsTypeDef, typeDefOf, input_nodes hc]
  | directive hd hk hs hn ho hs' hon hl =>
    obtain ⟨cs, he, hc⟩ := directive_def_complete hd hk hs hn ho hs' hon hl ha hend
    refine ⟨_, pick_def 7 (p := (.directive_definition, "directive")) rfl (by decide +kernel) hd hk he, ?_⟩
    simp [IsTypeDef, typeDefOf, directive_nodes hc]
  | schemaExtension hk hs hr =>
    obtain ⟨cs, he, hc⟩ := schema_ext_complete (rd := rd) hk hs (.inl hr) ha hend
    refine ⟨_, pick_ext 0 (p := (.schema_extension, "schema")) rfl (by decide +kernel) hk he, ?_⟩
    simp [IsTypeDef, typeDefOf, schema_nodes (by decide) hc]
  | schemaExtensionDirectives hk hs hd hr =>
    obtain ⟨cs, he, hc⟩ := schema_ext_complete hk hs (.inr (.inl ⟨_, _, hd, hr⟩)) ha hend
    refine ⟨_, pick_ext 0 (p := (.schema_extension, "schema")) rfl (by decide +kernel) hk he, ?_⟩
    simp [IsTypeDef, typeDefOf, schema_nodes (by decide) hc]
  | schemaExtensionOnly hk hs hd =>
    obtain ⟨cs, he, hc⟩ := schema_ext_complete hk hs (.inr (.inr ⟨rfl, _, hd⟩)) ha hend
    refine ⟨_, pick_ext 0 (p := (.schema_extension, "schema")) rfl (by decide +kernel) hk he, ?_⟩
    simp [IsTypeDef, typeDefOf, schema_nodes (by decide) hc]
  | scalarExtension hk hs hn hs' hd =>
    obtain ⟨cs, he, hc⟩ := scalar_ext_complete hk hs hn hs' hd ha hend
    refine ⟨_, pick_ext 1 (p := (.scalar_type_extension, "scalar")) rfl (by decide +kernel) hk he, ?_⟩
    simp [IsTypeDef, typeDefOf, scalar_nodes hc]
  | objectExtension hk hs hn hi ho ho' hne =>
    obtain ⟨cs, he, hc⟩ := object_ext_complete hk hs hn hi ho ho' hne ha hend
    refine ⟨_, pick_ext 2 (p := (.object_type_extension, "type")) rfl (by decide +kernel) hk he, ?_⟩
    simp [IsTypeDef, typeDefOf, object_nodes hc]
  | interfaceExtension hk hs hn ho ho' hne =>
    obtain ⟨cs, he, hc⟩ := extDef_complete interface_ext (body_fields rd) hk hs hn ho ho' hne ha hend
    refine ⟨_, pick_ext 3 (p := (.interface_type_extension, "interface")) rfl (by decide +kernel) hk he, ?_⟩
    simp [IsTypeDef, typeDefOf, interface_nodes hc]
  | unionExtension hk hs hn ho ho' hne =>
    obtain ⟨cs, he, hc⟩ := extDef_complete union_ext (body_union rd) hk hs hn ho ho' hne ha hend
    refine ⟨_, pick_ext 4 (p := (.union_type_extension, "union")) rfl (by decide +kernel) hk he, ?_⟩
    simp [IsTypeDef, typeDefOf, union_nodes hc]
  | enumExtension hk hs hn ho ho' hne =>
    obtain ⟨cs, he, hc⟩ := extDef_complete enum_ext (body_enum rd) hk hs hn ho ho' hne ha hend
    refine ⟨_, pick_ext 5 (p := (.enum_type_extension, "enum")) rfl (by decide +kernel) hk he, ?_⟩
    simp [IsTypeDef, typeDefOf, enum_nodes hc]
  | inputExtension hk hs hn ho ho' hne =>
    obtain ⟨cs, he, hc⟩ := extDef_complete input_ext (body_input rd) hk hs hn ho ho' hne ha hend
    refine ⟨_, pick_ext 6 (p := (.input_object_type_extension, "input")) rfl (by decide +kernel) hk he, ?_⟩
    simp [IsTypeDef, typeDefOf, input_nodes hc]

theorem typeDef_sound (rd : Read) {s t : Str} {ns : List (Node R)}
    (he : eval schemaSelector (.ref .schema_type_definition) s = .ok ns t) :
    ∃ x a, ns = [x] ∧ TypeDefText rd.pos rd.atof rd.unescapeJ s a t ∧ IsTypeDef rd x a := by
  rcases sor_ok.1 ((ref_discard_ok (n := .schema_type_definition) rfl).1 he) with h | ⟨_, h⟩
  · obtain ⟨r, hr, h⟩ := sors_ok (by simp) ((ref_discard_ok (n := .type_system_definition) rfl).1 h)
    simp only [List.mem_cons, List.not_mem_nil, or_false] at hr
    rcases hr with rfl | rfl | rfl
    · obtain ⟨a, o, b, c, rs, cs, hk, ho, hs, hr, rfl, hc⟩ := schema_sound (rd := rd) h
      exact ⟨_, _, rfl, .schema hk ho hs hr, by simp [IsTypeDef, typeDefOf, schema_nodes (by decide) hc]⟩
    · obtain ⟨r, hr, h⟩ := sors_ok (by simp) ((ref_discard_ok (n := .type_definition) rfl).1 h)
      simp only [List.mem_cons, List.not_mem_nil, or_false] at hr
      rcases hr with rfl | rfl | rfl | rfl | rfl | rfl
      · obtain ⟨d, a, n, b, o, cs, hh, hn, ho, rfl, hc⟩ := scalar_sound (rd := rd) h
        exact ⟨_, _, rfl, .scalar hh hn ho, by simp [IsTypeDef, typeDefOf, scalar_nodes hc]⟩
      · obtain ⟨d, a, n, b, is, c, o, e, o', cs, hh, hn, hi, ho, ho', rfl, hc⟩ := object_sound (rd := rd) h
        exact ⟨_, _, rfl, .object hh hn hi ho ho', by simp [IsTypeDef, typeDefOf, object_nodes hc]⟩
      · obtain ⟨d, a, n, b, o, e, o', cs, hh, hn, ho, ho', rfl, hc⟩ := def_sound interface_rule (body_fields rd) h
        exact ⟨_, _, rfl, .interface hh hn ho ho', by simp [IsTypeDef, typeDefOf, interface_nodes hc]⟩
      · obtain ⟨d, a, n, b, o, e, o', cs, hh, hn, ho, ho', rfl, hc⟩ := def_sound union_rule (body_union rd) h
        exact ⟨_, _, rfl, .union hh hn ho ho', by simp [IsTypeDef, typeDefOf, union_nodes hc]⟩
      · obtain ⟨d, a, n, b, o, e, o', cs, hh, hn, ho, ho', rfl, hc⟩ := def_sound enum_rule (body_enum rd) h
        exact ⟨_, _, rfl, .enum hh hn ho ho', by simp [IsTypeDef, typeDefOf, enum_nodes hc]⟩
      · obtain ⟨d, a, n, b, o, e, o', cs, hh, hn, ho, ho', rfl, hc⟩ := def_sound input_rule (body_input rd) h
        exact ⟨_, _, rfl, .input hh hn ho ho', by simp [IsTypeDef, typeDefOf, input_nodes hc]⟩
    · obtain ⟨d, a, b, c, n, e, o, f, g, h, ls, cs, hd, hk, hs, hn, ho, hs', hon, hl, rfl, hc⟩ := directive_def_sound (rd := rd) h
      exact ⟨_, _, rfl, .directive hd hk hs hn ho hs' hon hl, by simp [IsTypeDef, typeDefOf, directive_nodes hc]⟩
  · obtain ⟨r, hr, h⟩ := sors_ok (by simp) ((ref_discard_ok (n := .type_system_extension) rfl).1 h)
    simp only [List.mem_cons, List.not_mem_nil, or_false] at hr
    rcases hr with rfl | rfl
    · obtain ⟨a, b, rs, cs, hk, hs, hr, rfl, hc⟩ := schema_ext_sound (rd := rd) h
      refine ⟨_, .schemaExtension rs, rfl, ?_, by simp [IsTypeDef, typeDefOf, schema_nodes (by decide) hc]⟩
      rcases hr with hr | ⟨dirs, c, hd, hr⟩ | ⟨rfl, dirs, hd⟩
      · exact .schemaExtension hk hs hr
      · exact .schemaExtensionDirectives hk hs hd hr
      · exact .schemaExtensionOnly hk hs hd
    · obtain ⟨r, hr, h⟩ := sors_ok (by simp) ((ref_discard_ok (n := .type_extension) rfl).1 h)
      simp only [List.mem_cons, List.not_mem_nil, or_false] at hr
      rcases hr with rfl | rfl | rfl | rfl | rfl | rfl
      · obtain ⟨a, b, n, c, e, dirs, cs, hk, hs, hn, hs', hd, rfl, hc⟩ := scalar_ext_sound (rd := rd) h
        exact ⟨_, _, rfl, .scalarExtension hk hs hn hs' hd, by simp [IsTypeDef, typeDefOf, scalar_nodes hc]⟩
      · obtain ⟨a, b, n, c, is, e, o, f, o', cs, hk, hs, hn, hi, ho, ho', hne, rfl, hc⟩ := object_ext_sound (rd := rd) h
        exact ⟨_, _, rfl, .objectExtension hk hs hn hi ho ho' hne, by simp [IsTypeDef, typeDefOf, object_nodes hc]⟩
      · obtain ⟨a, e, n, c, o, f, o', cs, hk, hs, hn, ho, ho', hne, rfl, hc⟩ := extDef_sound interface_ext (body_fields rd) h
        exact ⟨_, _, rfl, .interfaceExtension hk hs hn ho ho' hne, by simp [IsTypeDef, typeDefOf, interface_nodes hc]⟩
      · obtain ⟨a, e, n, c, o, f, o', cs, hk, hs, hn, ho, ho', hne, rfl, hc⟩ := extDef_sound union_ext (body_union rd) h
        exact ⟨_, _, rfl, .unionExtension hk hs hn ho ho' hne, by simp [IsTypeDef, typeDefOf, union_nodes hc]⟩
      · obtain ⟨a, e, n, c, o, f, o', cs, hk, hs, hn, ho, ho', hne, rfl, hc⟩ := extDef_sound enum_ext (body_enum rd) h
        exact ⟨_, _, rfl, .enumExtension hk hs hn ho ho' hne, by simp [IsTypeDef, typeDefOf, enum_nodes hc]⟩
      · obtain ⟨a, e, n, c, o, f, o', cs, hk, hs, hn, ho, ho', hne, rfl, hc⟩ := extDef_sound input_ext (body_input rd) h
        exact ⟨_, _, rfl, .inputExtension hk hs hn ho ho' hne, by simp [IsTypeDef, typeDefOf, input_nodes hc]⟩

theorem described_start {J : Str → Str} {s d a b : Str} {k : String} (hd : Described J s d a) (hk : Keyword k a b)
    (hw : k ∈ defWords) : DefStart s := by
  cases hd with
  | none => exact .inr ⟨k, hw, b, hk.1⟩
  | some hd _ =>
    cases hd with
    | quoted _ _ => exact .inl ⟨_, rfl⟩
    | block _ => exact .inl ⟨_, rfl⟩

theorem extend_start {s a : Str} {k : String} (h : Extend k s a) : DefStart s := by
  obtain ⟨_, _, hk, _⟩ := h
  exact .inr ⟨"extend", by decide, _, hk.1⟩

theorem head_start {J : Str → Str} {s d a : Str} {k : String} (h : Head J k s d a) (hw : k ∈ defWords) : DefStart s := by
  obtain ⟨_, _, hd, hk, _⟩ := h
  exact described_start hd hk hw

theorem typeDef_starts {pos : Nat → Errors.Loc} {atof : Str → Double} {J : Str → Str} {s t : Str} {a : TypeDef}
    (h : TypeDefText pos atof J s a t) : DefStart s := by
  cases h with
  | schema hk _ _ _ => exact .inr ⟨"schema", by decide, _, hk.1⟩
  | scalar hh _ _ => exact head_start hh (by decide)
  | object hh _ _ _ _ => exact head_start hh (by decide)
  | interface hh _ _ _ => exact head_start hh (by decide)
  | union hh _ _ _ => exact head_start hh (by decide)
  | enum hh _ _ _ => exact head_start hh (by decide)
  | input hh _ _ _ => exact head_start hh (by decide)
  | directive hd hk _ _ _ _ _ _ => exact described_start hd hk (by decide)
  | schemaExtension hk _ _ => exact extend_start hk
  | schemaExtensionDirectives hk _ _ _ => exact extend_start hk
  | schemaExtensionOnly hk _ _ => exact extend_start hk
  | scalarExtension hk _ _ _ _ => exact extend_start hk
  | objectExtension hk _ _ _ _ _ _ => exact extend_start hk
  | interfaceExtension hk _ _ _ _ _ => exact extend_start hk
  | unionExtension hk _ _ _ _ _ => exact extend_start hk
  | enumExtension hk _ _ _ _ _ => exact extend_start hk
  | inputExtension hk _ _ _ _ _ => exact extend_start hk

theorem typeDef_not_executable {pos : Nat → Errors.Loc} {atof : Str → Double} {J : Str → Str} {s t : Str} {a : TypeDef}
    (h : TypeDefText pos atof J s a t) : a ≠ .executable := by
  cases h <;> nofun

/-! ## Documents -/

/-- The text of a definition which ends there. -/
def DefText (rd : Read) (s : Str) (a : TypeDef) (t : Str) : Prop := TypeDefText rd.pos rd.atof rd.unescapeJ s a t ∧ Apart s t

theorem mixedDef_sound (rd : Read) {s t : Str} {ns : List (Node R)}
    (he : eval schemaSelector (.ref .mixed_definition) s = .ok ns t) :
    ∃ x a, ns = [x] ∧ IsTypeDef rd x a ∧ (a ≠ .executable → DefText rd s a t) := by
  have other : ∀ {k : R}, schemaSelector k = .store → (∀ l c cs, typeDefOf rd (.mk k l c cs) = some .executable) →
      eval schemaSelector (.ref k) s = .ok ns t →
      ∃ x a, ns = [x] ∧ IsTypeDef rd x a ∧ (a ≠ .executable → DefText rd s a t) := by
    intro k hk hr h
    obtain ⟨cs, _, rfl⟩ := (ref_store_ok hk).1 h
    exact ⟨_, .executable, rfl, hr _ _ _, fun h => absurd rfl h⟩
  rcases sor_ok.1 ((ref_discard_ok (n := .mixed_definition) rfl).1 he) with h | ⟨_, h⟩
  · rcases sor_ok.1 ((ref_discard_ok (n := .executable_definition) rfl).1 h) with h | ⟨_, h⟩
    · exact other (k := .fragment_definition) rfl (fun _ _ _ => rfl) h
    · exact other (k := .operation_definition) rfl (fun _ _ _ => rfl) h
  · have h : eval schemaSelector (.ref .schema_type_definition) s = .ok ns t := (ref_discard_ok rfl).2 h
    obtain ⟨x, a, rfl, hT, hx⟩ := typeDef_sound rd h
    exact ⟨x, a, rfl, hx, fun _ => ⟨hT, schema_def_apart h⟩⟩

theorem typeDefs_sound (rd : Read) {s t : Str} {ns : List (Node R)}
    (he : eval schemaSelector (Rule.list (.ref .mixed_definition) (Rule.star (.ref .ignored))) s = .ok ns t) :
    ∃ ds, List.Forall₂ (IsTypeDef rd) ns ds ∧ (.executable ∉ ds → Sep Skip (DefText rd) s ds t) := by
  have loop : ∀ {s ns t}, Iter schemaSelector (.seq (.star (.ref .ignored)) (.ref .mixed_definition)) s ns t →
      ∃ xs, List.Forall₂ (IsTypeDef rd) ns xs ∧ (.executable ∉ xs → ∀ {s0 a}, DefText rd s0 a s →
        Sep Skip (DefText rd) s0 (a :: xs) t) := by
    intro s ns t hi
    induction hi with
    | nil _ => exact ⟨[], .nil, fun _ _ _ hP => .one hP⟩
    | cons h1 _ ih =>
      obtain ⟨_, u, zs, h2, h3, rfl⟩ := seq_ok.1 h1
      obtain ⟨rfl, hk, _⟩ := star_skip schema_sels h2
      obtain ⟨x, b, rfl, hW, hP'⟩ := mixedDef_sound rd h3
      obtain ⟨xs, hf, hxs⟩ := ih
      refine ⟨b :: xs, .cons hW hf, fun hne s0 a hP => ?_⟩
      simp only [List.mem_cons, not_or] at hne
      exact .more hP hk (hxs hne.2 (hP' (Ne.symm hne.1)))
  obtain ⟨ys, u, zs, h1, h2, rfl⟩ := seq_ok.1 he
  obtain ⟨x, a, rfl, hW, hP⟩ := mixedDef_sound rd h1
  obtain ⟨xs, hf, hxs⟩ := loop ((star_ok mixed_nullable).1 h2)
  refine ⟨a :: xs, .cons hW hf, fun hne => ?_⟩
  simp only [List.mem_cons, not_or] at hne
  exact hxs hne.2 (hP (Ne.symm hne.1))

theorem typeDefs_complete (rd : Read) {s t : Str} {ds : List TypeDef} (hd : Sep Skip (DefText rd) s ds t) (ht : Skip t []) :
    ∃ ns, eval schemaSelector (Rule.list (.ref .mixed_definition) (Rule.star (.ref .ignored))) s = .ok ns t ∧
      List.Forall₂ (IsTypeDef rd) ns ds := by
  have stop : eval schemaSelector (.seq (.star (.ref .ignored)) (.ref .mixed_definition)) t = .fail :=
    seq_fail.2 (.inr ⟨[], [], skip_star schema_sels ht nofun, dead_nil (by decide +kernel)⟩)
  have key : ∀ {s ds}, Sep Skip (DefText rd) s ds t →
      ∃ x ns u, eval schemaSelector (.ref .mixed_definition) s = .ok [x] u ∧
        Iter schemaSelector (.seq (.star (.ref .ignored)) (.ref .mixed_definition)) u ns t ∧
        List.Forall₂ (IsTypeDef rd) (x :: ns) ds := by
    clear hd
    intro s ds hx
    generalize ht' : t = t' at hx
    induction hx with
    | one hP =>
      subst ht'
      obtain ⟨x, he, hW⟩ := typeDef_complete rd hP.1 hP.2 ⟨[], ht, .inl rfl⟩
      exact ⟨x, [], _, schema_mixed he, .nil stop, .cons hW .nil⟩
    | @more s a u v xs w hP hk hx ih =>
      have hv : DefStart v := by
        cases hx with
        | one h' => exact typeDef_starts h'.1
        | more h' _ _ => exact typeDef_starts h'.1
      have hend : DefEnd u := ⟨v, hk, .inr hv⟩
      obtain ⟨x, he, hW⟩ := typeDef_complete rd hP.1 hP.2 hend
      have hvg : Ends gapStart v := by
        obtain ⟨c, z, rfl, hc⟩ := defStart_first hv
        have : ∀ c : Byte, notDef c = false → gapStart c = false := by decide +kernel
        exact ends_cons (this c hc)
      have hr := skip_star schema_sels hk hvg
      obtain ⟨y, ns, z, he', hi, hf⟩ := ih ht'
      exact ⟨x, [y] ++ ns, u, schema_mixed he, .cons (seq_ok.2 ⟨[], v, [y], hr, he', rfl⟩) hi, .cons hW hf⟩
  obtain ⟨x, ns, u, he, hi, hf⟩ := key hd
  exact ⟨[x] ++ ns, seq_ok.2 ⟨[x], u, ns, he, (star_ok mixed_nullable).2 hi, rfl⟩, hf⟩

theorem schemaDocument_sound (rd : Read) {s : Str} {ns : List (Node R)} (h : ParseSchemaString s (.tree ns)) :
    ∃ defs, schemaOf rd ns = some defs ∧ (.executable ∉ defs → ∃ bom u v w, s = bom ++ u ∧
      (bom = [] ∨ bom = utf8Encode 0xFEFF) ∧ Skip u v ∧ Sep Skip (DefText rd) v defs w ∧ Skip w []) := by
  obtain ⟨t, h⟩ := parse_tree_iff.1 ((parseSchemaString_mixed s _).1 h)
  have h1 := (ref_discard_ok (n := .mixed_document_content) rfl).1 (need_ok.1
    ((ref_discard_ok (n := .mixed_document) rfl).1 h))
  obtain ⟨_, s0, _, h0, k0, rfl⟩ := seq_ok.1 h1
  obtain ⟨rfl, rfl⟩ := empty_ok.1 h0
  obtain ⟨bs, u, _, h2, k1, rfl⟩ := seq_ok.1 k0
  obtain ⟨_, v, _, h3, k2, rfl⟩ := seq_ok.1 k1
  obtain ⟨ds, w, _, h4, k3, rfl⟩ := seq_ok.1 k2
  obtain ⟨_, z, _, h5, h6, rfl⟩ := seq_ok.1 k3
  obtain ⟨rfl, rfl, rfl⟩ := eof_ok.1 h6
  obtain ⟨rfl, hk, _⟩ := star_skip schema_sels h3
  obtain ⟨rfl, hk', _⟩ := star_skip schema_sels h5
  have hb : ∃ bom, s0 = bom ++ u ∧ (bom = [] ∨ bom = utf8Encode 0xFEFF) ∧ bs = [] := by
    rcases opt_ok.1 h2 with hb | ⟨_, hb, hu⟩
    · obtain ⟨hb', e⟩ := bom_ok.1 hb
      exact ⟨_, e, .inr rfl, hb'⟩
    · exact ⟨[], hb.symm, .inl rfl, hu⟩
  obtain ⟨bom, e, hb, rfl⟩ := hb
  obtain ⟨xs, hf, hs⟩ := typeDefs_sound rd h4
  refine ⟨xs, ?_, fun hne => ⟨bom, u, v, w, e, hb, hk, hs hne, hk'⟩⟩
  simp only [List.nil_append, List.append_nil, schemaOf]
  exact mapM_of hf

theorem schemaDocument_complete (rd : Read) {s bom u v w : Str} {defs : List TypeDef} (e : s = bom ++ u)
    (hb : bom = [] ∨ bom = utf8Encode 0xFEFF) (hk : Skip u v) (hd : Sep Skip (DefText rd) v defs w) (hk' : Skip w []) :
    ∃ ns, ParseSchemaString s (.tree ns) ∧ schemaOf rd ns = some defs := by
  obtain ⟨ns, r3, hf⟩ := typeDefs_complete rd hd hk'
  have hv : DefStart v := by
    cases hd with
    | one h' => exact typeDef_starts h'.1
    | more h' _ _ => exact typeDef_starts h'.1
  have hv := defStart_first hv
  have hvg : Ends gapStart v := by
    obtain ⟨c, z, rfl, hc⟩ := hv
    have : ∀ c : Byte, notDef c = false → gapStart c = false := by decide +kernel
    exact ends_cons (this c hc)
  have r2 := skip_star schema_sels hk hvg
  have r4 := skip_star schema_sels hk' nofun
  have r1 : eval schemaSelector (Rule.opt Rule.bom) s = .ok [] u := by
    rcases hb with rfl | rfl
    · refine opt_ok.2 (.inr ⟨?_, e.symm, rfl⟩)
      refine fail_of rfl fun xs t h => ?_
      obtain ⟨_, e'⟩ := bom_ok.1 h
      have hfirst : ∃ c z, u = c :: z ∧ (gapStart c = true ∨ notDef c = false) := by
        rcases skip_cases hk with rfl | h'
        · obtain ⟨c, z, e, hc⟩ := hv
          exact ⟨c, z, e, .inr hc⟩
        · obtain ⟨c, z, e, hc⟩ := space_first h'
          exact ⟨c, z, e, .inl hc⟩
      obtain ⟨c, z, rfl, hc⟩ := hfirst
      rw [e] at e'
      obtain ⟨rfl, _⟩ := List.cons.inj e'
      revert hc
      decide +kernel
    · exact opt_ok.2 (.inl (bom_ok.2 ⟨rfl, e⟩))
  refine ⟨ns, (parseSchemaString_mixed s _).2 (parse_tree_iff.2 ⟨[], ?_⟩), mapM_of hf⟩
  refine (ref_discard_ok rfl).2 (need_ok.2 ((ref_discard_ok (n := .mixed_document_content) rfl).2 ?_))
  exact seq_ok.2 ⟨[], s, _, empty_ok.2 ⟨rfl, rfl⟩, seq_ok.2 ⟨[], u, _, r1, seq_ok.2 ⟨[], v, _, r2, seq_ok.2 ⟨ns, w, _, r3,
    seq_ok.2 ⟨[], [], [], r4, eof_ok.2 ⟨rfl, rfl, rfl⟩, rfl⟩, by simp⟩, rfl⟩, rfl⟩, rfl⟩

/-! ## C63 -/

/-- What `schemagen` reads from the tree of a text: line and column are those of the text. -/
def readSchema (atof : Str → Double) (unescapeJ : Str → Str) (s : Str) (ns : List (Node R)) : Option (List TypeDef) :=
  schemaOf ⟨position s, atof, unescapeJ⟩ ns

/-- C63: if a text is parsed, then `schemagen` reads definitions from the tree; if none of them is executable, then the text
is the text of these definitions. -/
theorem C63_sound (atof : Str → Double) (unescapeJ : Str → Str) {s : Str} {ns : List (Node R)}
    (h : ParseSchemaString s (.tree ns)) :
    ∃ defs, readSchema atof unescapeJ s ns = some defs ∧ (.executable ∉ defs → SchemaText atof unescapeJ s defs) := by
  obtain ⟨defs, h1, h2⟩ := schemaDocument_sound ⟨position s, atof, unescapeJ⟩ h
  exact ⟨defs, h1, h2⟩

/-- C63: the text of any definitions is parsed, and `schemagen` reads these definitions from the tree. -/
theorem C63_complete (atof : Str → Double) (unescapeJ : Str → Str) {s : Str} {defs : List TypeDef}
    (h : SchemaText atof unescapeJ s defs) :
    ∃ ns, ParseSchemaString s (.tree ns) ∧ readSchema atof unescapeJ s ns = some defs := by
  obtain ⟨bom, u, v, w, e, hb, hk, hd, hk'⟩ := h
  exact schemaDocument_complete ⟨position s, atof, unescapeJ⟩ e hb hk hd hk'

/-- C63: a text is the text of at most one list of definitions. -/
theorem C63_unambiguous (atof : Str → Double) (unescapeJ : Str → Str) {s : Str} {defs defs' : List TypeDef}
    (h : SchemaText atof unescapeJ s defs) (h' : SchemaText atof unescapeJ s defs') : defs = defs' := by
  obtain ⟨ns, p, r⟩ := C63_complete atof unescapeJ h
  obtain ⟨ns', p', r'⟩ := C63_complete atof unescapeJ h'
  obtain ⟨x, _, hu⟩ := parseWith_total .schema_document .mixed_document schemaSelector s
  have e1 := hu _ p
  have e2 := hu _ p'
  rw [← e2] at e1
  cases e1
  rw [r] at r'
  exact Option.some.inj r'

/-- C63: a text which is rejected is not the text of definitions. -/
theorem C63_rejected (atof : Str → Double) (unescapeJ : Str → Str) {s m : Str} (h : ParseSchemaString s (.error m)) :
    ¬ ∃ defs, SchemaText atof unescapeJ s defs := by
  rintro ⟨defs, hd⟩
  obtain ⟨ns, p, _⟩ := C63_complete atof unescapeJ hd
  obtain ⟨x, _, hu⟩ := parseWith_total .schema_document .mixed_document schemaSelector s
  have e1 := hu _ p
  have e2 := hu _ h
  rw [← e2] at e1
  cases e1

end Verif.Peg
