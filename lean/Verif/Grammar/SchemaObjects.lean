import Verif.Grammar.SchemaBodies

/-!
# Objects and extensions
-/
namespace Verif.Peg
open Verif.Value Verif.Text Verif.Gen Rule

variable {sel : R → Sel} {rd : Read}

/-! ## Interfaces of an object -/

/-- `implements A & B ...` with ignored text before it. -/
def implementsRule : Rule R := .seq (Rule.plus (.ref .ignored)) (.ref .implements_interfaces)

/-- The nodes of the interfaces. -/
abbrev IsInterfaces : List (Node R) → List Str → Prop := List.Forall₂ (IsNamed .interface_type)

theorem implements_some {s t : Str} {ns : List (Node R)} (he : eval schemaSelector implementsRule s = .ok ns t) :
    ∃ xs, ImplementsText s xs t ∧ xs ≠ [] ∧ IsInterfaces ns xs := by
  obtain ⟨_, u, ys, h1, h2, rfl⟩ := seq_ok.1 he
  obtain ⟨rfl, hs, _⟩ := plus_space schema_sels h1
  obtain ⟨_, v, zs, h3, h4, rfl⟩ := seq_ok.1 ((ref_discard_ok (n := .implements_interfaces) rfl).1 h2)
  obtain ⟨rfl, hk, hv⟩ := keyword_ok.1 h3
  obtain ⟨xs, hx, hf⟩ := names_sound schema_sels (nameRule_of (k := .interface_type) rfl rfl) (c := '&') (by decide)
    (v.length + 1) v zs t (by omega) ((ref_discard_ok (n := .implements_interfaces_content) rfl).1 (need_ok.1 h4))
  refine ⟨xs, .some hs ⟨hk, hv⟩ hx, ?_, hf⟩
  rintro rfl
  cases hx with
  | plain _ h => cases h
  | lead _ h => cases h

theorem implements_sound {s t : Str} {ns : List (Node R)} (he : eval schemaSelector (.opt implementsRule) s = .ok ns t) :
    ∃ xs, ImplementsText s xs t ∧ IsInterfaces ns xs := by
  rcases opt_ok.1 he with h | ⟨_, rfl, rfl⟩
  · obtain ⟨xs, hx, _, hf⟩ := implements_some h
    exact ⟨xs, hx, hf⟩
  · exact ⟨[], .none, .nil⟩

section
variable {b : Rule R} {α : Type} {Q : Str → α → Str → Prop} {W : List (Node R) → α → Prop} {q : Byte → Bool}

/-- What comes after the name and the interfaces. -/
theorem tail_next (hB : Body rd b Q W q) {s u t : Str} {o : Option (List Ast.Directive)} {o' : Option α}
    (ho : Opt (DirectivesText rd.pos rd.atof) s o u) (ho' : Opt Q u o' t) :
    s = t ∨ ∃ c v, Skip s (c :: v) ∧ (isAt c = true ∨ q c = true) := by
  cases ho with
  | none =>
    cases ho' with
    | none => exact .inl rfl
    | @some _ v a _ hk h =>
      obtain ⟨c, w, rfl, hc⟩ := hB.starts _ _ _ h
      exact .inr ⟨c, w, hk, .inr hc⟩
  | @some _ v a _ hk h =>
    obtain ⟨c, w, rfl, hc⟩ := directives_starts _ _ _ h
    exact .inr ⟨c, w, hk, .inl hc⟩

/-- The bytes with which neither `implements` nor a further interface begins. -/
theorem next_first (hB : Body rd b Q W q) {c : Byte} (h : isAt c = true ∨ q c = true) : gapStart c = false ∧ nameCont c = false := by
  rcases h with h | h
  · have : ∀ c : Byte, isAt c = true → gapStart c = false ∧ nameCont c = false := by decide +kernel
    exact this c h
  · exact ⟨(hB.first c h).1, (hB.first c h).2.1⟩

theorem implements_complete (hB : Body rd b Q W q) (hq : q (ch '&') = false) {s u v t : Str} {xs : List Str}
    {o : Option (List Ast.Directive)} {o' : Option α} (hx : ImplementsText s xs u)
    (ho : Opt (DirectivesText rd.pos rd.atof) u o v) (ho' : Opt Q v o' t) (ha : Apart s t) (hend : DefEnd t) :
    ∃ ns, eval schemaSelector (.opt implementsRule) s = .ok ns u ∧ IsInterfaces ns xs := by
  have hn := tail_next hB ho ho'
  cases hx with
  | none =>
    refine ⟨[], opt_ok.2 (.inr ⟨?_, rfl, rfl⟩), .nil⟩
    cases h1 : eval schemaSelector (Rule.plus (.ref .ignored)) s with
    | fail => exact seq_fail.2 (.inl h1)
    | raise m => exact absurd h1 (quiet_no_raise 20 _ (by decide +kernel) s m)
    | ok ys w' =>
    refine seq_fail.2 (.inr ⟨ys, w', h1, ?_⟩)
    rcases hn with rfl | ⟨c, x, hk, hc⟩
    · exact hend.no_implements h1 schema_sels
    · obtain ⟨_, hsp, hug⟩ := plus_space schema_sels h1
      obtain rfl := skip_unique (space_skip hsp) hug hk (ends_cons (next_first hB hc).1)
      have hne : Needs schemaSelector (.ref .implements_interfaces) nameCont := needs_of (by decide +kernel) (by decide +kernel)
      exact hne _ (ends_cons (next_first hB hc).2)
  | @some _ w x _ _ hs hk hx =>
    have hx' : w <:+ s := space_suffix hs
    have hF : Follow nameCont (· == ch '&') u := by
      refine ⟨?_, ?_⟩
      · rcases hn with rfl | ⟨c, y, hk', hc⟩
        · exact Apart.names (apart_suffix ha ((keyword_suffix hk).trans hx')) hx
        · exact (follow_skip (q := fun _ => false) hk' nameCont_gap (ends_cons (next_first hB hc).2)
            (ends_cons (next_first hB hc).1) (ends_cons rfl)).1
      · rcases hn with rfl | ⟨c, y, hk', hc⟩
        · exact hend.notNext (by decide +kernel)
        · refine notNext_of hk' (ends_cons (next_first hB hc).1) (ends_cons ?_)
          rcases hc with hc | hc
          · have : ∀ c : Byte, isAt c = true → (c == ch '&') = false := by decide +kernel
            exact this c hc
          · cases he : c == ch '&'
            · rfl
            · rw [eq_of_beq he, hq] at hc
              cases hc
    obtain ⟨ns, he, hf⟩ := names_complete schema_sels (nameRule_of (k := .interface_type) rfl rfl) (c := '&') (by decide)
      (by decide) (by decide) (x.length + 1) x xs u (by omega) hx hF
    refine ⟨ns, opt_ok.2 (.inl (seq_ok.2 ⟨[], w, ns, space_plus schema_sels hs
      (name_starts.ends nameStart_gap (keyword_name (by decide +kernel) hk)), ?_, rfl⟩)), hf⟩
    exact (ref_discard_ok (n := .implements_interfaces) rfl).2 (seq_ok.2 ⟨[], x, ns, keyword_ok.2 ⟨rfl, hk.1, hk.2⟩,
      need_ok.2 ((ref_discard_ok (n := .implements_interfaces_content) rfl).2 he), rfl⟩)

end

/-! ## The interfaces, the directives and the fields -/

section
variable {I I3 D B : Rule R}

/-- Interfaces, directives and fields. -/
structure ObjectTail (I I3 D B : Rule R) : Prop where
  /-- the interfaces -/
  implements : SameRule schemaSelector I (.opt implementsRule)
  /-- the directives -/
  dirs : SameRule schemaSelector D (.seq (.star (.ref .ignored)) (.ref .directives))
  /-- the fields -/
  fields : SameRule schemaSelector B (.seq (.star (.ref .ignored)) (.ref .fields_definition))

/-- Interfaces, directives and fields. -/
def objectTail (I I3 D B : Rule R) : Rule R := Rule.sors [Rule.seqs [I, .opt D, B], Rule.seqs [I, D], I3]

theorem objectTail_sound (hT : ObjectTail I I3 D B) {P3 : List (Node R) → Prop}
    (h3 : ∀ s ns t, eval schemaSelector I3 s = .ok ns t → eval schemaSelector I s = .ok ns t ∧ P3 ns) {s t : Str} {ns : List (Node R)}
    (he : eval schemaSelector (objectTail I I3 D B) s = .ok ns t) :
    ∃ is u o v o' ws xs ys, ImplementsText s is u ∧ Opt (DirectivesText rd.pos rd.atof) u o v ∧
      Opt (FieldsDefText rd.pos rd.atof rd.unescapeJ) v o' t ∧ ns = ws ++ (xs ++ ys) ∧ IsInterfaces ws is ∧
      OptNodes (One (IsDirectives rd)) xs o ∧ OptNodes (One (IsFieldsDef rd)) ys o' ∧ (P3 ws ∨ o ≠ none ∨ o' ≠ none) := by
  have dsound : ∀ {s t : Str} {ns : List (Node R)}, eval schemaSelector (.opt D) s = .ok ns t →
      ∃ o, Opt (DirectivesText rd.pos rd.atof) s o t ∧ OptNodes (One (IsDirectives rd)) ns o ∧
        (eval schemaSelector D s = .ok ns t → o ≠ none) := by
    intro s t ns h
    rcases opt_ok.1 h with h | ⟨hf, rfl, rfl⟩
    · obtain ⟨_, u, zs, h2, h3, rfl⟩ := seq_ok.1 ((hT.dirs.1 _ _ _).1 h)
      obtain ⟨rfl, hk, _⟩ := star_skip schema_sels h2
      obtain ⟨a, hP, hV⟩ := (directives_sound schema_sels rd (u.length + 1)).list u zs t (by omega) h3
      exact ⟨some a, .some hk hP, .some hV, fun _ => nofun⟩
    · exact ⟨none, .none, .none, fun h => by rw [hf] at h; cases h⟩
  rcases sor_ok.1 he with h1 | ⟨_, h1⟩
  · obtain ⟨ws, u, _, h2, h4, rfl⟩ := seq_ok.1 h1
    obtain ⟨xs, v, ys, h5, h6, rfl⟩ := seq_ok.1 h4
    obtain ⟨is, hi, hw⟩ := implements_sound ((hT.implements.1 _ _ _).1 h2)
    obtain ⟨o, ho, hx, _⟩ := dsound h5
    obtain ⟨_, w, zs, h7, h8, rfl⟩ := seq_ok.1 ((hT.fields.1 _ _ _).1 h6)
    obtain ⟨rfl, hk, _⟩ := star_skip schema_sels h7
    obtain ⟨fs, hP, hV⟩ := (body_fields rd).sound (w.length + 1) w zs t (by omega) h8
    exact ⟨is, u, o, v, some fs, ws, xs, _, hi, ho, .some hk hP, rfl, hw, hx, .some hV, .inr (.inr nofun)⟩
  · rcases sor_ok.1 h1 with h1 | ⟨_, h1⟩
    · obtain ⟨ws, u, xs, h2, h4, rfl⟩ := seq_ok.1 h1
      obtain ⟨is, hi, hw⟩ := implements_sound ((hT.implements.1 _ _ _).1 h2)
      have h4 : eval schemaSelector D u = .ok xs t := h4
      obtain ⟨o, ho, hx, hne⟩ := dsound (opt_ok.2 (.inl h4))
      exact ⟨is, u, o, t, none, ws, xs, [], hi, ho, .none, by simp, hw, hx, .none, .inr (.inl (hne h4))⟩
    · obtain ⟨h2, hp⟩ := h3 _ _ _ h1
      obtain ⟨is, hi, hw⟩ := implements_sound ((hT.implements.1 _ _ _).1 h2)
      exact ⟨is, t, none, t, none, ns, [], [], hi, .none, .none, by simp, hw, .none, .none, .inl hp⟩

theorem objectTail_complete (hT : ObjectTail I I3 D B) {s u v t : Str} {is : List Str} {o : Option (List Ast.Directive)}
    {o' : Option (List FieldDef)} (hi : ImplementsText s is u) (ho : Opt (DirectivesText rd.pos rd.atof) u o v)
    (ho' : Opt (FieldsDefText rd.pos rd.atof rd.unescapeJ) v o' t) (ha : Apart s t) (hend : DefEnd t)
    (h3 : o = none → o' = none → ∀ ns, IsInterfaces ns is → eval schemaSelector I s = .ok ns t → eval schemaSelector I3 s = .ok ns t) :
    ∃ ws xs ys, eval schemaSelector (objectTail I I3 D B) s = .ok (ws ++ (xs ++ ys)) t ∧ IsInterfaces ws is ∧
      OptNodes (One (IsDirectives rd)) xs o ∧ OptNodes (One (IsFieldsDef rd)) ys o' := by
  have hB := body_fields rd
  obtain ⟨ws, e1, hw⟩ := implements_complete hB (by decide) hi ho ho' ha hend
  have e1 := (hT.implements.1 _ _ _).2 e1
  obtain ⟨k1, k2, k3, _⟩ := tail_end hB ho ho' (apart_suffix ha (implements_suffix hi)) hend
  have k3' : Follow (fun _ => false) dirNext v := ⟨fun _ _ _ => rfl, k3⟩
  have hdirs := item_complete schema_sels (directives_end schema_sels rd (u.length + 1)).list directives_end_starts isAt_gap
    directives_needs (by omega) k1 k3 (k3'.weaken (p' := fun _ => false) (fun _ => id) (by decide +kernel)).2
  have hbody := item_complete schema_sels (hB.complete (v.length + 1)) (fun s a t h => hB.starts s a t h.1)
    (fun c hc => (hB.first c hc).1) hB.needs (by omega) k2 (hend.notNext (by decide +kernel)) (hend.notNext (by decide +kernel))
  have hopt : ∃ xs, eval schemaSelector (.opt D) u = .ok xs v ∧ OptNodes (One (IsDirectives rd)) xs o ∧
      ((o = none ∧ u = v ∧ xs = [] ∧ eval schemaSelector D u = .fail) ∨ eval schemaSelector D u = .ok xs v) := by
    rcases hdirs with ⟨rfl, rfl, he⟩ | ⟨xs, a, rfl, he, hV⟩
    · have he := (hT.dirs.2 _).2 he
      exact ⟨[], opt_ok.2 (.inr ⟨he, rfl, rfl⟩), .none, .inl ⟨rfl, rfl, rfl, he⟩⟩
    · have he := (hT.dirs.1 _ _ _).2 he
      exact ⟨xs, opt_ok.2 (.inl he), .some hV, .inr he⟩
  obtain ⟨xs, e2, hx, hcase⟩ := hopt
  rcases hbody with ⟨rfl, rfl, he⟩ | ⟨ys, a, rfl, he, hV⟩
  · have he := (hT.fields.2 _).2 he
    refine ⟨ws, xs, [], ?_, hw, hx, .none⟩
    rw [List.append_nil]
    refine sor_next (seq_fail.2 (.inr ⟨ws, u, e1, seq_fail.2 (.inr ⟨xs, _, e2, he⟩)⟩)) ?_
    rcases hcase with ⟨rfl, rfl, rfl, hf⟩ | hok
    · rw [List.append_nil]
      exact sor_next (seq_fail.2 (.inr ⟨ws, _, e1, hf⟩)) (h3 rfl rfl ws hw e1)
    · exact sor_ok.2 (.inl (seq_ok.2 ⟨ws, u, xs, e1, hok, rfl⟩))
  · have he := (hT.fields.1 _ _ _).2 he
    exact ⟨ws, xs, ys, sor_ok.2 (.inl (seq_ok.2 ⟨ws, u, _, e1, seq_ok.2 ⟨xs, v, ys, e2, he, rfl⟩, rfl⟩)), hw, hx, .some hV⟩

end

/-- What follows the name of an object, when it ends. -/
theorem object_name_ends {a n b c e t : Str} {is : List Str} {o : Option (List Ast.Directive)} {o' : Option (List FieldDef)}
    (hn : Name a n b) (hi : ImplementsText b is c) (ho : Opt (DirectivesText rd.pos rd.atof) c o e)
    (ho' : Opt (FieldsDefText rd.pos rd.atof rd.unescapeJ) e o' t) (ha : Apart a t) (hend : DefEnd t) : Ends nameCont b := by
  cases hi with
  | none => exact name_ends hn ha (tail_end (body_fields rd) ho ho' (apart_suffix ha (name_suffix hn)) hend).2.2.2
  | some hs _ _ => exact space_ends hs

/-! ## Object definitions -/

theorem object_start : StartRule .object_type_definition_start (.ref .type_keyword) "type" :=
  ⟨rfl, rfl, word_ref rfl rfl, by decide +kernel⟩

theorem object_tail : ObjectTail (.ref .object_type_definition_implements_interfaces)
    (.ref .object_type_definition_implements_interfaces) (.ref .object_type_definition_directives)
    (.ref .object_type_definition_fields_definition) := ⟨SameRule.ref rfl, SameRule.ref rfl, SameRule.ref rfl⟩

/-- The nodes of an object. -/
def ObjectNodes (rd : Read) (cs : List (Node R)) (d n : Str) (is : List Str) (o : Option (List Ast.Directive))
    (o' : Option (List FieldDef)) : Prop :=
  ∃ ds l ws xs ys, cs = ds ++ ([.mk .object_name l n []] ++ (ws ++ (xs ++ ys))) ∧ DescNodes rd.unescapeJ ds d ∧
    IsInterfaces ws is ∧ OptNodes (One (IsDirectives rd)) xs o ∧ OptNodes (One (IsFieldsDef rd)) ys o'

theorem object_sound {s t : Str} {ns : List (Node R)} (he : eval schemaSelector (.ref .object_type_definition) s = .ok ns t) :
    ∃ d a n b is c o e o' cs, Head rd.unescapeJ "type" s d a ∧ Name a n b ∧ ImplementsText b is c ∧
      Opt (DirectivesText rd.pos rd.atof) c o e ∧ Opt (FieldsDefText rd.pos rd.atof rd.unescapeJ) e o' t ∧
      ns = [.mk .object_type_definition s.length (consumed s t) cs] ∧ ObjectNodes rd cs d n is o o' := by
  obtain ⟨cs, h1, rfl⟩ := (ref_store_ok rfl).1 he
  obtain ⟨ds, u, zs, h2, h3, rfl⟩ := seq_ok.1 h1
  obtain ⟨d, a', hd, hk, hd'⟩ := head_sound object_start rd.unescapeJ h2
  have h3 : eval schemaSelector (need .object_type_definition_content) u = .ok zs t := h3
  have h3 := (SameOk.need (sel := schemaSelector) (n := .object_type_definition_content) rfl _ _ _).1 h3
  obtain ⟨_, b, rs, h4, h5, rfl⟩ := seq_ok.1 h3
  obtain ⟨_, a, _, h6, h7, rfl⟩ := seq_ok.1 ((ref_discard_ok (n := .object_type_definition_object_name) rfl).1 h4)
  obtain ⟨rfl, hs, _⟩ := plus_space schema_sels h6
  obtain ⟨n, hn, _, rfl⟩ := (nameRule_of (sel := schemaSelector) (k := .object_name) rfl rfl _ _ _).1 h7
  obtain ⟨is, c, o, e, o', ws, xs, ys, hi, ho, ho', rfl, hw, hx, hy, _⟩ :=
    objectTail_sound object_tail (P3 := fun _ => True) (fun _ _ _ h => ⟨h, trivial⟩) h5
  exact ⟨d, a, n, b, is, c, o, e, o', ds ++ ([.mk .object_name a.length n []] ++ (ws ++ (xs ++ ys))), ⟨a', u, hd, hk, hs⟩, hn, hi,
    ho, ho', rfl, ds, a.length, ws, xs, ys, rfl, hd', hw, hx, hy⟩

theorem object_complete {s d a n b c e t : Str} {is : List Str} {o : Option (List Ast.Directive)} {o' : Option (List FieldDef)}
    (hh : Head rd.unescapeJ "type" s d a) (hn : Name a n b) (hi : ImplementsText b is c)
    (ho : Opt (DirectivesText rd.pos rd.atof) c o e) (ho' : Opt (FieldsDefText rd.pos rd.atof rd.unescapeJ) e o' t)
    (ha : Apart s t) (hend : DefEnd t) :
    ∃ cs, eval schemaSelector (.ref .object_type_definition) s = .ok [.mk .object_type_definition s.length (consumed s t) cs] t ∧
      ObjectNodes rd cs d n is o o' := by
  have ha1 := apart_suffix ha (head_suffix hh)
  have ha2 := apart_suffix ha1 (name_suffix hn)
  obtain ⟨a', u, hd, hk, hs⟩ := hh
  obtain ⟨ds, h2, hd'⟩ := head_complete object_start rd.unescapeJ hd hk
  have he := object_name_ends hn hi ho ho' ha1 hend
  have h6 := space_plus schema_sels hs (name_starts.ends nameStart_gap hn)
  have h7 := (nameRule_of (sel := schemaSelector) (k := .object_name) rfl rfl _ _ _).2 ⟨n, hn, he, rfl⟩
  obtain ⟨ws, xs, ys, h5, hw, hx, hy⟩ := objectTail_complete object_tail hi ho ho' ha2 hend (fun _ _ _ _ h => h)
  have h1 : eval schemaSelector (grammar .object_type_definition) s =
      .ok (ds ++ ([.mk .object_name a.length n []] ++ (ws ++ (xs ++ ys)))) t :=
    seq_ok.2 ⟨ds, u, _, h2, (SameOk.need (sel := schemaSelector) (n := .object_type_definition_content) rfl _ _ _).2
      (seq_ok.2 ⟨_, b, _, (ref_discard_ok (n := .object_type_definition_object_name) rfl).2
        (seq_ok.2 ⟨[], a, _, h6, h7, rfl⟩), h5, rfl⟩), rfl⟩
  exact ⟨_, (ref_store_ok rfl).2 ⟨_, h1, rfl⟩, ds, _, ws, xs, ys, rfl, hd', hw, hx, hy⟩

/-! ## Object extensions -/

theorem object_ext : ExtRule .object_type_extension_start .type_keyword "type" := ⟨rfl, rfl, rfl, rfl, by decide +kernel⟩

theorem object_ext_tail : ObjectTail (.opt (.ref .object_type_extension_implements_interfaces))
    (.ref .object_type_extension_implements_interfaces) (.ref .object_type_extension_directives)
    (.ref .object_type_extension_fields_definition) where
  implements := by
    have h := SameRule.ref (sel := schemaSelector) (n := .object_type_extension_implements_interfaces) rfl
    constructor
    · intro s xs t
      rw [opt_ok, opt_ok, h.1, h.2]
      exact Iff.rfl
    · intro s
      constructor <;> intro h <;> exact absurd h (by simp [opt_fail])
  dirs := SameRule.ref rfl
  fields := SameRule.ref rfl

theorem object_ext_sound {s t : Str} {ns : List (Node R)} (he : eval schemaSelector (.ref .object_type_extension) s = .ok ns t) :
    ∃ a b n c is e o f o' cs, Extend "type" s a ∧ Space a b ∧ Name b n c ∧ ImplementsText c is e ∧
      Opt (DirectivesText rd.pos rd.atof) e o f ∧ Opt (FieldsDefText rd.pos rd.atof rd.unescapeJ) f o' t ∧
      (is ≠ [] ∨ o ≠ none ∨ o' ≠ none) ∧
      ns = [.mk .object_type_extension s.length (consumed s t) cs] ∧ ObjectNodes rd cs [] n is o o' := by
  obtain ⟨cs, h1, rfl⟩ := (ref_store_ok rfl).1 he
  obtain ⟨_, a, zs, h2, h3, rfl⟩ := seq_ok.1 h1
  obtain ⟨rfl, hk⟩ := (ext_ok object_ext).1 h2
  have h3 : eval schemaSelector (need .object_type_extension_content) a = .ok zs t := h3
  have h3 := (SameOk.need (sel := schemaSelector) (n := .object_type_extension_content) rfl _ _ _).1 h3
  obtain ⟨_, b, _, h6, h8, rfl⟩ := seq_ok.1 h3
  obtain ⟨_, c, rs, h7, h5, rfl⟩ := seq_ok.1 h8
  obtain ⟨rfl, hs, _⟩ := plus_space schema_sels h6
  obtain ⟨n, hn, _, rfl⟩ := (nameRule_of (sel := schemaSelector) (k := .object_name) rfl rfl _ _ _).1 h7
  obtain ⟨is, e, o, f, o', ws, xs, ys, hi, ho, ho', rfl, hw, hx, hy, hne⟩ :=
    objectTail_sound object_ext_tail (P3 := fun ws => ws ≠ []) (fun _ _ _ h => ⟨opt_ok.2 (.inl h), by
      obtain ⟨xs, _, hne, hf⟩ := implements_some ((ref_discard_ok (n := .object_type_extension_implements_interfaces) rfl).1 h)
      rintro rfl
      cases hf
      exact hne rfl⟩) h5
  refine ⟨a, b, n, c, is, e, o, f, o', [.mk .object_name b.length n []] ++ (ws ++ (xs ++ ys)), hk, hs, hn, hi,
    ho, ho', ?_, by simp, [], b.length, ws, xs, ys, rfl, .none, hw, hx, hy⟩
  rcases hne with hne | hne
  · refine .inl ?_
    rintro rfl
    cases hw
    exact hne rfl
  · exact .inr hne

theorem object_ext_complete {s a b n c e f t : Str} {is : List Str} {o : Option (List Ast.Directive)}
    {o' : Option (List FieldDef)} (hh : Extend "type" s a) (hs : Space a b) (hn : Name b n c) (hi : ImplementsText c is e)
    (ho : Opt (DirectivesText rd.pos rd.atof) e o f) (ho' : Opt (FieldsDefText rd.pos rd.atof rd.unescapeJ) f o' t)
    (hne : is ≠ [] ∨ o ≠ none ∨ o' ≠ none) (ha : Apart s t) (hend : DefEnd t) :
    ∃ cs, eval schemaSelector (.ref .object_type_extension) s = .ok [.mk .object_type_extension s.length (consumed s t) cs] t ∧
      ObjectNodes rd cs [] n is o o' := by
  have ha1 := apart_suffix ha ((space_suffix hs).trans (extend_suffix hh))
  have ha2 := apart_suffix ha1 (name_suffix hn)
  have h2 := (ext_ok object_ext).2 ⟨rfl, hh⟩
  have he := object_name_ends hn hi ho ho' ha1 hend
  have h6 := space_plus schema_sels hs (name_starts.ends nameStart_gap hn)
  have h7 := (nameRule_of (sel := schemaSelector) (k := .object_name) rfl rfl _ _ _).2 ⟨n, hn, he, rfl⟩
  obtain ⟨ws, xs, ys, h5, hw, hx, hy⟩ := objectTail_complete object_ext_tail hi ho ho' ha2 hend (fun e1 e2 ns hf h => by
    rcases opt_ok.1 h with h | ⟨_, _, rfl⟩
    · exact h
    · cases hf
      rcases hne with h | h | h
      · exact absurd rfl h
      · exact absurd e1 h
      · exact absurd e2 h)
  have h1 : eval schemaSelector (grammar .object_type_extension) s =
      .ok ([.mk .object_name b.length n []] ++ (ws ++ (xs ++ ys))) t :=
    seq_ok.2 ⟨[], a, _, h2, (SameOk.need (sel := schemaSelector) (n := .object_type_extension_content) rfl _ _ _).2
      (seq_ok.2 ⟨[], b, _, h6, seq_ok.2 ⟨_, c, _, h7, h5, rfl⟩, rfl⟩), rfl⟩
  exact ⟨_, (ref_store_ok rfl).2 ⟨_, h1, rfl⟩, [], _, ws, xs, ys, rfl, .none, hw, hx, hy⟩

/-! ## Other extensions with a body -/

/-- Directives and a body, in an extension. -/
def extTail (b : Rule R) : Rule R :=
  .seq (.star (.ref .ignored)) (Rule.sors [Rule.seqs [.opt (Rule.seqs [.ref .directives, .star (.ref .ignored)]), b], .ref .directives])

section
variable {b : Rule R} {α : Type} {Q : Str → α → Str → Prop} {W : List (Node R) → α → Prop} {q : Byte → Bool}

theorem extTail_sound (hB : Body rd b Q W q) {s t : Str} {ns : List (Node R)}
    (he : eval schemaSelector (extTail b) s = .ok ns t) :
    ∃ o u o' xs ys, Opt (DirectivesText rd.pos rd.atof) s o u ∧ Opt Q u o' t ∧ (o ≠ none ∨ o' ≠ none) ∧ ns = xs ++ ys ∧
      OptNodes (One (IsDirectives rd)) xs o ∧ OptNodes W ys o' := by
  obtain ⟨_, v, zs, h1, h2, rfl⟩ := seq_ok.1 he
  obtain ⟨rfl, hk, _⟩ := star_skip schema_sels h1
  rcases sor_ok.1 h2 with h3 | ⟨_, h3⟩
  · obtain ⟨xs, w, ys, h4, h5, rfl⟩ := seq_ok.1 h3
    have h5 : eval schemaSelector b w = .ok ys t := h5
    obtain ⟨a', hq, hW⟩ := hB.sound (w.length + 1) w ys t (by omega) h5
    rcases opt_ok.1 h4 with h4 | ⟨_, rfl, rfl⟩
    · obtain ⟨xs', u, _, h6, h7, rfl⟩ := seq_ok.1 h4
      obtain ⟨rfl, hk', _⟩ := star_skip schema_sels h7
      obtain ⟨a, hP, hV⟩ := (directives_sound schema_sels rd (v.length + 1)).list v xs' u (by omega) h6
      exact ⟨some a, u, some a', xs', ys, .some hk hP, .some hk' hq, .inl nofun, by simp, .some hV, .some hW⟩
    · exact ⟨none, s, some a', [], ys, .none, .some hk hq, .inr nofun, rfl, .none, .some hW⟩
  · have h3 : eval schemaSelector (.ref .directives) v = .ok zs t := h3
    obtain ⟨a, hP, hV⟩ := (directives_sound schema_sels rd (v.length + 1)).list v zs t (by omega) h3
    exact ⟨some a, t, none, zs, [], .some hk hP, .none, .inl nofun, by simp, .some hV, .none⟩

theorem extTail_complete (hB : Body rd b Q W q) {s u t : Str} {o : Option (List Ast.Directive)} {o' : Option α}
    (ho : Opt (DirectivesText rd.pos rd.atof) s o u) (ho' : Opt Q u o' t) (hne : o ≠ none ∨ o' ≠ none) (ha : Apart s t)
    (hend : DefEnd t) : ∃ xs ys, eval schemaSelector (extTail b) s = .ok (xs ++ ys) t ∧
      OptNodes (One (IsDirectives rd)) xs o ∧ OptNodes W ys o' := by
  obtain ⟨h1, h2, h3, _⟩ := tail_end hB ho ho' ha hend
  cases h1 with
  | none =>
    cases h2 with
    | none => simp at hne
    | @some _ v a _ hk hq =>
      obtain ⟨ys, h4, hW⟩ := hB.complete (v.length + 1) v a t (by omega) hq (hend.notNext (by decide +kernel))
      have h5 : eval schemaSelector (.ref .directives) v = .fail := directives_needs v (hB.starts.ends (fun c hc => by
        have := (hB.first c hc).2.2.1
        simp only [dirNext, Bool.or_eq_false_iff] at this
        exact this.1) hq.1)
      refine ⟨[], ys, seq_ok.2 ⟨[], v, ys, skip_star schema_sels hk (hB.starts.ends (fun c hc => (hB.first c hc).1) hq.1),
        sor_ok.2 (.inl (seq_ok.2 ⟨[], v, ys, opt_ok.2 (.inr ⟨seq_fail.2 (.inl h5), rfl, rfl⟩), h4, rfl⟩)), rfl⟩, .none, .some hW⟩
  | @some _ v a _ hk hd =>
    obtain ⟨xs, h4, hV⟩ := (directives_end schema_sels rd (v.length + 1)).list v a u (by omega) hd h3
    have h5 := skip_star schema_sels hk (directives_end_starts.ends isAt_gap hd)
    cases h2 with
    | none =>
      refine ⟨xs, [], seq_ok.2 ⟨[], v, xs, h5, sor_next ?_ h4, by simp⟩, .some hV, .none⟩
      obtain ⟨g, w, e, hg, hw, hr⟩ := star_ignored schema_sels u
      have hN : NotNext q u := hend.notNext (fun c hc => by
        cases hq : q c
        · rfl
        · rw [(hB.first c hq).2.2.2] at hc; cases hc)
      refine seq_fail.2 (.inr ⟨xs, w, opt_ok.2 (.inl (seq_ok.2 ⟨xs, u, [], h4, hr, by simp⟩)), ?_⟩)
      exact hB.needs w (hN w ⟨g, e, hg⟩ hw)
    | @some _ w a' _ hk' hq =>
      obtain ⟨ys, h6, hW⟩ := hB.complete (w.length + 1) w a' t (by omega) hq (hend.notNext (by decide +kernel))
      have h7 := skip_star schema_sels hk' (hB.starts.ends (fun c hc => (hB.first c hc).1) hq.1)
      exact ⟨xs, ys, seq_ok.2 ⟨[], v, _, h5, sor_ok.2 (.inl (seq_ok.2 ⟨xs, w, ys,
        opt_ok.2 (.inl (seq_ok.2 ⟨xs, u, [], h4, h7, by simp⟩)), h6, rfl⟩)), rfl⟩, .some hV, .some hW⟩

/-- An extension: keywords, name, directives, body. -/
structure ExtDef (k start kw : R) (word : String) (kn : R) (b : Rule R) : Prop where
  /-- the node -/
  store : schemaSelector k = .store
  /-- the rule -/
  content : ∃ c, grammar k = Rule.seqs [.ref start, need c] ∧ SameOk schemaSelector (need c)
    (.seq (Rule.plus (.ref .ignored)) (.seq (.ref kn) (extTail b)))
  /-- the beginning -/
  start : ExtRule start kw word
  /-- the name -/
  name : NameRule schemaSelector kn

theorem extDef_sound {k start kw kn : R} {word : String} (hR : ExtDef k start kw word kn b) (hB : Body rd b Q W q)
    {s t : Str} {ns : List (Node R)} (he : eval schemaSelector (.ref k) s = .ok ns t) :
    ∃ a e n c o f o' cs, Extend word s a ∧ Space a e ∧ Name e n c ∧ Opt (DirectivesText rd.pos rd.atof) c o f ∧
      Opt Q f o' t ∧ (o ≠ none ∨ o' ≠ none) ∧ ns = [.mk k s.length (consumed s t) cs] ∧ DefNodes rd kn W cs [] n o o' := by
  obtain ⟨cs, h1, rfl⟩ := (ref_store_ok hR.store).1 he
  obtain ⟨c, hg, hc⟩ := hR.content
  rw [hg] at h1
  obtain ⟨_, a, zs, h2, h3, rfl⟩ := seq_ok.1 h1
  obtain ⟨rfl, hk⟩ := (ext_ok hR.start).1 h2
  have h3 : eval schemaSelector (need c) a = .ok zs t := h3
  rw [hc _ _ _] at h3
  obtain ⟨_, e, _, h6, h8, rfl⟩ := seq_ok.1 h3
  obtain ⟨_, c, rs, h7, h5, rfl⟩ := seq_ok.1 h8
  obtain ⟨rfl, hs, _⟩ := plus_space schema_sels h6
  obtain ⟨n, hn, _, rfl⟩ := (hR.name _ _ _).1 h7
  obtain ⟨o, f, o', xs, ys, ho, ho', hne, rfl, hx, hy⟩ := extTail_sound hB h5
  exact ⟨a, e, n, c, o, f, o', [.mk kn e.length n []] ++ (xs ++ ys), hk, hs, hn, ho, ho', hne, by simp, [], e.length, xs, ys, rfl,
    .none, hx, hy⟩

theorem extDef_complete {k start kw kn : R} {word : String} (hR : ExtDef k start kw word kn b) (hB : Body rd b Q W q)
    {s a e n c f t : Str} {o : Option (List Ast.Directive)} {o' : Option α} (hh : Extend word s a) (hs : Space a e) (hn : Name e n c)
    (ho : Opt (DirectivesText rd.pos rd.atof) c o f) (ho' : Opt Q f o' t) (hne : o ≠ none ∨ o' ≠ none) (ha : Apart s t)
    (hend : DefEnd t) :
    ∃ cs, eval schemaSelector (.ref k) s = .ok [.mk k s.length (consumed s t) cs] t ∧ DefNodes rd kn W cs [] n o o' := by
  have ha1 := apart_suffix ha ((space_suffix hs).trans (extend_suffix hh))
  have ha2 := apart_suffix ha1 (name_suffix hn)
  have h2 := (ext_ok hR.start).2 ⟨rfl, hh⟩
  have he := name_ends hn ha1 (tail_end hB ho ho' ha2 hend).2.2.2
  have h6 := space_plus schema_sels hs (name_starts.ends nameStart_gap hn)
  have h7 := (hR.name _ _ _).2 ⟨n, hn, he, rfl⟩
  obtain ⟨xs, ys, h5, hx, hy⟩ := extTail_complete hB ho ho' hne ha2 hend
  obtain ⟨c', hg, hc⟩ := hR.content
  have h3 : eval schemaSelector (need c') a = .ok ([.mk kn e.length n []] ++ (xs ++ ys)) t := by
    rw [hc _ _ _]
    exact seq_ok.2 ⟨[], e, _, h6, seq_ok.2 ⟨_, c, _, h7, h5, rfl⟩, rfl⟩
  have h1 : eval schemaSelector (grammar k) s = .ok ([.mk kn e.length n []] ++ (xs ++ ys)) t := by
    rw [hg]
    exact seq_ok.2 ⟨[], a, _, h2, h3, rfl⟩
  exact ⟨_, (ref_store_ok hR.store).2 ⟨_, h1, rfl⟩, [], _, xs, ys, rfl, .none, hx, hy⟩

end

theorem interface_ext : ExtDef .interface_type_extension .interface_type_extension_start .interface_keyword "interface"
    .interface_name (.ref .fields_definition) :=
  ⟨rfl, ⟨.interface_type_extension_content, rfl, SameOk.need rfl⟩, ⟨rfl, rfl, rfl, rfl, by decide +kernel⟩, nameRule_of rfl rfl⟩

theorem union_ext : ExtDef .union_type_extension .union_type_extension_start .union_keyword "union"
    .union_name (.ref .union_member_types) :=
  ⟨rfl, ⟨.union_type_extension_content, rfl, SameOk.need rfl⟩, ⟨rfl, rfl, rfl, rfl, by decide +kernel⟩, nameRule_of rfl rfl⟩

theorem enum_ext : ExtDef .enum_type_extension .enum_type_extension_start .enum_keyword "enum"
    .enum_name (.ref .enum_values_definition) :=
  ⟨rfl, ⟨.enum_type_extension_content, rfl, SameOk.need rfl⟩, ⟨rfl, rfl, rfl, rfl, by decide +kernel⟩, nameRule_of rfl rfl⟩

theorem input_ext : ExtDef .input_object_type_extension .input_object_type_extension_start .input_keyword "input"
    .object_name (.ref .input_fields_definition) :=
  ⟨rfl, ⟨.input_object_type_extension_content, rfl, SameOk.need rfl⟩, ⟨rfl, rfl, rfl, rfl, by decide +kernel⟩, nameRule_of rfl rfl⟩

end Verif.Peg
