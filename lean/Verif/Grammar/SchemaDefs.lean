import Verif.Grammar.SchemaNames

/-!
# The parts of type system definitions
-/
namespace Verif.Peg
open Verif.Value Verif.Text Verif.Gen Rule

variable {sel : R → Sel} {rd : Read}

/-! ## What is left -/

theorem apart_suffix {s u t : Str} (h : Apart s t) (e : u <:+ s) : Apart u t := by
  obtain ⟨a, rfl⟩ := e
  exact Apart.suffix h rfl

theorem skip_suffix {s t : Str} (h : Skip s t) : t <:+ s := by
  obtain ⟨g, rfl, _⟩ := h
  exact ⟨g, rfl⟩

theorem space_suffix {s t : Str} (h : Space s t) : t <:+ s := skip_suffix (space_skip h)

theorem name_suffix {s n t : Str} (h : Name s n t) : t <:+ s := by
  obtain ⟨_, rfl⟩ := h
  exact ⟨n, rfl⟩

theorem keyword_suffix {k : String} {s t : Str} (h : Keyword k s t) : t <:+ s := by
  obtain ⟨rfl, _⟩ := h
  exact ⟨_, rfl⟩

theorem eval_suffix {r : Rule R} {s t : Str} {xs : List (Node R)} (h : eval sel r s = .ok xs t) : t <:+ s := by
  obtain ⟨a, rfl⟩ := (eval_rest h).1
  exact ⟨a, rfl⟩

theorem opt_suffix {α : Type} {P : Str → α → Str → Prop} (hP : ∀ s a t, P s a t → t <:+ s) {s t : Str} {o : Option α}
    (h : Opt P s o t) : t <:+ s := by
  cases h with
  | none => exact List.suffix_rfl
  | some hk h => exact (hP _ _ _ h).trans (skip_suffix hk)

theorem sep_suffix {α : Type} {S : Str → Str → Prop} {P : Str → α → Str → Prop} (hS : ∀ a b, S a b → b <:+ a)
    (hP : ∀ s a t, P s a t → t <:+ s) {s t : Str} {xs : List α} (h : Sep S P s xs t) : t <:+ s := by
  induction h with
  | one h => exact hP _ _ _ h
  | more h h' _ ih => exact (ih.trans (hS _ _ h')).trans (hP _ _ _ h)

theorem described_suffix {J : Str → Str} {s d t : Str} (h : Described J s d t) : t <:+ s := by
  cases h with
  | none => exact List.suffix_rfl
  | @some _ u _ hd hk =>
    refine (skip_suffix hk).trans ?_
    obtain ⟨x, he, _⟩ := description_complete J (s.length + 1) s d u (by omega) hd trivial
    exact eval_suffix he

theorem arguments_suffix {s t : Str} {a : Ast.Args} (h : ArgumentsText rd.pos rd.atof s a t) : t <:+ s := by
  obtain ⟨x, he, _⟩ := arguments_complete schema_sels rd (s.length + 1) s a t (by omega) h trivial
  exact eval_suffix he

theorem directive_suffix {s t : Str} {a : Ast.Directive} (h : DirectiveText rd.pos rd.atof s a t) : t <:+ s := by
  cases h with
  | @mk m u args _ hm ho => exact (opt_suffix (fun _ _ _ => arguments_suffix) ho).trans ⟨ch '@' :: m, rfl⟩

theorem directives_suffix {s t : Str} {a : List Ast.Directive} (h : DirectivesText rd.pos rd.atof s a t) : t <:+ s :=
  sep_suffix (fun _ _ => space_suffix) (fun _ _ _ => directive_suffix) h

theorem args_def_suffix {s t : Str} {a : List InputValueDef} (h : ArgumentsDefText rd.pos rd.atof rd.unescapeJ s a t) : t <:+ s := by
  obtain ⟨x, he, _⟩ := args_def_complete rd (s.length + 1) s a t (by omega) h trivial
  exact eval_suffix he

theorem names_suffix {c : Byte} {s t : Str} {xs : List Str} (h : NamesText c s xs t) : t <:+ s := by
  obtain ⟨p, u, x, rfl, hu⟩ := names_last h
  exact (name_suffix hu).trans ⟨p, rfl⟩

theorem implements_suffix {s t : Str} {xs : List Str} (h : ImplementsText s xs t) : t <:+ s := by
  cases h with
  | none => exact List.suffix_rfl
  | some hs hk hn => exact ((names_suffix hn).trans (keyword_suffix hk)).trans (space_suffix hs)

theorem head_suffix {J : Str → Str} {k : String} {s d t : Str} (h : Head J k s d t) : t <:+ s := by
  obtain ⟨a, b, hd, hk, hs⟩ := h
  exact ((space_suffix hs).trans (keyword_suffix hk)).trans (described_suffix hd)

theorem extend_suffix {k : String} {s t : Str} (h : Extend k s t) : t <:+ s := by
  obtain ⟨a, b, hk, hs, hk'⟩ := h
  exact ((keyword_suffix hk').trans (space_suffix hs)).trans (keyword_suffix hk)

/-! ## Directives at the end -/

/-- Directives, and a text which does not go on with the last name. -/
def DirectivesEnd (rd : Read) (s : Str) (a : List Ast.Directive) (t : Str) : Prop :=
  DirectivesText rd.pos rd.atof s a t ∧ Apart s t

theorem space_ends {s t : Str} (h : Space s t) : Ends nameCont s := by
  obtain ⟨c, u, rfl, hc⟩ := space_first h
  exact ends_cons (nameCont_gap c hc)

theorem sep_apart {α : Type} {P : Str → α → Str → Prop} (hP : ∀ s a t, P s a t → t <:+ s) {s t : Str} {xs : List α}
    (h : Sep Space P s xs t) (ha : Apart s t) : Sep Space (fun s a t => P s a t ∧ Apart s t) s xs t := by
  induction h with
  | one h => exact .one ⟨h, ha⟩
  | more h hs _ ih =>
    exact .more ⟨h, apart_of_ends (space_ends hs)⟩ hs
      (ih (apart_suffix ha ((space_suffix hs).trans (hP _ _ _ h))))

theorem directives_end (hs : Sels sel) (rd : Read) (n : Nat) :
    Complete n sel (.ref .directives) (DirectivesEnd rd) (IsDirectives rd) (NotNext dirNext) := by
  rintro s a t hl ⟨hx, ha⟩ hF
  have item : Complete n sel (.ref .directive) (fun s a t => DirectiveText rd.pos rd.atof s a t ∧ Apart s t)
      (fun x a => directiveOf rd x = some a) (NotNext isParen) := by
    rintro s a t hl ⟨hd, ha⟩ hF
    refine directive_complete_of hs rd n hl hd (fun m hm e => ?_) hF
    exact Apart.name (apart_suffix (u := m ++ t) ha ⟨[ch '@'], by simp [e]⟩) ⟨hm, rfl⟩
  have hF' : Follow (fun _ => false) dirNext t := ⟨fun _ _ _ => rfl, hF⟩
  obtain ⟨cs, he, hf⟩ := list_complete hs (r := .ref .directive) rfl item (fun s a t h => directive_starts s a t h.1) isAt_gap
    (needs_of (by decide +kernel) (by decide +kernel))
    (fun t u h h' => (follow_items (p := nameCont) nameCont_gap (by decide +kernel) t u h h').2) hl
    (sep_apart (fun _ _ _ => directive_suffix) hx ha)
    (hF'.weaken (p' := fun _ => false) (fun _ => id) (by decide +kernel)).2
    (hF'.weaken (p' := fun _ => false) (fun _ => id) (by decide +kernel)).2
  exact ⟨_, (ref_store_ok (hs.at ⟨rfl, rfl⟩)).2 ⟨cs, he, rfl⟩, rfl, mapM_of hf⟩

theorem directives_end_starts : Starts (DirectivesEnd rd) isAt := fun s a t h => directives_starts s a t h.1

/-! ## What follows a definition -/

/-- The first words of definitions. -/
def defWords : List String := ["schema", "scalar", "type", "interface", "union", "enum", "input", "directive", "extend"]

/-- The text begins like a definition. -/
def DefStart (s : Str) : Prop := (∃ v, s = ch '"' :: v) ∨ ∃ k ∈ defWords, ∃ v, s = str k ++ v

/-- After ignored text there is a definition, or the end. -/
def DefEnd (t : Str) : Prop := ∃ u, Skip t u ∧ (u = [] ∨ DefStart u)

/-- The bytes which do not begin a definition. -/
def notDef (c : Byte) : Bool := !(c == ch '"' || defWords.any fun k => (str k).head? == some c)

theorem defStart_first {s : Str} (h : DefStart s) : ∃ c u, s = c :: u ∧ notDef c = false := by
  rcases h with ⟨v, rfl⟩ | ⟨k, hk, v, rfl⟩
  · exact ⟨_, _, rfl, by decide +kernel⟩
  · have : ∀ k ∈ defWords, ∃ c u, str k = c :: u ∧ notDef c = false := by
      intro k hk
      simp only [defWords, List.mem_cons, List.not_mem_nil, or_false] at hk
      rcases hk with rfl | rfl | rfl | rfl | rfl | rfl | rfl | rfl | rfl <;> exact ⟨_, _, rfl, by decide +kernel⟩
    obtain ⟨c, u, e, hc⟩ := this k hk
    exact ⟨c, u ++ v, by rw [e]; rfl, hc⟩

theorem DefEnd.next {t : Str} (h : DefEnd t) : ∃ u, Skip t u ∧ Ends gapStart u ∧ Ends notDef u ∧ (u = [] ∨ DefStart u) := by
  obtain ⟨u, hk, hu⟩ := h
  rcases hu with rfl | hu
  · exact ⟨[], hk, nofun, nofun, .inl rfl⟩
  · obtain ⟨c, v, rfl, hc⟩ := defStart_first hu
    refine ⟨_, hk, ends_cons ?_, ends_cons hc, .inr hu⟩
    have : ∀ c : Byte, notDef c = false → gapStart c = false := by decide +kernel
    exact this c hc

theorem DefEnd.notNext {t : Str} (h : DefEnd t) {q : Byte → Bool} (hq : ∀ c, notDef c = false → q c = false) : NotNext q t := by
  obtain ⟨u, hk, hg, hu, _⟩ := h.next
  exact notNext_of hk hg fun c v e => hq c (hu c v e)

theorem DefEnd.ends {t : Str} (h : DefEnd t) {q : Byte → Bool} (hq : ∀ c, notDef c = false → q c = false)
    (hg : ∀ c, gapStart c = true → q c = false) : Ends q t := by
  obtain ⟨u, hk, _, hu, _⟩ := h.next
  rcases skip_cases hk with rfl | hs
  · exact fun c v e => hq c (hu c v e)
  · obtain ⟨c, v, rfl, hc⟩ := space_first hs
    exact ends_cons (hg c hc)

/-- The keyword `implements` does not follow. -/
theorem DefEnd.no_implements {t : Str} (h : DefEnd t) {xs : List (Node R)} {u : Str}
    (he : eval sel (Rule.plus (.ref .ignored)) t = .ok xs u) (hs : Sels sel) :
    eval sel (.ref .implements_interfaces) u = .fail := by
  obtain ⟨v, hk, hg, _, hv⟩ := h.next
  obtain ⟨_, hsp, hug⟩ := plus_space hs he
  obtain rfl := skip_unique (space_skip hsp) hug hk hg
  rcases hv with rfl | ⟨v, rfl⟩ | ⟨k, hkw, v, rfl⟩
  · exact dead_nil (by decide +kernel)
  · exact dead_cons (by decide +kernel)
  · have : ∀ k ∈ defWords, dead 40 (.ref .implements_interfaces) (str k) false = true := by decide +kernel
    exact dead_append (this k hkw)

/-! ## The beginning of a definition -/

/-- Two different words. -/
def differ (k k' : String) : Bool := nameTest (str k) && nameTest (str k') && str k != str k'

theorem keyword_other {k k' : String} (hd : differ k k' = true) {s t : Str} (h : Keyword k' s t) :
    eval sel (Rule.keyword k) s = .fail := by
  simp only [differ, Bool.and_eq_true, bne_iff_ne, ne_eq] at hd
  obtain ⟨⟨hk, hk'⟩, hne⟩ := hd
  refine fail_of rfl fun xs u he => ?_
  obtain ⟨rfl, ht⟩ := h
  obtain ⟨_, e, hu⟩ := keyword_ok.1 he
  exact hne (name_unique e (isName_of hk') (isName_of hk) ht hu).1.symm

theorem keyword_name {k : String} (hk : nameTest (str k) = true) {s t : Str} (h : Keyword k s t) : Name s (str k) t :=
  ⟨isName_of hk, h.1⟩

/-- The rule is the keyword `k`. -/
def WordRule (kw : Rule R) (k : String) : Prop := SameRule schemaSelector kw (Rule.keyword k)

/-- The rule reads a description and the keyword. -/
def StartRule (start : R) (kw : Rule R) (k : String) : Prop :=
  schemaSelector start = .discard ∧ grammar start = Rule.seqs [describedRule, kw] ∧ WordRule kw k ∧ nameTest (str k) = true

theorem head_sound {start : R} {kw : Rule R} {k : String} (h : StartRule start kw k) (J : Str → Str) {s b : Str}
    {ns : List (Node R)} (he : eval schemaSelector (.ref start) s = .ok ns b) :
    ∃ d a, Described J s d a ∧ Keyword k a b ∧ DescNodes J ns d := by
  rw [ref_discard_ok h.1, h.2.1] at he
  obtain ⟨ds, a, ks, h1, h2, rfl⟩ := seq_ok.1 he
  have h2 : eval schemaSelector kw a = .ok ks b := h2
  rw [h.2.2.1.1] at h2
  obtain ⟨rfl, rfl, hb⟩ := keyword_ok.1 h2
  obtain ⟨d, hd, hd'⟩ := described_sound J h1
  exact ⟨d, _, hd, ⟨rfl, hb⟩, by simpa using hd'⟩

theorem described_word {J : Str → Str} {k : String} (hk : nameTest (str k) = true) {s d a b : Str} (hd : Described J s d a)
    (h : Keyword k a b) : ∃ ns, eval schemaSelector describedRule s = .ok ns a ∧ DescNodes J ns d :=
  described_complete J hd (name_starts.ends nameStart_gap (keyword_name hk h))
    (name_starts.ends (by decide +kernel) (keyword_name hk h))

theorem head_complete {start : R} {kw : Rule R} {k : String} (h : StartRule start kw k) (J : Str → Str) {s d a b : Str}
    (hd : Described J s d a) (hk : Keyword k a b) :
    ∃ ns, eval schemaSelector (.ref start) s = .ok ns b ∧ DescNodes J ns d := by
  obtain ⟨ns, h1, hd'⟩ := described_word h.2.2.2 hd hk
  refine ⟨ns, ?_, hd'⟩
  rw [ref_discard_ok h.1, h.2.1]
  have h2 : eval schemaSelector kw a = .ok [] b := by
    rw [h.2.2.1.1]
    exact keyword_ok.2 ⟨rfl, hk.1, hk.2⟩
  exact seq_ok.2 ⟨ns, a, [], h1, h2, by simp⟩

theorem head_other {start : R} {kw : Rule R} {k k' : String} (h : StartRule start kw k) (J : Str → Str)
    (hne : differ k k' = true) {s d a b : Str} (hd : Described J s d a) (hk : Keyword k' a b) :
    eval schemaSelector (.ref start) s = .fail := by
  have hk' : nameTest (str k') = true := by
    simp only [differ, Bool.and_eq_true] at hne
    exact hne.1.2
  obtain ⟨ns, h1, _⟩ := described_word hk' hd hk
  rw [ref_fail, h.2.1]
  have h2 : eval schemaSelector kw a = .fail := by
    rw [h.2.2.1.2]
    exact keyword_other hne hk
  exact seq_fail.2 (.inr ⟨ns, a, h1, h2⟩)

/-- The rule reads `extend` and the keyword. -/
def ExtRule (start kw : R) (k : String) : Prop :=
  schemaSelector start = .discard ∧ grammar start = Rule.seqs [.ref .extend_keyword, Rule.plus (.ref .ignored), .ref kw] ∧
    schemaSelector kw = .discard ∧ grammar kw = Rule.keyword k ∧ nameTest (str k) = true

theorem ext_ok {start kw : R} {k : String} (h : ExtRule start kw k) {s t : Str} {ns : List (Node R)} :
    eval schemaSelector (.ref start) s = .ok ns t ↔ ns = [] ∧ Extend k s t := by
  obtain ⟨h1, h2, h3, h4, h5⟩ := h
  rw [ref_discard_ok h1, h2]
  constructor
  · intro he
    obtain ⟨_, a, _, e1, e2, rfl⟩ := seq_ok.1 he
    obtain ⟨_, b, ks, e3, e4, rfl⟩ := seq_ok.1 e2
    obtain ⟨rfl, ha, ha'⟩ := keyword_ok.1 ((ref_discard_ok (n := .extend_keyword) rfl).1 e1)
    obtain ⟨rfl, hs, _⟩ := plus_space schema_sels e3
    have e4 : eval schemaSelector (.ref kw) b = .ok ks t := e4
    rw [ref_discard_ok h3, h4] at e4
    obtain ⟨rfl, hb, hb'⟩ := keyword_ok.1 e4
    exact ⟨rfl, a, b, ⟨ha, ha'⟩, hs, hb, hb'⟩
  · rintro ⟨rfl, a, b, ⟨ha, ha'⟩, hs, hb⟩
    have e4 : eval schemaSelector (.ref kw) b = .ok [] t := by
      rw [ref_discard_ok h3, h4]
      exact keyword_ok.2 ⟨rfl, hb⟩
    exact seq_ok.2 ⟨[], a, [], (ref_discard_ok (n := .extend_keyword) rfl).2 (keyword_ok.2 ⟨rfl, ha, ha'⟩),
      seq_ok.2 ⟨[], b, [], space_plus schema_sels hs (name_starts.ends nameStart_gap (keyword_name h5 hb)), e4, rfl⟩, rfl⟩

theorem ext_other {start kw : R} {k k' : String} (h : ExtRule start kw k) (hne : differ k k' = true) {s t : Str}
    (he : Extend k' s t) : eval schemaSelector (.ref start) s = .fail := by
  obtain ⟨h1, h2, h3, h4, h5⟩ := h
  obtain ⟨a, b, ⟨ha, ha'⟩, hs, hb⟩ := he
  have hk' : nameTest (str k') = true := by
    simp only [differ, Bool.and_eq_true] at hne
    exact hne.1.2
  rw [ref_fail, h2]
  have e4 : eval schemaSelector (.ref kw) b = .fail := by
    rw [ref_fail, h4]
    exact keyword_other hne hb
  exact seq_fail.2 (.inr ⟨[], a, (ref_discard_ok (n := .extend_keyword) rfl).2 (keyword_ok.2 ⟨rfl, ha, ha'⟩),
    seq_fail.2 (.inr ⟨[], b, space_plus schema_sels hs (name_starts.ends nameStart_gap (keyword_name hk' hb)), e4⟩)⟩)

end Verif.Peg
