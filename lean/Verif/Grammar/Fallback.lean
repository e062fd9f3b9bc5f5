import Verif.Grammar.Parse

/-!
# The smaller grammar first

`parseString` and `parseSchemaString` first try a grammar which has only executable definitions, or only type system
definitions, then the grammar which has both. The result is the one of the second grammar, for every input.
-/
namespace Verif.Peg
open Verif.Value Rule

variable {sel : R → Sel}

/-- `mixed_document_content`, `executable_document_content`, `schema_document_content`, for the rule of a definition. -/
def docRule (d : Rule R) : Rule R :=
  Rule.seqs [Rule.empty, Rule.opt Rule.bom, Rule.star (.ref .ignored), Rule.list d (Rule.star (.ref .ignored)),
    Rule.star (.ref .ignored), Rule.eof]

theorem iter_transfer {a b : Rule R} {ign : Rule R} (hab : ∀ s xs t, eval sel a s = .ok xs t → eval sel b s = .ok xs t)
    (hb : eval sel b [] = .fail) {s u : Str} {xs : List (Node R)} (h : Iter sel (.seq ign a) s xs u)
    {zs : List (Node R)} (hu : eval sel ign u = .ok zs []) : Iter sel (.seq ign b) s xs u := by
  induction h with
  | nil _ => exact .nil (seq_fail.2 (.inr ⟨_, _, hu, hb⟩))
  | cons h _ ih =>
    obtain ⟨ys, v, ws, h1, h2, rfl⟩ := seq_ok.1 h
    exact .cons (seq_ok.2 ⟨ys, v, ws, h1, hab _ _ _ h2, rfl⟩) (ih hu)

theorem docRule_transfer {a b : Rule R} (hab : ∀ s xs t, eval sel a s = .ok xs t → eval sel b s = .ok xs t)
    (hb : eval sel b [] = .fail) (na : nullable nulTable a = false) (nb : nullable nulTable b = false)
    {s t : Str} {xs : List (Node R)} (h : eval sel (docRule a) s = .ok xs t) : eval sel (docRule b) s = .ok xs t := by
  have nseq : ∀ {c : Rule R}, nullable nulTable c = false → nullable nulTable (.seq (.star (.ref .ignored)) c) = false := by
    intro c hc; simp [nullable, hc]
  simp only [docRule, seqs, Rule.list] at h ⊢
  obtain ⟨x0, s0, y0, h0, k0, rfl⟩ := seq_ok.1 h
  obtain ⟨x1, s1, y1, h1, k1, rfl⟩ := seq_ok.1 k0
  obtain ⟨x2, s2, y2, h2, k2, rfl⟩ := seq_ok.1 k1
  obtain ⟨x3, s3, y3, h3, k3, rfl⟩ := seq_ok.1 k2
  obtain ⟨x4, s4, y4, h4, h5, rfl⟩ := seq_ok.1 k3
  obtain ⟨x5, s5, y5, ha, hl, rfl⟩ := seq_ok.1 h3
  obtain ⟨rfl, _, _⟩ := eof_ok.1 h5
  rw [star_ok (nseq na)] at hl
  have hl' := iter_transfer hab hb hl h4
  rw [← star_ok (nseq nb)] at hl'
  exact seq_ok.2 ⟨_, _, _, h0, seq_ok.2 ⟨_, _, _, h1, seq_ok.2 ⟨_, _, _, h2, seq_ok.2 ⟨_, _, _,
    seq_ok.2 ⟨_, _, _, hab _ _ _ ha, hl', rfl⟩, seq_ok.2 ⟨_, _, _, h4, h5, rfl⟩, rfl⟩, rfl⟩, rfl⟩, rfl⟩

theorem ref_discard_ok {n : R} {s t : Str} {xs : List (Node R)} (hn : sel n = .discard) :
    eval sel (.ref n) s = .ok xs t ↔ eval sel (grammar n) s = .ok xs t := by
  rw [ref_ok]
  simp only [hn, finish]
  exact ⟨fun ⟨_, h, e⟩ => e ▸ h, fun h => ⟨_, h, rfl⟩⟩

/-- If the first grammar gives a tree, then the second one gives it, too. -/
theorem parseWith_eq {first again c1 c2 d1 d2 : R} (g1 : grammar first = need c1) (g2 : grammar again = need c2)
    (e1 : grammar c1 = docRule (.ref d1)) (e2 : grammar c2 = docRule (.ref d2))
    (s1 : sel first = .discard) (s2 : sel again = .discard) (s3 : sel c1 = .discard) (s4 : sel c2 = .discard)
    (hab : ∀ s xs t, eval sel (.ref d1) s = .ok xs t → eval sel (.ref d2) s = .ok xs t)
    (hb : eval sel (.ref d2) [] = .fail) (na : nullable nulTable (.ref d1) = false)
    (nb : nullable nulTable (.ref d2) = false) (s : Str) (x : Parsed) :
    ParseWith first again sel s x ↔ Parse again sel s x := by
  have step : ∀ xs, Parse first sel s (.tree xs) → Parse again sel s (.tree xs) := by
    intro xs h
    obtain ⟨t, h⟩ := parse_tree_iff.1 h
    rw [ref_discard_ok s1, g1, need_ok, ref_discard_ok s3, e1] at h
    refine parse_tree_iff.2 ⟨t, ?_⟩
    rw [ref_discard_ok s2, g2, need_ok, ref_discard_ok s4, e2]
    exact docRule_transfer hab hb na nb h
  constructor
  · rintro (⟨h, hx⟩ | ⟨_, h⟩)
    · cases x with
      | tree xs => exact step xs h
      | null => exact absurd (parse_null_iff.1 h) (ref_must_fail g1 s)
      | error m => exact absurd rfl (hx m)
    · exact h
  · intro h
    obtain ⟨y, hy, _⟩ := parseWith_total first again sel s
    have : x = y := by
      cases hy with
      | first h' hx =>
        cases y with
        | tree xs => exact h.unique (step xs h')
        | null => exact absurd (parse_null_iff.1 h') (ref_must_fail g1 s)
        | error m => exact absurd rfl (hx m)
      | again _ h' => exact h.unique h'
    exact this ▸ hy

/-! ## Executable documents -/

theorem executable_mixed {s t : Str} {xs : List (Node R)}
    (h : eval executableSelector (.ref .executable_definition) s = .ok xs t) :
    eval executableSelector (.ref .mixed_definition) s = .ok xs t :=
  (ref_discard_ok rfl).2 (sor_ok.2 (.inl h))

/-- C51: trying the grammar of executable documents first makes no difference: the result of `parseString` is the result
of the grammar which allows all kinds of definitions. -/
theorem parseString_mixed (s : Str) (x : Parsed) :
    ParseString s x ↔ Parse .mixed_document executableSelector s x :=
  parseWith_eq (d1 := .executable_definition) (d2 := .mixed_definition) rfl rfl rfl rfl rfl rfl rfl rfl
    (fun _ _ _ => executable_mixed) (dead_nil (by decide +kernel)) rfl rfl s x

/-! ## Schema documents -/

theorem first_byte (c : Byte) (h : c ≠ 0x73) : dead 40 (.ref .executable_definition) [c] false = true ∨
    dead 40 (.ref .schema_type_definition) [c] false = true := by
  revert c
  decide +kernel

theorem keyword_fail {k : String} {s : Str} (h : ¬ str k <+: s) : eval sel (Rule.keyword k) s = .fail :=
  seq_fail.2 (.inl (lit_fail.2 h))

/-- No text begins both with an executable definition and with a type system definition or extension. -/
theorem schema_not_executable {s t : Str} {xs : List (Node R)}
    (h : eval sel (.ref .schema_type_definition) s = .ok xs t) : eval sel (.ref .executable_definition) s = .fail := by
  cases s with
  | nil => exact dead_nil (by decide +kernel)
  | cons c s =>
    by_cases hc : c = 0x73
    · subst hc
      by_cases hp : str "subscription" <+: (0x73 :: s)
      · obtain ⟨u, hu⟩ := hp
        rw [← hu, dead_append (by decide +kernel)] at h
        cases h
      · refine ref_fail.2 (sor_fail.2 ⟨dead_cons (by decide +kernel), ref_fail.2 (sor_fail.2 ⟨?_, dead_cons (by decide +kernel)⟩)⟩)
        refine seq_fail.2 (.inl (ref_fail.2 (sor_fail.2 ⟨dead_cons (by decide +kernel), sor_fail.2 ⟨dead_cons (by decide +kernel), ?_⟩⟩)))
        exact keyword_fail hp
    · rcases first_byte c hc with h' | h'
      · exact dead_cons h'
      · rw [dead_cons h'] at h; cases h

theorem schema_mixed {s t : Str} {xs : List (Node R)}
    (h : eval schemaSelector (.ref .schema_type_definition) s = .ok xs t) :
    eval schemaSelector (.ref .mixed_definition) s = .ok xs t :=
  (ref_discard_ok rfl).2 (sor_ok.2 (.inr ⟨schema_not_executable h, (ref_discard_ok rfl).1 h⟩))

/-- C51: trying the grammar of schema documents first makes no difference: the result of `parseSchemaString` is the
result of the grammar which allows all kinds of definitions. -/
theorem parseSchemaString_mixed (s : Str) (x : Parsed) :
    ParseSchemaString s x ↔ Parse .mixed_document schemaSelector s x :=
  parseWith_eq (d1 := .schema_type_definition) (d2 := .mixed_definition) rfl rfl rfl rfl rfl rfl rfl rfl
    (fun _ _ _ => schema_mixed) (dead_nil (by decide +kernel)) rfl rfl s x

end Verif.Peg
