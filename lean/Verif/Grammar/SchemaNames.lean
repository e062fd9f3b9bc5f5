import Verif.Grammar.SchemaFields

/-!
# Lists of names, directive locations, operation types
-/
namespace Verif.Peg
open Verif.Value Verif.Text Verif.Gen Rule

variable {sel : R → Sel} {rd : Read}

/-! ## Items with a byte between them -/

/-- The byte, with ignored text around it. -/
def barRule (c : Char) : Rule R := Rule.seqs [Rule.star (.ref .ignored), Rule.chr c, Rule.star (.ref .ignored)]

theorem barRule_ok (hs : Sels sel) {c : Char} (hc : gapStart (ch c) = false) {s t : Str} {xs : List (Node R)} :
    eval sel (barRule c) s = .ok xs t ↔ xs = [] ∧ Bar (ch c) s t ∧ Ends gapStart t := by
  constructor
  · intro h
    obtain ⟨_, u, _, h1, h2, rfl⟩ := seq_ok.1 h
    obtain ⟨_, v, _, h3, h4, rfl⟩ := seq_ok.1 h2
    obtain ⟨rfl, k1, _⟩ := star_skip hs h1
    obtain ⟨rfl, rfl⟩ := chr_ok.1 h3
    obtain ⟨rfl, k2, ht⟩ := star_skip hs h4
    exact ⟨rfl, ⟨v, k1, k2⟩, ht⟩
  · rintro ⟨rfl, ⟨u, k1, k2⟩, ht⟩
    exact seq_ok.2 ⟨[], _, [], skip_star hs k1 (ends_cons hc), seq_ok.2 ⟨[], u, [], chr_ok.2 ⟨rfl, rfl⟩, skip_star hs k2 ht, rfl⟩, rfl⟩

theorem bar_follow {c : Char} {p : Byte → Bool} (hp : ∀ c, gapStart c = true → p c = false) (hc : p (ch c) = false) {s t : Str}
    (h : Bar (ch c) s t) : Ends p s := by
  obtain ⟨u, h, _⟩ := h
  rcases skip_cases h with rfl | h
  · exact ends_cons hc
  · obtain ⟨d, v, rfl, hd⟩ := space_first h
    exact ends_cons (hp d hd)

theorem bars_sound (hs : Sels sel) {c : Char} (hc : gapStart (ch c) = false) {n : Nat} {r : Rule R} {α : Type}
    {P : Str → α → Str → Prop} {W : Node R → α → Prop}
    (h : Sound n sel r P W) {s t : Str} {ns : List (Node R)} (hl : s.length < n)
    (he : eval sel (Rule.list r (barRule c)) s = .ok ns t) :
    ∃ xs, Sep (Bar (ch c)) P s xs t ∧ List.Forall₂ W ns xs := by
  have hnul' : nullable nulTable (.seq (barRule c) r) = false := by simp [nullable, barRule, Rule.seqs, Rule.chr]
  have loop : ∀ {s ns t}, Iter sel (.seq (barRule c) r) s ns t → ∀ {s0 a}, s.length < n → P s0 a s →
      ∃ xs, Sep (Bar (ch c)) P s0 (a :: xs) t ∧ List.Forall₂ W ns xs := by
    intro s ns t hi
    induction hi with
    | nil _ => intro s0 a _ hP; exact ⟨[], .one hP, .nil⟩
    | cons h1 _ ih =>
      intro s0 a hl hP
      obtain ⟨_, u, zs, h2, h3, rfl⟩ := seq_ok.1 h1
      obtain ⟨rfl, hk, _⟩ := (barRule_ok hs hc).1 h2
      have l1 := rest_le h2
      have l2 := rest_le h3
      obtain ⟨x, b, rfl, hP', hW⟩ := h u zs _ (by omega) h3
      obtain ⟨xs, hx, hf⟩ := ih (by omega) hP'
      exact ⟨b :: xs, .more hP hk hx, .cons hW hf⟩
  obtain ⟨ys, u, zs, h1, h2, rfl⟩ := seq_ok.1 he
  obtain ⟨x, a, rfl, hP, hW⟩ := h s ys u hl h1
  obtain ⟨xs, hx, hf⟩ := loop ((star_ok hnul').1 h2) (by have := rest_le h1; omega) hP
  exact ⟨a :: xs, hx, .cons hW hf⟩

theorem sep_starts {α : Type} {S : Str → Str → Prop} {P : Str → α → Str → Prop} {p : Byte → Bool} (h : Starts P p) :
    Starts (Sep S P) p := by
  intro s xs t hx
  cases hx with
  | one h' => exact h _ _ _ h'
  | more h' _ _ => exact h _ _ _ h'

theorem bars_complete (hs : Sels sel) {c : Char} (hc : gapStart (ch c) = false) {n : Nat} {r : Rule R} {α : Type}
    {P : Str → α → Str → Prop} {W : Node R → α → Prop} {F : Str → Prop} {p : Byte → Bool} (h : Complete n sel r P W F)
    (hst : Starts P p) (hp : ∀ c, p c = true → gapStart c = false) (hF : ∀ t u, Bar (ch c) t u → F t) {s t : Str} {xs : List α}
    (hl : s.length < n) (hx : Sep (Bar (ch c)) P s xs t) (hFt : F t) (hnext : NotNext (· == ch c) t) :
    ∃ ns, eval sel (Rule.list r (barRule c)) s = .ok ns t ∧ List.Forall₂ W ns xs := by
  have hnul' : nullable nulTable (.seq (barRule c) r) = false := by simp [nullable, barRule, Rule.seqs, Rule.chr]
  have stop : eval sel (.seq (barRule c) r) t = .fail := by
    obtain ⟨g, u, e, hgap, hu, hr⟩ := star_ignored hs t
    refine seq_fail.2 (.inl (seq_fail.2 (.inr ⟨[], u, hr, seq_fail.2 (.inl (chr_fail.2 fun v e' => ?_))⟩)))
    have := hnext u ⟨g, e, hgap⟩ hu (ch c) v e'
    simp at this
  have key : ∀ {s xs}, Sep (Bar (ch c)) P s xs t → s.length < n →
      ∃ x ns u, eval sel r s = .ok [x] u ∧ Iter sel (.seq (barRule c) r) u ns t ∧ List.Forall₂ W (x :: ns) xs := by
    intro s xs hx
    generalize ht' : t = t' at hx
    induction hx with
    | one hP =>
      subst ht'
      intro hl
      obtain ⟨x, he, hW⟩ := h _ _ _ hl hP hFt
      exact ⟨x, [], _, he, .nil stop, .cons hW .nil⟩
    | @more s a u v xs w hP hk hx ih =>
      intro hl
      have hvg : Ends gapStart v := (sep_starts hst).ends hp hx
      obtain ⟨x, he, hW⟩ := h _ _ _ hl hP (hF u v hk)
      have hr := (barRule_ok (sel := sel) hs hc (xs := [])).2 ⟨rfl, hk, hvg⟩
      obtain ⟨y, ns, z, he', hi, hf⟩ := ih ht' (by have := rest_le he; have := rest_le hr; omega)
      exact ⟨x, [y] ++ ns, u, he, .cons (seq_ok.2 ⟨[], v, [y], hr, he', rfl⟩) hi, .cons hW hf⟩
  obtain ⟨x, ns, u, he, hi, hf⟩ := key hx hl
  exact ⟨[x] ++ ns, seq_ok.2 ⟨[x], u, ns, he, (star_ok hnul').2 hi, rfl⟩, hf⟩

/-- The last item of the list. -/
theorem sep_last {α : Type} {S : Str → Str → Prop} {P : Str → α → Str → Prop} (hS : ∀ a b, S a b → ∃ p, a = p ++ b)
    (hP : ∀ a x b, P a x b → ∃ p, a = p ++ b)
    {s t : Str} {xs : List α} (h : Sep S P s xs t) : ∃ p u x, s = p ++ u ∧ P u x t := by
  induction h with
  | one h => exact ⟨[], _, _, rfl, h⟩
  | more h h' _ ih =>
    obtain ⟨p, u, x, rfl, hu⟩ := ih
    obtain ⟨a, rfl⟩ := hS _ _ h'
    obtain ⟨b, rfl⟩ := hP _ _ _ h
    exact ⟨b ++ a ++ p, u, x, by simp, hu⟩

theorem bar_rest {c : Byte} {a b : Str} (h : Bar c a b) : ∃ p, a = p ++ b := by
  obtain ⟨u, ⟨g, rfl, _⟩, ⟨g', rfl, _⟩⟩ := h
  exact ⟨g ++ c :: g', by simp⟩

theorem name_rest {a n b : Str} (h : Name a n b) : ∃ p, a = p ++ b := by
  obtain ⟨_, rfl⟩ := h
  exact ⟨n, rfl⟩

/-! ## Names -/

/-- The node is a name of the kind. -/
def IsNamed (k : R) (x : Node R) (a : Str) : Prop := x.rule = k ∧ x.content = a

/-- `implements_interfaces_content` and `union_member_types_content`. -/
def namesRule (k : R) (c : Char) : Rule R :=
  Rule.seqs [Rule.opt (Rule.seqs [Rule.star (.ref .ignored), Rule.chr c]), Rule.star (.ref .ignored),
    Rule.list (.ref k) (barRule c)]

theorem name_sound {k : R} (hk : NameRule sel k) (n : Nat) : Sound n sel (.ref k) Name (IsNamed k) := by
  intro s ns t _ he
  obtain ⟨m, hm, _, rfl⟩ := (hk _ _ _).1 he
  exact ⟨_, m, rfl, hm, rfl, rfl⟩

theorem name_complete {k : R} (hk : NameRule sel k) (n : Nat) : Complete n sel (.ref k) Name (IsNamed k) (Ends nameCont) := by
  intro s a t _ h hF
  exact ⟨_, (hk _ _ _).2 ⟨a, h, hF, rfl⟩, rfl, rfl⟩

theorem names_sound (hs : Sels sel) {k : R} (hk : NameRule sel k) {c : Char} (hc : gapStart (ch c) = false) (n : Nat) :
    SoundL n sel (namesRule k c) (NamesText (ch c)) (List.Forall₂ (IsNamed k)) := by
  intro s ns t hl he
  obtain ⟨_, u, _, h1, h2, rfl⟩ := seq_ok.1 he
  obtain ⟨_, v, zs, h3, h4, rfl⟩ := seq_ok.1 h2
  obtain ⟨rfl, k2, _⟩ := star_skip hs h3
  have l1 := rest_le h1
  have l2 := rest_le h3
  obtain ⟨xs, hx, hf⟩ := bars_sound hs hc (name_sound hk n) (by omega) h4
  rcases opt_ok.1 h1 with h1 | ⟨_, rfl, rfl⟩
  · obtain ⟨_, w, _, h5, h6, rfl⟩ := seq_ok.1 h1
    obtain ⟨rfl, k1, _⟩ := star_skip hs h5
    obtain ⟨rfl, rfl⟩ := chr_ok.1 h6
    exact ⟨xs, .lead ⟨u, k1, k2⟩ hx, hf⟩
  · exact ⟨xs, .plain k2 hx, hf⟩

theorem names_complete (hs : Sels sel) {k : R} (hk : NameRule sel k) {c : Char} (hc : gapStart (ch c) = false)
    (hn : nameStart (ch c) = false) (hn' : nameCont (ch c) = false) (n : Nat) :
    CompleteL n sel (namesRule k c) (NamesText (ch c)) (List.Forall₂ (IsNamed k)) (Follow nameCont (· == ch c)) := by
  intro s xs t hl h hF
  have rest : ∀ {u}, Sep (Bar (ch c)) Name u xs t → u.length < n →
      ∃ ns, eval sel (Rule.list (.ref k) (barRule c)) u = .ok ns t ∧ List.Forall₂ (IsNamed k) ns xs :=
    fun hx hu => bars_complete hs hc (name_complete hk n) name_starts nameStart_gap
      (fun _ _ hb => bar_follow nameCont_gap hn' hb) hu hx hF.1 hF.2
  have first : ∀ {u}, Sep (Bar (ch c)) Name u xs t → Ends gapStart u ∧ Ends (· == ch c) u := by
    intro u hx
    refine ⟨(sep_starts name_starts).ends nameStart_gap hx, (sep_starts name_starts).ends (fun d hd => ?_) hx⟩
    by_cases e : d = ch c
    · rw [e, hn] at hd; cases hd
    · simpa using e
  cases h with
  | @plain _ u _ _ hk' hx =>
    have r1 := skip_star hs hk' (first hx).1
    obtain ⟨ns, r2, hf⟩ := rest hx (by have := rest_le r1; omega)
    refine ⟨ns, seq_ok.2 ⟨[], s, ns, opt_ok.2 (.inr ⟨?_, rfl, rfl⟩), seq_ok.2 ⟨[], u, ns, r1, r2, rfl⟩, rfl⟩, hf⟩
    refine seq_fail.2 (.inr ⟨[], u, r1, chr_fail.2 fun v e' => ?_⟩)
    have := (first hx).2 (ch c) v e'
    simp at this
  | @lead _ u _ _ hb hx =>
    obtain ⟨w, k1, k2⟩ := hb
    have r0 := skip_star hs k1 (ends_cons hc)
    have r1 := skip_star hs k2 (first hx).1
    have l0 := rest_le r0
    have l1 := rest_le r1
    simp only [List.length_cons] at l0
    obtain ⟨ns, r2, hf⟩ := rest hx (by omega)
    exact ⟨ns, seq_ok.2 ⟨[], w, ns, opt_ok.2 (.inl (seq_ok.2 ⟨[], _, [], r0, chr_ok.2 ⟨rfl, rfl⟩, rfl⟩)),
      seq_ok.2 ⟨[], u, ns, r1, r2, rfl⟩, rfl⟩, hf⟩

/-- A list of names ends with a name. -/
theorem names_last {c : Byte} {s t : Str} {xs : List Str} (h : NamesText c s xs t) : ∃ p u x, s = p ++ u ∧ Name u x t := by
  cases h with
  | plain hk hx =>
    obtain ⟨p, u, x, rfl, hu⟩ := sep_last (fun _ _ => bar_rest) (fun _ _ _ => name_rest) hx
    obtain ⟨g, rfl, _⟩ := hk
    exact ⟨g ++ p, u, x, by simp, hu⟩
  | lead hk hx =>
    obtain ⟨p, u, x, rfl, hu⟩ := sep_last (fun _ _ => bar_rest) (fun _ _ _ => name_rest) hx
    obtain ⟨g, rfl⟩ := bar_rest hk
    exact ⟨g ++ p, u, x, by simp, hu⟩

theorem Apart.names {c : Byte} {s t : Str} {xs : List Str} (ha : Apart s t) (h : NamesText c s xs t) : Ends nameCont t := by
  obtain ⟨p, u, x, e, hu⟩ := names_last h
  exact Apart.name (Apart.suffix ha e) hu

/-! ## Directive locations -/

theorem keywords_ok {ks : List String} (hne : ks ≠ []) (hn : ∀ k ∈ ks, IsName (str k)) {s t : Str} {xs : List (Node R)} :
    eval sel (Rule.sors (ks.map Rule.keyword)) s = .ok xs t ↔ xs = [] ∧ ∃ k ∈ ks, s = str k ++ t ∧ Ends nameCont t := by
  constructor
  · intro h
    obtain ⟨r, hr, h⟩ := sors_ok (by simpa using hne) h
    obtain ⟨k, hk, rfl⟩ := List.mem_map.1 hr
    obtain ⟨rfl, e, he⟩ := keyword_ok.1 h
    exact ⟨rfl, k, hk, e, he⟩
  · rintro ⟨rfl, k, hk, rfl, he⟩
    induction ks with
    | nil => exact absurd rfl hne
    | cons k' ks ih =>
      have hyes : eval sel (Rule.keyword k) (str k ++ t) = .ok [] t := keyword_ok.2 ⟨rfl, rfl, he⟩
      cases ks with
      | nil =>
        obtain rfl : k = k' := by simpa using hk
        exact hyes
      | cons k'' ks =>
        by_cases h : str k = str k'
        · have : eval sel (Rule.keyword k') (str k ++ t) = .ok [] t := keyword_ok.2 ⟨rfl, by rw [h], he⟩
          exact sor_ok.2 (.inl this)
        · refine sor_next ?_ (ih (by simp) (fun x hx => hn x (by simp [hx])) ?_)
          · refine fail_of rfl fun xs u h' => ?_
            obtain ⟨_, e, he'⟩ := keyword_ok.1 h'
            exact h (name_unique e (hn k hk) (hn k' (by simp)) he he').1
          · rcases List.mem_cons.1 hk with rfl | hk
            · exact absurd rfl h
            · exact hk

/-- The names of `executable_directive_location`. -/
def executableLocations : List String :=
  ["QUERY", "MUTATION", "SUBSCRIPTION", "FIELD", "FRAGMENT_DEFINITION", "FRAGMENT_SPREAD", "INLINE_FRAGMENT"]
/-- The names of `type_system_directive_location`. -/
def typeSystemLocations : List String :=
  ["SCHEMA", "SCALAR", "OBJECT", "FIELD_DEFINITION", "ARGUMENT_DEFINITION", "INTERFACE", "UNION", "ENUM", "ENUM_VALUE",
    "INPUT_OBJECT", "INPUT_FIELD_DEFINITION"]

/-- Whether the bytes are a name. -/
def nameTest : Str → Bool
  | [] => false
  | c :: cs => nameStart c && cs.all nameCont

theorem isName_of {s : Str} (h : nameTest s = true) : IsName s := by
  cases s with
  | nil => cases h
  | cons c cs =>
    simp only [nameTest, Bool.and_eq_true, List.all_eq_true] at h
    exact ⟨c, cs, rfl, h.1, h.2⟩

theorem locations_names : ∀ k ∈ executableLocations ++ typeSystemLocations, IsName (str k) := by
  have : ∀ k ∈ executableLocations ++ typeSystemLocations, nameTest (str k) = true := by decide +kernel
  exact fun k hk => isName_of (this k hk)

theorem location_ok {s t : Str} {xs : List (Node R)} : eval schemaSelector (.ref .directive_location) s = .ok xs t ↔
    ∃ l, LocationText s l t ∧ Ends nameCont t ∧ xs = [.mk .directive_location s.length l []] := by
  have e1 : ∀ {s t xs}, eval schemaSelector (.ref .executable_directive_location) s = .ok xs t ↔
      xs = [] ∧ ∃ k ∈ executableLocations, s = str k ++ t ∧ Ends nameCont t := by
    intro s t xs
    rw [ref_discard_ok rfl]
    exact keywords_ok (ks := executableLocations) (by decide) (fun k hk => locations_names k (by simp [hk]))
  have e2 : ∀ {s t xs}, eval schemaSelector (.ref .type_system_directive_location) s = .ok xs t ↔
      xs = [] ∧ ∃ k ∈ typeSystemLocations, s = str k ++ t ∧ Ends nameCont t := by
    intro s t xs
    rw [ref_discard_ok rfl]
    exact keywords_ok (ks := typeSystemLocations) (by decide) (fun k hk => locations_names k (by simp [hk]))
  have hmem : ∀ k, k ∈ locationNames ↔ k ∈ executableLocations ∨ k ∈ typeSystemLocations := by
    intro k
    rw [← List.mem_append]
    rfl
  rw [ref_store_ok rfl]
  constructor
  · rintro ⟨ys, h, rfl⟩
    rcases sor_ok.1 h with h | ⟨_, h⟩
    · obtain ⟨rfl, k, hk, rfl, he⟩ := e1.1 h
      exact ⟨str k, ⟨k, (hmem k).2 (.inl hk), rfl, rfl⟩, he, by rw [consumed_append]⟩
    · obtain ⟨rfl, k, hk, rfl, he⟩ := e2.1 h
      exact ⟨str k, ⟨k, (hmem k).2 (.inr hk), rfl, rfl⟩, he, by rw [consumed_append]⟩
  · rintro ⟨_, ⟨k, hk, rfl, rfl⟩, he, rfl⟩
    refine ⟨[], ?_, by rw [consumed_append]⟩
    by_cases h1 : ∃ xs u, eval schemaSelector (.ref .executable_directive_location) (str k ++ t) = .ok xs u
    · obtain ⟨xs, u, h1⟩ := h1
      obtain ⟨rfl, k', hk', e, he'⟩ := e1.1 h1
      obtain ⟨_, rfl⟩ := name_unique e (locations_names k (List.mem_append.2 ((hmem k).1 hk)))
        (locations_names k' (by simp [hk'])) he he'
      exact sor_ok.2 (.inl h1)
    · have hf : eval schemaSelector (.ref .executable_directive_location) (str k ++ t) = .fail :=
        fail_of (by decide +kernel) fun xs u h => h1 ⟨xs, u, h⟩
      refine sor_next hf (e2.2 ⟨rfl, k, ?_, rfl, he⟩)
      rcases (hmem k).1 hk with h | h
      · exact absurd ⟨[], t, e1.2 ⟨rfl, k, h, rfl, he⟩⟩ h1
      · exact h

theorem location_sound (n : Nat) : Sound n schemaSelector (.ref .directive_location) LocationText (IsNamed .directive_location) := by
  intro s ns t _ he
  obtain ⟨l, hm, _, rfl⟩ := location_ok.1 he
  exact ⟨_, l, rfl, hm, rfl, rfl⟩

theorem location_complete (n : Nat) :
    Complete n schemaSelector (.ref .directive_location) LocationText (IsNamed .directive_location) (Ends nameCont) := by
  intro s a t _ h hF
  exact ⟨_, location_ok.2 ⟨a, h, hF, rfl⟩, rfl, rfl⟩

theorem location_name {s l t : Str} (h : LocationText s l t) : Name s l t := by
  obtain ⟨k, hk, rfl, rfl⟩ := h
  exact ⟨locations_names k hk, rfl⟩

theorem location_starts : Starts LocationText nameStart := fun _ _ _ h => name_starts _ _ _ (location_name h)

/-- Ignored text and directive locations. -/
def locationsRule : Rule R := .seq (Rule.plus (.ref .ignored)) (.ref .directive_locations)

theorem locations_sound (n : Nat) : SoundL n schemaSelector locationsRule LocationsText
    (List.Forall₂ (IsNamed .directive_location)) := by
  intro s ns t hl he
  obtain ⟨_, u, _, h1, h2, rfl⟩ := seq_ok.1 he
  obtain ⟨rfl, k1, _⟩ := plus_space schema_sels h1
  have l1 := rest_le h1
  obtain ⟨_, v, zs, h3, h4, rfl⟩ := seq_ok.1 ((ref_discard_ok (n := .directive_locations) rfl).1 h2)
  have l2 := rest_le h3
  obtain ⟨xs, hx, hf⟩ := bars_sound schema_sels (c := '|') (by decide) (location_sound n) (by omega) h4
  rcases opt_ok.1 h3 with h3 | ⟨_, rfl, rfl⟩
  · obtain ⟨_, w, _, h5, h6, rfl⟩ := seq_ok.1 h3
    obtain ⟨rfl, rfl⟩ := chr_ok.1 h5
    obtain ⟨rfl, k2, _⟩ := star_skip schema_sels h6
    exact ⟨xs, .lead k1 k2 hx, hf⟩
  · exact ⟨xs, .plain k1 hx, hf⟩

theorem locations_complete (n : Nat) : CompleteL n schemaSelector locationsRule LocationsText
    (List.Forall₂ (IsNamed .directive_location)) (Follow nameCont (· == ch '|')) := by
  intro s xs t hl h hF
  have rest : ∀ {u}, Sep (Bar (ch '|')) LocationText u xs t → u.length < n →
      ∃ ns, eval schemaSelector (Rule.list (.ref .directive_location) (barRule '|')) u = .ok ns t ∧
        List.Forall₂ (IsNamed .directive_location) ns xs :=
    fun hx hu => bars_complete schema_sels (by decide) (location_complete n) location_starts nameStart_gap
      (fun _ _ hb => bar_follow nameCont_gap (by decide) hb) hu hx hF.1 hF.2
  cases h with
  | @plain _ u _ _ hk hx =>
    have r1 := space_plus schema_sels hk ((sep_starts location_starts).ends nameStart_gap hx)
    obtain ⟨ns, r2, hf⟩ := rest hx (by have := rest_le r1; omega)
    refine ⟨ns, seq_ok.2 ⟨[], u, ns, r1, (ref_discard_ok rfl).2 (seq_ok.2 ⟨[], u, ns, opt_ok.2 (.inr ⟨?_, rfl, rfl⟩), r2, rfl⟩),
      rfl⟩, hf⟩
    refine seq_fail.2 (.inl (chr_fail.2 ?_))
    rintro v rfl
    have := (sep_starts location_starts).ends (q := (· == ch '|')) (by decide +kernel) hx (ch '|') v rfl
    cases this
  | @lead _ u v _ _ hk k2 hx =>
    have r0 := space_plus schema_sels hk (ends_cons (t := u) (by decide))
    have r1 := skip_star schema_sels k2 ((sep_starts location_starts).ends nameStart_gap hx)
    have l0 := rest_le r0
    have l1 := rest_le r1
    simp only [List.length_cons] at l0
    obtain ⟨ns, r2, hf⟩ := rest hx (by omega)
    exact ⟨ns, seq_ok.2 ⟨[], _, ns, r0, (ref_discard_ok rfl).2 (seq_ok.2 ⟨[], v, ns,
      opt_ok.2 (.inl (seq_ok.2 ⟨[], u, [], chr_ok.2 ⟨rfl, rfl⟩, r1, rfl⟩)), r2, rfl⟩), rfl⟩, hf⟩

theorem location_rest {a l b : Str} (h : LocationText a l b) : ∃ p, a = p ++ b := name_rest (location_name h)

theorem Apart.locations {s t : Str} {xs : List Str} (ha : Apart s t) (h : LocationsText s xs t) : Ends nameCont t := by
  cases h with
  | plain hk hx =>
    obtain ⟨p, u, x, rfl, hu⟩ := sep_last (fun _ _ => bar_rest) (fun _ _ _ => location_rest) hx
    obtain ⟨g, _, rfl, _⟩ := hk
    exact Apart.name (Apart.suffix ha (a := g ++ p) (by simp)) (location_name hu)
  | lead hk hk' hx =>
    obtain ⟨p, u, x, rfl, hu⟩ := sep_last (fun _ _ => bar_rest) (fun _ _ _ => location_rest) hx
    obtain ⟨g, _, rfl, _⟩ := hk
    obtain ⟨g', rfl, _⟩ := hk'
    exact Apart.name (Apart.suffix ha (a := g ++ ch '|' :: g' ++ p) (by simp)) (location_name hu)

/-! ## Operation types -/

theorem kind_ok (hs : Sels sel) {s t : Str} {xs : List (Node R)} : eval sel (.ref .operation_type) s = .ok xs t ↔
    ∃ k, IsKind k ∧ s = k ++ t ∧ Ends nameCont t ∧ xs = [.mk .operation_type s.length k []] := by
  rw [ref_store_ok (hs.at ⟨rfl, rfl⟩)]
  constructor
  · rintro ⟨ys, h, rfl⟩
    have key : ∃ k, IsKind k ∧ ys = [] ∧ s = k ++ t ∧ Ends nameCont t := by
      rcases sor_ok.1 h with h | ⟨_, h⟩
      · exact ⟨_, .inl rfl, keyword_ok.1 h⟩
      · rcases sor_ok.1 h with h | ⟨_, h⟩
        · exact ⟨_, .inr (.inl rfl), keyword_ok.1 h⟩
        · exact ⟨_, .inr (.inr rfl), keyword_ok.1 h⟩
    obtain ⟨k, hk, rfl, rfl, he⟩ := key
    exact ⟨k, hk, rfl, he, by rw [consumed_append]⟩
  · rintro ⟨k, hk, rfl, he, rfl⟩
    refine ⟨[], ?_, by rw [consumed_append]⟩
    rcases hk with rfl | rfl | rfl
    · exact sor_ok.2 (.inl (keyword_ok.2 ⟨rfl, rfl, he⟩))
    · exact sor_next (dead_append (by decide +kernel)) (sor_ok.2 (.inl (keyword_ok.2 ⟨rfl, rfl, he⟩)))
    · exact sor_next (dead_append (by decide +kernel)) (sor_next (dead_append (by decide +kernel))
        (keyword_ok.2 ⟨rfl, rfl, he⟩))

/-- The node stands for the operation type. -/
def IsRoot (k : R) (x : Node R) (a : Str × Str) : Prop := x.rule = k ∧ rootOf x = some a

theorem root_sound {k : R} (hk : schemaSelector k = .store)
    (hg : grammar k = Rule.seqs [.ref .operation_type, need .root_operation_definition_content]) (n : Nat) :
    Sound n schemaSelector (.ref k) RootText (IsRoot k) := by
  intro s ns t _ he
  obtain ⟨cs, h1, rfl⟩ := (ref_store_ok hk).1 he
  rw [hg] at h1
  obtain ⟨_, u, _, h2, h3, rfl⟩ := seq_ok.1 h1
  obtain ⟨w, hw, rfl, _, rfl⟩ := (kind_ok schema_sels).1 h2
  have h4 := (ref_discard_ok (n := .root_operation_definition_content) rfl).1 (need_ok.1 h3)
  obtain ⟨_, v, _, h8, h9, rfl⟩ := seq_ok.1 h4
  obtain ⟨_, x, _, h10, h11, rfl⟩ := seq_ok.1 h9
  obtain ⟨_, y, _, h12, h13, rfl⟩ := seq_ok.1 h11
  obtain ⟨rfl, k1, _⟩ := star_skip schema_sels h8
  obtain ⟨rfl, rfl⟩ := chr_ok.1 h10
  obtain ⟨rfl, k2, _⟩ := star_skip schema_sels h12
  obtain ⟨m, hm, _, rfl⟩ := (nameText_ok (k := .named_type) rfl rfl).1 h13
  exact ⟨_, (w, m), rfl, .mk hw k1 k2 hm, rfl, rfl⟩

theorem root_complete {k : R} (hk : schemaSelector k = .store)
    (hg : grammar k = Rule.seqs [.ref .operation_type, need .root_operation_definition_content]) (n : Nat) :
    Complete n schemaSelector (.ref k) RootText (IsRoot k) (Ends nameCont) := by
  intro s a t _ h hF
  cases h with
  | @mk w u v x m _ hw k1 k2 hm =>
    have hc : Ends gapStart (ch ':' :: v) := ends_cons (by decide)
    have hu : Ends nameCont u := (follow_skip (p := nameCont) (q := fun _ => false) k1 nameCont_gap
      (ends_cons (by decide)) hc (ends_cons rfl)).1
    have r1 := (kind_ok (sel := schemaSelector) schema_sels).2 ⟨w, hw, rfl, hu, rfl⟩
    have r2 : eval schemaSelector (Rule.seqs [.ref .operation_type, need .root_operation_definition_content]) (w ++ u) =
      .ok _ t := seq_ok.2 ⟨_, u, _, r1, need_ok.2 ((ref_discard_ok
      (n := .root_operation_definition_content) rfl).2 (seq_ok.2 ⟨[], _, _, skip_star schema_sels k1 hc,
        seq_ok.2 ⟨[], v, _, chr_ok.2 ⟨rfl, rfl⟩, seq_ok.2 ⟨[], x, _,
          skip_star schema_sels k2 (name_starts.ends nameStart_gap hm),
          (nameText_ok (k := .named_type) rfl rfl).2 ⟨m, hm, hF, rfl⟩, rfl⟩, rfl⟩, rfl⟩)), rfl⟩
    rw [← hg] at r2
    exact ⟨_, (ref_store_ok hk).2 ⟨_, r2, rfl⟩, rfl, rfl⟩

theorem root_starts : Starts RootText nameStart := by
  intro s a t h
  cases h with
  | mk hw _ _ _ => rcases hw with rfl | rfl | rfl <;> exact ⟨_, _, rfl, by decide⟩

/-- `{ query : A ... }` -/
def rootsRule (k : R) : Rule R := .seq (Rule.chr '{') (items (.ref k) (str "Expected }") '}')

theorem roots_sound {k : R} (hk : schemaSelector k = .store)
    (hg : grammar k = Rule.seqs [.ref .operation_type, need .root_operation_definition_content])
    (hnul : nullable nulTable (.ref k) = false) (n : Nat) :
    SoundL n schemaSelector (rootsRule k) RootsText (List.Forall₂ (IsRoot k)) := by
  intro s ns t hl he
  exact brackets_sound schema_sels (SameOk.refl _) (SameOk.refl _) hnul (root_sound hk hg n) (by omega) he

theorem roots_complete {k : R} (hk : schemaSelector k = .store)
    (hg : grammar k = Rule.seqs [.ref .operation_type, need .root_operation_definition_content])
    (hnul : nullable nulTable (.ref k) = false) (hn : Needs schemaSelector (.ref k) nameStart) (n : Nat) :
    CompleteL n schemaSelector (rootsRule k) RootsText (List.Forall₂ (IsRoot k)) (fun _ => True) := by
  intro s a t hl hb _
  exact brackets_complete schema_sels (SameOk.refl _) (SameOk.refl _) hnul (by decide) (by decide) (root_complete hk hg n)
    root_starts nameStart_gap hn
    (fun t u h h' => (follow_items (q := fun _ => false) nameCont_gap (fun c hc => ⟨nameStart_gap c hc, rfl⟩) t u h h').1)
    (fun w t h => (follow_close (q := fun _ => false) nameCont_gap (by decide) (by decide) rfl w t h).1) (n := n) (by omega) hb

theorem roots_starts : Starts RootsText isBrace := by
  intro s a t h
  obtain ⟨u, rfl⟩ := between_starts h
  exact ⟨_, _, rfl, by decide⟩

theorem roots_needs {k : R} : Needs sel (rootsRule k) isBrace := by
  intro s hs
  refine seq_fail.2 (.inl (chr_fail.2 ?_))
  rintro t rfl
  exact absurd (hs _ _ rfl) (by decide)

end Verif.Peg
