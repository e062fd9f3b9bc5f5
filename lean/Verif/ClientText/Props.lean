import Verif.ClientText.Literal
import Verif.Grammar.Documents

/-!
# C68: the request text in a generated client
-/
namespace Verif.ClientText
open Verif.Value Verif.Errors Verif.Text

/-! ## Both ends of a document -/

theorem set_ends {pos atof s sub t} (h : SelectionSetText pos atof s sub t) : ∃ p, s = ch '{' :: (p ++ ch '}' :: t) := by
  cases h with
  | mk h1 h2 h3 =>
  obtain ⟨p, rfl⟩ := h1.app
  obtain ⟨q, _, rfl⟩ := consumes_sep (fun _ _ h => h.skip.app) consumes_selection _ _ _ h2
  obtain ⟨r, rfl⟩ := h3.app
  exact ⟨p ++ (q ++ r), by simp⟩

/-- A definition begins with something other than white space, and ends with `}`. -/
theorem definition_ends {pos atof s x t} (h : DefinitionText pos atof s x t) :
    ∃ c p, s = c :: (p ++ ch '}' :: t) ∧ isSpace c = false := by
  cases h with
  | operation h =>
    cases h with
    | anonymous h =>
      obtain ⟨p, e⟩ := set_ends h
      exact ⟨_, p, e, by decide +kernel⟩
    | @keyword _ kind u name v vars z dirs x y sub _ hk h0 h1 h2 h3 h4 h5 =>
      obtain ⟨p, rfl⟩ := operationName_app h1
      obtain ⟨q, rfl⟩ := variables_app h2
      obtain ⟨r, rfl⟩ := opt_app consumes_directives h3
      obtain ⟨k, rfl⟩ := h4.app
      obtain ⟨m, rfl⟩ := set_ends h5
      rcases hk with rfl | rfl | rfl
      · exact ⟨ch 'q', str "uery" ++ (p ++ (q ++ (r ++ (k ++ ch '{' :: m)))), by rw [h0]; simp [str, ch], by decide +kernel⟩
      · exact ⟨ch 'm', str "utation" ++ (p ++ (q ++ (r ++ (k ++ ch '{' :: m)))), by rw [h0]; simp [str, ch], by decide +kernel⟩
      · exact ⟨ch 's', str "ubscription" ++ (p ++ (q ++ (r ++ (k ++ ch '{' :: m)))), by rw [h0]; simp [str, ch], by decide +kernel⟩
  | fragment h =>
    cases h with
    | mk h0 h1 h2 hn h3 h4 h5 h6 h7 =>
      obtain ⟨p, rfl⟩ := h1.skip.app
      obtain ⟨q, hq, rfl⟩ := consumes_name _ _ _ h2
      obtain ⟨r, rfl⟩ := h3.skip.app
      obtain ⟨k, hk, rfl⟩ := consumes_condition _ _ _ h4
      obtain ⟨i, rfl⟩ := opt_app consumes_directives h5
      obtain ⟨o, rfl⟩ := h6.app
      obtain ⟨m, rfl⟩ := set_ends h7
      exact ⟨ch 'f', str "ragment" ++ (p ++ (q ++ (r ++ (k ++ (i ++ (o ++ ch '{' :: m)))))), by rw [h0]; simp [str, ch],
        by decide +kernel⟩

theorem definitions_ends {pos atof s xs t} (h : Sep Skip (DefinitionText pos atof) s xs t) :
    ∃ c p, s = c :: (p ++ ch '}' :: t) ∧ isSpace c = false := by
  induction h with
  | one h => exact definition_ends h
  | more h hg _ ih =>
    obtain ⟨c, p, rfl, hc⟩ := definition_ends h
    obtain ⟨q, rfl⟩ := hg.app
    obtain ⟨d, r, rfl, _⟩ := ih
    exact ⟨c, p ++ ch '}' :: (q ++ d :: r), by simp, hc⟩

/-! ## White space -/

theorem takeWhile_app {p : Byte → Bool} {g v : Str} {c : Byte} (hc : p c = false) :
    (g ++ c :: v).takeWhile p = g.takeWhile p := by
  induction g with
  | nil => simp [hc]
  | cons d g ih =>
    rw [List.cons_append, List.takeWhile_cons, List.takeWhile_cons, ih]

theorem gap_strip {t g : Str} (h : Gap t g) : Gap t (g.dropWhile isSpace) := by
  induction h with
  | nil => exact .nil
  | @blank c g hc h ih =>
    rw [List.dropWhile_cons]
    split
    · exact ih
    · exact .blank hc h
  | comment hc h _ =>
    rw [List.cons_append, List.dropWhile_cons, if_neg (by decide +kernel)]
    exact .comment hc h
  | last hc h =>
    rw [List.dropWhile_cons, if_neg (by decide +kernel)]
    exact .last hc h

/-- Ignored text up to the end is still ignored text when the white space at its end is another one. -/
theorem gap_end {g z post : Str} (h : Gap [] g) (e : g = z ++ post) (hp : ∀ c ∈ post, isSpace c = true) :
    Gap [] (indent z ++ str "\n\t") := by
  have tail : Gap [] (str "\n\t") := .blank (by decide +kernel) (.blank (by decide +kernel) .nil)
  have hash : ∀ {x : Str}, ¬ (0x23 :: x = post) := by
    rintro x rfl
    exact absurd (hp 0x23 (by simp)) (by decide +kernel)
  have line : ∀ {cs : Str}, 0x0A ∉ cs → Gap [] (indent (0x23 :: cs) ++ str "\n\t") := by
    intro cs hc
    rw [indent_plain (by simpa using hc)]
    exact .comment hc (.blank (by decide +kernel) .nil)
  induction h generalizing z with
  | nil =>
    obtain ⟨rfl, rfl⟩ := List.append_eq_nil_iff.1 e.symm
    exact tail
  | @blank c g hc _ ih =>
    cases z with
    | nil => exact tail
    | cons d z =>
      obtain ⟨rfl, e1⟩ := List.cons.inj e
      have := ih e1
      by_cases e : c = 0x0A
      · subst e
        rw [indent_lf]
        exact .blank hc (.blank (by decide +kernel) (.blank (by decide +kernel) this))
      · rw [indent_cons e]
        exact .blank hc this
  | @comment cs g hc _ ih =>
    cases z with
    | nil => exact absurd e hash
    | cons d z =>
      obtain ⟨rfl, e1⟩ := List.cons.inj e
      rcases List.append_eq_append_iff.1 (show cs ++ 0x0A :: g = z ++ post from e1) with ⟨y, rfl, ey⟩ | ⟨y, rfl, ey⟩
      · cases y with
        | nil =>
          rw [List.append_nil]
          exact line hc
        | cons k y =>
          obtain ⟨rfl, e'⟩ := List.cons.inj ey
          have := ih e'
          rw [show 0x23 :: (cs ++ 0x0A :: y) = (0x23 :: cs) ++ 0x0A :: y from rfl, indent_append,
            indent_plain (by simpa using hc), indent_lf, List.append_assoc]
          exact .comment hc (.blank (by decide +kernel) (.blank (by decide +kernel) this))
      · exact line fun h => hc (List.mem_append_left _ h)
  | @last cs hc _ =>
    cases z with
    | nil => exact absurd e hash
    | cons d z =>
      obtain ⟨rfl, rfl⟩ := List.cons.inj e
      exact line fun h => hc (List.mem_append_left _ h)

/-! ## Places -/

/-- The number of bytes after the last line feed. -/
def lastLine (b : Str) : Nat := (b.reverse.takeWhile (· ≠ 0x0A)).length

theorem position_app (b t : Str) : position (b ++ t) t.length = ⟨1 + b.count 0x0A, 1 + lastLine b⟩ := by
  unfold position lastLine
  have : (b ++ t).take ((b ++ t).length - t.length) = b := by
    rw [List.length_append, Nat.add_sub_cancel, List.take_left]
  simp only [this]

theorem lastLine_plain {a b : Str} (h : 0x0A ∉ b) : lastLine (a ++ b) = lastLine a + b.length := by
  unfold lastLine
  rw [List.reverse_append, List.takeWhile_append_of_pos]
  · simp [Nat.add_comm]
  · intro c hc
    have : c ≠ 0x0A := by rintro rfl; exact h (List.mem_reverse.1 hc)
    simpa using this

theorem split_lf {b : Str} (h : 0x0A ∈ b) : ∃ x y, b = x ++ 0x0A :: y ∧ 0x0A ∉ y := by
  induction b with
  | nil => simp at h
  | cons c b ih =>
    by_cases hb : 0x0A ∈ b
    · obtain ⟨x, y, rfl, hy⟩ := ih hb
      exact ⟨c :: x, y, rfl, hy⟩
    · rcases List.mem_cons.1 h with rfl | h
      · exact ⟨[], b, rfl, hb⟩
      · exact absurd h hb

theorem lastLine_lf (x : Str) {y : Str} (hy : 0x0A ∉ y) : lastLine (x ++ 0x0A :: y) = y.length := by
  rw [show x ++ 0x0A :: y = (x ++ [0x0A]) ++ y by simp, lastLine_plain hy]
  have : lastLine (x ++ [0x0A]) = 0 := by
    unfold lastLine
    rw [List.reverse_append]
    rfl
  rw [this, Nat.zero_add]

theorem count_indent (b : Str) : (indent b).count 0x0A = b.count 0x0A := by
  induction b with
  | nil => rfl
  | cons c b ih =>
    by_cases e : c = 0x0A
    · subst e
      rw [indent_lf, List.count_cons_self, List.count_cons_of_ne (by decide +kernel), List.count_cons_of_ne (by decide +kernel),
        List.count_cons_self, ih]
    · rw [indent_cons e, List.count_cons_of_ne e, List.count_cons_of_ne e, ih]

theorem moved_position {pre b t t' : Str} {s : Str} (hs : s = pre ++ (b ++ t)) (hstart : start s = ⟨1 + pre.count 0x0A, 1 + lastLine pre⟩) :
    position (str "\n\t\t" ++ indent b ++ t') t'.length = moved s (position s t.length) := by
  have e : position s t.length = ⟨1 + (pre ++ b).count 0x0A, 1 + lastLine (pre ++ b)⟩ := by
    rw [hs, ← List.append_assoc pre b t, position_app]
  rw [position_app, e]
  unfold moved
  rw [hstart]
  dsimp only
  rw [List.count_append, List.count_append, count_indent, show (str "\n\t\t").count 0x0A = 1 by decide +kernel]
  by_cases hb : 0x0A ∈ b
  · have hc : 0 < b.count 0x0A := List.count_pos_iff.2 hb
    obtain ⟨x, y, rfl, hy⟩ := split_lf hb
    have e1 : lastLine (str "\n\t\t" ++ indent (x ++ 0x0A :: y)) = y.length + 2 := by
      rw [indent_append, indent_lf, indent_plain hy, ← List.append_assoc,
        lastLine_lf (y := 0x09 :: 0x09 :: y) _ (by simp only [List.mem_cons, not_or]; exact ⟨by decide +kernel, by decide +kernel, hy⟩)]
      rfl
    have e2 : lastLine (pre ++ (x ++ 0x0A :: y)) = y.length := by
      rw [← List.append_assoc, lastLine_lf _ hy]
    rw [e1, e2, if_neg (by omega)]
    congr 1; omega
  · have hc : b.count 0x0A = 0 := List.count_eq_zero.2 hb
    rw [hc, indent_plain hb, lastLine_plain hb, lastLine_plain hb, show lastLine (str "\n\t\t") = 2 by decide +kernel, if_pos (by omega)]
    congr 1 <;> omega

/-! ## The document -/

/-- The parts of a document: white space at both ends, and what is kept. -/
theorem document_parts {pos : Nat → Loc} {atof : Str → Double} {s : Str} {ds : List Ast.Definition} {g v z : Str} (hs : s = g ++ v)
    (hd : Sep Skip (DefinitionText pos atof) v ds z) :
    ∃ c body z1 post, v = c :: (body ++ ch '}' :: z) ∧ isSpace c = false ∧ z = z1 ++ post ∧ (∀ c ∈ post, isSpace c = true) ∧
      s.takeWhile isSpace = g.takeWhile isSpace ∧
      trimWhitespace s = g.dropWhile isSpace ++ (c :: (body ++ ch '}' :: z1)) ∧
      trimWhitespace s ≠ [] ∧ ∀ x, trimWhitespace s ≠ x ++ [0x0A] := by
  obtain ⟨c, body, hv, hc⟩ := definitions_ends hd
  have hpre : s.takeWhile isSpace = g.takeWhile isSpace := by
    rw [hs, hv, takeWhile_app hc]
  have hpost : s.reverse.takeWhile isSpace = z.reverse.takeWhile isSpace := by
    rw [hs, hv, show g ++ c :: (body ++ ch '}' :: z) = (g ++ c :: body) ++ ch '}' :: z by simp, List.reverse_append,
      List.reverse_cons, List.append_assoc, List.singleton_append, takeWhile_app (by decide +kernel)]
  have hz : z = (z.reverse.dropWhile isSpace).reverse ++ (z.reverse.takeWhile isSpace).reverse := by
    rw [← List.reverse_append, List.takeWhile_append_dropWhile, List.reverse_reverse]
  generalize hz1 : (z.reverse.dropWhile isSpace).reverse = z1 at hz
  generalize hp : (z.reverse.takeWhile isSpace).reverse = post at hz
  have hlast : ∀ x, z1 ≠ x ++ [0x0A] := by
    intro x e
    have : z.reverse.dropWhile isSpace = 0x0A :: x.reverse := by
      rw [← List.reverse_reverse (List.dropWhile _ _), hz1, e]; simp
    have h0 := List.head_dropWhile_not (l := z.reverse) isSpace (by rw [this]; simp)
    simp only [this, List.head_cons] at h0
    revert h0; decide +kernel
  have htrim : trimWhitespace s = g.dropWhile isSpace ++ (c :: (body ++ ch '}' :: z1)) := by
    have e : s = g.takeWhile isSpace ++ ((g.dropWhile isSpace ++ (c :: (body ++ ch '}' :: z1))) ++ post) := by
      rw [← List.append_assoc, ← List.append_assoc, List.takeWhile_append_dropWhile, hs, hv, hz]
      simp
    unfold trimWhitespace
    dsimp only
    rw [hpre, hpost]
    have hl1 : s.length - (z.reverse.takeWhile isSpace).length =
        (g.takeWhile isSpace).length + (g.dropWhile isSpace ++ (c :: (body ++ ch '}' :: z1))).length := by
      have : (z.reverse.takeWhile isSpace).length = post.length := by rw [← hp, List.length_reverse]
      rw [this, e]
      simp only [List.length_append]
      omega
    rw [hl1, if_pos (by omega)]
    conv => lhs; rw [e]
    rw [List.drop_left, Nat.add_sub_cancel_left, List.take_left]
  refine ⟨c, body, z1, post, hv, hc, hz, ?_, hpre, htrim, by rw [htrim]; simp, ?_⟩
  · intro d hd
    rw [← hp, List.mem_reverse] at hd
    have := List.all_takeWhile (p := isSpace) (l := z.reverse)
    exact List.all_eq_true.1 this d hd
  · intro x e
    rw [htrim] at e
    rcases List.eq_nil_or_concat z1 with rfl | ⟨y, k, rfl⟩
    · have e' : (g.dropWhile isSpace ++ c :: body) ++ [ch '}'] = x ++ [0x0A] := by rw [← e]; simp
      have := (List.append_inj' e' rfl).2
      revert this; decide +kernel
    · have e' : (g.dropWhile isSpace ++ c :: (body ++ ch '}' :: y)) ++ [k] = x ++ [0x0A] := by rw [← e]; simp
      have hk := (List.cons.inj (List.append_inj' e' rfl).2).1
      exact hlast y (by rw [hk, List.concat_eq_append])

theorem blank_isSpace : blank = isSpace := by
  funext c
  revert c
  decide +kernel

/-- C68: if a request file is an executable document, it does not begin with a byte order mark, has no `)gql"` in it and no
line feed in its strings, then the text in the generated client is the text of the same document, in other places. -/
theorem C68_request_text {atof : Str → Double} {s : Str} {d : Ast.Document} (h : DocumentText atof s d)
    (hb : ¬ utf8Encode 0xFEFF <+: s) (hg : ¬ str ")gql\"" <:+: s) (hn : ∀ v ∈ d.strings, 0x0A ∉ v) :
    ∃ t, getRequestText s = some t ∧ DocumentText atof t (d.relocate (moved s)) := by
  obtain ⟨bom, u, v, z, hs, hbom, ⟨g, hu, hgap⟩, hd, ⟨z0, hz0, hgz⟩⟩ := h
  have hbom : bom = [] := hbom.resolve_right fun e => hb (by rw [hs, e]; exact List.prefix_append _ _)
  subst hbom
  rw [List.nil_append] at hs
  subst hs
  rw [List.append_nil] at hz0
  subst hz0
  obtain ⟨c, body, z1, post, hv, hc, hz, hpost, hpre, htrim, hne, hlast⟩ := document_parts hu hd
  refine ⟨_, getRequestText_eq hg hne hlast, ?_⟩
  have hend := gap_end hgz hz hpost
  have hvz : v = (c :: (body ++ [ch '}'])) ++ z := by rw [hv]; simp
  have hshift : str "\n\t\t" ++ indent (trimWhitespace s) ++ str "\n\t" =
      str "\n\t\t" ++ indent (g.dropWhile isSpace) ++ shift z (indent z1 ++ str "\n\t") v := by
    rw [htrim, hvz, shift_append (Nat.le_refl _), shift_end, indent_append,
      show c :: (body ++ ch '}' :: z1) = (c :: (body ++ [ch '}'])) ++ z1 by simp, indent_append]
    simp only [List.append_assoc]
  have hstart : start s = ⟨1 + (g.takeWhile isSpace).count 0x0A, 1 + lastLine (g.takeWhile isSpace)⟩ := by
    unfold start
    rw [blank_isSpace, ← hpre]
    have : position s (s.dropWhile isSpace).length = position (s.takeWhile isSpace ++ s.dropWhile isSpace) (s.dropWhile isSpace).length := by
      rw [List.takeWhile_append_dropWhile]
    rw [this, position_app]
  have H : Shifts z (indent z1 ++ str "\n\t") v (position s) (position (str "\n\t\t" ++ indent (trimWhitespace s) ++ str "\n\t"))
      (moved s) := by
    refine ⟨?_, ?_⟩
    · rintro ⟨r, hr⟩
      rw [← hr] at hend
      cases hend with
      | blank h => revert h; decide +kernel
    · rintro t ⟨y, hy⟩ hl
      rw [hshift, ← hy, shift_append hl]
      have hsy : s = g.takeWhile isSpace ++ ((g.dropWhile isSpace ++ y) ++ t) := by
        rw [List.append_assoc, hy, ← List.append_assoc, List.takeWhile_append_dropWhile, hu]
      rw [← List.append_assoc, List.append_assoc (str "\n\t\t"), ← indent_append]
      exact moved_position hsy hstart
  refine ⟨[], _, shift z (indent z1 ++ str "\n\t") v, indent z1 ++ str "\n\t", rfl, .inl rfl, ?_, ?_, ?_⟩
  · refine ⟨str "\n\t\t" ++ indent (g.dropWhile isSpace), hshift, ?_⟩
    have hvne : v ≠ [] := by rw [hv]; simp
    exact .blank (by decide +kernel) (.blank (by decide +kernel) (.blank (by decide +kernel) (gap_indent (gap_strip hgap) hvne)))
  · have := sep_moves (gap := Skip) (fun _ _ h => h.app) (fun _ _ h a b => skip_shift h a b) consumes_definition
      ((definition_moves (atof := atof) H).below (v.length + 1)) _ _ _ (Nat.lt_succ_self _) hd (fun x hx k hk =>
        hn k (List.mem_flatMap.2 ⟨x, hx, hk⟩)) (List.suffix_refl _) (Nat.le_refl _)
    rw [shift_end] at this
    exact this
  · exact ⟨_, (List.append_nil _).symm, hend⟩

end Verif.ClientText
