import Verif.ClientText.Moves

/-!
# The literal in the generated source
-/
namespace Verif.ClientText
open Verif.Value Verif.Errors Verif.Text

theorem linesFrom_text (line rest : Str) (hne : line ++ rest ≠ []) (hl : ∀ x, rest ≠ x ++ [0x0A]) :
    (linesFrom line rest).flatMap (fun l => str "\t\t" ++ l ++ str "\n") = str "\t\t" ++ line ++ indent rest ++ str "\n" := by
  induction rest generalizing line with
  | nil =>
    rw [List.append_nil] at hne
    simp [linesFrom, hne, indent_nil]
  | cons c rest ih =>
    rw [linesFrom]
    have hl' : ∀ x, rest ≠ x ++ [0x0A] := fun x e => hl (c :: x) (by rw [e]; rfl)
    split
    · rename_i e
      subst e
      have hr : rest ≠ [] := by rintro rfl; exact hl [] rfl
      rw [List.flatMap_cons, ih [] (by simpa using hr) hl', indent_lf]
      simp [str]
    · rename_i e
      rw [ih (line ++ [c]) (by simp) hl', indent_cons e]
      simp

/-- What is written is the text, with every line two tabs to the right, between two lines. -/
theorem literalBody_eq {m : Str} (hne : m ≠ []) (hl : ∀ x, m ≠ x ++ [0x0A]) :
    literalBody m = str "\n\t\t" ++ indent m ++ str "\n\t" := by
  unfold literalBody getLines
  rw [linesFrom_text [] m (by simpa using hne) hl]
  simp [str]

theorem prefix_indent {p m z : Str} (hp : 0x0A ∉ p) (h : p <+: indent m ++ 0x0A :: z) : p <+: m := by
  induction p generalizing m with
  | nil => exact List.nil_prefix
  | cons c p ih =>
    simp only [List.mem_cons, not_or] at hp
    cases m with
    | nil =>
      rw [indent_nil, List.nil_append, List.cons_prefix_cons] at h
      exact absurd h.1.symm hp.1
    | cons d m =>
      by_cases e : d = 0x0A
      · subst e
        rw [indent_lf, List.cons_append, List.cons_prefix_cons] at h
        exact absurd h.1.symm hp.1
      · rw [indent_cons e, List.cons_append, List.cons_prefix_cons] at h
        exact List.cons_prefix_cons.2 ⟨h.1, ih hp.2 h.2⟩

theorem delimiter_lf : (0x0A : Byte) ∉ delimiter := by decide +kernel

theorem raw_step {c : Byte} {t : Str} (h : ¬ delimiter <+: c :: t) :
    rawCharacters (c :: t) = (rawCharacters t).map fun r => (c :: r.1, r.2) := by
  rw [rawCharacters, if_neg]
  rwa [List.isPrefixOf_iff_prefix]

theorem raw_blank {c : Byte} (hc : c ≠ 0x29) (t : Str) :
    rawCharacters (c :: t) = (rawCharacters t).map fun r => (c :: r.1, r.2) := by
  refine raw_step fun h => ?_
  obtain ⟨r, hr⟩ := h
  exact hc (List.cons.inj hr).1.symm

theorem raw_indent {m z : Str} (hm : ¬ delimiter <:+: m) {v r : Str} (h : rawCharacters (0x0A :: z) = some (v, r)) :
    rawCharacters (indent m ++ 0x0A :: z) = some (indent m ++ v, r) := by
  induction m with
  | nil => simpa [indent_nil] using h
  | cons c m ih =>
    have hm' : ¬ delimiter <:+: m := fun h => hm (h.trans (List.suffix_cons c m).isInfix)
    have := ih hm'
    by_cases e : c = 0x0A
    · subst e
      rw [indent_lf]
      simp only [List.cons_append]
      rw [raw_blank (by decide +kernel), raw_blank (by decide +kernel), raw_blank (by decide +kernel), this]
      rfl
    · have hp : ¬ delimiter <+: indent (c :: m) ++ 0x0A :: z :=
        fun h => hm (prefix_indent delimiter_lf h).isInfix
      rw [indent_cons e] at hp ⊢
      rw [List.cons_append] at hp ⊢
      rw [raw_step hp, this]
      rfl

theorem trim_infix (s : Str) : trimWhitespace s <:+: s := by
  unfold trimWhitespace
  dsimp only
  split
  · exact (List.take_prefix _ _).isInfix.trans (List.drop_suffix _ _).isInfix
  · exact List.infix_refl _

/-- If the text has no `)gql"`, the C++ compiler reads the text again. -/
theorem getRequestText_eq {s : Str} (hs : ¬ delimiter <:+: s) (hne : trimWhitespace s ≠ [])
    (hl : ∀ x, trimWhitespace s ≠ x ++ [0x0A]) :
    getRequestText s = some (str "\n\t\t" ++ indent (trimWhitespace s) ++ str "\n\t") := by
  have hm : ¬ delimiter <:+: trimWhitespace s := fun h => hs (h.trans (trim_infix s))
  have end_ : rawCharacters (0x0A :: (str "\t" ++ str ")gql\"s")) = some (str "\n\t", str "s") := by decide +kernel
  have := raw_indent hm end_
  unfold getRequestText stringLiteral literalText
  rw [literalBody_eq hne hl]
  rw [if_pos (by rw [List.isPrefixOf_iff_prefix, List.append_assoc]; exact List.prefix_append _ _)]
  rw [List.append_assoc, List.drop_left]
  have e : str "\n\t\t" ++ indent (trimWhitespace s) ++ str "\n\t" ++ str ")gql\"s" =
      0x0A :: 0x09 :: 0x09 :: (indent (trimWhitespace s) ++ 0x0A :: (str "\t" ++ str ")gql\"s")) := by
    simp [str]
  rw [e, raw_blank (by decide +kernel), raw_blank (by decide +kernel), raw_blank (by decide +kernel), this]
  simp [str]

end Verif.ClientText
