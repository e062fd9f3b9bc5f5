import Verif.Respell.Claims

/-!
# The same request, written in different ways (C72)
-/
namespace Verif.Respell
open Verif.Value Verif.Errors Verif.Text Verif.ClientText Verif.Peg

theorem skip_blanks {g s t : Str} (e : s = g ++ t) (h : ∀ c ∈ g, isBlank c = true) : Skip s t := by
  refine ⟨g, e, ?_⟩
  clear e
  induction g with
  | nil => exact .nil
  | cons c g ih => exact .blank (h c (by simp)) (ih fun d hd => h d (by simp [hd]))

theorem more_blanks {s g w t : Str} {k : Token} {ts : List Token} (e : s = g ++ (w ++ t)) (hg : ∀ c ∈ g, isBlank c = true)
    (hk : TokenText (w ++ t) k t) (h : Tokens t ts) : Tokens s (k :: ts) := .more (skip_blanks e hg) hk h

theorem spaced_blanks {s g w t : Str} {k : Token} {ts : List Token} (e : s = g ++ (w ++ t)) (hn : g ≠ [])
    (hg : ∀ c ∈ g, isBlank c = true) (hk : TokenText (w ++ t) k t) (h : Spaced t ts) : Spaced s (k :: ts) := by
  obtain ⟨g', e', h'⟩ := skip_blanks (t := w ++ t) e hg
  have : g' = g := List.append_cancel_right (e'.symm.trans e)
  subst this
  exact .more ⟨g', hn, e', h'⟩ hk h

theorem isName_of {n : Str} (h : (match n with | c :: cs => nameStart c && cs.all nameCont | [] => false) = true) : IsName n := by
  cases n with
  | nil => cases h
  | cons c cs =>
    rw [Bool.and_eq_true, List.all_eq_true] at h
    exact ⟨c, cs, rfl, h.1, h.2⟩

theorem ends_of {p : Byte → Bool} {t : Str} (h : (match t with | c :: _ => !p c | [] => true) = true) : Ends p t := by
  rintro c u rfl
  simpa using h

/-- A request. -/
def text : Str := str "{a{b} c(d:\"\")}"

/-- The same request with other white space, commas, a comment, and another spelling of the string. -/
def text' : Str := str "#x\n{ a { b }, c ( d : \"\"\"\"\"\" )\n}"

/-- The tokens of both. -/
def tokens : List Token :=
  [.punct (ch '{'), .name (str "a"), .punct (ch '{'), .name (str "b"), .punct (ch '}'), .name (str "c"), .punct (ch '('),
   .name (str "d"), .punct (ch ':'), .string [], .punct (ch ')'), .punct (ch '}')]

local macro "tok" g:term "," w:term "," t:term "," k:term : tactic =>
  `(tactic| refine more_blanks (g := str $g) (w := str $w) (t := str $t) (by decide +kernel) (by decide +kernel) $k ?_)

local macro "spaced" g:term "," w:term "," t:term "," k:term : tactic =>
  `(tactic| refine spaced_blanks (g := str $g) (w := str $w) (t := str $t) (by decide +kernel) (by decide +kernel)
    (by decide +kernel) $k ?_)

theorem text_tokens : HasTokens text tokens := by
  refine ⟨[], text, rfl, .inl rfl, ?_⟩
  tok "", "{", "a{b} c(d:\"\")}", .punct (by decide +kernel)
  tok "", "a", "{b} c(d:\"\")}", .name (isName_of (by decide +kernel)) (ends_of (by decide +kernel))
  tok "", "{", "b} c(d:\"\")}", .punct (by decide +kernel)
  tok "", "b", "} c(d:\"\")}", .name (isName_of (by decide +kernel)) (ends_of (by decide +kernel))
  tok "", "}", " c(d:\"\")}", .punct (by decide +kernel)
  tok " ", "c", "(d:\"\")}", .name (isName_of (by decide +kernel)) (ends_of (by decide +kernel))
  tok "", "(", "d:\"\")}", .punct (by decide +kernel)
  tok "", "d", ":\"\")}", .name (isName_of (by decide +kernel)) (ends_of (by decide +kernel))
  tok "", ":", "\"\")}", .punct (by decide +kernel)
  tok "", "\"\"", ")}", .string (.quoted (body := []) .nil (by decide +kernel))
  tok "", ")", "}", .punct (by decide +kernel)
  tok "", "}", "", .punct (by decide +kernel)
  exact .done ⟨[], rfl, .nil⟩

theorem text_spaced : HasSpacedTokens text' tokens := by
  refine ⟨[], text', rfl, .inl rfl, .mk (u := str "{ a { b }, c ( d : \"\"\"\"\"\" )\n}") ?_
    (.punct (c := ch '{') (t := str " a { b }, c ( d : \"\"\"\"\"\" )\n}") (by decide +kernel)) ?_⟩
  · exact ⟨str "#x\n", by decide +kernel, .comment (cs := str "x") (g := []) (by decide +kernel) .nil⟩
  spaced " ", "a", " { b }, c ( d : \"\"\"\"\"\" )\n}", .name (isName_of (by decide +kernel)) (ends_of (by decide +kernel))
  spaced " ", "{", " b }, c ( d : \"\"\"\"\"\" )\n}", .punct (by decide +kernel)
  spaced " ", "b", " }, c ( d : \"\"\"\"\"\" )\n}", .name (isName_of (by decide +kernel)) (ends_of (by decide +kernel))
  spaced " ", "}", ", c ( d : \"\"\"\"\"\" )\n}", .punct (by decide +kernel)
  spaced ", ", "c", " ( d : \"\"\"\"\"\" )\n}", .name (isName_of (by decide +kernel)) (ends_of (by decide +kernel))
  spaced " ", "(", " d : \"\"\"\"\"\" )\n}", .punct (by decide +kernel)
  spaced " ", "d", " : \"\"\"\"\"\" )\n}", .name (isName_of (by decide +kernel)) (ends_of (by decide +kernel))
  spaced " ", ":", " \"\"\"\"\"\" )\n}", .punct (by decide +kernel)
  spaced " ", "\"\"\"\"\"\"", " )\n}", .string (.block (body := []) .nil)
  spaced " ", ")", "\n}", .punct (by decide +kernel)
  spaced "\n", "}", "", .punct (by decide +kernel)
  exact .done ⟨[], rfl, .nil⟩

/-- The request is parsed and has these tokens, and the other text has the same ones: the hypotheses of `C72_spaced_answer`
hold. -/
theorem C72_example (atof : Str → Double) (unescapeJ : Str → Str) : ∃ ns d, ParseString text (.tree ns) ∧
    (∀ x ∈ ns, Executable x) ∧ readDocument atof unescapeJ text ns = some d ∧ HasTokens text tokens ∧ HasSpacedTokens text' tokens := by
  have h : run grammar executableSelector 90 (.ref .executable_document) text = some (.ok (smallTree text) []) := by decide +kernel
  have h1 : ParseString text (.tree (smallTree text)) := .first (.tree h) nofun
  have h2 : ∀ x ∈ smallTree text, Executable x := by
    have : ∀ x ∈ smallTree text, x.rule = .operation_definition ∨ x.rule = .fragment_definition := by decide +kernel
    exact this
  obtain ⟨d, _, e⟩ := C52_sound atof unescapeJ h1 h2
  exact ⟨_, d, h1, h2, e, text_tokens, text_spaced⟩

/-- A finding: without ignored text between the tokens a request with the same tokens can be rejected. -/
theorem C72_finding_rejected : (∃ ns, ParseString (str "{a{b} c}") (.tree ns)) ∧ (∃ m, ParseString (str "{a{b}c}") (.error m)) ∧
    ∃ ts, HasTokens (str "{a{b} c}") ts ∧ HasTokens (str "{a{b}c}") ts := by
  have h : run grammar executableSelector 90 (.ref .executable_document) (str "{a{b} c}") =
      some (.ok (smallTree (str "{a{b} c}")) []) := by decide +kernel
  refine ⟨⟨_, .first (.tree h) nofun⟩, C52_separator, [.punct (ch '{'), .name (str "a"), .punct (ch '{'), .name (str "b"),
    .punct (ch '}'), .name (str "c"), .punct (ch '}')], ⟨[], _, rfl, .inl rfl, ?_⟩, ⟨[], _, rfl, .inl rfl, ?_⟩⟩
  · tok "", "{", "a{b} c}", .punct (by decide +kernel)
    tok "", "a", "{b} c}", .name (isName_of (by decide +kernel)) (ends_of (by decide +kernel))
    tok "", "{", "b} c}", .punct (by decide +kernel)
    tok "", "b", "} c}", .name (isName_of (by decide +kernel)) (ends_of (by decide +kernel))
    tok "", "}", " c}", .punct (by decide +kernel)
    tok " ", "c", "}", .name (isName_of (by decide +kernel)) (ends_of (by decide +kernel))
    tok "", "}", "", .punct (by decide +kernel)
    exact .done ⟨[], rfl, .nil⟩
  · tok "", "{", "a{b}c}", .punct (by decide +kernel)
    tok "", "a", "{b}c}", .name (isName_of (by decide +kernel)) (ends_of (by decide +kernel))
    tok "", "{", "b}c}", .punct (by decide +kernel)
    tok "", "b", "}c}", .name (isName_of (by decide +kernel)) (ends_of (by decide +kernel))
    tok "", "}", "c}", .punct (by decide +kernel)
    tok "", "c", "}", .name (isName_of (by decide +kernel)) (ends_of (by decide +kernel))
    tok "", "}", "", .punct (by decide +kernel)
    exact .done ⟨[], rfl, .nil⟩

end Verif.Respell
