import Verif.Respell.Unique
import Verif.Grammar.DocumentExamples
import Verif.ClientText.Claims

/-!
# How a request is written does not matter (C72)
-/
namespace Verif.Respell
open Verif.Value Verif.Resp Verif.Errors Verif.Text Verif.ClientText Verif.Peg Verif.Exec Verif.Request Verif.Ast

theorem document_respells {atof : Str → Double} {s : Str} {d : Document} (h : DocumentText atof s d) :
    ∃ ts, ts ≠ [] ∧ HasTokens s ts ∧ ∀ s', HasSpacedTokens s' ts → ∃ d', DocumentText atof s' d' ∧ SameDocument d d' := by
  obtain ⟨bom, u, v, w, e, hb, h1, h2, h3⟩ := h
  obtain ⟨ts, k1, k2, k3⟩ : ∃ us, us ≠ [] ∧ Heads Tokens v (us ++ []) ∧ ∀ (pos' : Nat → Loc) s', Heads Spaced s' (us ++ []) →
      ∃ x' t', Spaced t' [] ∧ x'.map (Definition.relocate nowhere) = d.definitions.map (Definition.relocate nowhere) ∧
        Text.Sep Skip (DefinitionText pos' atof) s' x' t' := by
    have key := fun pos' => sep_respells (P := fun _ => True) (gap := Skip) (fun s t h => ⟨h, trivial⟩)
      (fun _ _ h => h.skip) consumes_definition (definition_respells (pos := position s) (pos' := pos') (atof := atof)
        (v.length + 1)) _ _ _ (Nat.lt_succ_self _) h2 trivial [] (.done h3)
    obtain ⟨us, k1, k2, k3⟩ := key (position s)
    refine ⟨us, k1, k2, fun pos' => ?_⟩
    obtain ⟨us', l1, l2, l3⟩ := key pos'
    have : us = us' := by
      have a := tokens_unique (tokens_of_heads ⟨[], rfl, .nil⟩ k2) (tokens_of_heads ⟨[], rfl, .nil⟩ l2)
      simpa using a
    subst this
    exact l3
  rw [List.append_nil] at k2 k3
  refine ⟨ts, k1, ⟨bom, u, e, hb, tokens_of_heads h1 k2⟩, ?_⟩
  rintro s' ⟨bom', u', e', hb', ⟨a1, a2, a3⟩⟩
  obtain ⟨x', t', c1, c2, c3⟩ := k3 (position s') _ ⟨_, a2, a3⟩
  refine ⟨⟨x'⟩, ⟨bom', u', _, t', e', hb', a1, c3, ?_⟩, ?_⟩
  · cases c1 with
    | done h => exact h
  · unfold SameDocument Document.relocate
    rw [c2]

/-- C72: the text of a document consists of tokens, in exactly one way. -/
theorem C72_tokens {atof : Str → Double} {s : Str} {d : Document} (h : DocumentText atof s d) :
    ∃ ts, HasTokens s ts ∧ ∀ ts', HasTokens s ts' → ts' = ts := by
  obtain ⟨ts, _, h1, _⟩ := document_respells h
  exact ⟨ts, h1, fun ts' h' => hasTokens_unique h' h1⟩

/-- C72: a document can be written with any spelling of the strings, and any ignored text between the tokens. -/
theorem C72_spaced {atof : Str → Double} {s s' : Str} {d : Document} {ts : List Token} (h : DocumentText atof s d)
    (ht : HasTokens s ts) (hs : HasSpacedTokens s' ts) : ∃ d', DocumentText atof s' d' ∧ SameDocument d d' := by
  obtain ⟨ts', _, h1, h2⟩ := document_respells h
  cases hasTokens_unique h1 ht
  exact h2 s' hs

/-- C72: the tokens decide which document a text is. -/
theorem C72_same_document {atof : Str → Double} {s s' : Str} {d d' : Document} {ts : List Token} (h : DocumentText atof s d)
    (h' : DocumentText atof s' d') (ht : HasTokens s ts) (ht' : HasTokens s' ts) : SameDocument d d' := by
  obtain ⟨bom, u, _, _, hu⟩ := id ht
  obtain ⟨r, _, hr⟩ := spaced_exists hu
  have hs : HasSpacedTokens r ts := by
    cases hr with
    | done _ =>
      obtain ⟨ts', hn, h1, _⟩ := document_respells h
      exact absurd (hasTokens_unique h1 ht) hn
    | more h1 h2 h3 => exact ⟨[], r, rfl, .inl rfl, .mk h1.skip h2 h3⟩
  obtain ⟨e1, p1, q1⟩ := C72_spaced h ht hs
  obtain ⟨e2, p2, q2⟩ := C72_spaced h' ht' hs
  cases C52_unambiguous atof p1 p2
  exact q1.trans q2.symm

/-! ## What the service does -/

theorem sameExn_symm {e e' : Exn} (h : SameExn e e') : SameExn e' e := by
  cases h with
  | schema h => exact .schema ((List.forall₂_iff_get.2 (by
      obtain ⟨a, b⟩ := List.forall₂_iff_get.1 h
      exact ⟨a.symm, fun i h1 h2 => ⟨(b i h2 h1).1.symm, (b i h2 h1).2.symm⟩⟩)))
  | other w => exact .other w

theorem sameExn_trans {a b c : Exn} (h : SameExn a b) (h' : SameExn b c) : SameExn a c := by
  cases h with
  | schema h =>
    cases h' with
    | schema h' =>
      refine .schema (List.forall₂_iff_get.2 ?_)
      obtain ⟨a, b⟩ := List.forall₂_iff_get.1 h
      obtain ⟨a', b'⟩ := List.forall₂_iff_get.1 h'
      exact ⟨a.trans a', fun i h1 h2 => ⟨(b i h1 (a ▸ h1)).1.trans (b' i (a ▸ h1) h2).1, (b i h1 (a ▸ h1)).2.trans (b' i (a ▸ h1) h2).2⟩⟩
  | other w => exact h'

theorem sameAnswer_symm {E : Type} {x y : Request.Outcome (Run E Resp)} (h : SameAnswer x y) : SameAnswer y x := by
  cases h with
  | undefined => exact .undefined
  | @done x y h =>
    obtain ⟨h1, h2⟩ := h
    refine .done ⟨h1.symm, ?_⟩
    generalize x.result = a at h2
    generalize y.result = b at h2
    cases h2 with
    | ok h => exact .ok h.symm
    | error h => exact .error (sameExn_symm h)

theorem sameAnswer_trans {E : Type} {x y z : Request.Outcome (Run E Resp)} (h : SameAnswer x y) (h' : SameAnswer y z) :
    SameAnswer x z := by
  cases h with
  | undefined => exact h'
  | @done x y h =>
    cases h' with
    | @done _ z h' =>
      obtain ⟨h1, h2⟩ := h
      obtain ⟨k1, k2⟩ := h'
      refine .done ⟨h1.trans k1, ?_⟩
      generalize x.result = a at h2
      generalize y.result = b at h2 k2
      generalize z.result = c at k2
      cases h2 with
      | ok h => cases k2 with
        | ok k => exact .ok (h.trans k)
      | error h => cases k2 with
        | error k => exact .error (sameExn_trans h k)

theorem sameDocument_answer {E O : Type} (S : Service E O) (schema : Validation.Schema)
    (hS : ∀ doc, S.validate doc = (Validation.validate schema S.atoiOverflow doc {}).1.map fun m => { message := m })
    (validated : Bool) {d d' : Document} (h : SameDocument d d') (name : Str) (supplied : Members) :
    SameAnswer (resolve S validated d name supplied) (resolve S validated d' name supplied) := by
  have a := C68_same_answer S schema hS validated nowhere d name supplied
  have b := C68_same_answer S schema hS validated nowhere d' name supplied
  rw [← h] at b
  exact sameAnswer_trans a (sameAnswer_symm b)

/-- C72: two request texts with the same tokens which are both parsed have the same answer: user code is called in the same
order with the same arguments, and the response is the same, except for the `locations` of its errors. -/
theorem C72_same_answer (atof : Str → Double) (unescapeJ : Str → Str) {s s' : Str} {ns ns' : List (Node R)} {d d' : Document}
    {ts : List Token} (hp : ParseString s (.tree ns)) (hx : ∀ x ∈ ns, Executable x) (hd : readDocument atof unescapeJ s ns = some d)
    (hp' : ParseString s' (.tree ns')) (hx' : ∀ x ∈ ns', Executable x) (hd' : readDocument atof unescapeJ s' ns' = some d')
    (ht : HasTokens s ts) (ht' : HasTokens s' ts) {E O : Type} (S : Service E O) (schema : Validation.Schema)
    (hS : ∀ doc, S.validate doc = (Validation.validate schema S.atoiOverflow doc {}).1.map fun m => { message := m })
    (validated : Bool) (name : Str) (supplied : Members) :
    SameAnswer (resolve S validated d name supplied) (resolve S validated d' name supplied) := by
  obtain ⟨x, h, e⟩ := C52_sound atof unescapeJ hp hx
  rw [hd] at e
  cases e
  obtain ⟨x, h', e⟩ := C52_sound atof unescapeJ hp' hx'
  rw [hd'] at e
  cases e
  exact sameDocument_answer S schema hS validated (C72_same_document h h' ht ht') name supplied

/-- C72: a request which is parsed is also parsed, with the same answer, when it is written with ignored text between all
tokens. -/
theorem C72_spaced_answer (atof : Str → Double) (unescapeJ : Str → Str) {s s' : Str} {ns : List (Node R)} {d : Document}
    {ts : List Token} (hp : ParseString s (.tree ns)) (hx : ∀ x ∈ ns, Executable x) (hd : readDocument atof unescapeJ s ns = some d)
    (ht : HasTokens s ts) (hs : HasSpacedTokens s' ts) :
    ∃ ns' d', ParseString s' (.tree ns') ∧ (∀ x ∈ ns', Executable x) ∧ readDocument atof unescapeJ s' ns' = some d' ∧
      ∀ {E O : Type} (S : Service E O) (schema : Validation.Schema),
        (∀ doc, S.validate doc = (Validation.validate schema S.atoiOverflow doc {}).1.map fun m => { message := m }) →
        ∀ (validated : Bool) (name : Str) (supplied : Members),
          SameAnswer (resolve S validated d name supplied) (resolve S validated d' name supplied) := by
  obtain ⟨x, h, e⟩ := C52_sound atof unescapeJ hp hx
  rw [hd] at e
  cases e
  obtain ⟨d', h', hsame⟩ := C72_spaced h ht hs
  obtain ⟨ns', hp', hx', hd'⟩ := C52_complete atof unescapeJ h'
  exact ⟨ns', d', hp', hx', hd', fun S schema hS validated name supplied =>
    sameDocument_answer S schema hS validated hsame name supplied⟩

end Verif.Respell
