import Verif.ClientText.Props
import Verif.ClientText.Executes
import Verif.Grammar.DocumentExamples

/-!
# The request text in the generated client is the request (C68)
-/
namespace Verif.ClientText
open Verif.Value Verif.Resp Verif.Errors Verif.Ast Verif.Exec Verif.Request Verif.Peg Verif.Text

/-- C68: if `clientgen` could read a request file, it does not begin with a byte order mark, has no `)gql"` in it and no
line feed in its strings, then `GetRequestText()` gives a text which can be parsed again, so that `GetRequestObject()` does
not fail; the document in it is the one in the file, in other places. -/
theorem C68_request_object (atof : Str → Double) (unescapeJ : Str → Str) {s : Str} {ns : List (Node R)} {d : Document}
    (hp : ParseString s (.tree ns)) (hx : ∀ x ∈ ns, Executable x) (hd : readDocument atof unescapeJ s ns = some d)
    (hb : ¬ utf8Encode 0xFEFF <+: s) (hg : ¬ str ")gql\"" <:+: s) (hn : ∀ v ∈ d.strings, 0x0A ∉ v) :
    ∃ t ns', getRequestText s = some t ∧ ParseString t (.tree ns') ∧ (∀ x ∈ ns', Executable x) ∧
      readDocument atof unescapeJ t ns' = some (d.relocate (moved s)) := by
  obtain ⟨d', h, e⟩ := C52_sound atof unescapeJ hp hx
  rw [hd] at e
  cases e
  obtain ⟨t, ht, h'⟩ := C68_request_text h hb hg hn
  obtain ⟨ns', hp', hx', hd'⟩ := C52_complete atof unescapeJ h'
  exact ⟨t, ns', ht, hp', hx', hd'⟩

/-- C68: the document is as valid in another place as where it was, so that `GetRequestObject()` may say that it has been
validated. -/
theorem C68_validated (S : Validation.Schema) (overflow : Int → Int) (f : Loc → Loc) (d : Document) :
    (Validation.validate S overflow (d.relocate f) {}).1 = (Validation.validate S overflow d {}).1 :=
  Validation.validate_relocate S overflow d

/-- C68: for a service which validates with any schema, the document in another place has the same answer: user code is
called in the same order with the same arguments, and the response is the same, except for the `locations` of its errors. -/
theorem C68_same_answer {E O : Type} (S : Service E O) (schema : Validation.Schema)
    (hS : ∀ doc, S.validate doc = (Validation.validate schema S.atoiOverflow doc {}).1.map fun m => { message := m })
    (validated : Bool) (f : Loc → Loc) (d : Document) (name : Str) (supplied : Members) :
    SameAnswer (resolve S validated d name supplied) (resolve S validated (d.relocate f) name supplied) := by
  refine resolve_same S validated d name supplied ?_
  rw [hS, hS, Validation.validate_relocate]
  exact sameErrors_refl _

/-- Places matter only for `locations`: the answers to documents in different places can differ in nothing else. -/
theorem SameAnswer.data {E : Type} {x y : Run E Resp} (h : SameAnswer (.done x) (.done y)) {a : Members} (ha : x.result = .ok (.map a)) :
    ∃ b, y.result = .ok (.map b) ∧ Members.find b (str "data") = Members.find a (str "data") := by
  cases h with
  | done h =>
    obtain ⟨t, r⟩ := x
    obtain ⟨t', r'⟩ := y
    obtain ⟨_, h⟩ := h
    dsimp only at ha h ⊢
    subst ha
    cases h with
    | @ok _ b h =>
      cases b with
      | map b =>
        refine ⟨b, rfl, ?_⟩
        have h1 : (str "data" : Str) ≠ str "errors" := by decide +kernel
        have key : ∀ ms : Members, Members.find (ms.map fun e => (e.1, if e.1 = str "errors" then errorsWithoutPlaces e.2 else e.2))
            (str "data") = Members.find ms (str "data") := by
          intro ms
          induction ms with
          | nil => rfl
          | cons e ms ih =>
            obtain ⟨n, v⟩ := e
            unfold Members.find at ih ⊢
            by_cases c : n = str "data"
            · subst c
              simp [h1]
            · simpa [c] using ih
        simp only [withoutPlaces, Resp.map.injEq] at h
        rw [← key a, ← key b, h]
      | _ => simp [withoutPlaces] at h

/-! ## Examples -/

/-- The text in the client for the example of C52, which has arguments, variables, fragments and several lines. -/
theorem example_text : getRequestText exampleText = some (str "\n\t\tquery q($x: [Int!] = [1]) @d {\n\t\t  a: f(y: $x, z: {k: \"s\"}) { ... g }\n\t\t  ...on T { h } }\n\t\tfragment g on T @e(n: -5) { i }\n\t") := by
  decide +kernel

/-- The hypotheses of C68 hold for the example. -/
theorem example_hypotheses (atof : Str → Double) : DocumentText atof exampleText exampleDocument ∧
    ¬ utf8Encode 0xFEFF <+: exampleText ∧ ¬ str ")gql\"" <:+: exampleText ∧ ∀ v ∈ exampleDocument.strings, 0x0A ∉ v := by
  refine ⟨(example_parse atof id).2.2.2, by decide +kernel, by decide +kernel, ?_⟩
  have : exampleDocument.strings = [str "s"] := by rfl
  rw [this]
  decide +kernel

/-- Places in the example: the field `a` in the second line is in the third line. -/
theorem example_moved : moved exampleText ⟨2, 3⟩ = ⟨3, 5⟩ ∧ moved exampleText ⟨1, 1⟩ = ⟨2, 3⟩ := by decide +kernel

/-- The tree which the grammar gives for a small text. -/
def smallTree (s : Str) : List (Node R) := treeOf (run grammar executableSelector 90 (.ref .executable_document) s)

/-- A finding: a request file which begins with a byte order mark is read by `clientgen`, but the text in the client cannot
be parsed: `GetRequestObject()`, which is `noexcept`, ends the program. -/
theorem C68_byte_order_mark : (∃ ns, ParseString (utf8Encode 0xFEFF ++ str "{a}") (.tree ns)) ∧
    ∃ t m, getRequestText (utf8Encode 0xFEFF ++ str "{a}") = some t ∧ ParseString t (.error m) := by
  have h : run grammar executableSelector 90 (.ref .executable_document) (utf8Encode 0xFEFF ++ str "{a}") =
      some (.ok (smallTree (utf8Encode 0xFEFF ++ str "{a}")) []) := by decide +kernel
  refine ⟨⟨_, .first (.tree h) nofun⟩, str "\n\t\t" ++ utf8Encode 0xFEFF ++ str "{a}\n\t", message .mixed_document_content,
    by decide +kernel, ?_⟩
  exact .again (m := message .executable_document_content) (.error (fuel := 60) (by decide +kernel))
    (.error (fuel := 60) (by decide +kernel))

/-- A finding: a request with `)gql"` in it gives a client which cannot be compiled. -/
theorem C68_delimiter : (∃ ns, ParseString (str "{a(b:\")gql\")}") (.tree ns)) ∧ getRequestText (str "{a(b:\")gql\")}") = none := by
  have h : run grammar executableSelector 90 (.ref .executable_document) (str "{a(b:\")gql\")}") =
      some (.ok (smallTree (str "{a(b:\")gql\")}")) []) := by decide +kernel
  exact ⟨⟨_, .first (.tree h) nofun⟩, by decide +kernel⟩

/-- A request with a block string of two lines. -/
def blockText : Str := str "{a(b:\"\"\"x\ny\"\"\")}"

/-- The text in the client. -/
def blockMoved : Str := str "\n\t\t{a(b:\"\"\"x\n\t\ty\"\"\")}\n\t"

/-- The document; `v` is the argument. -/
def blockDocument (p q : Loc) (v : String) : Document := ⟨[.operation {
  pos := p, type := none, name := none, «variables» := [], directives := none
  sub := [.leaf ⟨q, none, str "a", some [(str "b", .string (str v))], none⟩] }]⟩

theorem block_read (atof : Str → Double) (unescapeJ : Str → Str) :
    readDocument atof unescapeJ blockText (smallTree blockText) = some (blockDocument ⟨1, 1⟩ ⟨1, 2⟩ "x\ny") := by
  run_tac do
    let goal ← Lean.Elab.Tactic.getMainGoal
    let some (type, _, right) := (← goal.getType).eq? | throwError "not an equation"
    goal.assign (Lean.mkApp2 (.const ``Eq.refl [1]) type right)

theorem block_moved_read (atof : Str → Double) (unescapeJ : Str → Str) :
    readDocument atof unescapeJ blockMoved (smallTree blockMoved) = some (blockDocument ⟨2, 3⟩ ⟨2, 4⟩ "x\n\t\ty") := by
  run_tac do
    let goal ← Lean.Elab.Tactic.getMainGoal
    let some (type, _, right) := (← goal.getType).eq? | throwError "not an equation"
    goal.assign (Lean.mkApp2 (.const ``Eq.refl [1]) type right)

/-- A finding: if a block string has more than one line, its value in the text of the client is another one: there are two
tabs in front of every line. -/
theorem C68_block_string (atof : Str → Double) :
    DocumentText atof blockText (blockDocument ⟨1, 1⟩ ⟨1, 2⟩ "x\ny") ∧
      getRequestText blockText = some blockMoved ∧
      DocumentText atof blockMoved (blockDocument ⟨2, 3⟩ ⟨2, 4⟩ "x\n\t\ty") := by
  have h1 : run grammar executableSelector 90 (.ref .executable_document) blockText = some (.ok (smallTree blockText) []) := by
    decide +kernel
  have h2 : run grammar executableSelector 90 (.ref .executable_document) blockMoved = some (.ok (smallTree blockMoved) []) := by
    decide +kernel
  have x1 : ∀ x ∈ smallTree blockText, x.rule = .operation_definition ∨ x.rule = .fragment_definition := by decide +kernel
  have x2 : ∀ x ∈ smallTree blockMoved, x.rule = .operation_definition ∨ x.rule = .fragment_definition := by decide +kernel
  obtain ⟨d, hd, e⟩ := C52_sound atof id (.first (.tree h1) nofun) x1
  rw [block_read] at e
  cases e
  obtain ⟨d', hd', e⟩ := C52_sound atof id (.first (.tree h2) nofun) x2
  rw [block_moved_read] at e
  cases e
  exact ⟨hd, by decide +kernel, hd'⟩

end Verif.ClientText
