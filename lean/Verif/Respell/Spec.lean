import Verif.Grammar.SyntaxSpec
import Verif.ClientText.Spec

/-!
# The tokens of a request: specification

What is left of the text of a request when it does not matter how the tokens are spelled and what is between them. The
lexical grammar of the GraphQL specification, for executable documents, except that `$name` and `@name` are one token each
(this parser does not accept ignored text between them, `Verif.Grammar.SyntaxSpec`).
-/
namespace Verif.Respell
open Verif.Value Verif.Errors Verif.Text

/-- A token. Names and numbers are their text; a string is its value, however it is written. -/
inductive Token where
  /-- `!`, `(`, `)`, `:`, `=`, `[`, `]`, `{`, `}` -/
  | punct (c : Byte)
  /-- `...` -/
  | spread
  | name (n : Str)
  /-- `$n` -/
  | «variable» (n : Str)
  /-- `@n` -/
  | directive (n : Str)
  | number (w : Str)
  | string (value : Str)

/-- A byte of a number: it ends before the first byte which is not one of these. -/
def numberByte (c : Byte) : Bool := nameCont c || (str ".+-").contains c

/-- The text `s` is a token and then `t`. Names and numbers are as long as possible. -/
inductive TokenText : Str → Token → Str → Prop where
  | punct {c t} : c ∈ str "!():=[]{}" → TokenText (c :: t) (.punct c) t
  | spread {t} : TokenText (str "..." ++ t) .spread t
  | name {n t} : IsName n → Ends nameCont t → TokenText (n ++ t) (.name n) t
  | «variable» {n t} : IsName n → Ends nameCont t → TokenText (ch '$' :: n ++ t) (.variable n) t
  | directive {n t} : IsName n → Ends nameCont t → TokenText (ch '@' :: n ++ t) (.directive n) t
  | number {w t} : IntValue w ∨ FloatValue w → Ends numberByte t → TokenText (w ++ t) (.number w) t
  | string {w v t} : StringLit t w v → TokenText (w ++ t) (.string v) t

set_option inductive.autoPromoteIndices false in
/-- The tokens of a text, with any ignored text, or nothing, before, between and after them. -/
inductive Tokens : Str → List Token → Prop where
  | done {s} : Skip s [] → Tokens s []
  | more {s u k t ts} : Skip s u → TokenText u k t → Tokens t ts → Tokens s (k :: ts)

set_option inductive.autoPromoteIndices false in
/-- The tokens of a text which has ignored text before every token. -/
inductive Spaced : Str → List Token → Prop where
  | done {s} : Skip s [] → Spaced s []
  | more {s u k t ts} : Space s u → TokenText u k t → Spaced t ts → Spaced s (k :: ts)

/-- The tokens of a text which has ignored text between any two tokens. -/
inductive SpacedTokens : Str → List Token → Prop where
  | mk {s u k t ts} : Skip s u → TokenText u k t → Spaced t ts → SpacedTokens s (k :: ts)

/-- The text of a request may begin with a byte order mark. -/
def marked (T : Str → List Token → Prop) (s : Str) (ts : List Token) : Prop :=
  ∃ bom u, s = bom ++ u ∧ (bom = [] ∨ bom = utf8Encode 0xFEFF) ∧ T u ts

/-- `s` has the tokens `ts`. -/
def HasTokens : Str → List Token → Prop := marked Tokens

/-- `s` has the tokens `ts`, with ignored text between any two of them. -/
def HasSpacedTokens : Str → List Token → Prop := marked SpacedTokens

/-- The place of everything is forgotten. -/
def nowhere : Loc → Loc := fun _ => ⟨0, 0⟩

/-- Everything in the documents is the same, except for the places (line and column) of their parts. -/
def SameDocument (d d' : Ast.Document) : Prop := d.relocate nowhere = d'.relocate nowhere

end Verif.Respell
