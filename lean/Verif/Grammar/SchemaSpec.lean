import Verif.Grammar.SyntaxSpec
import Verif.Gen.Data

/-!
# Schema documents as text: specification

The concrete syntax of type system definitions and extensions, as in `SyntaxSpec.lean`: `X s x t` says that the text `s` is
the text of `x` followed by the text `t`, where `x` is what `schemagen` is to read.

The differences from the GraphQL specification (June 2018), besides those of `SyntaxSpec.lean`: fields, arguments, enum
values and operation types need ignored text between them; `true`, `false` and `null` are allowed as enum values; between
the directives of a schema extension and its `{` there is no ignored text; and the description which is read is only the
first part of the string (`firstQuoted`, `firstBlock`).

`pos`, `atof`: see `SyntaxSpec.lean`. `J` is PEGTL's `unescape_j`.
-/
namespace Verif.Text
open Verif.Value Verif.Errors Verif.Gen

/-! ## Words -/

/-- The word `k`, and then `t`, which does not go on with a character of a name. -/
def Keyword (k : String) (s t : Str) : Prop := s = str k ++ t ∧ Ends nameCont t

/-- The last byte before `t` and the first byte of `t` are not both characters of names: no name is cut in two. -/
def Apart (s t : Str) : Prop := ∀ p c d u, s = p ++ c :: t → t = d :: u → ¬ (nameCont c = true ∧ nameCont d = true)

/-! ## Descriptions -/

/-- What a character after a backslash stands for. -/
def escapeOf (c : Byte) : Byte :=
  if c = ch 'b' then 0x08 else if c = ch 'f' then 0x0C else if c = ch 'n' then 0x0A else if c = ch 'r' then 0x0D
  else if c = ch 't' then 0x09 else c

/-- Four hexadecimal digits, and others after `\u` each. -/
def hexRun : Str → Str
  | a :: b :: c :: d :: rest => a :: b :: c :: d ::
    (match rest with
    | 0x5C#8 :: 0x75#8 :: r => 0x5C#8 :: 0x75#8 :: hexRun r
    | _ => [])
  | s => s

/-- The first part of the text between quotes: what comes before the first backslash; if there is nothing before it, what
the escape sequence stands for. -/
def firstQuoted (J : Str → Str) : Str → Str
  | 0x5C#8 :: 0x75#8 :: s => J (ch 'u' :: hexRun s)
  | 0x5C#8 :: c :: _ => [escapeOf c]
  | s => s.takeWhile (· ≠ 0x5C)

/-- What comes before the first `\"""`. -/
def beforeEscape : Str → Str
  | [] => []
  | c :: s => if str "\\\"\"\"" <+: c :: s then [] else c :: beforeEscape s

/-- The first part of the text of a block string: what comes before the first `\"""`; if there is nothing before it, three
quotes. -/
def firstBlock (s : Str) : Str := if str "\\\"\"\"" <+: s then str "\"\"\"" else beforeEscape s

/-- A string, and what is read from it as a description. -/
inductive DescriptionText (J : Str → Str) : Str → Str → Str → Prop where
  | quoted {body value t} : Quoted body value → ¬ (body = [] ∧ str "\"" <+: t) →
      DescriptionText J (str "\"" ++ body ++ str "\"" ++ t) (firstQuoted J body) t
  | block {body t} : Block body → DescriptionText J (str "\"\"\"" ++ body ++ str "\"\"\"" ++ t) (firstBlock body) t

/-- A description and ignored text, or nothing. -/
inductive Described (J : Str → Str) : Str → Str → Str → Prop where
  | none {s} : Described J s [] s
  | some {s d u t} : DescriptionText J s d u → Skip u t → Described J s d t

set_option inductive.autoPromoteIndices false

/-! ## Arguments and fields -/

/-- `= value` -/
inductive DefaultDefText (pos : Nat → Loc) (atof : Str → Double) : Str → DefaultValue → Str → Prop where
  | mk {u v x text t} : Skip u v → ValueText pos atof v x t → v = text ++ t →
      DefaultDefText pos atof (ch '=' :: u) ⟨x, text⟩ t

/-- `description name : type = default directives` -/
inductive InputValueText (pos : Nat → Loc) (atof : Str → Double) (J : Str → Str) : Str → InputValueDef → Str → Prop where
  | mk {s description a name b c d type e default f dirs t} : Described J s description a → Name a name b →
      Skip b (ch ':' :: c) → Skip c d → TypeText d type e → Opt (DefaultDefText pos atof) e default f →
      Opt (DirectivesText pos atof) f dirs t →
      InputValueText pos atof J s { description, name, type, default } t

/-- `(argument ...)` -/
def ArgumentsDefText (pos : Nat → Loc) (atof : Str → Double) (J : Str → Str) : Str → List InputValueDef → Str → Prop :=
  Between (ch '(') (ch ')') (InputValueText pos atof J)

/-- `description name (arguments) : type directives` -/
inductive FieldDefText (pos : Nat → Loc) (atof : Str → Double) (J : Str → Str) : Str → FieldDef → Str → Prop where
  | mk {s description a name b args c d e type f dirs t} : Described J s description a → Name a name b →
      Opt (ArgumentsDefText pos atof J) b args c → Skip c (ch ':' :: d) → Skip d e → TypeText e type f →
      Opt (DirectivesText pos atof) f dirs t →
      FieldDefText pos atof J s
        { description, name, arguments := args.getD [], type, directives := dirs.getD [] } t

/-- `{ field ... }` -/
def FieldsDefText (pos : Nat → Loc) (atof : Str → Double) (J : Str → Str) : Str → List FieldDef → Str → Prop :=
  Between (ch '{') (ch '}') (FieldDefText pos atof J)

/-- `{ input field ... }` -/
def InputFieldsText (pos : Nat → Loc) (atof : Str → Double) (J : Str → Str) : Str → List InputValueDef → Str → Prop :=
  Between (ch '{') (ch '}') (InputValueText pos atof J)

/-- `description name directives` -/
inductive EnumValueText (pos : Nat → Loc) (atof : Str → Double) (J : Str → Str) : Str → EnumValueDef → Str → Prop where
  | mk {s description a value b dirs t} : Described J s description a → Name a value b →
      Opt (DirectivesText pos atof) b dirs t →
      EnumValueText pos atof J s { description, value, directives := dirs.getD [] } t

/-- `{ enum value ... }` -/
def EnumValuesText (pos : Nat → Loc) (atof : Str → Double) (J : Str → Str) : Str → List EnumValueDef → Str → Prop :=
  Between (ch '{') (ch '}') (EnumValueText pos atof J)

/-! ## Lists of names -/

/-- The byte `c`, with or without ignored text around it. -/
def Bar (c : Byte) (s t : Str) : Prop := ∃ u, Skip s (c :: u) ∧ Skip u t

/-- Names with the byte `c` between them, and perhaps before them. -/
inductive NamesText (c : Byte) : Str → List Str → Str → Prop where
  | plain {s u xs t} : Skip s u → Sep (Bar c) Name u xs t → NamesText c s xs t
  | lead {s u xs t} : Bar c s u → Sep (Bar c) Name u xs t → NamesText c s xs t

/-- `implements A & B ...` or nothing -/
inductive ImplementsText : Str → List Str → Str → Prop where
  | none {s} : ImplementsText s [] s
  | some {s u v xs t} : Space s u → Keyword "implements" u v → NamesText (ch '&') v xs t → ImplementsText s xs t

/-- `= A | B ...` -/
inductive MembersText : Str → List Str → Str → Prop where
  | mk {u xs t} : NamesText (ch '|') u xs t → MembersText (ch '=' :: u) xs t

/-- The places where a directive may be. -/
def locationNames : List String :=
  ["QUERY", "MUTATION", "SUBSCRIPTION", "FIELD", "FRAGMENT_DEFINITION", "FRAGMENT_SPREAD", "INLINE_FRAGMENT",
    "SCHEMA", "SCALAR", "OBJECT", "FIELD_DEFINITION", "ARGUMENT_DEFINITION", "INTERFACE", "UNION", "ENUM", "ENUM_VALUE",
    "INPUT_OBJECT", "INPUT_FIELD_DEFINITION"]

/-- One of these places. -/
def LocationText (s l t : Str) : Prop := ∃ k ∈ locationNames, l = str k ∧ s = l ++ t

/-- `A | B ...` with ignored text before them, and perhaps a `|`. -/
inductive LocationsText : Str → List Str → Str → Prop where
  | plain {s u xs t} : Space s u → Sep (Bar (ch '|')) LocationText u xs t → LocationsText s xs t
  | lead {s u v xs t} : Space s (ch '|' :: u) → Skip u v → Sep (Bar (ch '|')) LocationText v xs t → LocationsText s xs t

/-- `query : A`, `mutation : A` or `subscription : A` -/
inductive RootText : Str → Str × Str → Str → Prop where
  | mk {kind u v w n t} : kind = str "query" ∨ kind = str "mutation" ∨ kind = str "subscription" →
      Skip u (ch ':' :: v) → Skip v w → Name w n t → RootText (kind ++ u) (kind, n) t

/-- `{ query : A ... }` -/
def RootsText : Str → List (Str × Str) → Str → Prop := Between (ch '{') (ch '}') RootText

/-! ## Definitions -/

/-- A description, the word `k` and ignored text. -/
def Head (J : Str → Str) (k : String) (s description t : Str) : Prop :=
  ∃ a b, Described J s description a ∧ Keyword k a b ∧ Space b t

/-- `extend`, ignored text, and the word `k`. -/
def Extend (k : String) (s t : Str) : Prop := ∃ a b, Keyword "extend" s a ∧ Space a b ∧ Keyword k b t

/-- A type system definition or extension. -/
inductive TypeDefText (pos : Nat → Loc) (atof : Str → Double) (J : Str → Str) : Str → TypeDef → Str → Prop where
  | schema {s a dirs b c xs t} : Keyword "schema" s a → Opt (DirectivesText pos atof) a dirs b → Skip b c →
      RootsText c xs t → TypeDefText pos atof J s (.schema xs) t
  | scalar {s d a n b dirs t} : Head J "scalar" s d a → Name a n b → Opt (DirectivesText pos atof) b dirs t →
      TypeDefText pos atof J s (.scalar d n) t
  | object {s d a n b is c dirs e fs t} : Head J "type" s d a → Name a n b → ImplementsText b is c →
      Opt (DirectivesText pos atof) c dirs e → Opt (FieldsDefText pos atof J) e fs t →
      TypeDefText pos atof J s (.object d n is (fs.getD [])) t
  | interface {s d a n b dirs c fs t} : Head J "interface" s d a → Name a n b → Opt (DirectivesText pos atof) b dirs c →
      Opt (FieldsDefText pos atof J) c fs t → TypeDefText pos atof J s (.interface d n (fs.getD [])) t
  | union {s d a n b dirs c ms t} : Head J "union" s d a → Name a n b → Opt (DirectivesText pos atof) b dirs c →
      Opt MembersText c ms t → TypeDefText pos atof J s (.union d n (ms.getD [])) t
  | enum {s d a n b dirs c vs t} : Head J "enum" s d a → Name a n b → Opt (DirectivesText pos atof) b dirs c →
      Opt (EnumValuesText pos atof J) c vs t → TypeDefText pos atof J s (.enum d n (vs.getD [])) t
  | input {s d a n b dirs c fs t} : Head J "input" s d a → Name a n b → Opt (DirectivesText pos atof) b dirs c →
      Opt (InputFieldsText pos atof J) c fs t → TypeDefText pos atof J s (.input d n (fs.getD [])) t
  | directive {s d a b c n e args f g h ls t} : Described J s d a → Keyword "directive" a b → Skip b (ch '@' :: c) →
      Name c n e → Opt (ArgumentsDefText pos atof J) e args f → Space f g → Keyword "on" g h → LocationsText h ls t →
      TypeDefText pos atof J s (.directive d n (args.getD []) ls) t
  /- extensions -/
  | schemaExtension {s a b xs t} : Extend "schema" s a → Skip a b → RootsText b xs t →
      TypeDefText pos atof J s (.schemaExtension xs) t
  | schemaExtensionDirectives {s a b dirs c xs t} : Extend "schema" s a → Skip a b → DirectivesText pos atof b dirs c →
      RootsText c xs t → TypeDefText pos atof J s (.schemaExtension xs) t
  | schemaExtensionOnly {s a b dirs t} : Extend "schema" s a → Skip a b → DirectivesText pos atof b dirs t →
      TypeDefText pos atof J s (.schemaExtension []) t
  | scalarExtension {s a b n c e dirs t} : Extend "scalar" s a → Skip a b → Name b n c → Skip c e →
      DirectivesText pos atof e dirs t → TypeDefText pos atof J s (.scalarExtension n) t
  | objectExtension {s a b n c is e dirs f fs t} : Extend "type" s a → Space a b → Name b n c → ImplementsText c is e →
      Opt (DirectivesText pos atof) e dirs f → Opt (FieldsDefText pos atof J) f fs t →
      is ≠ [] ∨ dirs ≠ none ∨ fs ≠ none → TypeDefText pos atof J s (.objectExtension n is (fs.getD [])) t
  | interfaceExtension {s a b n c dirs e fs t} : Extend "interface" s a → Space a b → Name b n c →
      Opt (DirectivesText pos atof) c dirs e → Opt (FieldsDefText pos atof J) e fs t → dirs ≠ none ∨ fs ≠ none →
      TypeDefText pos atof J s (.interfaceExtension n (fs.getD [])) t
  | unionExtension {s a b n c dirs e ms t} : Extend "union" s a → Space a b → Name b n c →
      Opt (DirectivesText pos atof) c dirs e → Opt MembersText e ms t → dirs ≠ none ∨ ms ≠ none →
      TypeDefText pos atof J s (.unionExtension n (ms.getD [])) t
  | enumExtension {s a b n c dirs e vs t} : Extend "enum" s a → Space a b → Name b n c →
      Opt (DirectivesText pos atof) c dirs e → Opt (EnumValuesText pos atof J) e vs t → dirs ≠ none ∨ vs ≠ none →
      TypeDefText pos atof J s (.enumExtension n (vs.getD [])) t
  | inputExtension {s a b n c dirs e fs t} : Extend "input" s a → Space a b → Name b n c →
      Opt (DirectivesText pos atof) c dirs e → Opt (InputFieldsText pos atof J) e fs t → dirs ≠ none ∨ fs ≠ none →
      TypeDefText pos atof J s (.inputExtension n (fs.getD [])) t

/-- A schema document: one or more definitions and extensions, with ignored text before, between and after them, and
perhaps a byte order mark at the beginning. Where a definition ends with a name, the next one does not go on with it. -/
def SchemaText (atof : Str → Double) (J : Str → Str) (s : Str) (defs : List TypeDef) : Prop :=
  ∃ bom u v w, s = bom ++ u ∧ (bom = [] ∨ bom = utf8Encode 0xFEFF) ∧ Skip u v ∧
    Sep Skip (fun a d b => TypeDefText (position s) atof J a d b ∧ Apart a b) v defs w ∧ Skip w []

end Verif.Text
