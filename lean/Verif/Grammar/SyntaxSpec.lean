import Verif.Grammar.Spec
import Verif.Ast.Basic

/-!
# Executable documents as text: specification

The concrete syntax of executable documents. Every relation `X s x t` says that the text `s` is the text of `x` followed
by the text `t`. This is a context-free grammar: nothing is said about the order in which alternatives are tried or about
what may follow (except inside `StringLit`).

The differences from the GraphQL specification (June 2018): items of a list, arguments, object fields, variables,
directives and selections need ignored text between them, there is none between `$` or `@` and the name, a number has a
fraction or an exponent but not both, an operation has at least one selection, and ignored text is what `Gap` says.

`pos` gives the line and the column of the place where a number of bytes is left; `atof` is the function of the C library.
-/
namespace Verif.Text
open Verif.Value Verif.Errors

/-- The byte of an ASCII character. -/
abbrev ch (c : Char) : Byte := BitVec.ofNat 8 c.toNat

/-- Ignored text, or nothing, and then `t`. -/
def Skip (s t : Str) : Prop := ∃ g, s = g ++ t ∧ Gap t g
/-- Ignored text, at least one byte, and then `t`. -/
def Space (s t : Str) : Prop := ∃ g, g ≠ [] ∧ s = g ++ t ∧ Gap t g
/-- A name. -/
def Name (s n t : Str) : Prop := IsName n ∧ s = n ++ t

set_option inductive.autoPromoteIndices false

/-- One or more items with separators. -/
inductive Sep (gap : Str → Str → Prop) {α : Type} (item : Str → α → Str → Prop) : Str → List α → Str → Prop where
  | one {s x t} : item s x t → Sep gap item s [x] t
  | more {s x t u xs v} : item s x t → gap t u → Sep gap item u xs v → Sep gap item s (x :: xs) v

/-- An optional item, which may have ignored text before it. -/
inductive Opt {α : Type} (item : Str → α → Str → Prop) : Str → Option α → Str → Prop where
  | none {s} : Opt item s none s
  | some {s u x t} : Skip s u → item u x t → Opt item s (some x) t

/-- One or more items between an opening and a closing byte, with ignored text between them. -/
inductive Between (o c : Byte) {α : Type} (item : Str → α → Str → Prop) : Str → List α → Str → Prop where
  | mk {u v xs w t} : Skip u v → Sep Space item v xs w → Skip w (c :: t) → Between o c item (o :: u) xs t

/-- `name : item` -/
inductive Pair {α : Type} (item : Str → α → Str → Prop) : Str → Str × α → Str → Prop where
  | mk {s n u v w x t} : Name s n u → Skip u (ch ':' :: v) → Skip v w → item w x t → Pair item s (n, x) t

/-! ## Values -/

/-- The number which decimal digits stand for. -/
def natOf (d : Str) : Nat := d.foldl (fun n c => 10 * n + (c.toNat - 0x30)) 0
/-- The number which an `IntValue` stands for. -/
def intOf : Str → Int
  | 0x2D#8 :: d => -(natOf d : Int)
  | d => natOf d

/-- A value. -/
inductive ValueText (pos : Nat → Loc) (atof : Str → Double) : Str → Ast.Lit → Str → Prop where
  | «variable» {s n t} : s = ch '$' :: n ++ t → IsName n → ValueText pos atof s (.variable (pos s.length) n) t
  | int {w t} : IntValue w → ValueText pos atof (w ++ t) (.int (intOf w)) t
  | float {i f t} : IntPart i → Fraction f ∨ Exponent f → ValueText pos atof (i ++ f ++ t) (.float (atof (i ++ f))) t
  | string {w v t} : StringLit t w v → ValueText pos atof (w ++ t) (.string v) t
  | true {t} : ValueText pos atof (str "true" ++ t) (.boolean true) t
  | false {t} : ValueText pos atof (str "false" ++ t) (.boolean false) t
  | null {t} : ValueText pos atof (str "null" ++ t) .null t
  | enum {s n t} : Name s n t → n ≠ str "true" → n ≠ str "false" → n ≠ str "null" → ValueText pos atof s (.enumValue n) t
  | emptyList {u t} : Skip u (ch ']' :: t) → ValueText pos atof (ch '[' :: u) (.list []) t
  | list {s xs t} : Between (ch '[') (ch ']') (ValueText pos atof) s xs t → ValueText pos atof s (.list xs) t
  | emptyObject {u t} : Skip u (ch '}' :: t) → ValueText pos atof (ch '{' :: u) (.object []) t
  | object {s xs t} : Between (ch '{') (ch '}') (Pair (ValueText pos atof)) s xs t → ValueText pos atof s (.object xs) t

/-- `(name: value ...)` -/
def ArgumentsText (pos : Nat → Loc) (atof : Str → Double) : Str → Ast.Args → Str → Prop :=
  Between (ch '(') (ch ')') (Pair (ValueText pos atof))

/-- `@name(arguments)` -/
inductive DirectiveText (pos : Nat → Loc) (atof : Str → Double) : Str → Ast.Directive → Str → Prop where
  | mk {n u args t} : IsName n → Opt (ArgumentsText pos atof) u args t →
      DirectiveText pos atof (ch '@' :: n ++ u) ⟨n, args⟩ t

/-- `@a @b ...` -/
def DirectivesText (pos : Nat → Loc) (atof : Str → Double) : Str → List Ast.Directive → Str → Prop :=
  Sep Space (DirectiveText pos atof)

/-! ## Types and variables -/

/-- A type reference. -/
inductive TypeText : Str → Ast.TypeRef → Str → Prop where
  | named {s n t} : Name s n t → TypeText s (.named n) t
  | list {u v x w t} : Skip u v → TypeText v x w → Skip w (ch ']' :: t) → TypeText (ch '[' :: u) (.list x) t
  | nonNull {s x t u} : TypeText s x t → (∀ y, x ≠ .nonNull y) → Skip t (ch '!' :: u) → TypeText s (.nonNull x) u

/-- `= value` -/
inductive DefaultText (pos : Nat → Loc) (atof : Str → Double) : Str → Ast.Lit → Str → Prop where
  | mk {u v x t} : Skip u v → ValueText pos atof v x t → DefaultText pos atof (ch '=' :: u) x t

/-- `$name : type = value` -/
inductive VariableText (pos : Nat → Loc) (atof : Str → Double) : Str → Ast.VarDef → Str → Prop where
  | mk {n u v w type x default t} : IsName n → Skip u (ch ':' :: v) → Skip v w → TypeText w type x →
      Opt (DefaultText pos atof) x default t → VariableText pos atof (ch '$' :: n ++ u) ⟨n, type, default⟩ t

/-! ## Selections -/

/-- `alias :` and ignored text, or nothing. -/
inductive AliasText : Str → Option Str → Str → Prop where
  | none {s} : AliasText s none s
  | some {s n u v w} : Name s n u → Skip u (ch ':' :: v) → Skip v w → AliasText s (some n) w

/-- A field without its selection set. -/
inductive FieldText (pos : Nat → Loc) (atof : Str → Double) : Str → Ast.Field → Str → Prop where
  | mk {s als u name v args w dirs t} : AliasText s als u → Name u name v → Opt (ArgumentsText pos atof) v args w →
      Opt (DirectivesText pos atof) w dirs t → FieldText pos atof s ⟨pos s.length, als, name, args, dirs⟩ t

/-- `on Type` -/
inductive ConditionText : Str → Str → Str → Prop where
  | mk {u v n t} : Space u v → Name v n t → ConditionText (str "on" ++ u) n t

/-- A selection. The place of a fragment spread or an inline fragment is directly after the `...`. -/
inductive SelectionText (pos : Nat → Loc) (atof : Str → Double) : Str → Ast.Selection → Str → Prop where
  | leaf {s f t} : FieldText pos atof s f t → SelectionText pos atof s (.leaf f) t
  | node {s f t u sub v} : FieldText pos atof s f t → Skip t u →
      Between (ch '{') (ch '}') (SelectionText pos atof) u sub v →
      SelectionText pos atof s (.node f (pos u.length) sub) v
  | spread {u v n w dirs t} : Skip u v → Name v n w → n ≠ str "on" → Opt (DirectivesText pos atof) w dirs t →
      SelectionText pos atof (str "..." ++ u) (.spread (pos u.length) n dirs) t
  | inline {u cond v dirs w x sub t} : Opt ConditionText u cond v → Opt (DirectivesText pos atof) v dirs w → Skip w x →
      Between (ch '{') (ch '}') (SelectionText pos atof) x sub t →
      SelectionText pos atof (str "..." ++ u) (.inline (pos u.length) cond dirs sub) t

/-- `{ selection ... }` -/
def SelectionSetText (pos : Nat → Loc) (atof : Str → Double) : Str → List Ast.Selection → Str → Prop :=
  Between (ch '{') (ch '}') (SelectionText pos atof)

/-! ## Definitions and documents -/

/-- Ignored text and a name, or nothing. -/
inductive OperationNameText : Str → Option Str → Str → Prop where
  | none {s} : OperationNameText s none s
  | some {s u n t} : Space s u → Name u n t → OperationNameText s (some n) t

/-- `(variable ...)` or nothing -/
inductive VariablesText (pos : Nat → Loc) (atof : Str → Double) : Str → List Ast.VarDef → Str → Prop where
  | none {s} : VariablesText pos atof s [] s
  | some {s u xs t} : Skip s u → Between (ch '(') (ch ')') (VariableText pos atof) u xs t → VariablesText pos atof s xs t

/-- An operation. -/
inductive OperationText (pos : Nat → Loc) (atof : Str → Double) : Str → Ast.Operation → Str → Prop where
  | anonymous {s sub t} : SelectionSetText pos atof s sub t →
      OperationText pos atof s { pos := pos s.length, sub := sub } t
  | keyword {s kind u name v vars w dirs x y sub t} :
      kind = str "query" ∨ kind = str "mutation" ∨ kind = str "subscription" → s = kind ++ u →
      OperationNameText u name v → VariablesText pos atof v vars w → Opt (DirectivesText pos atof) w dirs x → Skip x y →
      SelectionSetText pos atof y sub t →
      OperationText pos atof s
        { pos := pos s.length, type := some kind, name := name, «variables» := vars, directives := dirs, sub := sub } t

/-- A fragment definition. -/
inductive FragmentText (pos : Nat → Loc) (atof : Str → Double) : Str → Ast.FragmentDef → Str → Prop where
  | mk {s a b n c d cond e dirs f g sub t} : s = str "fragment" ++ a → Space a b → Name b n c → n ≠ str "on" →
      Space c d → ConditionText d cond e → Opt (DirectivesText pos atof) e dirs f → Skip f g →
      SelectionSetText pos atof g sub t →
      FragmentText pos atof s { pos := pos s.length, name := n, typeCondition := cond, directives := dirs, sub := sub } t

/-- An executable definition. -/
inductive DefinitionText (pos : Nat → Loc) (atof : Str → Double) : Str → Ast.Definition → Str → Prop where
  | operation {s op t} : OperationText pos atof s op t → DefinitionText pos atof s (.operation op) t
  | fragment {s f t} : FragmentText pos atof s f t → DefinitionText pos atof s (.fragment f) t

/-- The line and the column, counted from 1, of the place in `s` where `left` bytes are left: lines end with a line feed,
columns count bytes. -/
def position (s : Str) (left : Nat) : Loc :=
  let before := s.take (s.length - left)
  ⟨1 + before.count 0x0A, 1 + (before.reverse.takeWhile (· ≠ 0x0A)).length⟩

/-- A document: one or more definitions, with ignored text before, between and after them, and perhaps a byte order mark
at the beginning. -/
def DocumentText (atof : Str → Double) (s : Str) (d : Ast.Document) : Prop :=
  ∃ bom u v w, s = bom ++ u ∧ (bom = [] ∨ bom = utf8Encode 0xFEFF) ∧ Skip u v ∧
    Sep Skip (DefinitionText (position s) atof) v d.definitions w ∧ Skip w []

end Verif.Text
