import Verif.Grammar.SyntaxSpec
import Verif.ClientText.Model

/-!
# The same document in another place: specification
-/
namespace Verif.Ast
open Verif.Value Verif.Errors

mutual
/-- The literal, with its variables in other places. -/
def Lit.relocate (f : Loc → Loc) : Lit → Lit
  | .variable p n => .variable (f p) n
  | .int n => .int n
  | .float d => .float d
  | .string s => .string s
  | .boolean b => .boolean b
  | .null => .null
  | .enumValue s => .enumValue s
  | .list xs => .list (Lit.relocateAll f xs)
  | .object fields => .object (Lit.relocateFields f fields)

def Lit.relocateAll (f : Loc → Loc) : List Lit → List Lit
  | [] => []
  | x :: xs => x.relocate f :: Lit.relocateAll f xs

def Lit.relocateFields (f : Loc → Loc) : List (Str × Lit) → List (Str × Lit)
  | [] => []
  | (n, x) :: xs => (n, x.relocate f) :: Lit.relocateFields f xs
end

def Args.relocate (f : Loc → Loc) (args : Args) : Args := args.map fun a => (a.1, a.2.relocate f)

def Directive.relocate (f : Loc → Loc) (d : Directive) : Directive :=
  { d with arguments := d.arguments.map (Args.relocate f) }

def Field.relocate (f : Loc → Loc) (x : Field) : Field :=
  { x with
    pos := f x.pos
    arguments := x.arguments.map (Args.relocate f)
    directives := x.directives.map (·.map (Directive.relocate f)) }

mutual
def Selection.relocate (f : Loc → Loc) : Selection → Selection
  | .leaf field => .leaf (field.relocate f)
  | .node field p sub => .node (field.relocate f) (f p) (Selection.relocateAll f sub)
  | .spread p n ds => .spread (f p) n (ds.map (·.map (Directive.relocate f)))
  | .inline p t ds sub => .inline (f p) t (ds.map (·.map (Directive.relocate f))) (Selection.relocateAll f sub)

def Selection.relocateAll (f : Loc → Loc) : List Selection → List Selection
  | [] => []
  | x :: xs => x.relocate f :: Selection.relocateAll f xs
end

def FragmentDef.relocate (f : Loc → Loc) (x : FragmentDef) : FragmentDef :=
  { x with
    pos := f x.pos
    directives := x.directives.map (·.map (Directive.relocate f))
    sub := Selection.relocateAll f x.sub }

def VarDef.relocate (f : Loc → Loc) (x : VarDef) : VarDef := { x with default := x.default.map (Lit.relocate f) }

def Operation.relocate (f : Loc → Loc) (x : Operation) : Operation :=
  { x with
    pos := f x.pos
    «variables» := x.«variables».map (VarDef.relocate f)
    directives := x.directives.map (·.map (Directive.relocate f))
    sub := Selection.relocateAll f x.sub }

def Definition.relocate (f : Loc → Loc) : Definition → Definition
  | .operation op => .operation (op.relocate f)
  | .fragment x => .fragment (x.relocate f)
  | .other p => .other (f p)

/-- The same document, where everything is in another place. -/
def Document.relocate (f : Loc → Loc) (d : Document) : Document := ⟨d.definitions.map (Definition.relocate f)⟩

/-! ## The strings in a document -/

mutual
/-- The strings in a literal. -/
def Lit.strings : Lit → List Str
  | .string s => [s]
  | .list xs => Lit.stringsAll xs
  | .object fields => Lit.stringsFields fields
  | _ => []

def Lit.stringsAll : List Lit → List Str
  | [] => []
  | x :: xs => x.strings ++ Lit.stringsAll xs

def Lit.stringsFields : List (Str × Lit) → List Str
  | [] => []
  | (_, x) :: xs => x.strings ++ Lit.stringsFields xs
end

def Args.strings (args : Args) : List Str := args.flatMap fun a => a.2.strings

def Directive.strings (d : Directive) : List Str := (d.arguments.getD []).strings

def directiveStrings (ds : Option (List Directive)) : List Str := (ds.getD []).flatMap (·.strings)

def Field.strings (x : Field) : List Str := (x.arguments.getD []).strings ++ directiveStrings x.directives

mutual
def Selection.strings : Selection → List Str
  | .leaf field => field.strings
  | .node field _ sub => field.strings ++ Selection.stringsAll sub
  | .spread _ _ ds => directiveStrings ds
  | .inline _ _ ds sub => directiveStrings ds ++ Selection.stringsAll sub

def Selection.stringsAll : List Selection → List Str
  | [] => []
  | x :: xs => x.strings ++ Selection.stringsAll xs
end

def VarDef.strings (x : VarDef) : List Str := (x.default.map Lit.strings).getD []

def Operation.strings (x : Operation) : List Str :=
  x.«variables».flatMap (·.strings) ++ directiveStrings x.directives ++ Selection.stringsAll x.sub

def FragmentDef.strings (x : FragmentDef) : List Str := directiveStrings x.directives ++ Selection.stringsAll x.sub

def Definition.strings : Definition → List Str
  | .operation op => op.strings
  | .fragment x => x.strings
  | .other _ => []

/-- All strings which are written in a document. -/
def Document.strings (d : Document) : List Str := d.definitions.flatMap (·.strings)

end Verif.Ast

namespace Verif.ClientText
open Verif.Value Verif.Errors

/-- White space: tabs, line ends, form feeds and spaces. -/
def blank (c : Byte) : Bool := c = 0x20 || (0x09 ≤ c && c ≤ 0x0D)

/-- The place of the first byte which is not white space. -/
def start (s : Str) : Loc := Text.position s (s.dropWhile blank).length

/-- Where a place in the request file is in the text of the generated client: the first line with anything in it is the
second line there, and everything is two columns to the right. -/
def moved (s : Str) (p : Loc) : Loc :=
  ⟨p.line - (start s).line + 2, if p.line = (start s).line then p.column - (start s).column + 3 else p.column + 2⟩

end Verif.ClientText
