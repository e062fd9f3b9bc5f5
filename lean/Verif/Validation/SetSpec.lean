import Verif.Validation.Spec

/-!
# Specification: selection sets

Which fields a selection set selects, and on which types; which selection sets are below it. Nothing here refers to the
validator.
-/
namespace Verif.Validation.Spec
open Verif.Value Verif.Errors Verif.Ast Verif.Validation

/-- `Part fragments type sel type' sel'`: the selections `sel'` on the type `type'` are written in the selection set
`sel` on the type `type`, or in a fragment of it. -/
inductive Part (fragments : List FragmentDef) : Str → List Selection → Str → List Selection → Prop where
  | self {type sel} : Part fragments type sel type sel
  | inline {type sel type' sel' pos t ds sub} (hm : .inline pos t ds sub ∈ sel)
      (h : Part fragments (if t.getD [] = [] then type else t.getD []) sub type' sel') : Part fragments type sel type' sel'
  | spread {type sel type' sel' pos name ds fragment} (hm : .spread pos name ds ∈ sel)
      (hf : fragments.find? (fun f => f.name == name) = some fragment)
      (h : Part fragments fragment.typeCondition fragment.sub type' sel') : Part fragments type sel type' sel'

/-- `Selects fragments type sel on f sub`: the selection set `sel` on the type `type` selects the field `f` on the type
`on`, with the selections `sub`. -/
def Selects (fragments : List FragmentDef) (type : Str) (sel : List Selection) (on : Str) (f : Field)
    (sub : Option (List Selection)) : Prop :=
  ∃ sel', Part fragments type sel on sel' ∧
    ((sub = none ∧ .leaf f ∈ sel') ∨ ∃ pos below, sub = some below ∧ .node f pos below ∈ sel')

/-- In the selection set, all the fields with the response name of `f` have the selections `sub`. -/
def Alike (fragments : List FragmentDef) (type : Str) (sel : List Selection) (f : Field) (sub : Option (List Selection)) : Prop :=
  ∀ on f' sub', Selects fragments type sel on f' sub' → Exec.responseName f' = Exec.responseName f → sub' = sub

/-- `Below S fragments type sel type' sel'`: the selection set `sel'` on `type'` is `sel` on `type`, or it is somewhere
below it, on a path of fields which do not share their response names with fields with other selections. -/
inductive Below (S : Schema) (fragments : List FragmentDef) (type : Str) (sel : List Selection) : Str → List Selection → Prop where
  | self : Below S fragments type sel type sel
  | field {type' sel' on f sub def_} (h : Below S fragments type sel type' sel')
      (hf : Selects fragments type' sel' on f (some sub)) (ha : Alike fragments type' sel' f (some sub))
      (hd : S.findField on f.name = some def_) : Below S fragments type sel (baseName def_.type) sub

/-- No selection set below this one (or itself) selects two fields with the same response name but different selections. -/
def Consistent (S : Schema) (fragments : List FragmentDef) (type : Str) (sel : List Selection) : Prop :=
  ∀ type' sel', Below S fragments type sel type' sel' →
    ∀ on f sub, Selects fragments type' sel' on f sub → Alike fragments type' sel' f sub

/-- `Reaches fragments sel name`: the fragment is spread somewhere in the selections, or in a fragment which is. -/
inductive Reaches (fragments : List FragmentDef) : List Selection → Str → Prop where
  | here {sel pos name ds} (hm : .spread pos name ds ∈ sel) : Reaches fragments sel name
  | node {sel f pos sub name} (hm : .node f pos sub ∈ sel) (h : Reaches fragments sub name) : Reaches fragments sel name
  | inline {sel pos t ds sub name} (hm : .inline pos t ds sub ∈ sel) (h : Reaches fragments sub name) :
      Reaches fragments sel name
  | spread {sel pos g ds fragment name} (hm : .spread pos g ds ∈ sel)
      (hf : fragments.find? (fun f => f.name == g) = some fragment) (h : Reaches fragments fragment.sub name) :
      Reaches fragments sel name

/-- The variable is written in the literal. -/
inductive InLit : Lit → Str → Prop where
  | variable {pos name} : InLit (.variable pos name) name
  | list {xs x name} (hm : x ∈ xs) (h : InLit x name) : InLit (.list xs) name
  | object {fields e name} (hm : e ∈ fields) (h : InLit e.2 name) : InLit (.object fields) name

/-- The variable is written in the arguments. -/
def InArguments (args : Option Args) (name : Str) : Prop := ∃ e ∈ args.getD [], InLit e.2 name

/-- The variable is written in the directives. -/
def InDirectives (ds : Option (List Directive)) (name : Str) : Prop := ∃ d ∈ ds.getD [], InArguments d.arguments name

/-- The variable is written in the selections, or in a fragment spread there. -/
inductive InSelections (fragments : List FragmentDef) : List Selection → Str → Prop where
  | leafArguments {sel f name} (hm : .leaf f ∈ sel) (h : InArguments f.arguments name) : InSelections fragments sel name
  | leafDirectives {sel f name} (hm : .leaf f ∈ sel) (h : InDirectives f.directives name) : InSelections fragments sel name
  | nodeArguments {sel f pos sub name} (hm : .node f pos sub ∈ sel) (h : InArguments f.arguments name) :
      InSelections fragments sel name
  | nodeDirectives {sel f pos sub name} (hm : .node f pos sub ∈ sel) (h : InDirectives f.directives name) :
      InSelections fragments sel name
  | node {sel f pos sub name} (hm : .node f pos sub ∈ sel) (h : InSelections fragments sub name) :
      InSelections fragments sel name
  | inlineDirectives {sel pos t ds sub name} (hm : .inline pos t ds sub ∈ sel) (h : InDirectives ds name) :
      InSelections fragments sel name
  | inline {sel pos t ds sub name} (hm : .inline pos t ds sub ∈ sel) (h : InSelections fragments sub name) :
      InSelections fragments sel name
  | spreadDirectives {sel pos g ds name} (hm : .spread pos g ds ∈ sel) (h : InDirectives ds name) :
      InSelections fragments sel name
  | spread {sel pos g ds fragment name} (hm : .spread pos g ds ∈ sel)
      (hf : fragments.find? (fun f => f.name == g) = some fragment) (h : InSelections fragments fragment.sub name) :
      InSelections fragments sel name

/-- The variable is written somewhere in the operation: in its selections, its directives, or in the default of a
variable. -/
def InOperation (fragments : List FragmentDef) (op : Operation) (name : Str) : Prop :=
  InSelections fragments op.sub name ∨ InDirectives op.directives name ∨
    ∃ d ∈ op.variables, ∃ l, d.default = some l ∧ InLit l name

/-- The grammar has no empty selection sets. -/
inductive NonEmpty : List Selection → Prop where
  | mk {sel} (h : sel ≠ []) (hn : ∀ f pos sub, .node f pos sub ∈ sel → NonEmpty sub)
      (hi : ∀ pos t ds sub, .inline pos t ds sub ∈ sel → NonEmpty sub) : NonEmpty sel

end Verif.Validation.Spec
