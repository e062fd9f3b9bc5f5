import Verif.Errors.Model

/-!
# Executable documents

The syntax tree of executable documents, as the visitors see it. PEGTL's generic `ast_node` with typed children
(`/repo/include/graphqlservice/internal/SyntaxTree.h:26-142`, grammar in `internal/Grammar.h`) is represented by one
inductive type per kind of node; children which the grammar makes optional are `Option`. Names are the text of the node.
-/
namespace Verif.Ast
open Verif.Value Verif.Errors

/-- Input values, Grammar.h (`input_value`). `int` is the number written, `float` the number `std::atof` gives for the
text, `string` the text `ast_node::unescaped_view` gives. -/
inductive Lit where
  | variable (pos : Loc) (name : Str)
  | int (n : Int)
  | float (d : Double)
  | string (s : Str)
  | boolean (b : Bool)
  | null
  | enumValue (s : Str)
  | list (xs : List Lit)
  | object (fields : List (Str × Lit))

/-- Arguments with their names; the grammar requires at least one when the parentheses are there. -/
abbrev Args := List (Str × Lit)

/-- `@name(arguments)` -/
structure Directive where
  name : Str
  arguments : Option Args := none

/-- A field without its selection set. -/
structure Field where
  pos : Loc
  alias : Option Str := none
  name : Str
  arguments : Option Args := none
  directives : Option (List Directive) := none

/-- Selections; `leaf` is a field without a selection set, `node` one with. -/
inductive Selection where
  | leaf (field : Field)
  | node (field : Field) (subPos : Loc) (sub : List Selection)
  | spread (pos : Loc) (name : Str) (directives : Option (List Directive))
  | inline (pos : Loc) (typeCondition : Option Str) (directives : Option (List Directive)) (sub : List Selection)

/-- `fragment name on typeCondition directives { sub }` -/
structure FragmentDef where
  pos : Loc
  name : Str
  typeCondition : Str
  directives : Option (List Directive) := none
  sub : List Selection

/-- A type reference, Grammar.h (`type_name`): a name, a list type or a non-null type. -/
inductive TypeRef where
  | named (name : Str)
  | list (of : TypeRef)
  | nonNull (of : TypeRef)

/-- `$name: type = default`; `name` is without the `$`. -/
structure VarDef where
  name : Str
  type : TypeRef
  default : Option Lit := none

/-- An operation. `type` is the keyword, if it is there (it is optional for `{ ... }`). -/
structure Operation where
  pos : Loc
  type : Option Str := none
  name : Option Str := none
  variables : List VarDef := []
  directives : Option (List Directive) := none
  sub : List Selection

/-- The definitions of a document; `other` are type system definitions and extensions. -/
inductive Definition where
  | operation (op : Operation)
  | fragment (f : FragmentDef)
  | other (pos : Loc)

/-- `peg::ast::root` -/
structure Document where
  definitions : List Definition

/-- `peg::for_each_child<peg::operation_definition>` -/
def Document.operations (d : Document) : List Operation :=
  d.definitions.filterMap fun | .operation op => some op | _ => none

/-- `peg::for_each_child<peg::fragment_definition>` -/
def Document.fragments (d : Document) : List FragmentDef :=
  d.definitions.filterMap fun | .fragment f => some f | _ => none

end Verif.Ast
