import Verif.Grammar.Tree
import Verif.Grammar.SyntaxSpec

/-!
# What the visitors read from the syntax tree

The accessors which the visitors of `/repo/src/GraphQLService.cpp` and `/repo/src/Validation.cpp` apply to the nodes of a
parse tree, collected as functions to the types of `Ast/Basic.lean`, on which the models of execution and validation work.
A function gives `none` where a visitor would use a child which is not there, or where no branch of it fits the node.

`pos` gives the line and the column for a node (`ast_node::begin`), `atof` is the function of the C library, `unescapeJ` is
PEGTL's. `std::atoi` of a number is the number here, its range is treated in the model of execution.
-/
namespace Verif.Peg
open Verif.Value Verif.Errors Verif.Ast

/-- `on_first_child<n>`, Grammar.h:49-61 -/
def firstChild (n : R) (cs : List (Node R)) : Option (Node R) := cs.find? (·.rule == n)

/-- `node.children.front()->string_view()` -/
def frontText (cs : List (Node R)) : Option Str := cs.head?.map Node.content

/-- What the functions need from outside. -/
structure Read where
  pos : Nat → Loc
  atof : Str → Double
  unescapeJ : Str → Str

variable (rd : Read)

/-! ## Values and directives -/

mutual
/-- `ValueVisitor::visit`, GraphQLService.cpp:217-334, and `ValidateArgumentValueVisitor::visit`,
Validation.cpp:114-263 -/
def litOf : Node R → Option Lit
  | .mk r l c cs =>
    match r with
    | .variable_value => some (.variable (rd.pos l) (c.drop 1))
    | .integer_value => some (.int (Text.intOf c))
    | .float_value => some (.float (rd.atof c))
    | .string_value => some (.string (unescaped rd.unescapeJ (.mk r l c cs)))
    | .true_keyword => some (.boolean true)
    | .false_keyword => some (.boolean false)
    | .null_keyword => some .null
    | .enum_value => some (.enumValue c)
    | .list_value => (litsOf cs).map .list
    | .object_value => (pairsOf cs).map .object
    | _ => none
/-- The loop of `visitListValue`, GraphQLService.cpp:315-319 -/
def litsOf : List (Node R) → Option (List Lit)
  | [] => some []
  | n :: ns =>
    match litOf n, litsOf ns with
    | some x, some xs => some (x :: xs)
    | _, _ => none
/-- The loops over object fields and arguments: the name is the first child, the value the last one,
GraphQLService.cpp:329-333 -/
def pairsOf : List (Node R) → Option (List (Str × Lit))
  | [] => some []
  | .mk _ _ _ cs :: ns =>
    match frontText cs, lastLit cs, pairsOf ns with
    | some n, some x, some xs => some ((n, x) :: xs)
    | _, _, _ => none
/-- `visit(*children.back())` -/
def lastLit : List (Node R) → Option Lit
  | [] => none
  | [n] => litOf n
  | _ :: n :: ns => lastLit (n :: ns)
end

/-- An optional child: `none` if there is none, otherwise what `f` gives for the first one. -/
def optChild {α : Type} (n : R) (f : Node R → Option α) (cs : List (Node R)) : Option (Option α) :=
  match firstChild n cs with
  | none => some none
  | some x => (f x).map some

/-- The arguments of a field or a directive, GraphQLService.cpp:380-391, 895-904 -/
def argsOf (cs : List (Node R)) : Option (Option Args) := optChild .arguments (fun x => pairsOf rd x.children) cs

/-- One directive, GraphQLService.cpp:364-394 -/
def directiveOf (x : Node R) : Option Directive :=
  match (firstChild .directive_name x.children).map Node.content, argsOf rd x.children with
  | some n, some a => some ⟨n, a⟩
  | _, _ => none

/-- `on_first_child<directives>` and `DirectiveVisitor::visit`, GraphQLService.cpp:360-397 -/
def directivesOf (cs : List (Node R)) : Option (Option (List Directive)) :=
  optChild .directives (fun x => x.children.mapM (directiveOf rd)) cs

/-! ## Types and variables -/

mutual
/-- `ValidateVariableTypeVisitor::visit`, Validation.cpp:289-348 -/
def typeOf : Node R → Option TypeRef
  | .mk r _ c cs =>
    match r with
    | .named_type => some (.named c)
    | .list_type => (frontType cs).map .list
    | .nonnull_type => (frontType cs).map .nonNull
    | _ => none
/-- `visit(*children.front())` -/
def frontType : List (Node R) → Option TypeRef
  | [] => none
  | n :: _ => typeOf n
end

/-- The children of a variable definition, Validation.cpp:651-743 and GraphQLService.cpp:1318-1347 (which uses
the first child of the default value: there is only one): the type is the child with one of the three kinds of
types. -/
def varOf (x : Node R) : Option VarDef :=
  match (firstChild .variable_name x.children).map Node.content,
    (x.children.find? fun y => y.rule == .named_type || y.rule == .list_type || y.rule == .nonnull_type).bind typeOf,
    optChild .default_value (fun y => lastLit rd y.children) x.children with
  | some n, some t, some d => some ⟨n.drop 1, t, d⟩
  | _, _, _ => none

/-! ## Selections -/

/-- The children of a field, GraphQLService.cpp:836-904 -/
def fieldOf (l : Nat) (cs : List (Node R)) : Option Field :=
  match (firstChild .field_name cs).map Node.content, argsOf rd cs, directivesOf rd cs with
  | some n, some a, some d => some ⟨rd.pos l, (firstChild .alias_name cs).map Node.content, n, a, d⟩
  | _, _, _ => none

mutual
/-- `SelectionVisitor::visit`, GraphQLService.cpp:821-835, 836-911, 976-1001, 1055-1083 -/
def selOf : Node R → Option Selection
  | .mk r l _ cs =>
    match r with
    | .field =>
      match fieldOf rd l cs, subOf cs with
      | some f, some none => some (.leaf f)
      | some f, some (some (p, sub)) => some (.node f p sub)
      | _, _ => none
    | .fragment_spread =>
      match frontText cs, directivesOf rd cs with
      | some n, some d => some (.spread (rd.pos l) n d)
      | _, _ => none
    | .inline_fragment =>
      match optChild .type_condition (fun x => frontText x.children) cs, directivesOf rd cs, subOf cs with
      | some c, some d, some (some (_, sub)) => some (.inline (rd.pos l) c d sub)
      | _, _, _ => none
    | _ => none
/-- The loop over the children of a selection set, GraphQLService.cpp:1047-1050 -/
def selsOf : List (Node R) → Option (List Selection)
  | [] => some []
  | n :: ns =>
    match selOf n, selsOf ns with
    | some x, some xs => some (x :: xs)
    | _, _ => none
/-- `on_first_child<selection_set>`: its place and its selections, GraphQLService.cpp:906-910 -/
def subOf : List (Node R) → Option (Option (Loc × List Selection))
  | [] => some none
  | .mk r l _ cs :: ns =>
    if r = .selection_set then (selsOf cs).map fun xs => some (rd.pos l, xs) else subOf ns
end

/-! ## Definitions -/

/-- An operation, GraphQLService.cpp:1318-1389, 1656-1667 and Validation.cpp:637-778: the selection set is the last child. -/
def operationOf (l : Nat) (cs : List (Node R)) : Option Operation :=
  match (cs.filter (·.rule == .«variable»)).mapM (varOf rd), directivesOf rd cs,
    cs.getLast?.bind fun x => selsOf rd x.children with
  | some v, some d, some sub => some
    { pos := rd.pos l, type := (firstChild .operation_type cs).map Node.content,
      name := (firstChild .operation_name cs).map Node.content, «variables» := v, directives := d, sub := sub }
  | _, _, _ => none

/-- A fragment definition, GraphQLService.cpp:476-488, 1253-1257 and Validation.cpp:595-604: the name is the first child,
the type condition the second and the selection set the last one. -/
def fragmentOf (l : Nat) (cs : List (Node R)) : Option FragmentDef :=
  match frontText cs, cs[1]?.bind (fun x => frontText x.children), directivesOf rd cs,
    cs.getLast?.bind fun x => selsOf rd x.children with
  | some n, some c, some d, some sub => some
    { pos := rd.pos l, name := n, typeCondition := c, directives := d, sub := sub }
  | _, _, _, _ => none

/-- The children of the root, by `for_each_child`, Grammar.h:25-35, Validation.cpp:476-510,
GraphQLService.cpp:1652-1668, 1694-1697 -/
def definitionOf : Node R → Option Definition
  | .mk r l _ cs =>
    match r with
    | .operation_definition => (operationOf rd l cs).map .operation
    | .fragment_definition => (fragmentOf rd l cs).map .fragment
    | _ => some (.other (rd.pos l))

/-- The document of a parse tree. -/
def documentOf (cs : List (Node R)) : Option Document := (cs.mapM (definitionOf rd)).map fun ds => ⟨ds⟩

end Verif.Peg
