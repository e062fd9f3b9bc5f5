import Verif.Grammar.Ast
import Verif.Grammar.Strings
import Verif.Gen.Data

/-!
# What `schemagen` reads from the syntax tree

The accessors which `SchemaLoader` (`/repo/src/SchemaLoader.cpp`) applies to the nodes of the tree of a schema document,
collected as functions to the definitions of `Gen/Data.lean`, on which the model of the loader works. A function gives
`none` where the loader would use a child which is not there, or where no branch of it fits the node.
-/
namespace Verif.Peg
open Verif.Value Verif.Errors Verif.Gen
open Verif.Ast (TypeRef)

/-- The last child of the kind: what is left of the loops of `getOutputFields` and `getInputFields`, SchemaLoader.cpp:1079-1140,
1160-1187, which assign once for every child of a kind. -/
def lastChild (n : R) (cs : List (Node R)) : Option (Node R) := firstChild n cs.reverse

/-- The kinds of types. -/
def isTypeNode (x : Node R) : Bool := x.rule == .named_type || x.rule == .list_type || x.rule == .nonnull_type

variable (rd : Read)

/-- `on_first_child<description>`, SchemaLoader.cpp:656-662, 717-723, 774-780, 830-836, 871-878, 935-941, 958-964,
1007-1013; without a description the text is empty. -/
def descriptionOf (cs : List (Node R)) : Str :=
  match firstChild .description cs with
  | none => []
  | some x => descriptionText rd.unescapeJ x

/-- The description in the loops of `getOutputFields` and `getInputFields`, SchemaLoader.cpp:1096-1099, 1183-1186. (There
is at most one, so that the test whether it is empty makes no difference.) -/
def lastDescription (cs : List (Node R)) : Str := descriptionOf rd cs.reverse

/-- The default value of an argument, SchemaLoader.cpp:1171-1182 -/
def defaultOf (y : Node R) : Option DefaultValue :=
  match lastLit rd y.children, y.children.getLast? with
  | some v, some z => some ⟨v, z.content⟩
  | _, _ => none

/-- One argument or input field, SchemaLoader.cpp:1154-1189 -/
def inputValueOf (x : Node R) : Option InputValueDef :=
  match (lastChild .argument_name x.children).map Node.content, (x.children.reverse.find? isTypeNode).bind typeOf,
    optChild .default_value (defaultOf rd) x.children.reverse with
  | some n, some t, some d =>
    some { description := lastDescription rd x.children, name := n, type := t, default := d }
  | _, _, _ => none

/-- `getInputFields`, SchemaLoader.cpp:1150-1209. (The check of the default value is part of the loader.) -/
def inputValuesOf (cs : List (Node R)) : Option (List InputValueDef) := cs.mapM (inputValueOf rd)

/-- The directives of a field or an enum value, SchemaLoader.cpp:880-913, 1100-1140 (which looks only at `deprecated`): the
loader looks at the directives which are read here. -/
def defDirectivesOf (cs : List (Node R)) : Option (List Ast.Directive) :=
  match directivesOf rd cs with
  | some (some ds) => some ds
  | some none => some []
  | none => none

/-- One field, SchemaLoader.cpp:1074-1144 -/
def fieldDefOf (x : Node R) : Option FieldDef :=
  match (lastChild .field_name x.children).map Node.content, (x.children.reverse.find? isTypeNode).bind typeOf,
    optChild .arguments_definition (fun y => inputValuesOf rd y.children) x.children.reverse,
    defDirectivesOf rd x.children.reverse with
  | some n, some t, some a, some ds => some
    { description := lastDescription rd x.children, name := n, arguments := a.getD [], type := t, directives := ds }
  | _, _, _, _ => none

/-- `on_first_child<fields_definition>` and `getOutputFields`, SchemaLoader.cpp:694-703, 751-760, 1070-1148 -/
def fieldsOf (cs : List (Node R)) : Option (List FieldDef) :=
  (optChild .fields_definition (fun y => y.children.mapM (fieldDefOf rd)) cs).map (·.getD [])

/-- `on_first_child<input_fields_definition>`, SchemaLoader.cpp:808-817 -/
def inputFieldsOf (cs : List (Node R)) : Option (List InputValueDef) :=
  (optChild .input_fields_definition (fun y => inputValuesOf rd y.children) cs).map (·.getD [])

/-- One enum value, SchemaLoader.cpp:862-921 -/
def enumValueOf (x : Node R) : Option EnumValueDef :=
  match (firstChild .enum_value x.children).map Node.content, defDirectivesOf rd x.children with
  | some n, some ds => some { description := descriptionOf rd x.children, value := n, directives := ds }
  | _, _ => none

/-- The operation types of a schema definition or extension, SchemaLoader.cpp:624-632, 636-644: first and last child. -/
def rootOf (x : Node R) : Option (Str × Str) :=
  match x.children.head?, x.children.getLast? with
  | some y, some z => some (y.content, z.content)
  | _, _ => none

/-- `for_each_child<n>` -/
def childrenOf (n : R) (cs : List (Node R)) : List (Node R) := cs.filter (·.rule == n)

/-- `on_first_child` of the name of a definition. -/
def nameOf (n : R) (cs : List (Node R)) : Option Str := (firstChild n cs).map Node.content

/-- `visitDefinition` and the functions which it calls, SchemaLoader.cpp:552-1033. (The extension of a scalar falls to the
branch for executable definitions there, as it does in the model of the loader.) -/
def typeDefOf : Node R → Option TypeDef
  | .mk r _ _ cs =>
    match r with
    | .schema_definition => ((childrenOf .root_operation_definition cs).mapM rootOf).map .schema
    | .schema_extension => ((childrenOf .operation_type_definition cs).mapM rootOf).map .schemaExtension
    | .scalar_type_definition => (nameOf .scalar_name cs).map (.scalar (descriptionOf rd cs))
    | .scalar_type_extension => (nameOf .scalar_name cs).map .scalarExtension
    | .object_type_definition =>
      match nameOf .object_name cs, fieldsOf rd cs with
      | some n, some fs => some (.object (descriptionOf rd cs) n ((childrenOf .interface_type cs).map Node.content) fs)
      | _, _ => none
    | .object_type_extension =>
      match nameOf .object_name cs, fieldsOf rd cs with
      | some n, some fs => some (.objectExtension n ((childrenOf .interface_type cs).map Node.content) fs)
      | _, _ => none
    | .interface_type_definition =>
      match nameOf .interface_name cs, fieldsOf rd cs with
      | some n, some fs => some (.interface (descriptionOf rd cs) n fs)
      | _, _ => none
    | .interface_type_extension =>
      match nameOf .interface_name cs, fieldsOf rd cs with
      | some n, some fs => some (.interfaceExtension n fs)
      | _, _ => none
    | .union_type_definition =>
      (nameOf .union_name cs).map fun n => .union (descriptionOf rd cs) n ((childrenOf .union_type cs).map Node.content)
    | .union_type_extension =>
      (nameOf .union_name cs).map fun n => .unionExtension n ((childrenOf .union_type cs).map Node.content)
    | .enum_type_definition =>
      match nameOf .enum_name cs, (childrenOf .enum_value_definition cs).mapM (enumValueOf rd) with
      | some n, some vs => some (.enum (descriptionOf rd cs) n vs)
      | _, _ => none
    | .enum_type_extension =>
      match nameOf .enum_name cs, (childrenOf .enum_value_definition cs).mapM (enumValueOf rd) with
      | some n, some vs => some (.enumExtension n vs)
      | _, _ => none
    | .input_object_type_definition =>
      match nameOf .object_name cs, inputFieldsOf rd cs with
      | some n, some fs => some (.input (descriptionOf rd cs) n fs)
      | _, _ => none
    | .input_object_type_extension =>
      match nameOf .object_name cs, inputFieldsOf rd cs with
      | some n, some fs => some (.inputExtension n fs)
      | _, _ => none
    | .directive_definition =>
      match nameOf .directive_name cs,
        optChild .arguments_definition (fun y => inputValuesOf rd y.children) cs with
      | some n, some a => some (.directive (descriptionOf rd cs) n (a.getD [])
          ((childrenOf .directive_location cs).map Node.content))
      | _, _ => none
    | _ => some .executable

/-- The children of the root of the tree, SchemaLoader.cpp:166-169. -/
def schemaOf (cs : List (Node R)) : Option (List TypeDef) := cs.mapM (typeDefOf rd)

end Verif.Peg
