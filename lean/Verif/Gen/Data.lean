import Verif.Gen.Types
import Verif.Exec.Model

/-!
# Schema documents, and what `SchemaLoader` keeps of them

Models the data of `/repo/include/SchemaLoader.h`. Left out everywhere: the C++ names (`cppType`, `cppName`, `cppValue`),
which are `getSafeCppName` of the GraphQL name (`Verif.Gen.Names`), and positions, which only go into error messages.
`std::string_view` is its text; of a `std::unordered_set` only membership is used, so it is a list.
-/
namespace Verif.Gen
open Verif.Value Verif.Resp Verif.Ast Verif.Modifiers

/-! ## Schema documents

The syntax tree of type system definitions and extensions, as the loader sees it: PEGTL's generic `ast_node` with typed
children (grammar in `internal/Grammar.h:539-1158`) is represented by one type per kind of node. `description` is the
`unescaped_view` of the string, empty if there is none. -/

/-- A default value and its text. -/
structure DefaultValue where
  value : Lit
  text : Str

/-- An argument, or a field of an input object. (Its directives are not looked at.) -/
structure InputValueDef where
  description : Str := []
  name : Str
  type : TypeRef
  default : Option DefaultValue := none

/-- A field of an object or an interface. -/
structure FieldDef where
  description : Str := []
  name : Str
  arguments : List InputValueDef := []
  type : TypeRef
  directives : List Ast.Directive := []

/-- A value of an enum. -/
structure EnumValueDef where
  description : Str := []
  value : Str
  directives : List Ast.Directive := []

/-- The definitions and extensions of a schema document. Directives of types are not looked at. -/
inductive TypeDef where
  | schema (operations : List (Str × Str))
  | schemaExtension (operations : List (Str × Str))
  | scalar (description name : Str)
  | scalarExtension (name : Str)
  | object (description name : Str) (interfaces : List Str) (fields : List FieldDef)
  | objectExtension (name : Str) (interfaces : List Str) (fields : List FieldDef)
  | interface (description name : Str) (fields : List FieldDef)
  | interfaceExtension (name : Str) (fields : List FieldDef)
  | union (description name : Str) (options : List Str)
  | unionExtension (name : Str) (options : List Str)
  | enum (description name : Str) (values : List EnumValueDef)
  | enumExtension (name : Str) (values : List EnumValueDef)
  | input (description name : Str) (fields : List InputValueDef)
  | inputExtension (name : Str) (fields : List InputValueDef)
  | directive (description name : Str) (arguments : List InputValueDef) (locations : List Str)
  | executable

/-! ## Loaded types -/

/-- `s_builtinTypes`, SchemaLoader.cpp:19-25. -/
def builtinTypes : List Str := [str "Int", str "Float", str "String", str "Boolean", str "ID"]

/-- `SchemaType`, GeneratorLoader.h:14-23; `Operation` is not used. -/
inductive SchemaType where
  | scalar | enum | input | union | interface | object
deriving DecidableEq

/-- `ScalarType`, SchemaLoader.h:47-51. -/
structure ScalarType where
  type : Str
  description : Str := []

/-- `EnumValueType`, SchemaLoader.h:56-63. -/
structure EnumValueType where
  value : Str
  description : Str := []
  deprecationReason : Option Str := none

/-- `EnumType`, SchemaLoader.h:65-71. -/
structure EnumType where
  type : Str
  values : List EnumValueType := []
  description : Str := []

/-- `InputFieldType`, SchemaLoader.h:78-84. -/
inductive InputFieldType where
  | builtin | scalar | enum | input
deriving DecidableEq

/-- `InputField`, SchemaLoader.h:86-97. -/
structure InputField where
  type : Str
  name : Str
  defaultValueString : Str := []
  defaultValue : Resp := .null
  fieldType : InputFieldType := .builtin
  modifiers : List Mod := []
  description : Str := []

/-- `InputType`, SchemaLoader.h:101-108. -/
structure InputType where
  type : Str
  fields : List InputField := []
  description : Str := []
  dependencies : List Str := []

/-- `Directive`, SchemaLoader.h:113-119. -/
structure DirectiveType where
  name : Str
  locations : List Str := []
  arguments : List InputField := []
  description : Str := []

/-- `UnionType`, SchemaLoader.h:124-130. -/
structure UnionType where
  type : Str
  options : List Str := []
  description : Str := []

/-- `OutputFieldType`, SchemaLoader.h:138-146. -/
inductive OutputFieldType where
  | builtin | scalar | enum | union | interface | object
deriving DecidableEq

/-- `OutputField`, SchemaLoader.h:151-165. `accessor` is `strGet` (148) or `strApply` (149). -/
structure OutputField where
  type : Str
  name : Str
  arguments : List InputField := []
  fieldType : OutputFieldType := .builtin
  modifiers : List Mod := []
  description : Str := []
  deprecationReason : Option Str := none
  interfaceField : Bool := false
  inheritedField : Bool := false
  accessor : Str := str "get"

/-- `InterfaceType`, SchemaLoader.h:173-179. -/
structure InterfaceType where
  type : Str
  fields : List OutputField := []
  description : Str := []

/-- `ObjectType`, SchemaLoader.h:185-193. -/
structure ObjectType where
  type : Str
  interfaces : List Str := []
  unions : List Str := []
  fields : List OutputField := []
  description : Str := []

/-- `OperationType`, SchemaLoader.h:198-203. -/
structure OperationType where
  type : Str
  operation : Str
deriving DecidableEq

/-- The members of `SchemaLoader`, SchemaLoader.h:299-315; maps are functions. -/
structure Loader where
  schemaTypes : Str → Option SchemaType := fun _ => none
  scalarNames : Str → Option Nat := fun _ => none
  scalarTypes : List ScalarType := []
  enumNames : Str → Option Nat := fun _ => none
  enumTypes : List EnumType := []
  inputNames : Str → Option Nat := fun _ => none
  inputTypes : List InputType := []
  unionNames : Str → Option Nat := fun _ => none
  unionTypes : List UnionType := []
  interfaceNames : Str → Option Nat := fun _ => none
  interfaceTypes : List InterfaceType := []
  objectNames : Str → Option Nat := fun _ => none
  objectTypes : List ObjectType := []
  directives : List DirectiveType := []
  operationTypes : List OperationType := []

/-- The exceptions of the loader, without the positions and words of the messages. -/
inductive LoadError where
  | builtinOverridden
  | unknownFieldType (type : Str)
  | invalidFieldType (type : Str)
  | unknownArgumentType (type : Str)
  | invalidArgumentType (type : Str)
  | nullDefault (field : Str)
  | cycle (type : Str)
  | unexpectedDefinition
  | unknownOperationType (type operation : Str)
  | queryUndefined
  | introspectionOperations
  | unknownInterface (interface type : Str)
  | unknownOption (object union : Str)
deriving DecidableEq

end Verif.Gen
