import Verif.Gen.Order

/-!
# Loading a schema document

Models the visitors of `SchemaLoader` (`/repo/src/SchemaLoader.cpp:166-171, 552-1033, 1070-1209`) and
`DefaultValueVisitor` (`/repo/src/GeneratorLoader.cpp:63-167`).
-/
namespace Verif.Gen
open Verif.Value Verif.Resp Verif.Ast Verif.Modifiers

/-! ## Default values -/

mutual
/-- `DefaultValueVisitor::visit`, GeneratorLoader.cpp:63-167. `atoi` is `std::atoi` on the text of an integer. A variable is
a `variable_value` node, for which there is no case (the last one is for `variable`, which is part of a variable
definition), so that the value stays null. -/
def defaultValue (atoi : Int → Int) : Lit → Resp
  | .variable _ _ => .null
  | .int n => .int (atoi n)
  | .float d => .float d
  | .string s => .string s false
  | .boolean b => .boolean b
  | .null => .null
  | .enumValue s => .enumValue s
  | .list xs => .list (defaultList atoi xs [])
  | .object fields => .map (defaultObject atoi fields [])
/-- The loop of `visitListValue`, GeneratorLoader.cpp:145-151 -/
def defaultList (atoi : Int → Int) : List Lit → List Resp → List Resp
  | [], acc => acc
  | x :: xs, acc => defaultList atoi xs (acc ++ [defaultValue atoi x])
/-- The loop of `visitObjectValue`, GeneratorLoader.cpp:159-165 -/
def defaultObject (atoi : Int → Int) : List (Str × Lit) → Members → Members
  | [], acc => acc
  | (name, x) :: xs, acc => defaultObject atoi xs (acc.emplace name (defaultValue atoi x))
end

/-! ## Fields -/

/-- The field, SchemaLoader.cpp:1156-1190. -/
def inputFieldOf (atoi : Int → Int) (d : InputValueDef) : InputField where
  type := (getType d.type).1
  name := d.name
  modifiers := (getType d.type).2
  description := d.description
  defaultValueString := match d.default with | some v => v.text | none => []
  defaultValue := match d.default with | some v => defaultValue atoi v.value | none => .null

/-- One turn of the loop of `SchemaLoader::getInputFields`, SchemaLoader.cpp:1154-1206. -/
def getInputField (atoi : Int → Int) (d : InputValueDef) : Except LoadError InputField :=
  let field := inputFieldOf atoi d
  if field.defaultValueString ≠ [] ∧ field.defaultValue.type = .null ∧ field.modifiers.head? ≠ some .nullable then
    .error (.nullDefault field.name)
  else .ok field

/-- `SchemaLoader::getInputFields`, SchemaLoader.cpp:1150-1209 -/
def getInputFields (atoi : Int → Int) : List InputValueDef → Except LoadError (List InputField)
  | [] => .ok []
  | d :: ds =>
    match getInputField atoi d with
    | .error e => .error e
    | .ok field =>
      match getInputFields atoi ds with
      | .error e => .error e
      | .ok fields => .ok (field :: fields)

/-- `on_first_child<arguments>`, `on_first_child<argument>`, then the value if the argument is called `reason` and is a
string, SchemaLoader.cpp:1114-1133 and 894-913. -/
def reasonArgument (d : Directive) : Option Str :=
  match d.arguments with
  | some ((name, .string s) :: _) => if name = str "reason" then some s else none
  | _ => none

/-- The loop over the directives of a field, SchemaLoader.cpp:1099-1139. -/
def fieldDeprecation (directives : List Directive) : Option Str :=
  directives.foldl (fun reason d =>
    if d.name = str "deprecated" then some ((reasonArgument d).getD []) else reason) none

/-- The loop over the directives of an enum value, SchemaLoader.cpp:880-917: nothing is assigned without a `reason`. -/
def enumDeprecation (directives : List Directive) : Option Str :=
  directives.foldl (fun reason d =>
    if d.name = str "deprecated" then
      match reasonArgument d with
      | some s => some s
      | none => reason
    else reason) none

/-- One turn of the loop of `SchemaLoader::getOutputFields`, SchemaLoader.cpp:1074-1145. -/
def getOutputField (atoi : Int → Int) (d : FieldDef) : Except LoadError OutputField :=
  match getInputFields atoi d.arguments with
  | .error e => .error e
  | .ok arguments =>
    let type := getType d.type
    .ok { type := type.1, name := d.name, arguments := arguments, modifiers := type.2, description := d.description,
          deprecationReason := fieldDeprecation d.directives }

/-- `SchemaLoader::getOutputFields`, SchemaLoader.cpp:1070-1148 -/
def getOutputFields (atoi : Int → Int) : List FieldDef → Except LoadError (List OutputField)
  | [] => .ok []
  | d :: ds =>
    match getOutputField atoi d with
    | .error e => .error e
    | .ok field =>
      match getOutputFields atoi ds with
      | .error e => .error e
      | .ok fields => .ok (field :: fields)

/-- A value of an enum, SchemaLoader.cpp:863-921. -/
def getEnumValue (d : EnumValueDef) : EnumValueType :=
  { value := d.value, description := d.description, deprecationReason := enumDeprecation d.directives }

/-! ## Definitions -/

/-- `map[name] = value` -/
def assign {α : Type} (map : Str → Option α) (name : Str) (value : α) : Str → Option α :=
  fun n => if n = name then some value else map n

/-- `visitSchemaDefinition` and `visitSchemaExtension`, SchemaLoader.cpp:622-644 -/
def visitSchema (s : Loader) (operations : List (Str × Str)) : Loader :=
  { s with operationTypes := s.operationTypes ++ operations.map fun o => { type := o.2, operation := o.1 } }

/-- `SchemaLoader::visitObjectTypeExtension`, SchemaLoader.cpp:675-705 -/
def visitObjectExtension (atoi : Int → Int) (s : Loader) (name : Str) (interfaces : List Str) (fields : List FieldDef) :
    Except LoadError Loader :=
  match s.objectNames name with
  | none => .ok s
  | some i =>
    match getOutputFields atoi fields with
    | .error e => .error e
    | .ok fields =>
      .ok { s with
        objectTypes := s.objectTypes.modify i fun t =>
          { t with interfaces := t.interfaces ++ interfaces, fields := t.fields ++ fields } }

/-- `SchemaLoader::visitObjectTypeDefinition`, SchemaLoader.cpp:646-673 -/
def visitObject (atoi : Int → Int) (s : Loader) (description name : Str) (interfaces : List Str) (fields : List FieldDef) :
    Except LoadError Loader :=
  visitObjectExtension atoi
    { s with
      schemaTypes := assign s.schemaTypes name .object
      objectNames := assign s.objectNames name s.objectTypes.length
      objectTypes := s.objectTypes ++ [{ type := name, description := description }] }
    name interfaces fields

/-- `SchemaLoader::visitInterfaceTypeExtension`, SchemaLoader.cpp:736-762 -/
def visitInterfaceExtension (atoi : Int → Int) (s : Loader) (name : Str) (fields : List FieldDef) :
    Except LoadError Loader :=
  match s.interfaceNames name with
  | none => .ok s
  | some i =>
    match getOutputFields atoi fields with
    | .error e => .error e
    | .ok fields =>
      .ok { s with interfaceTypes := s.interfaceTypes.modify i fun t => { t with fields := t.fields ++ fields } }

/-- `SchemaLoader::visitInterfaceTypeDefinition`, SchemaLoader.cpp:707-734 -/
def visitInterface (atoi : Int → Int) (s : Loader) (description name : Str) (fields : List FieldDef) :
    Except LoadError Loader :=
  visitInterfaceExtension atoi
    { s with
      schemaTypes := assign s.schemaTypes name .interface
      interfaceNames := assign s.interfaceNames name s.interfaceTypes.length
      interfaceTypes := s.interfaceTypes ++ [{ type := name, description := description }] }
    name fields

/-- `SchemaLoader::visitInputObjectTypeExtension`, SchemaLoader.cpp:793-819 -/
def visitInputExtension (atoi : Int → Int) (s : Loader) (name : Str) (fields : List InputValueDef) :
    Except LoadError Loader :=
  match s.inputNames name with
  | none => .ok s
  | some i =>
    match getInputFields atoi fields with
    | .error e => .error e
    | .ok fields =>
      .ok { s with inputTypes := s.inputTypes.modify i fun t => { t with fields := t.fields ++ fields } }

/-- `SchemaLoader::visitInputObjectTypeDefinition`, SchemaLoader.cpp:764-791 -/
def visitInput (atoi : Int → Int) (s : Loader) (description name : Str) (fields : List InputValueDef) :
    Except LoadError Loader :=
  visitInputExtension atoi
    { s with
      schemaTypes := assign s.schemaTypes name .input
      inputNames := assign s.inputNames name s.inputTypes.length
      inputTypes := s.inputTypes ++ [{ type := name, description := description }] }
    name fields

/-- `SchemaLoader::visitEnumTypeExtension`, SchemaLoader.cpp:849-923 -/
def visitEnumExtension (s : Loader) (name : Str) (values : List EnumValueDef) : Loader :=
  match s.enumNames name with
  | none => s
  | some i =>
    { s with enumTypes := s.enumTypes.modify i fun t => { t with values := t.values ++ values.map getEnumValue } }

/-- `SchemaLoader::visitEnumTypeDefinition`, SchemaLoader.cpp:821-847 -/
def visitEnum (s : Loader) (description name : Str) (values : List EnumValueDef) : Loader :=
  visitEnumExtension
    { s with
      schemaTypes := assign s.schemaTypes name .enum
      enumNames := assign s.enumNames name s.enumTypes.length
      enumTypes := s.enumTypes ++ [{ type := name, description := description }] }
    name values

/-- `SchemaLoader::visitScalarTypeDefinition`, SchemaLoader.cpp:925-947 -/
def visitScalar (s : Loader) (description name : Str) : Loader :=
  { s with
    schemaTypes := assign s.schemaTypes name .scalar
    scalarNames := assign s.scalarNames name s.scalarTypes.length
    scalarTypes := s.scalarTypes ++ [{ type := name, description := description }] }

/-- `SchemaLoader::visitUnionTypeExtension`, SchemaLoader.cpp:977-996 -/
def visitUnionExtension (s : Loader) (name : Str) (options : List Str) : Loader :=
  match s.unionNames name with
  | none => s
  | some i => { s with unionTypes := s.unionTypes.modify i fun t => { t with options := t.options ++ options } }

/-- `SchemaLoader::visitUnionTypeDefinition`, SchemaLoader.cpp:949-975 -/
def visitUnion (s : Loader) (description name : Str) (options : List Str) : Loader :=
  visitUnionExtension
    { s with
      schemaTypes := assign s.schemaTypes name .union
      unionNames := assign s.unionNames name s.unionTypes.length
      unionTypes := s.unionTypes ++ [{ type := name, description := description }] }
    name options

/-- `SchemaLoader::visitDirectiveDefinition`, SchemaLoader.cpp:998-1033 -/
def visitDirective (atoi : Int → Int) (s : Loader) (description name : Str) (arguments : List InputValueDef)
    (locations : List Str) : Except LoadError Loader :=
  match getInputFields atoi arguments with
  | .error e => .error e
  | .ok arguments =>
    .ok { s with
      directives := s.directives ++
        [{ name := name, locations := locations, arguments := arguments, description := description }] }

/-- `SchemaLoader::visitDefinition`, SchemaLoader.cpp:552-620. There is no case for the extension of a scalar. -/
def visitDefinition (atoi : Int → Int) (s : Loader) : TypeDef → Except LoadError Loader
  | .schema operations => .ok (visitSchema s operations)
  | .schemaExtension operations => .ok (visitSchema s operations)
  | .scalar description name => .ok (visitScalar s description name)
  | .enum description name values => .ok (visitEnum s description name values)
  | .enumExtension name values => .ok (visitEnumExtension s name values)
  | .input description name fields => visitInput atoi s description name fields
  | .inputExtension name fields => visitInputExtension atoi s name fields
  | .union description name options => .ok (visitUnion s description name options)
  | .unionExtension name options => .ok (visitUnionExtension s name options)
  | .interface description name fields => visitInterface atoi s description name fields
  | .interfaceExtension name fields => visitInterfaceExtension atoi s name fields
  | .object description name interfaces fields => visitObject atoi s description name interfaces fields
  | .objectExtension name interfaces fields => visitObjectExtension atoi s name interfaces fields
  | .directive description name arguments locations => visitDirective atoi s description name arguments locations
  | .scalarExtension _ => .error .unexpectedDefinition
  | .executable => .error .unexpectedDefinition

/-- The loop over the definitions of the document, SchemaLoader.cpp:166-169. -/
def visitDefinitions (atoi : Int → Int) (s : Loader) : List TypeDef → Except LoadError Loader
  | [] => .ok s
  | d :: ds =>
    match visitDefinition atoi s d with
    | .error e => .error e
    | .ok s => visitDefinitions atoi s ds

end Verif.Gen
