import Verif.Gen.Data
import Verif.Schema.Identity

/-!
# The schema which is built from the loaded types

Models `RequestLoader::buildSchema` and `addTypesToSchema` of `/repo/src/RequestLoader.cpp`, the function
`AddTypesToSchema` which `schemagen` writes (`/repo/src/SchemaGenerator.cpp:854-1338`, 1607-1713; the calls which the written
code makes, not its text), and the one it has written for the introspection types, `/repo/src/IntrospectionSchema.cpp`.

All the calls of `schema::Schema` and the classes of types are recorded in order, see `Verif.Schema.Types`. The address of a
new object is any unused one: `ReaderT` has a function which chooses it, and the proofs are for all such functions.

Simplifications: the arguments of a call are evaluated in the order of the model (C++ leaves it open for the type and the
arguments of a field, which only matters for the addresses); the written code uses variables `typeName` in place of the maps.
-/
namespace Verif.Gen
open Verif.Value Verif.Errors Verif.Modifiers Verif.TypeSystem
open Verif.Schema.Wrap (Kind Addr)

/-- How building a schema can end other than with a schema. -/
inductive Crash where
  /-- `LookupType` throws. In `clientgen` the callers are `noexcept`, which ends the program. -/
  | exception (e : Exn)
  /-- a null pointer or the end of a map is used -/
  | undefined

/-- The calls so far, and the schema. -/
structure BuildState where
  ops : List Op := []
  schema : Schema := {}

abbrev Build (α : Type) : Type := ReaderT (List Op → Addr) (StateT BuildState (Except Crash)) α

/-- One call. -/
def call (op : Op) : Build Unit := modify fun st => { ops := st.ops ++ [op], schema := st.schema.apply op }

/-- The address of the next object. -/
def newAddr : Build Addr := do
  let alloc ← read
  let st ← get
  pure (alloc st.ops)

/-- `ScalarType::Make` and so on. -/
def makeType (k : Kind) (name description : Str) : Build Addr := do
  let a ← newAddr
  call (.make a k name description)
  pure a

/-- `Schema::WrapType` -/
def wrapType (k : Kind) (ofType : Addr) : Build Addr := do
  let fresh ← newAddr
  let st ← get
  call (.wrap fresh k ofType)
  pure (st.schema.wrapType k ofType fresh).2

/-- `Schema::LookupType` -/
def lookupType (name : Str) : Build Addr := do
  let st ← get
  match st.schema.lookupType name with
  | .ok a => pure a
  | .error e => throw (.exception e)

/-! ## Types of fields and arguments -/

/-- RequestLoader.cpp:578-593, 616-620 -/
def wrapNonNull (nonNull : Bool) (a : Addr) : Build Addr := if nonNull then wrapType .nonNull a else pure a

/-- The loop of `RequestLoader::getSchemaType`, RequestLoader.cpp:574-614, over the modifiers from the last to the first. -/
def schemaTypeLoop : List Mod → Addr → Bool → Build (Addr × Bool)
  | [], a, nonNull => pure (a, nonNull)
  | .list :: ms, a, nonNull => do
    let a ← wrapNonNull nonNull a
    let a ← wrapType .list a
    schemaTypeLoop ms a true
  | .nullable :: ms, a, _ => schemaTypeLoop ms a false

/-- `RequestLoader::getSchemaType`, RequestLoader.cpp:567-624, and the expressions of `getIntrospectionType`,
SchemaGenerator.cpp:1986-2057 (C41) -/
def getSchemaType (type : Str) (modifiers : List Mod) : Build Addr := do
  let a ← lookupType type
  let (a, nonNull) ← schemaTypeLoop modifiers.reverse a true
  wrapNonNull nonNull a

/-- `InputValue::Make`, RequestLoader.cpp:396-401, 444-449, 495-500, 535-540 -/
def inputValue (f : InputField) : Build InputValue := do
  let type ← getSchemaType f.type f.modifiers
  pure { name := f.name, description := f.description, type := type, defaultValue := f.defaultValueString }

/-- `Field::Make`, RequestLoader.cpp:437-456, 488-507 -/
def outputField (f : OutputField) : Build Field := do
  let arguments ← f.arguments.mapM inputValue
  let type ← getSchemaType f.type f.modifiers
  pure { name := f.name, description := f.description, deprecationReason := f.deprecationReason, type := type,
         args := arguments }

/-! ## Adding types -/

/-- `std::map<std::string_view, std::shared_ptr<...>>` -/
abbrev TypeMap := List (Str × Addr)

/-- `emplace`: a name which is there is kept. -/
def TypeMap.emplace (m : TypeMap) (n : Str) (a : Addr) : TypeMap :=
  match m.lookup n with
  | some _ => m
  | none => m ++ [(n, a)]

/-- `AddType(name, ScalarType::Make(...))`, RequestLoader.cpp:276-280 -/
def addScalar (t : ScalarType) : Build Unit := do
  let a ← makeType .scalar t.type t.description
  call (.addType t.type a)

/-- `emplace(name, Make(...))` and `AddType`, RequestLoader.cpp:287-295, 302-311, 318-327, 334-343, 350-359 -/
def declareType (k : Kind) (m : TypeMap) (t : Str × Str) : Build TypeMap := do
  let a ← makeType k t.1 t.2
  let m := m.emplace t.1 a
  call (.addType t.1 ((m.lookup t.1).getD a))
  pure m

/-- The types of a kind, with names and descriptions. -/
def declareTypes (k : Kind) (types : List (Str × Str)) : Build TypeMap := types.foldlM (declareType k) []

/-- RequestLoader.cpp:362-383 -/
def enumDetails (m : TypeMap) (t : EnumType) : Build Unit :=
  match m.lookup t.type with
  | some a =>
    if t.values.isEmpty then pure ()
    else call (.addEnumValues a (t.values.map fun v =>
      { name := v.value, description := v.description, deprecationReason := v.deprecationReason }))
  | none => pure ()

/-- RequestLoader.cpp:385-405 -/
def inputDetails (m : TypeMap) (t : InputType) : Build Unit :=
  match m.lookup t.type with
  | some a =>
    if t.fields.isEmpty then pure ()
    else do
      let fields ← t.fields.mapM inputValue
      call (.addInputValues a fields)
  | none => pure ()

/-- RequestLoader.cpp:407-424 -/
def unionDetails (m : TypeMap) (t : UnionType) : Build Unit :=
  if t.options.isEmpty then pure ()
  else do
    let options ← t.options.mapM lookupType
    match m.lookup t.type with
    | some a => call (.addPossibleTypes a options)
    | none => throw .undefined

/-- RequestLoader.cpp:426-460 -/
def interfaceDetails (m : TypeMap) (t : InterfaceType) : Build Unit :=
  if t.fields.isEmpty then pure ()
  else do
    let fields ← t.fields.mapM outputField
    match m.lookup t.type with
    | some a => call (.addFields a fields)
    | none => throw .undefined

/-- `interfaceTypes[interfaceName]`: a null pointer if there is none, which `AddInterfaces` uses. -/
def findInterface (interfaces : TypeMap) (n : Str) : Build Addr :=
  match interfaces.lookup n with
  | some a => pure a
  | none => throw .undefined

/-- The interfaces of an object, RequestLoader.cpp:464-479 and SchemaGenerator.cpp:1599-1634 -/
def objectInterfaces (m interfaces : TypeMap) (t : ObjectType) : Build Unit :=
  if t.interfaces.isEmpty then pure ()
  else do
    let is ← t.interfaces.mapM (findInterface interfaces)
    match m.lookup t.type with
    | some a => call (.addInterfaces a is)
    | none => throw .undefined

/-- The fields of an object, RequestLoader.cpp:481-510 and SchemaGenerator.cpp:1636-1711 -/
def objectFields (m : TypeMap) (t : ObjectType) : Build Unit :=
  if t.fields.isEmpty then pure ()
  else do
    let fields ← t.fields.mapM outputField
    match m.lookup t.type with
    | some a => call (.addFields a fields)
    | none => throw .undefined

/-- RequestLoader.cpp:462-511 -/
def objectDetails (m interfaces : TypeMap) (t : ObjectType) : Build Unit := do
  objectInterfaces m interfaces t
  objectFields m t

/-- `s_namesDirectiveLocation`, IntrospectionSchema.cpp:65-84 -/
def locationNames : List (Str × DirectiveLocation) :=
  [(str "QUERY", .query), (str "MUTATION", .mutation), (str "SUBSCRIPTION", .subscription), (str "FIELD", .field),
   (str "FRAGMENT_DEFINITION", .fragmentDefinition), (str "FRAGMENT_SPREAD", .fragmentSpread),
   (str "INLINE_FRAGMENT", .inlineFragment), (str "SCHEMA", .schema), (str "SCALAR", .scalar), (str "OBJECT", .object),
   (str "FIELD_DEFINITION", .fieldDefinition), (str "ARGUMENT_DEFINITION", .argumentDefinition),
   (str "INTERFACE", .interface), (str "UNION", .union), (str "ENUM", .enum), (str "ENUM_VALUE", .enumValue),
   (str "INPUT_OBJECT", .inputObject), (str "INPUT_FIELD_DEFINITION", .inputFieldDefinition)]

/-- `ModifiedArgument<DirectiveLocation>::convert`, IntrospectionSchema.cpp:87-102 -/
def directiveLocation (n : Str) : Build DirectiveLocation :=
  match locationNames.lookup n with
  | some l => pure l
  | none => throw (.exception (.message (str "not a valid __DirectiveLocation value")))

/-- RequestLoader.cpp:513-546 -/
def addDirective (d : DirectiveType) : Build Unit := do
  let locations ← d.locations.mapM directiveLocation
  let arguments ← d.arguments.mapM inputValue
  call (.addDirective { name := d.name, description := d.description, locations := locations, args := arguments })

/-- RequestLoader.cpp:548-564 -/
def addOperation (objects : TypeMap) (o : OperationType) : Build Unit :=
  if o.operation = str "query" then
    match objects.lookup o.type with
    | some a => call (.addQueryType a)
    | none => throw .undefined
  else if o.operation = str "mutation" then
    match objects.lookup o.type with
    | some a => call (.addMutationType a)
    | none => throw .undefined
  else if o.operation = str "subscription" then
    match objects.lookup o.type with
    | some a => call (.addSubscriptionType a)
    | none => throw .undefined
  else pure ()

/-- `RequestLoader::addTypesToSchema`, RequestLoader.cpp:272-565, and the written `AddTypesToSchema`,
SchemaGenerator.cpp:854-1338 (where descriptions are left out if there is no introspection, see `withoutDescriptions`) -/
def addTypes (l : Loader) : Build Unit := do
  l.scalarTypes.forM addScalar
  let enums ← declareTypes .enum (l.enumTypes.map fun t => (t.type, t.description))
  let inputs ← declareTypes .inputObject (l.inputTypes.map fun t => (t.type, t.description))
  let unions ← declareTypes .union (l.unionTypes.map fun t => (t.type, t.description))
  let interfaces ← declareTypes .interface (l.interfaceTypes.map fun t => (t.type, t.description))
  let objects ← declareTypes .object (l.objectTypes.map fun t => (t.type, t.description))
  l.enumTypes.forM (enumDetails enums)
  l.inputTypes.forM (inputDetails inputs)
  l.unionTypes.forM (unionDetails unions)
  l.interfaceTypes.forM (interfaceDetails interfaces)
  l.objectTypes.forM (objectDetails objects interfaces)
  l.directives.forM addDirective
  l.operationTypes.forM (addOperation objects)

/-! ## The introspection types -/

namespace Introspect

/-- A field or an argument with a type reference. -/
def output (name : String) (τ : Ast.TypeRef) (args : List InputField := []) : OutputField :=
  { type := (getType τ).1, modifiers := (getType τ).2, name := str name, arguments := args }

def input (name : String) (τ : Ast.TypeRef) (value : String := "") : InputField :=
  { type := (getType τ).1, modifiers := (getType τ).2, name := str name, defaultValueString := str value }

def named (n : String) : Ast.TypeRef := .named (str n)
def required (n : String) : Ast.TypeRef := .nonNull (.named (str n))
def list (n : String) : Ast.TypeRef := .list (.nonNull (.named (str n)))
def requiredList (n : String) : Ast.TypeRef := .nonNull (.list (.nonNull (.named (str n))))

def enum (name : String) (values : List String) : EnumType :=
  { type := str name, values := values.map fun v => { value := str v } }

/-- The types which `AddTypesToSchema` of `introspection` adds, IntrospectionSchema.cpp:591-715. -/
def types : Loader :=
  { scalarTypes := ["Boolean", "Float", "ID", "Int", "String"].map fun n =>
      { type := str n, description := str "Built-in type" }
    enumTypes :=
      [enum "__TypeKind" ["SCALAR", "OBJECT", "INTERFACE", "UNION", "ENUM", "INPUT_OBJECT", "LIST", "NON_NULL"],
       enum "__DirectiveLocation"
        ["QUERY", "MUTATION", "SUBSCRIPTION", "FIELD", "FRAGMENT_DEFINITION", "FRAGMENT_SPREAD", "INLINE_FRAGMENT",
         "SCHEMA", "SCALAR", "OBJECT", "FIELD_DEFINITION", "ARGUMENT_DEFINITION", "INTERFACE", "UNION", "ENUM",
         "ENUM_VALUE", "INPUT_OBJECT", "INPUT_FIELD_DEFINITION"]]
    objectTypes :=
      [{ type := str "__Schema"
         fields :=
          [output "types" (requiredList "__Type"), output "queryType" (required "__Type"),
           output "mutationType" (named "__Type"), output "subscriptionType" (named "__Type"),
           output "directives" (requiredList "__Directive")] },
       { type := str "__Type"
         fields :=
          [output "kind" (required "__TypeKind"), output "name" (named "String"), output "description" (named "String"),
           output "fields" (list "__Field") [input "includeDeprecated" (named "Boolean") "false"],
           output "interfaces" (list "__Type"), output "possibleTypes" (list "__Type"),
           output "enumValues" (list "__EnumValue") [input "includeDeprecated" (named "Boolean") "false"],
           output "inputFields" (list "__InputValue"), output "ofType" (named "__Type")] },
       { type := str "__Field"
         fields :=
          [output "name" (required "String"), output "description" (named "String"),
           output "args" (requiredList "__InputValue"), output "type" (required "__Type"),
           output "isDeprecated" (required "Boolean"), output "deprecationReason" (named "String")] },
       { type := str "__InputValue"
         fields :=
          [output "name" (required "String"), output "description" (named "String"), output "type" (required "__Type"),
           output "defaultValue" (named "String")] },
       { type := str "__EnumValue"
         fields :=
          [output "name" (required "String"), output "description" (named "String"),
           output "isDeprecated" (required "Boolean"), output "deprecationReason" (named "String")] },
       { type := str "__Directive"
         fields :=
          [output "name" (required "String"), output "description" (named "String"),
           output "locations" (requiredList "__DirectiveLocation"), output "args" (requiredList "__InputValue")] }]
    directives :=
      [{ name := str "skip", locations := [str "FIELD", str "FRAGMENT_SPREAD", str "INLINE_FRAGMENT"],
         arguments := [input "if" (required "Boolean")] },
       { name := str "include", locations := [str "FIELD", str "FRAGMENT_SPREAD", str "INLINE_FRAGMENT"],
         arguments := [input "if" (required "Boolean")] },
       { name := str "deprecated", locations := [str "FIELD_DEFINITION", str "ENUM_VALUE"],
         arguments := [input "reason" (named "String") "\"No longer supported\""] }] }

end Introspect

/-- The schema in the end. -/
def finished : Except Crash (Unit × BuildState) → Except Crash Schema
  | .ok (_, st) => .ok st.schema
  | .error c => .error c

/-- `RequestLoader::buildSchema`, RequestLoader.cpp:265-270: the schema it ends with. `alloc` chooses the addresses of new
objects. -/
def buildSchema (alloc : List Op → Addr) (l : Loader) : Except Crash Schema :=
  finished ((do addTypes Introspect.types; addTypes l : Build Unit) alloc {})

/-- The loaded types without descriptions. -/
def withoutDescriptions (l : Loader) : Loader :=
  { l with
    scalarTypes := l.scalarTypes.map fun t => { t with description := [] }
    enumTypes := l.enumTypes.map fun t =>
      { t with description := [], values := t.values.map fun v => { v with description := [] } }
    inputTypes := l.inputTypes.map fun t =>
      { t with description := [], fields := t.fields.map fun f => { f with description := [] } }
    unionTypes := l.unionTypes.map fun t => { t with description := [] }
    interfaceTypes := l.interfaceTypes.map fun t =>
      { t with
        description := []
        fields := t.fields.map fun f =>
          { f with description := [], arguments := f.arguments.map fun a => { a with description := [] } } }
    objectTypes := l.objectTypes.map fun t =>
      { t with
        description := []
        fields := t.fields.map fun f =>
          { f with description := [], arguments := f.arguments.map fun a => { a with description := [] } } }
    directives := l.directives.map fun d =>
      { d with description := [], arguments := d.arguments.map fun a => { a with description := [] } } }

/-- The written `GetSchema`, SchemaGenerator.cpp:1342-1363. -/
def generatedSchema (noIntrospection : Bool) (alloc : List Op → Addr) (l : Loader) : Except Crash Schema :=
  buildSchema alloc (if noIntrospection then withoutDescriptions l else l)

end Verif.Gen
