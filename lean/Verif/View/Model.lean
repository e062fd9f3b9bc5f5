import Verif.Schema.Identity
import Verif.Ast.Basic

/-!
# What the validator knows about the schema

Models the parts of `/repo/src/Validation.cpp` which read the schema (`schema::Schema` and its types, see
`Verif.Schema.Types`): the constructor of `ValidateExecutableVisitor`, `getArguments`, `getScopedTypeFields`,
`getInputTypeFields`, `getFieldType`, `matchesScopedType` and `ValidateVariableTypeVisitor`, with the tables and the caches
they fill. `Verif.Validation.Model` has the rest of the validator, where a type is the reference which describes it and
there are no tables; here a type is the address of its object.

* The pointers in the vectors of fields, arguments and enum values are not null (`Make` never gives null), so the tests for
  null are left out.
* A type which a `ValidateType` refers to is alive (see `Verif.Schema.Types`).
* `WrapType` of a null pointer (for a variable with a list of an unknown type) is left out: the wrapper is kept in the schema
  under the null pointer, where no type is looked up, and the variable is reported and not used (Validation.cpp:689-706).
-/
namespace Verif.View
open Verif.Value Verif.Errors Verif.SortedMap Verif.TypeSystem
open Verif.Ast (TypeRef)

/-- `ValidateType`, Validation.h:15; two of them are equal if the addresses are, Validation.cpp:30-35. -/
abbrev ValidateType := Option Addr

/-- `getValidateType(pointer.lock())`, Validation.cpp:25-28. -/
def lock (s : Schema) (a : Addr) : ValidateType := if (s.store a).isSome then some a else none

/-- `ValidateArgument`, Validation.h:21-26. -/
structure Argument where
  defaultValue : Bool := false
  nonNullDefaultValue : Bool := false
  type : ValidateType := none

/-- `ValidateTypeField`, Validation.h:30-34. -/
structure TypeField where
  returnType : ValidateType := none
  arguments : SMap Str Argument := []

/-- `ValidateDirective`, Validation.h:38-42. -/
structure DirectiveEntry where
  locations : List DirectiveLocation := []
  arguments : SMap Str Argument := []

/-- The members of `ValidateExecutableVisitor` which are about the schema, Validation.h:234-239, 254-255, and the schema
itself, with `supportsIntrospection()`, Schema.cpp:38-41. -/
structure Validator where
  schema : Schema
  introspection : Bool
  operationTypes : SMap Str ValidateType := []
  types : SMap Str ValidateType := []
  directives : SMap Str DirectiveEntry := []
  enumValues : SMap Str (List Str) := []
  matchingTypes : SMap Str (List Str) := []
  scalarTypes : List Str := []
  typeFields : SMap Str (SMap Str TypeField) := []
  inputTypeFields : SMap Str (SMap Str Argument) := []

/-- `map[key] = value` of a `string_view_map`. -/
def assign {V : Type} (dflt : V) (m : SMap Str V) (key : Str) (value : V) : SMap Str V :=
  (index nameCmp dflt m key fun _ => value).1

/-- `map.find(key)`, the value. -/
def get {V : Type} (m : SMap Str V) (key : Str) : Option V := (find nameCmp m key).map (·.2)

/-- `isScalarType`, Validation.cpp:865-877. -/
def isScalarType : Kind → Bool
  | .object | .interface | .union => false
  | _ => true

/-- `std::less<introspection::DirectiveLocation>` -/
def locationLess (a b : DirectiveLocation) : Bool := decide (a.ctorIdx < b.ctorIdx)

/-- One iteration of `getArguments`, Validation.cpp:852-859. -/
def argument (s : Schema) (arg : InputValue) : Argument where
  defaultValue := !arg.defaultValue.isEmpty
  nonNullDefaultValue := !arg.defaultValue.isEmpty && arg.defaultValue != str "null"
  type := lock s arg.type

/-- `getArguments`, Validation.cpp:840-863. -/
def getArguments (s : Schema) (args : List InputValue) : SMap Str Argument :=
  args.foldl (fun result arg => assign {} result arg.name (argument s arg)) []

/-! ## The constructor -/

/-- The loop over the possible types, Validation.cpp:408-416. -/
def addPossible (s : Schema) (matching : List Str) (possible : Addr) : List Str :=
  match s.store possible with
  | some t => (setEmplace nameCmp matching t.name).1
  | none => matching

/-- The tables of one type, Validation.cpp:389-449. -/
def addTypeEntry (v : Validator) (entry : Str × Addr) : Validator :=
  match v.schema.store entry.2 with
  | none => v  -- not possible: the types are alive
  | some t =>
    let v :=
      if !isScalarType t.kind then
        let r := index nameCmp [] v.matchingTypes entry.1 fun _ => []
        let matching :=
          if t.kind = .object then (setEmplace nameCmp r.2 entry.1).1
          else t.possibleTypes.foldl (addPossible v.schema) r.2
        { v with matchingTypes := if matching.isEmpty then r.1 else assign [] r.1 entry.1 matching }
      else if t.kind = .enum then
        let values := t.enumValues.foldl (fun values value => (setEmplace nameCmp values value.name).1) []
        if t.enumValues.isEmpty then v else { v with enumValues := assign [] v.enumValues entry.1 values }
      else if t.kind = .scalar then { v with scalarTypes := (setEmplace nameCmp v.scalarTypes entry.1).1 }
      else v
    { v with types := assign none v.types entry.1 (some entry.2) }

/-- The table of directives, Validation.cpp:456-470. -/
def addDirectiveEntry (s : Schema) (directives : SMap Str DirectiveEntry) (d : TypeSystem.Directive) :
    SMap Str DirectiveEntry :=
  assign {} directives d.name {
    locations := d.locations.foldl (fun ls l => (setEmplace locationLess ls l).1) []
    arguments := getArguments s d.args }

/-- `if (type) { _operationTypes[name] = getValidateType(type); }`, Validation.cpp:370-383. -/
def addOperationType (operationTypes : SMap Str ValidateType) (name : Str) : Option Addr → SMap Str ValidateType
  | some a => assign none operationTypes name (some a)
  | none => operationTypes

/-- The constructor, Validation.cpp:361-471. -/
def construct (s : Schema) (introspection : Bool) : Validator :=
  let operationTypes := addOperationType (addOperationType (addOperationType [] (str "mutation") s.mutation)
    (str "query") s.query) (str "subscription") s.subscription
  let v := s.types.foldl addTypeEntry { schema := s, introspection := introspection, operationTypes := operationTypes }
  { v with directives := s.directives.foldl (addDirectiveEntry s) [] }

/-! ## Fields -/

/-- `_schema->WrapType(NON_NULL, _schema->LookupType(name))`; `alloc` chooses the address of a new wrapper. -/
def wrapNonNull (alloc : Schema → Addr) (s : Schema) (name : Str) : Except Exn (Schema × Addr) :=
  match s.lookupType name with
  | .error e => .error e
  | .ok a => .ok (s.wrapType .nonNull a (alloc s))

/-- The fields of the type itself, Validation.cpp:1406-1426. -/
def ownFields (s : Schema) (fields : List Field) : SMap Str TypeField :=
  fields.foldl (fun result f =>
    match lock s f.type with
    | none => result
    | some a =>
      if f.name.isEmpty then result
      else assign {} result f.name { returnType := some a, arguments := getArguments s f.args }) []

/-- `__schema` and `__type`, Validation.cpp:1428-1447. -/
def addIntrospection (alloc : Schema → Addr) (s : Schema) (fields : SMap Str TypeField) :
    Except Exn (Schema × SMap Str TypeField) :=
  match wrapNonNull alloc s (str "__Schema") with
  | .error e => .error e
  | .ok (s, schemaType) =>
    let fields := assign {} fields (str "__schema") { returnType := some schemaType }
    match s.lookupType (str "__Type") with
    | .error e => .error e
    | .ok type =>
      match wrapNonNull alloc s (str "String") with
      | .error e => .error e
      | .ok (s, nameType) =>
        .ok (s, assign {} fields (str "__type") {
          returnType := some type
          arguments := assign {} [] (str "name") { type := some nameType } })

/-- `__typename`, Validation.cpp:1449-1454. -/
def addTypename (alloc : Schema → Addr) (s : Schema) (fields : SMap Str TypeField) :
    Except Exn (Schema × SMap Str TypeField) :=
  match wrapNonNull alloc s (str "String") with
  | .error e => .error e
  | .ok (s, stringType) => .ok (s, assign {} fields (str "__typename") { returnType := some stringType })

/-- `_supportsIntrospection && _scopedType == _operationTypes[strQuery]`, Validation.cpp:1428: `operator[]` makes an entry
if there is none. -/
def isQueryType (v : Validator) (scope : Addr) : Validator × Bool :=
  if v.introspection then
    let r := index nameCmp none v.operationTypes (str "query") id
    ({ v with operationTypes := r.1 }, decide (some scope = r.2))
  else (v, false)

/-- `getScopedTypeFields`, Validation.cpp:1395-1460, where `scope` is the scoped type. -/
def getScopedTypeFields (alloc : Schema → Addr) (v : Validator) (scope : Addr) :
    Except Exn (Validator × Option (SMap Str TypeField)) :=
  match v.schema.store scope with
  | none => .error (.other (str "undefined behaviour"))  -- not possible: the type is alive
  | some t =>
    match get v.typeFields t.name with
    | some fields => .ok (v, some fields)
    | none =>
      if isScalarType t.kind then .ok (v, none)
      else
        let own := ownFields v.schema t.fields
        let r := isQueryType v scope
        match (if r.2 then addIntrospection alloc r.1.schema own else .ok (r.1.schema, own)) with
        | .error e => .error e
        | .ok (s, fields) =>
          match addTypename alloc s fields with
          | .error e => .error e
          | .ok (s, fields) =>
            .ok ({ r.1 with schema := s, typeFields := (emplace nameCmp r.1.typeFields t.name fields).1 }, some fields)

/-- `getInputTypeFields`, Validation.cpp:1462-1481. -/
def getInputTypeFields (v : Validator) (name : Str) : Validator × Option (SMap Str Argument) :=
  match get v.inputTypeFields name with
  | some fields => (v, some fields)
  | none =>
    match get v.types name with
    | some (some a) =>
      match v.schema.store a with
      | some t =>
        if t.kind = .inputObject then
          let fields := getArguments v.schema t.inputFields
          ({ v with inputTypeFields := (emplace nameCmp v.inputTypeFields name fields).1 }, some fields)
        else (v, none)
      | none => (v, none)  -- not possible: the types are alive
    | _ => (v, none)

/-- The loop of `getFieldType`, Validation.cpp:1494-1502: from the type of a field to the type inside of it. -/
inductive Unwraps (s : Schema) : ValidateType → ValidateType → Prop where
  | gone : Unwraps s none none
  | named {a t} (h : s.store a = some t) (hn : t.name ≠ []) : Unwraps s (some a) (some a)
  | wrapper {a t r} (h : s.store a = some t) (hn : t.name = []) (hr : Unwraps s (t.ofType.bind (lock s)) r) :
      Unwraps s (some a) r

/-- `matchesScopedType`, Validation.cpp:879-901, where `scope` is the scoped type. -/
def matchesScopedType (v : Validator) (scope : Addr) (name : Str) : Bool :=
  match v.schema.store scope with
  | none => false  -- not possible: the type is alive
  | some t =>
    if name = t.name then true
    else
      match get v.matchingTypes t.name, get v.matchingTypes name with
      | some scoped', some named => scoped'.any fun m => (setFind nameCmp named m).isSome
      | _, _ => false

/-! ## The types of variables -/

/-- `_variableType = getValidateType(_schema->WrapType(kind, getSharedType(...)))`, Validation.cpp:335-336, 345-346. -/
def wrapVariable (alloc : Schema → Addr) (s : Schema) (kind : Kind) : ValidateType → Schema × ValidateType
  | none => (s, none)
  | some a => let r := s.wrapType kind a (alloc s); (r.1, some r.2)

/-- `ValidateVariableTypeVisitor::visit`, Validation.cpp:289-347: the schema, `isInputType()` and `getType()`. -/
def variableType (alloc : Schema → Addr) (types : SMap Str ValidateType) :
    Schema → TypeRef → Except Exn (Schema × Bool × ValidateType)
  | s, .named name =>
    match get types name with
    | some (some a) =>
      match s.store a with
      | some t =>
        match t.kind with
        | .scalar | .enum | .inputObject =>
          match s.lookupType name with
          | .ok a => .ok (s, true, some a)
          | .error e => .error e
        | _ => .ok (s, false, none)
      | none => .ok (s, false, none)  -- not possible: the types are alive
    | _ => .ok (s, false, none)
  | s, .list τ =>
    match variableType alloc types s τ with
    | .error e => .error e
    | .ok (s, isInput, type) =>
      let r := wrapVariable alloc s .list type
      .ok (r.1, isInput, r.2)
  | s, .nonNull τ =>
    match variableType alloc types s τ with
    | .error e => .error e
    | .ok (s, isInput, type) =>
      let r := wrapVariable alloc s .nonNull type
      .ok (r.1, isInput, r.2)

/-! ## All the states of a validator -/

/-- `alloc` chooses unused addresses. -/
def Fresh (alloc : Schema → Addr) : Prop := ∀ ops s, Built ops s → s.store (alloc s) = none

/-- What happens to a validator: any of the calls above, in any order; the schema is shared, and others wrap types too. The
scoped type is a type of the schema: it comes from the table of operation types, the table of types, or `getFieldType`. -/
inductive Step (alloc : Schema → Addr) : Validator → Validator → Prop where
  | others {v a kind type} (h : (Op.wrap a kind type).Valid v.schema) :
      Step alloc v { v with schema := v.schema.apply (.wrap a kind type) }
  | fields {v name scope v' r} (hs : v.schema.lookupType name = .ok scope)
      (h : getScopedTypeFields alloc v scope = .ok (v', r)) : Step alloc v v'
  | inputFields {v name} : Step alloc v (getInputTypeFields v name).1
  | variableType {v τ s' isInput type} (h : variableType alloc v.types v.schema τ = .ok (s', isInput, type)) :
      Step alloc v { v with schema := s' }

/-- The states of the validator of the schema `s`. -/
inductive Reachable (alloc : Schema → Addr) (s : Schema) (introspection : Bool) : Validator → Prop where
  | start : Reachable alloc s introspection (construct s introspection)
  | step {v v'} (h : Reachable alloc s introspection v) (hs : Step alloc v v') : Reachable alloc s introspection v'

end Verif.View
