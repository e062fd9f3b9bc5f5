import Verif.Gen.Loader

/-!
# Checking a loaded schema

Models `SchemaLoader::validateSchema`, `fixupOutputFieldList` and `fixupInputFieldList`
(`/repo/src/SchemaLoader.cpp:174-498`).
-/
namespace Verif.Gen
open Verif.Value Verif.Resp Verif.Ast Verif.Modifiers

/-- A loop over a list which may throw. -/
def mapExcept {ε α β : Type} (f : α → Except ε β) : List α → Except ε (List β)
  | [] => .ok []
  | a :: as =>
    match f a with
    | .error e => .error e
    | .ok b =>
      match mapExcept f as with
      | .error e => .error e
      | .ok bs => .ok (b :: bs)

/-- One turn of the loop of `SchemaLoader::fixupInputFieldList`, SchemaLoader.cpp:445-497. -/
def fixupInputField (s : Loader) (entry : InputField) : Except LoadError InputField :=
  if entry.type ∈ builtinTypes then .ok entry
  else
    match s.schemaTypes entry.type with
    | none => .error (.unknownArgumentType entry.type)
    | some .scalar => .ok { entry with fieldType := .scalar }
    | some .enum => .ok { entry with fieldType := .enum }
    | some .input => .ok { entry with fieldType := .input }
    | some _ => .error (.invalidArgumentType entry.type)

/-- The flags of a field, SchemaLoader.cpp:364-378. -/
def markField (interfaceFields : Option (List Str)) (accessor : Option Str) (field : OutputField) : OutputField :=
  let entry : OutputField :=
    match interfaceFields with
    | some names => { field with interfaceField := false, inheritedField := names.contains field.name }
    | none => { field with interfaceField := true, inheritedField := false }
  match accessor with
  | some a => { entry with accessor := a }
  | none => entry

/-- One turn of the loop of `SchemaLoader::fixupOutputFieldList`, SchemaLoader.cpp:362-440. -/
def fixupOutputField (s : Loader) (interfaceFields : Option (List Str)) (accessor : Option Str) (field : OutputField) :
    Except LoadError OutputField :=
  let entry := markField interfaceFields accessor field
  if entry.type ∈ builtinTypes then .ok entry
  else
    let fixed (fieldType : OutputFieldType) : Except LoadError OutputField :=
      match mapExcept (fixupInputField s) entry.arguments with
      | .error e => .error e
      | .ok arguments => .ok { entry with fieldType := fieldType, arguments := arguments }
    match s.schemaTypes entry.type with
    | none => .error (.unknownFieldType entry.type)
    | some .scalar => fixed .scalar
    | some .enum => fixed .enum
    | some .union => fixed .union
    | some .interface => fixed .interface
    | some .object => fixed .object
    | some .input => .error (.invalidFieldType entry.type)

/-- The loop over the input types, SchemaLoader.cpp:197-200. -/
def fixupInputType (s : Loader) (t : InputType) : Except LoadError InputType :=
  match mapExcept (fixupInputField s) t.fields with
  | .error e => .error e
  | .ok fields => .ok { t with fields := fields }

/-- The loop over the interfaces, SchemaLoader.cpp:205-208. -/
def fixupInterfaceType (s : Loader) (t : InterfaceType) : Except LoadError InterfaceType :=
  match mapExcept (fixupOutputField s none none) t.fields with
  | .error e => .error e
  | .ok fields => .ok { t with fields := fields }

/-- The loop over given operation types, SchemaLoader.cpp:245-258. -/
def checkOperations (s : Loader) : List OperationType → Except LoadError Unit
  | [] => .ok ()
  | o :: os =>
    match s.objectNames o.type with
    | none => .error (.unknownOperationType o.type o.operation)
    | some _ => checkOperations s os

/-- The default operation types, SchemaLoader.cpp:216-241. -/
def defaultOperations (s : Loader) : List OperationType :=
  [(str "Query", str "query"), (str "Mutation", str "mutation"), (str "Subscription", str "subscription")].filterMap
    fun o => if (s.objectNames o.1).isSome then some { type := o.1, operation := o.2 } else none

/-- The operation types, SchemaLoader.cpp:210-269. -/
def operationTypes (isIntrospection : Bool) (s : Loader) : Except LoadError (List OperationType) :=
  if !isIntrospection then
    if s.operationTypes.isEmpty then
      if (s.objectNames (str "Query")).isSome then .ok (defaultOperations s) else .error .queryUndefined
    else
      match checkOperations s s.operationTypes with
      | .error e => .error e
      | .ok () =>
        if s.operationTypes.any fun o => o.operation == str "query" then .ok s.operationTypes else .error .queryUndefined
  else if s.operationTypes.isEmpty then .ok [] else .error .introspectionOperations

/-- `mutationType`, SchemaLoader.cpp:271-280; empty if there is none. -/
def mutationType (s : Loader) : Str :=
  match s.operationTypes.find? fun o => o.operation == str "mutation" with
  | some o => o.type
  | none => []

/-- `interfaceFields`, SchemaLoader.cpp:284-300. -/
def interfaceFields (s : Loader) (t : ObjectType) : List Str :=
  t.interfaces.flatMap fun n =>
    match s.interfaceNames n with
    | none => []
    | some i =>
      match s.interfaceTypes[i]? with
      | none => []
      | some u => u.fields.map (·.name)

/-- The loop over the objects, SchemaLoader.cpp:282-303. -/
def fixupObjectType (s : Loader) (t : ObjectType) : Except LoadError ObjectType :=
  match mapExcept (fixupOutputField s (some (interfaceFields s t))
      (if mutationType s = t.type then some (str "apply") else none)) t.fields with
  | .error e => .error e
  | .ok fields => .ok { t with fields := fields }

/-- The check of the interfaces of the objects, SchemaLoader.cpp:306-327: the first unknown one. -/
def unknownInterface (s : Loader) : List ObjectType → Option LoadError
  | [] => none
  | t :: ts =>
    match t.interfaces.find? fun n => (s.interfaceNames n).isNone with
    | some n => some (.unknownInterface n t.type)
    | none => unknownInterface s ts

/-- The loop over the members of a union, SchemaLoader.cpp:333-354. -/
def addUnionOptions (s : Loader) (union : Str) : List Str → List ObjectType → Except LoadError (List ObjectType)
  | [], objects => .ok objects
  | n :: ns, objects =>
    match s.objectNames n with
    | none => .error (.unknownOption n union)
    | some i => addUnionOptions s union ns (objects.modify i fun t => { t with unions := t.unions ++ [union] })

/-- The loop over the unions, SchemaLoader.cpp:331-355. -/
def addUnions (s : Loader) : List UnionType → List ObjectType → Except LoadError (List ObjectType)
  | [], objects => .ok objects
  | u :: us, objects =>
    match addUnionOptions s u.type u.options objects with
    | .error e => .error e
    | .ok objects => addUnions s us objects

/-- `SchemaLoader::validateSchema`, SchemaLoader.cpp:174-356. -/
def validateSchema (isIntrospection : Bool) (s : Loader) : Except LoadError Loader := do
  if builtinTypes.any fun n => (s.schemaTypes n).isSome then throw .builtinOverridden
  let inputs ← mapExcept (fixupInputType s) s.inputTypes
  let inputs ← reorderInputTypes inputs
  let interfaces ← mapExcept (fixupInterfaceType s) s.interfaceTypes
  let operations ← operationTypes isIntrospection s
  let s := { s with inputTypes := inputs, interfaceTypes := interfaces, operationTypes := operations }
  let objects ← mapExcept (fixupObjectType s) s.objectTypes
  match unknownInterface s objects with
  | some e => throw e
  | none =>
    let objects ← addUnions s s.unionTypes objects
    return { s with objectTypes := objects }

/-- `SchemaLoader::SchemaLoader` with a parsed document, SchemaLoader.cpp:166-171. -/
def loadSchema (atoi : Int → Int) (isIntrospection : Bool) (doc : List TypeDef) : Except LoadError Loader :=
  match visitDefinitions atoi {} doc with
  | .error e => .error e
  | .ok s => validateSchema isIntrospection s

end Verif.Gen
