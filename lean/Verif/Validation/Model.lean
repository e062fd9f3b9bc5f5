import Verif.Ast.Basic
import Verif.Exec.Model
import Mathlib.Data.List.Dedup

/-!
# Model of validation

Models `/repo/src/Validation.cpp`: `ValidateArgumentValueVisitor`, `ValidateVariableTypeVisitor` and
`ValidateExecutableVisitor`.

* An error is its message; the locations of errors are left out.
* The maps and sets of the visitor (`string_view_map`, `string_view_set`) are lists, in order of insertion (C09 and C10
  justify this, up to the order in which the program goes through them: by length and then by bytes. The order changes
  only the order of the messages, and which one is the first message of an invalid value).
* A type object is the type reference which describes it: wrappers of the same kind of the same type are the same object
  (C36), and a named type is the one which the schema has under this name. A pointer to a type which is gone
  (`weak_ptr::lock` gives null) is a name which the schema does not have.
  C62 (`Verif.View`) shows that the tables and calls over the real type objects give the same answers.
* The schema has a query type, and the built-in types `String`, `__Schema` and `__Type` (otherwise `LookupType` throws).
* The caches `_typeFields` and `_inputTypeFields` are left out: what they hold is computed from the schema each time
  (C62 again).
* A fragment is visited again for each of its spreads. The recursion ends since a spread inside of its own fragment is
  not followed; in the model the depth is bounded by the number of fragments, and `State.exhausted` tells whether the
  bound was reached (then there is also an error). `C20_validation_terminates` shows that it never is.
-/
namespace Verif.Validation
open Verif.Value Verif.Resp Verif.Errors Verif.Ast

/-! ## The schema -/

/-- `introspection::TypeKind` of named types. -/
inductive Kind where
  | scalar | object | interface | union | enum | inputObject
deriving DecidableEq

/-- `introspection::DirectiveLocation`, of executable documents. -/
inductive Location where
  | query | mutation | subscription | field | fragmentDefinition | fragmentSpread | inlineFragment
deriving DecidableEq

/-- `schema::InputValue`: an argument or an input field. `default` is the text of the default value, empty if there is
none. -/
structure InputValue where
  name : Str
  type : TypeRef
  default : Str := []

/-- `schema::Field` -/
structure FieldDef where
  name : Str
  type : TypeRef
  arguments : List InputValue := []

/-- `schema::BaseType` of a named type. -/
structure TypeDef where
  kind : Kind
  fields : List FieldDef := []
  inputFields : List InputValue := []
  enumValues : List Str := []
  possibleTypes : List Str := []

/-- `schema::Directive` -/
structure DirectiveDef where
  name : Str
  locations : List Location
  arguments : List InputValue := []

/-- `schema::Schema` -/
structure Schema where
  types : List (Str × TypeDef)
  query : Str
  mutation : Option Str := none
  subscription : Option Str := none
  directives : List DirectiveDef := []
  introspection : Bool := true

/-- `_types.find(name)`, Validation.cpp:385-450; the last definition of a name counts. -/
def Schema.find (S : Schema) (name : Str) : Option TypeDef := (S.types.reverse.find? fun e => e.1 == name).map (·.2)

/-- `ValidateType`, Validation.h:15: the type, if the object is there. -/
def Schema.valid (S : Schema) : TypeRef → Option TypeRef
  | .named name => if (S.find name).isSome then some (.named name) else none
  | t => some t

/-- `kind()` of a named type. -/
def Schema.kind (S : Schema) (name : Str) : Option Kind := (S.find name).map (·.kind)

/-- `!isScalarType(kind)`, Validation.cpp:865-877. -/
def Kind.isComposite : Kind → Bool
  | .object | .interface | .union => true
  | _ => false

/-- Is the name that of an object, interface or union type? -/
def Schema.isComposite (S : Schema) (name : Str) : Bool := (S.kind name).any Kind.isComposite

/-- Variables have scalar, enum or input object types: Validation.cpp:313-325. -/
def Kind.isInput : Kind → Bool
  | .scalar | .enum | .inputObject => true
  | _ => false

/-- `_operationTypes`, Validation.cpp:364-383. -/
def Schema.operationType (S : Schema) (type : Str) : Option Str :=
  if type = str "query" then some S.query
  else if type = str "mutation" then S.mutation
  else if type = str "subscription" then S.subscription
  else none

/-- `_matchingTypes`, Validation.cpp:394-423: the object types of the objects a composite type can have. -/
def Schema.matching (S : Schema) (name : Str) : List Str :=
  match S.find name with
  | none => []
  | some t =>
    match t.kind with
    | .object => [name]
    | .interface | .union => t.possibleTypes
    | _ => []

/-- `matchesScopedType`, Validation.cpp:879-901. -/
def Schema.overlap (S : Schema) (scope name : Str) : Bool :=
  name == scope || (S.matching scope).any fun t => (S.matching name).contains t

/-- `ValidateArgument`, Validation.h:21-26. -/
structure Argument where
  defaultValue : Bool := false
  nonNullDefaultValue : Bool := false
  type : TypeRef

/-- One iteration of `getArguments`, Validation.cpp:852-859. -/
def InputValue.argument (v : InputValue) : Argument where
  defaultValue := !v.default.isEmpty
  nonNullDefaultValue := !v.default.isEmpty && v.default != str "null"
  type := v.type

/-- `getArguments(args).find(name)`, Validation.cpp:840-863: the last one of the name counts. -/
def findArgument (args : List InputValue) (name : Str) : Option Argument :=
  (args.reverse.find? fun a => a.name == name).map InputValue.argument

/-- The names of `getArguments(args)`, each once. -/
def argumentNames (args : List InputValue) : List Str := (args.map (·.name)).reverse.dedup.reverse

/-- A type with all its wrappers removed: the loop of `getFieldType`, Validation.cpp:1494-1502. -/
def baseName : TypeRef → Str
  | .named name => name
  | .list t => baseName t
  | .nonNull t => baseName t

/-- `getScopedTypeFields()`, Validation.cpp:1395-1460, followed by `find(name)`: the fields of a composite type, the
last one of a name, and the fields which introspection adds. -/
def Schema.findField (S : Schema) (type : Str) (name : Str) : Option FieldDef :=
  match S.find type with
  | none => none
  | some t =>
    if name = str "__typename" then some ⟨name, .nonNull (.named (str "String")), []⟩
    else if name = str "__schema" && S.introspection && type == S.query then
      some ⟨name, .nonNull (.named (str "__Schema")), []⟩
    else if name = str "__type" && S.introspection && type == S.query then
      some ⟨name, .named (str "__Type"), [⟨str "name", .nonNull (.named (str "String")), []⟩]⟩
    else t.fields.reverse.find? fun f => f.name == name && !f.name.isEmpty && (S.valid f.type).isSome

/-- `_directives.find(name)`, Validation.cpp:452-470: the last definition counts. -/
def Schema.findDirective (S : Schema) (name : Str) : Option DirectiveDef :=
  S.directives.reverse.find? fun d => d.name == name

/-! ## Argument values -/

/-- `argument.value == nullptr`: the null literal. -/
def _root_.Verif.Ast.Lit.isNull : Lit → Bool
  | .null => true
  | _ => false

mutual
/-- `ValidateArgumentValueVisitor::visit`, Validation.cpp:107-264: the errors, and the value with the first of the
members of every name. `nullptr`, for the null literal, is `Lit.null`. -/
def visitValue : Lit → List Str × Lit
  | .list xs => let r := visitValues xs; (r.1, .list r.2)
  | .object fields => let r := visitMembers fields []; (r.1, .object r.2)
  | .variable pos name => ([], .variable pos name)
  | .int n => ([], .int n)
  | .float d => ([], .float d)
  | .string s => ([], .string s)
  | .boolean b => ([], .boolean b)
  | .null => ([], .null)
  | .enumValue s => ([], .enumValue s)
/-- `visitListValue`, Validation.cpp:216-233. -/
def visitValues : List Lit → List Str × List Lit
  | [] => ([], [])
  | x :: xs =>
    let r := visitValue x
    let rs := visitValues xs
    (r.1 ++ rs.1, r.2 :: rs.2)
/-- `visitObjectValue`, Validation.cpp:235-264; `acc` are the members so far. -/
def visitMembers : List (Str × Lit) → List (Str × Lit) → List Str × List (Str × Lit)
  | [], acc => ([], acc)
  | (name, x) :: xs, acc =>
    if acc.any fun e => e.1 == name then
      let rs := visitMembers xs acc
      ((str "Conflicting input field name: " ++ name) :: rs.1, rs.2)
    else
      let r := visitValue x
      let rs := visitMembers xs (acc ++ [(name, r.2)])
      (r.1 ++ rs.1, rs.2)
end

/-- `values.find(name)` -/
def findValue (values : List (Str × Lit)) (name : Str) : Option Lit := (values.find? fun e => e.1 == name).map (·.2)

mutual
/-- `ValidateArgumentValuePtr::operator==`, Validation.cpp:47-60; positions do not count. Integers were converted by
`std::atoi` (`overflow` is what it gives for numbers which do not fit). -/
def sameValue (overflow : Int → Int) : Lit → Lit → Bool
  | .variable _ a, .variable _ b => a == b
  | .int a, .int b => (Exec.Env.atoi ⟨[], overflow⟩ a) == (Exec.Env.atoi ⟨[], overflow⟩ b)
  | .float a, .float b => a.eq b
  | .string a, .string b => a == b
  | .boolean a, .boolean b => a == b
  | .null, .null => true
  | .enumValue a, .enumValue b => a == b
  | .list a, .list b => sameList overflow a b
  | .object a, .object b => a.length == b.length && sameMembers overflow a b
  | _, _ => false
/-- `std::vector::operator==` -/
def sameList (overflow : Int → Int) : List Lit → List Lit → Bool
  | [], [] => true
  | a :: as, b :: bs => sameValue overflow a b && sameList overflow as bs
  | _, _ => false
/-- `sorted_map::operator==`, SortedMap.h:47-50, for maps of the same size: every member has a counterpart. -/
def sameMembers (overflow : Int → Int) : List (Str × Lit) → List (Str × Lit) → Bool
  | [], _ => true
  | (name, a) :: as, bs =>
    (match findValue bs name with
      | some b => sameValue overflow a b
      | none => false) && sameMembers overflow as bs
end

/-- `ValidateFieldArguments::operator==`: maps of the same size with the same members. -/
def sameArguments (overflow : Int → Int) (a b : List (Str × Lit)) : Bool :=
  a.length == b.length && sameMembers overflow a b

/-! ## The visitor -/

/-- `ValidateField`, Validation.h:128-139. -/
structure SelectedField where
  returnType : TypeRef
  objectType : Option Str
  fieldName : Str
  arguments : List (Str × Lit)

deriving instance DecidableEq for TypeRef

/-- `ValidateField::operator==`, Validation.cpp:275-280. -/
def SelectedField.same (overflow : Int → Int) (a b : SelectedField) : Bool :=
  a.returnType == b.returnType &&
    ((match a.objectType, b.objectType with
      | some x, some y => x != y
      | _, _ => false) ||
      (a.fieldName == b.fieldName && sameArguments overflow a.arguments b.arguments))

/-- What is known of a variable: its type, and whether it has a default which is not null. -/
abbrev VariableTypes := List (Str × Argument)

/-- The mutable members of `ValidateExecutableVisitor`, Validation.h:220, 240-257. (`scopedType` is empty after
`reset()`.) -/
structure State where
  errors : List Str := []
  referencedFragments : List Str := []
  fragmentCycles : List Str := []
  operationVariables : Option VariableTypes := none
  variableDefinitions : List Str := []
  referencedVariables : List Str := []
  fragmentStack : List Str := []
  fieldCount : Nat := 0
  scopedType : Str := []
  selectionFields : List (Str × SelectedField) := []
  exhausted : Bool := false

/-- `_errors.push_back` -/
def State.fail (st : State) (message : Str) : State := { st with errors := st.errors ++ [message] }
/-- Errors added by another visitor. -/
def State.failAll (st : State) (messages : List Str) : State := { st with errors := st.errors ++ messages }

/-- `_operationVariables->find(name)` -/
def findVariable (vars : VariableTypes) (name : Str) : Option Argument := (vars.find? fun e => e.1 == name).map (·.2)

/-- The first part of `validateVariableType`, Validation.cpp:1240-1259: non-null wrappers of the variable's type are
removed. -/
def unwrapVariable (S : Schema) : Bool → TypeRef → Except Str (Bool × TypeRef)
  | isNonNull, .named name =>
    if (S.find name).isNone then .error (str "Unknown variable type") else .ok (isNonNull, .named name)
  | isNonNull, .list of => .ok (isNonNull, .list of)
  | _, .nonNull of =>
    if (S.valid of).isNone then .error (str "Unknown Non-Null variable type") else unwrapVariable S true of

/-- The end of `validateVariableType`, Validation.cpp:1321-1392, for an input type of a kind: the variable must have the
same one. -/
def sameNamedType (S : Schema) (kind : Kind) (expected : Str) (variableType : TypeRef) (input : Str) : Option Str :=
  match variableType with
  | .named variableName =>
    if S.kind variableName ≠ some kind then some expected
    else if variableName.isEmpty then some (str "Unknown variable type")
    else if input.isEmpty then some (str "Unknown input type")
    else if variableName ≠ input then
      some (str "Incompatible variable type: " ++ variableName ++ str " name: " ++ input)
    else none
  | _ => some expected

/-- `validateVariableType`, Validation.cpp:1236-1393: the message, or `none` if there is no error. -/
def variableTypeError (S : Schema) : (isNonNull : Bool) → (variableType inputType : TypeRef) → Option Str
  | isNonNull, variableType, .named input =>
    match unwrapVariable S isNonNull variableType with
    | .error message => some message
    | .ok (_, variableType) =>
      match S.kind input with
      | none => some (str "Unknown input type")
      | some .inputObject =>
        sameNamedType S .inputObject (str "Expected Input Object variable type") variableType input
      | some .enum => sameNamedType S .enum (str "Expected Enum variable type") variableType input
      | some .scalar => sameNamedType S .scalar (str "Expected Scalar variable type") variableType input
      | some _ => some (str "Unexpected input type")
  | isNonNull, variableType, .nonNull inputOf =>
    match unwrapVariable S isNonNull variableType with
    | .error message => some message
    | .ok (isNonNull, variableType) =>
      if !isNonNull then some (str "Expected Non-Null variable type")
      else if (S.valid inputOf).isNone then some (str "Unknown Non-Null input type")
      else variableTypeError S false variableType inputOf
  | isNonNull, variableType, .list inputOf =>
    match unwrapVariable S isNonNull variableType with
    | .error message => some message
    | .ok (_, .list variableOf) =>
      if (S.valid variableOf).isNone then some (str "Unknown List variable type")
      else if (S.valid inputOf).isNone then some (str "Unknown List input type")
      else variableTypeError S false variableOf inputOf
    | .ok _ => some (str "Expected List variable type")

/-- `validateInputValue` of a variable, Validation.cpp:912-946. In fragment definitions a variable may have any type. -/
def validateVariable (S : Schema) (hasNonNullDefaultValue : Bool) (name : Str) (type : TypeRef) (st : State) :
    State × Bool :=
  match st.operationVariables with
  | none => (st, true)
  | some vars =>
    match findVariable vars name with
    | none => (st.fail (str "Undefined variable name: " ++ name), false)
    | some var =>
      let st := { st with referencedVariables := st.referencedVariables.insert name }
      match variableTypeError S (hasNonNullDefaultValue || var.nonNullDefaultValue) var.type type with
      | none => (st, true)
      | some message => (st.fail message, false)

/-- The last part of `validateInputValue` for input objects, Validation.cpp:1077-1109: are all the required fields
there? -/
def missingField (S : Schema) (type : Str) (fields : List InputValue) (present : List Str) : List Str → Option Str
  | [] => none
  | name :: names =>
    match findArgument fields name with
    | none => missingField S type fields present names
    | some field =>
      if field.defaultValue || present.contains name then missingField S type fields present names
      else if (S.valid field.type).isNone then
        some (str "Unknown Input Object field type: " ++ type ++ str " name: " ++ name)
      else
        match field.type with
        | .nonNull _ => some (str "Missing Input Object field type: " ++ type ++ str " name: " ++ name)
        | _ => missingField S type fields present names

/-- `validateInputValue` for scalars, Validation.cpp:1151-1226. -/
def scalarError (name : Str) (value : Lit) : Option Str :=
  if name.isEmpty then some (str "Unknown Scalar value")
  else if name = str "Int" then
    match value with
    | .int _ => none
    | _ => some (str "Expected Int value")
  else if name = str "Float" then
    match value with
    | .float _ => none
    | .int _ => none
    | _ => some (str "Expected Float value")
  else if name = str "String" then
    match value with
    | .string _ => none
    | _ => some (str "Expected String value")
  else if name = str "ID" then
    match value with
    | .string s =>
      match Verif.Base64.fromBase64 s with
      | .ok _ => none
      | .error _ => some (str "Expected ID value")
    | _ => some (str "Expected ID value")
  else if name = str "Boolean" then
    match value with
    | .boolean _ => none
    | _ => some (str "Expected Boolean value")
  else none

/-- `validateInputValue` for enums, Validation.cpp:1114-1149. -/
def enumError (name : Str) (values : List Str) (value : Lit) : Option Str :=
  if name.isEmpty then some (str "Unknown Enum value")
  else
    match value with
    | .enumValue v =>
      if values.contains v then none
      else some (str "Undefined Enum value type: " ++ name ++ str " name: " ++ v)
    | _ => some (str "Expected Enum value name: " ++ name)

/-- The type below all the non-null wrappers, if all the pointers are there: the recursion at Validation.cpp:964-976 for
a value which is neither null nor a variable. -/
def unwrapNonNull (S : Schema) : TypeRef → Option TypeRef
  | .nonNull of => if (S.valid of).isNone then none else unwrapNonNull S of
  | t => some t

/-- A check without effects, as the end of `validateInputValue`. -/
def State.check (st : State) : Option Str → State × Bool
  | none => (st, true)
  | some message => (st.fail message, false)

/-- `validateInputValue` of a value which is no variable and not null, for a type which is not non-null, when there is
nothing below the value to check: Validation.cpp:978-1233. -/
def validateNamed (S : Schema) (t : TypeRef) (value : Lit) (st : State) : State × Bool :=
  match t with
  | .list _ => (st.fail (str "Expected List value"), false)
  | .nonNull _ => (st.fail (str "Unknown Non-Null type"), false)  -- not reachable
  | .named name =>
    match S.find name with
    | none => (st.fail (str "Unexpected value type"), false)  -- not reachable: the type is there
    | some t =>
      match t.kind with
      | .inputObject =>
        if name.isEmpty then (st.fail (str "Unknown Input Object type"), false)
        else (st.fail (str "Expected Input Object value name: " ++ name), false)
      | .enum => st.check (enumError name t.enumValues value)
      | .scalar => st.check (scalarError name value)
      | _ => (st.fail (str "Unexpected value type"), false)

mutual
/-- `validateInputValue`, Validation.cpp:903-1234. -/
def validateInputValue (S : Schema) (hasNonNullDefaultValue : Bool) : Lit → TypeRef → State → State × Bool
  | .variable _ name, type, st =>
    if (S.valid type).isNone then (st.fail (str "Unknown input type"), false)
    else validateVariable S hasNonNullDefaultValue name type st
  | .null, type, st =>
    if (S.valid type).isNone then (st.fail (str "Unknown input type"), false)
    else
      match type with
      | .nonNull _ => if hasNonNullDefaultValue then (st, true) else (st.fail (str "Expected Non-Null value"), false)
      | _ => (st, true)
  | .list values, type, st =>
    if (S.valid type).isNone then (st.fail (str "Unknown input type"), false)
    else
      match unwrapNonNull S type with
      | none => (st.fail (str "Unknown Non-Null type"), false)
      | some (.list of) =>
        if (S.valid of).isNone then (st.fail (str "Unknown List type"), false)
        else validateList S values of st
      | some t => validateNamed S t (.list values) st
  | .object values, type, st =>
    if (S.valid type).isNone then (st.fail (str "Unknown input type"), false)
    else
      match unwrapNonNull S type with
      | none => (st.fail (str "Unknown Non-Null type"), false)
      | some (.named name) =>
        match S.find name with
        | none => (st.fail (str "Unexpected value type"), false)  -- not reachable: the type is there
        | some t =>
          match t.kind with
          | .inputObject =>
            if name.isEmpty then (st.fail (str "Unknown Input Object type"), false)
            else
              match validateMembers S name t.inputFields values st with
              | (st, false) => (st, false)
              | (st, true) =>
                st.check (missingField S name t.inputFields (values.map (·.1)) (argumentNames t.inputFields))
          | _ => validateNamed S (.named name) (.object values) st
      | some t => validateNamed S t (.object values) st
  | value, type, st =>
    if (S.valid type).isNone then (st.fail (str "Unknown input type"), false)
    else
      match unwrapNonNull S type with
      | none => (st.fail (str "Unknown Non-Null type"), false)
      | some t => validateNamed S t value st
/-- The elements of a list, Validation.cpp:994-1004. -/
def validateList (S : Schema) : List Lit → TypeRef → State → State × Bool
  | [], _, st => (st, true)
  | value :: values, of, st =>
    match validateInputValue S false value of st with
    | (st, false) => (st, false)
    | (st, true) => validateList S values of st
/-- The members of an input object, Validation.cpp:1039-1075. -/
def validateMembers (S : Schema) (type : Str) (fields : List InputValue) : List (Str × Lit) → State → State × Bool
  | [], st => (st, true)
  | (name, value) :: values, st =>
    match findArgument fields name with
    | none => (st.fail (str "Undefined Input Object field type: " ++ type ++ str " name: " ++ name), false)
    | some field =>
      if !value.isNull || !field.defaultValue then
        match validateInputValue S field.nonNullDefaultValue value field.type st with
        | (st, false) => (st, false)
        | (st, true) => validateMembers S type fields values st
      else validateMembers S type fields values st
end

/-! ## Arguments and directives -/

/-- The loop which collects arguments, Validation.cpp:1627-1650 and 2019-2042. `what` is the beginning of the messages:
`type: T field: f` or `directive: d`. -/
def collectArguments (what : Str) : Args → List (Str × Lit) → List Str × List (Str × Lit)
  | [], acc => ([], acc)
  | (name, x) :: xs, acc =>
    if acc.any fun e => e.1 == name then
      let rs := collectArguments what xs acc
      ((str "Conflicting argument " ++ what ++ str " name: " ++ name) :: rs.1, rs.2)
    else
      let r := visitValue x
      let rs := collectArguments what xs (acc ++ [(name, r.2)])
      (r.1 ++ rs.1, rs.2)

/-- The loop over the given arguments, Validation.cpp:1685-1699 and 2044-2058. -/
def undefinedArguments (what : Str) (defs : List InputValue) (given : List (Str × Lit)) : List Str :=
  given.filterMap fun e =>
    match findArgument defs e.1 with
    | none => some (str "Undefined argument " ++ what ++ str " name: " ++ e.1)
    | some _ => none

/-- The loop over the defined arguments, Validation.cpp:1701-1745 and 2060-2103. -/
def checkDefined (S : Schema) (what : Str) (defs : List InputValue) (given : List (Str × Lit)) : List Str → State → State
  | [], st => st
  | name :: names, st =>
    match findArgument defs name with
    | none => checkDefined S what defs given names st  -- not reachable: the name is one of the defined ones
    | some argument =>
      let required (label : Str) (st : State) : State :=
        if argument.defaultValue then st
        else
          match argument.type with
          | .nonNull _ => st.fail (label ++ what ++ str " name: " ++ name)
          | _ => st
      match findValue given name with
      | none => checkDefined S what defs given names (required (str "Missing argument ") st)
      | some .null => checkDefined S what defs given names (required (str "Required non-null argument ") st)
      | some value =>
        match validateInputValue S argument.nonNullDefaultValue value argument.type st with
        | (st, true) => checkDefined S what defs given names st
        | (st, false) =>
          checkDefined S what defs given names (st.fail (str "Incompatible argument " ++ what ++ str " name: " ++ name))

/-- The checks of the arguments, Validation.cpp:1681-1746 and 2044-2103. -/
def checkArguments (S : Schema) (what : Str) (defs : List InputValue) (given : List (Str × Lit)) (st : State) : State :=
  checkDefined S what defs given (argumentNames defs) (st.failAll (undefinedArguments what defs given))

/-- The name of a location in messages, Validation.cpp:1975-2007. -/
def Location.text : Location → Str
  | .query => str " name: QUERY"
  | .mutation => str " name: MUTATION"
  | .subscription => str " name: SUBSCRIPTION"
  | .field => str " name: FIELD"
  | .fragmentDefinition => str " name: FRAGMENT_DEFINITION"
  | .fragmentSpread => str " name: FRAGMENT_SPREAD"
  | .inlineFragment => str " name: INLINE_FRAGMENT"

/-- The loop of `visitDirectives`, Validation.cpp:1932-2105; `seen` is `uniqueDirectives`. -/
def visitDirectiveList (S : Schema) (location : Location) : List Directive → List Str → State → State
  | [], _, st => st
  | d :: ds, seen, st =>
    if seen.contains d.name then
      visitDirectiveList S location ds seen (st.fail (str "Conflicting directive name: " ++ d.name))
    else
      let seen := d.name :: seen
      match S.findDirective d.name with
      | none => visitDirectiveList S location ds seen (st.fail (str "Undefined directive name: " ++ d.name))
      | some def_ =>
        if !def_.locations.contains location then
          visitDirectiveList S location ds seen
            (st.fail (str "Unexpected location for directive: " ++ d.name ++ location.text))
        else
          match d.arguments with
          | none => visitDirectiveList S location ds seen st
          | some args =>
            let what := str "directive: " ++ d.name
            let given := collectArguments what args []
            visitDirectiveList S location ds seen (checkArguments S what def_.arguments given.2 (st.failAll given.1))

/-- `visitDirectives`, Validation.cpp:1927-2106, if there are any. -/
def visitDirectives (S : Schema) (location : Location) (ds : Option (List Directive)) (st : State) : State :=
  match ds with
  | none => st
  | some ds => visitDirectiveList S location ds [] st

/-! ## Selections -/

/-- `_selectionFields.find(alias)` -/
def findSelected (fields : List (Str × SelectedField)) (key : Str) : Option SelectedField :=
  (fields.find? fun e => e.1 == key).map (·.2)

/-- The end of `visitField`, Validation.cpp:1748-1790: the field is added, and the selections below it are visited by
`sub`. -/
def visitFieldSub (S : Schema) (key : Str) (def_ : FieldDef) (selected : SelectedField)
    (sub : Option (State → State)) (st : State) : State :=
  let st := { st with selectionFields :=
    if (findSelected st.selectionFields key).isSome then st.selectionFields
    else st.selectionFields ++ [(key, selected)] }
  let inner := baseName def_.type
  match sub with
  | none =>
    if S.isComposite inner then st.fail (str "Missing fields on non-scalar type: " ++ inner)
    else { st with fieldCount := st.fieldCount + 1 }
  | some sub =>
    let inside := sub { st with fieldCount := 0, selectionFields := [], scopedType := inner }
    let after := { inside with
      scopedType := st.scopedType, selectionFields := st.selectionFields, fieldCount := st.fieldCount }
    if inside.fieldCount = 0 && S.isComposite inner then
      after.fail (str "Missing fields on non-scalar type: " ++ inner)
    else { after with fieldCount := after.fieldCount + 1 }

/-- The last part of `visitField`, Validation.cpp:1681-1790: the arguments are checked, then what is below the field. -/
def visitFieldBody (S : Schema) (key : Str) (def_ : FieldDef) (selected : SelectedField)
    (sub : Option (State → State)) (st : State) : State :=
  visitFieldSub S key def_ selected sub
    (checkArguments S (str "type: " ++ st.scopedType ++ str " field: " ++ selected.fieldName) def_.arguments
      selected.arguments st)

/-- The arguments of a field and the errors in them, Validation.cpp:1620-1651. -/
def givenArguments (type : Str) (f : Field) : List Str × List (Str × Lit) :=
  match f.arguments with
  | none => ([], [])
  | some args => collectArguments (str "type: " ++ type ++ str " field: " ++ f.name) args []

/-- The comparison with a field of the same response name, Validation.cpp:1653-1679. -/
def visitSelected (S : Schema) (overflow : Int → Int) (f : Field) (def_ : FieldDef) (selected : SelectedField)
    (sub : Option (State → State)) (st : State) : State :=
  match findSelected st.selectionFields (Exec.responseName f) with
  | none => visitFieldBody S (Exec.responseName f) def_ selected sub st
  | some previous =>
    if previous.same overflow selected then st
    else
      visitFieldBody S (Exec.responseName f) def_ selected sub
        (st.fail (str "Conflicting field type: " ++ st.scopedType ++ str " name: " ++ f.name))

/-- `visitField`, Validation.cpp:1531-1790. -/
def visitField (S : Schema) (overflow : Int → Int) (f : Field) (sub : Option (State → State)) (st : State) : State :=
  let st := visitDirectives S .field f.directives st
  let type := st.scopedType
  if !S.isComposite type then
    st.fail (str "Field on scalar type: " ++ type ++ str " name: " ++ f.name)
  else if S.kind type = some .union && f.name ≠ str "__typename" then
    st.fail (str "Field on union type: " ++ type ++ str " name: " ++ f.name)
  else
    match S.findField type f.name with
    | none => st.fail (str "Undefined field type: " ++ type ++ str " name: " ++ f.name)
    | some def_ =>
      if (S.find (baseName def_.type)).isNone then
        st.fail (str "Undefined field type: " ++ type ++ str " name: " ++ f.name)
      else
        let given := givenArguments type f
        visitSelected S overflow f def_ {
            returnType := def_.type
            objectType := if S.kind type = some .object then some type else none
            fieldName := f.name
            arguments := given.2 } sub (st.failAll given.1)

/-- `visitFragmentSpread`, Validation.cpp:1792-1857. `enter` visits the selections of a fragment. -/
def visitSpread (S : Schema) (fragments : List FragmentDef) (enter : List Selection → State → State) (name : Str)
    (ds : Option (List Directive)) (st : State) : State :=
  let st := visitDirectives S .fragmentSpread ds st
  match fragments.find? fun f => f.name == name with
  | none => st.fail (str "Undefined fragment spread name: " ++ name)
  | some fragment =>
    if st.fragmentStack.contains name then
      if st.fragmentCycles.contains name then st
      else { st.fail (str "Cyclic fragment spread name: " ++ name) with
        fragmentCycles := st.fragmentCycles.insert name }
    else if (S.find fragment.typeCondition).isNone || !S.overlap st.scopedType fragment.typeCondition then
      st.fail (str "Incompatible fragment spread target type: " ++ fragment.typeCondition ++ str " name: " ++ name)
    else
      let inside := enter fragment.sub
        { st with fragmentStack := name :: st.fragmentStack, scopedType := fragment.typeCondition }
      { inside with
        scopedType := st.scopedType
        fragmentStack := inside.fragmentStack.erase name
        referencedFragments := inside.referencedFragments.insert name }

/-- `visitInlineFragment`, Validation.cpp:1859-1925. `visit` visits the selections. -/
def visitInline (S : Schema) (typeCondition : Option Str) (ds : Option (List Directive)) (visit : State → State)
    (st : State) : State :=
  let st := visitDirectives S .inlineFragment ds st
  let name := typeCondition.getD []
  if name.isEmpty then
    let inside := visit st
    { inside with scopedType := st.scopedType }
  else if (S.find name).isNone then
    st.fail (str "Undefined target type on inline fragment name: " ++ name)
  else if !S.isComposite name then
    st.fail (str "Scalar target type on inline fragment name: " ++ name)
  else if !S.overlap st.scopedType name then
    st.fail (str "Incompatible target type on inline fragment name: " ++ name)
  else
    let inside := visit { st with scopedType := name }
    { inside with scopedType := st.scopedType }

mutual
/-- One iteration of `visitSelection`, Validation.cpp:823-837. -/
def visitOne (S : Schema) (overflow : Int → Int) (fragments : List FragmentDef) (enter : List Selection → State → State) :
    Selection → State → State
  | .leaf f, st => visitField S overflow f none st
  | .node f _ sub, st => visitField S overflow f (some (visitAll S overflow fragments enter sub)) st
  | .spread _ name ds, st => visitSpread S fragments enter name ds st
  | .inline _ t ds sub, st => visitInline S t ds (visitAll S overflow fragments enter sub) st
/-- `visitSelection`, Validation.cpp:821-838. -/
def visitAll (S : Schema) (overflow : Int → Int) (fragments : List FragmentDef) (enter : List Selection → State → State) :
    List Selection → State → State
  | [], st => st
  | s :: rest, st => visitAll S overflow fragments enter rest (visitOne S overflow fragments enter s st)
end

/-- `visitSelection` with fragments entered to a depth; `exhausted` is set where the depth does not suffice. -/
def visitSelection (S : Schema) (overflow : Int → Int) (fragments : List FragmentDef) :
    Nat → List Selection → State → State
  | 0 => visitAll S overflow fragments fun _ st => { st.fail [] with exhausted := true }
  | depth + 1 => visitAll S overflow fragments (visitSelection S overflow fragments depth)

/-! ## Definitions -/

/-- `visitFragmentDefinition`, Validation.cpp:595-631. -/
def visitFragmentDefinition (S : Schema) (overflow : Int → Int) (fragments : List FragmentDef) (f : FragmentDef)
    (st : State) : State :=
  let st := visitDirectives S .fragmentDefinition f.directives st
  if (S.find f.typeCondition).isNone then
    st.fail (str "Undefined target type on fragment definition: " ++ f.name ++ str " name: " ++ f.typeCondition)
  else if !S.isComposite f.typeCondition then
    st.fail (str "Scalar target type on fragment definition: " ++ f.name ++ str " name: " ++ f.typeCondition)
  else
    let st := visitSelection S overflow fragments fragments.length f.sub
      { st with fragmentStack := st.fragmentStack.insert f.name, scopedType := f.typeCondition }
    { st with scopedType := [], fragmentStack := [], selectionFields := [] }

/-- `ValidateVariableTypeVisitor`, Validation.cpp:282-359: the type of a variable, if it is an input type. -/
def variableType (S : Schema) (t : TypeRef) : Option TypeRef :=
  if (S.kind (baseName t)).any Kind.isInput then some t else none

/-- `" operation: " << operationName` if there is one. -/
def operationSuffix (operationName : Str) : Str :=
  if operationName.isEmpty then [] else str " operation: " ++ operationName

/-- One variable definition, Validation.cpp:651-744. -/
def visitVariableDefinition (S : Schema) (operationName : Str) (d : VarDef) (st : State) : State :=
  let vars := st.operationVariables.getD []
  let message (text : String) : Str := str text ++ operationSuffix operationName ++ str " name: " ++ d.name
  if (findVariable vars d.name).isSome then st.fail (message "Conflicting variable")
  else
    match variableType S d.type with
    | none => st.fail (message "Invalid variable type")
    | some type =>
      let add (argument : Argument) (st : State) : State :=
        { st with
          variableDefinitions := st.variableDefinitions.insert d.name
          operationVariables := some (vars ++ [(d.name, argument)]) }
      match d.default with
      | none => add { type := type } st
      | some default =>
        let value := visitValue default
        match validateInputValue S false value.2 type (st.failAll value.1) with
        | (st, false) => st.fail (message "Incompatible variable default value")
        | (st, true) =>
          add { type := type, defaultValue := true, nonNullDefaultValue := !value.2.isNull } st

/-- The loop over the variables, Validation.cpp:651-744. -/
def visitVariableDefinitions (S : Schema) (operationName : Str) : List VarDef → State → State
  | [], st => st
  | d :: ds, st => visitVariableDefinitions S operationName ds (visitVariableDefinition S operationName d st)

/-- The location of the directives of an operation, Validation.cpp:746-759. -/
def operationLocation (type : Str) : Location :=
  if type = str "mutation" then .mutation else if type = str "subscription" then .subscription else .query

/-- The end of `visitOperationDefinition`, Validation.cpp:780-819. -/
def finishOperation (type name : Str) (st : State) : State :=
  let st :=
    if st.fieldCount > 1 && type = str "subscription" then
      st.fail (str "Subscription with more than one root field" ++
        (if name.isEmpty then [] else str " name: " ++ name))
    else st
  let unused := st.variableDefinitions.filter fun v => !st.referencedVariables.contains v
  let st := st.failAll (unused.map fun v => str "Unused variable name: " ++ v)
  { st with
    scopedType := [], fragmentStack := [], selectionFields := []
    operationVariables := none, variableDefinitions := [], referencedVariables := [] }

/-- The selections of an operation, Validation.cpp:761-819. -/
def visitRoot (S : Schema) (overflow : Int → Int) (fragments : List FragmentDef) (type name : Str) (sub : List Selection)
    (st : State) : State :=
  match S.operationType type with
  | none => st.fail (str "Unsupported operation type: " ++ type)
  | some object =>
    finishOperation type name
      (visitSelection S overflow fragments fragments.length sub { st with scopedType := object, fieldCount := 0 })

/-- `visitOperationDefinition`, Validation.cpp:633-819. -/
def visitOperationDefinition (S : Schema) (overflow : Int → Int) (fragments : List FragmentDef) (op : Operation)
    (st : State) : State :=
  let type := op.type.getD (str "query")
  let name := op.name.getD []
  visitRoot S overflow fragments type name op.sub
    (visitDirectives S (operationLocation type) op.directives
      (visitVariableDefinitions S name op.variables { st with operationVariables := some [] }))

/-- The definitions in order, Validation.cpp:537-555. -/
def visitDefinitions (S : Schema) (overflow : Int → Int) (fragments : List FragmentDef) : List Definition → State → State
  | [], st => st
  | .fragment f :: ds, st =>
    visitDefinitions S overflow fragments ds (visitFragmentDefinition S overflow fragments f st)
  | .operation op :: ds, st =>
    visitDefinitions S overflow fragments ds (visitOperationDefinition S overflow fragments op st)
  | .other _ :: ds, st => visitDefinitions S overflow fragments ds (st.fail (str "Unexpected type definition"))

/-- Names which occur before, Validation.cpp:475-516: the errors for duplicates. -/
def duplicates (label : String) : List Str → List Str → List Str
  | [], _ => []
  | name :: names, seen =>
    if seen.contains name then (str label ++ name) :: duplicates label names seen
    else duplicates label names (seen ++ [name])

/-- The name of an operation, empty if it is anonymous. -/
def operationName (op : Operation) : Str := op.name.getD []

/-- The check for anonymous operations, Validation.cpp:518-535; `_operationDefinitions` holds every name once. -/
def anonymousErrors (ops : List Operation) : List Str :=
  let names := (ops.map operationName).dedup
  if names.length > 1 && names.contains [] then [str "Anonymous operation not alone"] else []

/-- `ValidateExecutableVisitor::visit`, Validation.cpp:473-580. -/
def visit (S : Schema) (overflow : Int → Int) (doc : Document) (st : State) : State :=
  let st := st.failAll (duplicates "Duplicate fragment name: " (doc.fragments.map (·.name)) [])
  let st := st.failAll (duplicates "Duplicate operation name: " (doc.operations.map operationName) [])
  let st := st.failAll (anonymousErrors doc.operations)
  let st := visitDefinitions S overflow doc.fragments doc.definitions st
  let unused := (doc.fragments.map (·.name)).dedup.filter fun name => !st.referencedFragments.contains name
  st.failAll (unused.map fun name => str "Unused fragment definition name: " ++ name)

/-- `getStructuredErrors`, Validation.cpp:582-593: the errors, and the visitor ready for another document. -/
def getStructuredErrors (st : State) : List Str × State :=
  (st.errors, { st with errors := [], referencedFragments := [], fragmentCycles := [] })

/-- `Request::validate` for a document which was not validated before, GraphQLService.cpp:1625-1637: the errors, and the
visitor afterwards. -/
def validate (S : Schema) (overflow : Int → Int) (doc : Document) (st : State) : List Str × State :=
  getStructuredErrors (visit S overflow doc st)

end Verif.Validation
