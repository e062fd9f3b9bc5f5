import Verif.View.Model
import Verif.Gen.BuildSpec
import Verif.Validation.Spec

/-!
# Specification: the schema which is declared, and what the validator has to know about it
-/
namespace Verif.View
open Verif.Value Verif.SortedMap Verif.TypeSystem Verif.Gen Verif.Modifiers
open Verif.Ast (TypeRef)

/-! ## The schema of the loaded types -/

def inputValueOf (f : InputField) : Validation.InputValue := ⟨f.name, typeOf f.type f.modifiers, f.defaultValueString⟩

def fieldOf (f : OutputField) : Validation.FieldDef :=
  ⟨f.name, typeOf f.type f.modifiers, f.arguments.map inputValueOf⟩

/-- The types, by name. -/
def typesOf (l : Loader) : List (Str × Validation.TypeDef) :=
  l.scalarTypes.map (fun t => (t.type, { kind := .scalar })) ++
  l.enumTypes.map (fun t => (t.type, { kind := .enum, enumValues := t.values.map (·.value) })) ++
  l.inputTypes.map (fun t => (t.type, { kind := .inputObject, inputFields := t.fields.map inputValueOf })) ++
  l.unionTypes.map (fun t => (t.type, { kind := .union, possibleTypes := t.options })) ++
  l.interfaceTypes.map (fun t => (t.type,
    { kind := .interface, fields := t.fields.map fieldOf, possibleTypes := implementing l t.type })) ++
  l.objectTypes.map (fun t => (t.type, { kind := .object, fields := t.fields.map fieldOf }))

/-- The locations of directives in requests. -/
def locations : List (Str × Validation.Location) :=
  [(str "QUERY", .query), (str "MUTATION", .mutation), (str "SUBSCRIPTION", .subscription), (str "FIELD", .field),
   (str "FRAGMENT_DEFINITION", .fragmentDefinition), (str "FRAGMENT_SPREAD", .fragmentSpread),
   (str "INLINE_FRAGMENT", .inlineFragment)]

def directiveOf (d : DirectiveType) : Validation.DirectiveDef :=
  { name := d.name, locations := d.locations.filterMap fun n => List.lookup n locations
    arguments := d.arguments.map inputValueOf }

/-- The root type of an operation, the last one which is given. -/
def rootOf (l : Loader) (operation : Str) : Option Str :=
  (l.operationTypes.reverse.find? fun o => o.operation == operation).map (·.type)

/-- The schema which is declared by the loaded types, with the types and directives which every schema has. -/
def declared (introspection : Bool) (l : Loader) : Validation.Schema where
  types := typesOf Introspect.types ++ typesOf l
  query := (rootOf l (str "query")).getD []
  mutation := rootOf l (str "mutation")
  subscription := rootOf l (str "subscription")
  directives := (Introspect.types.directives ++ l.directives).map directiveOf
  introspection := introspection

/-! ## What the validator has to know -/

/-- The kind of a named type. -/
def kindOf : Validation.Kind → Kind
  | .scalar => .scalar
  | .object => .object
  | .interface => .interface
  | .union => .union
  | .enum => .enum
  | .inputObject => .inputObject

/-- The location of a directive. -/
def locationOf : Validation.Location → DirectiveLocation
  | .query => .query
  | .mutation => .mutation
  | .subscription => .subscription
  | .field => .field
  | .fragmentDefinition => .fragmentDefinition
  | .fragmentSpread => .fragmentSpread
  | .inlineFragment => .inlineFragment

/-- The pointer is not null, and the type it refers to is the one which the type reference denotes: the named type which
`LookupType` finds, or the wrapper of such an object. -/
def Refers (s : Schema) (p : ValidateType) (τ : TypeRef) : Prop := ∃ a, p = some a ∧ Denotes s τ a

/-- An argument or input field. -/
structure ArgumentIs (s : Schema) (x : Argument) (a : Validation.Argument) : Prop where
  defaultValue : x.defaultValue = a.defaultValue
  nonNullDefaultValue : x.nonNullDefaultValue = a.nonNullDefaultValue
  type : Refers s x.type a.type

/-- The arguments which are found by name. -/
def ArgumentsAre (s : Schema) (m : SMap Str Argument) (args : List Validation.InputValue) : Prop :=
  ∀ n, Option.Rel (ArgumentIs s) (get m n) (Validation.findArgument args n)

/-- A field. -/
structure FieldIs (s : Schema) (x : TypeField) (f : Validation.FieldDef) : Prop where
  type : Refers s x.returnType f.type
  arguments : ArgumentsAre s x.arguments f.arguments

/-- A directive. -/
structure DirectiveIs (s : Schema) (x : DirectiveEntry) (d : Validation.DirectiveDef) : Prop where
  locations : ∀ l, (setFind locationLess x.locations (locationOf l)).isSome ↔ l ∈ d.locations
  arguments : ArgumentsAre s x.arguments d.arguments

/-- The tables of the validator are those of the schema `S`. -/
structure Sees (v : Validator) (S : Validation.Schema) : Prop where
  /-- `_types.find(name)` gives the types of the schema, and only those. -/
  types : ∀ n, Option.Rel (fun p (t : Validation.TypeDef) => Refers v.schema p (.named n) ∧
    ∀ a, p = some a → ∃ b, v.schema.store a = some b ∧ b.kind = kindOf t.kind ∧ b.name = n) (get v.types n) (S.find n)
  operationTypes : ∀ operation, Option.Rel (fun p n => Refers v.schema p (.named n)) (get v.operationTypes operation)
    (S.operationType operation)
  directives : ∀ n, Option.Rel (DirectiveIs v.schema) (get v.directives n) (S.findDirective n)
  /-- The values of an enum type. -/
  enumValues : ∀ n t, S.find n = some t → t.kind = .enum →
    ∀ x, (∃ values, get v.enumValues n = some values ∧ (setFind nameCmp values x).isSome) ↔ x ∈ t.enumValues
  scalars : ∀ n, (setFind nameCmp v.scalarTypes n).isSome ↔ S.kind n = some .scalar
  /-- There are objects of both types. -/
  overlap : ∀ a n m, Denotes v.schema (.named n) a → matchesScopedType v a m = S.overlap n m

/-- What the calls answer in the state `v`. -/
structure Answers (alloc : Schema → Addr) (v : Validator) (S : Validation.Schema) : Prop where
  /-- The fields of a type of the schema: only a composite type has fields, and they are found by name. -/
  fields : ∀ n scope, v.schema.lookupType n = .ok scope → ∃ v' r, getScopedTypeFields alloc v scope = .ok (v', r) ∧
    r.isSome = S.isComposite n ∧ ∀ m, r = some m → ∀ k, Option.Rel (FieldIs v'.schema) (get m k) (S.findField n k)
  /-- The input fields of an input object type, and of no other type. -/
  inputFields : ∀ n, Option.Rel (fun m (t : Validation.TypeDef) => ArgumentsAre v.schema m t.inputFields)
    (getInputTypeFields v n).2 ((S.find n).filter fun t => t.kind = .inputObject)
  /-- The type of a variable. -/
  variableTypes : ∀ τ, ∃ s' p, variableType alloc v.types v.schema τ = .ok (s', (Validation.variableType S τ).isSome, p) ∧
    ((Validation.variableType S τ).isSome → Refers s' p τ)
  /-- Types are the same object exactly if they are the same type. -/
  same : ∀ {τ τ' a a'}, Denotes v.schema τ a → Denotes v.schema τ' a' → (a = a' ↔ τ = τ')
  /-- Nothing which happens later changes what a pointer refers to. -/
  stays : ∀ {v' τ a}, Step alloc v v' → Denotes v.schema τ a → Denotes v'.schema τ a
  /-- The type of the objects of a field. -/
  inner : ∀ {τ a}, Denotes v.schema τ a → ∃ b, v.schema.lookupType (Validation.baseName τ) = .ok b ∧
    ∀ r, Unwraps v.schema (some a) r ↔ r = some b

end Verif.View
