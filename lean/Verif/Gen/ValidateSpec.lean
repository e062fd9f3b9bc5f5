import Verif.Gen.Validate
import Verif.Gen.LoaderClaims

/-!
# Which schemas are accepted

The specification for `Verif.Gen.Validate`, in terms of the types of the document (which C53 describes).
-/
namespace Verif.Gen
open Verif.Value Verif.Resp Verif.Ast Verif.Modifiers

/-- What a name means as the type of an argument or an input field. -/
inductive InputKind (s : Loader) (n : Str) : InputFieldType → Prop where
  | builtin : n ∈ builtinTypes → InputKind s n .builtin
  | scalar : n ∉ builtinTypes → s.schemaTypes n = some .scalar → InputKind s n .scalar
  | enum : n ∉ builtinTypes → s.schemaTypes n = some .enum → InputKind s n .enum
  | input : n ∉ builtinTypes → s.schemaTypes n = some .input → InputKind s n .input

/-- What a name means as the type of a field. -/
inductive OutputKind (s : Loader) (n : Str) : OutputFieldType → Prop where
  | builtin : n ∈ builtinTypes → OutputKind s n .builtin
  | scalar : n ∉ builtinTypes → s.schemaTypes n = some .scalar → OutputKind s n .scalar
  | enum : n ∉ builtinTypes → s.schemaTypes n = some .enum → OutputKind s n .enum
  | union : n ∉ builtinTypes → s.schemaTypes n = some .union → OutputKind s n .union
  | interface : n ∉ builtinTypes → s.schemaTypes n = some .interface → OutputKind s n .interface
  | object : n ∉ builtinTypes → s.schemaTypes n = some .object → OutputKind s n .object

/-- The types of the arguments which are looked at: those of a field of a built-in type are not. -/
def checkedArguments (f : OutputField) : List InputField := if f.type ∈ builtinTypes then [] else f.arguments

/-- The field has a valid type, and so have the arguments which are looked at. -/
def ValidField (s : Loader) (f : OutputField) : Prop :=
  (∃ k, OutputKind s f.type k) ∧ ∀ a ∈ checkedArguments f, ∃ k, InputKind s a.type k

/-- An input type needs another one to be declared before. -/
def NeedsInput (s : Loader) (t : InputType) (n : Str) : Prop :=
  ∃ f ∈ t.fields, f.type = n ∧ n ∉ builtinTypes ∧ s.schemaTypes n = some .input

/-- The conditions on the operation types. -/
def ValidOperations (isIntrospection : Bool) (s : Loader) : Prop :=
  if isIntrospection then s.operationTypes = []
  else if s.operationTypes = [] then ∃ t ∈ s.objectTypes, t.type = str "Query"
  else (∀ o ∈ s.operationTypes, ∃ t ∈ s.objectTypes, t.type = o.type) ∧
    ∃ o ∈ s.operationTypes, o.operation = str "query"

/-- A schema which is accepted. -/
structure ValidSchema (isIntrospection : Bool) (s : Loader) : Prop where
  builtin : ∀ n ∈ builtinTypes, s.schemaTypes n = none
  inputs : ∀ t ∈ s.inputTypes, ∀ f ∈ t.fields, ∃ k, InputKind s f.type k
  order : ∃ l, l.Perm s.inputTypes ∧ Ordered (·.type) (NeedsInput s) l
  interfaces : ∀ t ∈ s.interfaceTypes, ∀ f ∈ t.fields, ValidField s f
  operations : ValidOperations isIntrospection s
  objects : ∀ t ∈ s.objectTypes, ∀ f ∈ t.fields, ValidField s f
  implemented : ∀ t ∈ s.objectTypes, ∀ n ∈ t.interfaces, ∃ u ∈ s.interfaceTypes, u.type = n
  members : ∀ u ∈ s.unionTypes, ∀ n ∈ u.options, ∃ t ∈ s.objectTypes, t.type = n

/-- All the places where an input type is expected. -/
def InputPlace (s : Loader) (f : InputField) : Prop :=
  (∃ t ∈ s.inputTypes, f ∈ t.fields) ∨ (∃ t ∈ s.interfaceTypes, ∃ g ∈ t.fields, f ∈ checkedArguments g) ∨
    ∃ t ∈ s.objectTypes, ∃ g ∈ t.fields, f ∈ checkedArguments g

/-- All the fields of objects and interfaces. -/
def OutputPlace (s : Loader) (f : OutputField) : Prop :=
  (∃ t ∈ s.interfaceTypes, f ∈ t.fields) ∨ ∃ t ∈ s.objectTypes, f ∈ t.fields

/-- The error says something true. -/
inductive Explains (isIntrospection : Bool) (s : Loader) : LoadError → Prop where
  | builtinOverridden {n} : n ∈ builtinTypes → s.schemaTypes n ≠ none → Explains isIntrospection s .builtinOverridden
  | unknownArgumentType {f} : InputPlace s f → f.type ∉ builtinTypes → s.schemaTypes f.type = none →
      Explains isIntrospection s (.unknownArgumentType f.type)
  | invalidArgumentType {f k} : InputPlace s f → f.type ∉ builtinTypes → s.schemaTypes f.type = some k →
      k ∈ [SchemaType.union, .interface, .object] → Explains isIntrospection s (.invalidArgumentType f.type)
  | unknownFieldType {f} : OutputPlace s f → f.type ∉ builtinTypes → s.schemaTypes f.type = none →
      Explains isIntrospection s (.unknownFieldType f.type)
  | invalidFieldType {f} : OutputPlace s f → f.type ∉ builtinTypes → s.schemaTypes f.type = some .input →
      Explains isIntrospection s (.invalidFieldType f.type)
  | cycle {t} : t ∈ s.inputTypes → (¬ ∃ l, l.Perm s.inputTypes ∧ Ordered (·.type) (NeedsInput s) l) →
      Explains isIntrospection s (.cycle t.type)
  | introspectionOperations : isIntrospection = true → s.operationTypes ≠ [] →
      Explains isIntrospection s .introspectionOperations
  | queryMissing : isIntrospection = false → s.operationTypes = [] → (¬ ∃ t ∈ s.objectTypes, t.type = str "Query") →
      Explains isIntrospection s .queryUndefined
  | queryUndefined : isIntrospection = false → s.operationTypes ≠ [] → (∀ o ∈ s.operationTypes, o.operation ≠ str "query") →
      Explains isIntrospection s .queryUndefined
  | unknownOperationType {o} : isIntrospection = false → o ∈ s.operationTypes →
      (¬ ∃ t ∈ s.objectTypes, t.type = o.type) → Explains isIntrospection s (.unknownOperationType o.type o.operation)
  | unknownInterface {t n} : t ∈ s.objectTypes → n ∈ t.interfaces → (¬ ∃ u ∈ s.interfaceTypes, u.type = n) →
      Explains isIntrospection s (.unknownInterface n t.type)
  | unknownOption {u n} : u ∈ s.unionTypes → n ∈ u.options → (¬ ∃ t ∈ s.objectTypes, t.type = n) →
      Explains isIntrospection s (.unknownOption n u.type)

/-! ## The result -/

/-- An argument or input field afterwards: the kind of its type is filled in. -/
def FixedInput (s : Loader) (f f' : InputField) : Prop :=
  InputKind s f.type f'.fieldType ∧ f' = { f with fieldType := f'.fieldType }

/-- The arguments afterwards; those of a field of a built-in type stay as they are. -/
def FixedArguments (s : Loader) (f f' : OutputField) : Prop :=
  if f.type ∈ builtinTypes then f'.arguments = f.arguments
  else List.Forall₂ (FixedInput s) f.arguments f'.arguments

/-- A field of an interface afterwards. -/
structure FixedInterfaceField (s : Loader) (f f' : OutputField) : Prop where
  kind : OutputKind s f.type f'.fieldType
  arguments : FixedArguments s f f'
  rest : f' = { f with
    fieldType := f'.fieldType, arguments := f'.arguments, interfaceField := true, inheritedField := false }

/-- Does an interface which the object implements have a field of this name? (If a name is defined twice, the last
definition counts.) -/
def Inherited (s : Loader) (t : ObjectType) (name : Str) : Prop :=
  ∃ n ∈ t.interfaces, ∃ u pre post, s.interfaceTypes = pre ++ u :: post ∧ u.type = n ∧ (∀ v ∈ post, v.type ≠ n) ∧
    ∃ g ∈ u.fields, g.name = name

/-- The type for mutations. -/
def IsMutation (operations : List OperationType) (n : Str) : Prop :=
  ∃ pre o post, operations = pre ++ o :: post ∧ o.operation = str "mutation" ∧ o.type = n ∧
    ∀ o' ∈ pre, o'.operation ≠ str "mutation"

/-- A field of an object afterwards. -/
structure FixedObjectField (s s' : Loader) (t : ObjectType) (f f' : OutputField) : Prop where
  kind : OutputKind s f.type f'.fieldType
  arguments : FixedArguments s f f'
  inherited : f'.inheritedField = true ↔ Inherited s t f.name
  accessor : (IsMutation s'.operationTypes t.type → f'.accessor = str "apply") ∧
    (¬ IsMutation s'.operationTypes t.type → t.type ≠ [] → f'.accessor = f.accessor)
  rest : f' = { f with
    fieldType := f'.fieldType, arguments := f'.arguments, interfaceField := false, inheritedField := f'.inheritedField,
    accessor := f'.accessor }

/-- The operation types with the default names. -/
def defaultTypes : List OperationType :=
  [⟨str "Query", str "query"⟩, ⟨str "Mutation", str "mutation"⟩, ⟨str "Subscription", str "subscription"⟩]

/-- The operation types afterwards: those given, or else those with the default names which are object types. -/
def FixedOperations (isIntrospection : Bool) (s s' : Loader) : Prop :=
  if isIntrospection = false ∧ s.operationTypes = [] then
    s'.operationTypes.Sublist defaultTypes ∧
      ∀ o ∈ defaultTypes, o ∈ s'.operationTypes ↔ ∃ t ∈ s.objectTypes, t.type = o.type
  else s'.operationTypes = s.operationTypes

/-- The unions with this member, in order. -/
def unionsOf (s : Loader) (n : Str) : List Str :=
  s.unionTypes.flatMap fun u => (u.options.filter fun o => o = n).map fun _ => u.type

/-- The loader after an accepted schema. -/
structure Validated (isIntrospection : Bool) (s s' : Loader) : Prop where
  inputs : ∃ l, l.Perm s.inputTypes ∧
    List.Forall₂ (fun t t' => t'.type = t.type ∧ t'.description = t.description ∧
      List.Forall₂ (FixedInput s) t.fields t'.fields) l s'.inputTypes
  order : Ordered (·.type) (·.needs) s'.inputTypes
  interfaces : List.Forall₂ (fun t t' => t'.type = t.type ∧ t'.description = t.description ∧
    List.Forall₂ (FixedInterfaceField s) t.fields t'.fields) s.interfaceTypes s'.interfaceTypes
  operations : FixedOperations isIntrospection s s'
  objects : List.Forall₂ (fun t t' => t'.type = t.type ∧ t'.description = t.description ∧ t'.interfaces = t.interfaces ∧
    List.Forall₂ (FixedObjectField s s' t) t.fields t'.fields) s.objectTypes s'.objectTypes
  unions : ∀ pre t' post, s'.objectTypes = pre ++ t' :: post → (∀ u ∈ post, u.type ≠ t'.type) →
    t'.unions = unionsOf s t'.type
  rest : s'.schemaTypes = s.schemaTypes ∧ s'.scalarTypes = s.scalarTypes ∧ s'.enumTypes = s.enumTypes ∧
    s'.unionTypes = s.unionTypes ∧ s'.directives = s.directives

end Verif.Gen
