import Verif.Gen.Build
import Verif.Gen.LoaderSpec

/-!
# What the built schema has to be

The specification for `Verif.Gen.Build`: which loaded types a schema has, as seen by `LookupType` and introspection.
-/
namespace Verif.Gen
open Verif.Value Verif.Modifiers Verif.TypeSystem
open Verif.TypeSystem.Spec (nullIfEmpty)
open Verif.Schema.Wrap (Kind Addr)

/-- The names of the types in the order in which they are added. -/
def typeNames (l : Loader) : List Str :=
  l.scalarTypes.map (·.type) ++ l.enumTypes.map (·.type) ++ l.inputTypes.map (·.type) ++ l.unionTypes.map (·.type) ++
    l.interfaceTypes.map (·.type) ++ l.objectTypes.map (·.type)

/-- All the names are different, also from those of the introspection types, and not empty. -/
def DistinctNames (l : Loader) : Prop := (typeNames Introspect.types ++ typeNames l).Nodup ∧ [] ∉ typeNames l

/-- All the places of a type reference: arguments and input fields, and fields. -/
def inputPlaces (l : Loader) : List InputField :=
  l.inputTypes.flatMap (·.fields) ++ (l.interfaceTypes.flatMap (·.fields)).flatMap (·.arguments) ++
    (l.objectTypes.flatMap (·.fields)).flatMap (·.arguments) ++ l.directives.flatMap (·.arguments)

def outputPlaces (l : Loader) : List OutputField := l.interfaceTypes.flatMap (·.fields) ++ l.objectTypes.flatMap (·.fields)

/-- Everything which is mentioned exists; `names` are the names of the types. -/
structure Known (names : List Str) (l : Loader) : Prop where
  inputs : ∀ f ∈ inputPlaces l, f.type ∈ names
  outputs : ∀ f ∈ outputPlaces l, f.type ∈ names
  options : ∀ t ∈ l.unionTypes, ∀ n ∈ t.options, n ∈ names
  interfaces : ∀ t ∈ l.objectTypes, ∀ n ∈ t.interfaces, n ∈ l.interfaceTypes.map (·.type)
  locations : ∀ d ∈ l.directives, ∀ n ∈ d.locations, n ∈ locationNames.map (·.1)
  operations : ∀ o ∈ l.operationTypes, o.operation ∈ [str "query", str "mutation", str "subscription"] →
    o.type ∈ l.objectTypes.map (·.type)

/-- An argument or input field of the schema is what the loaded one says: its type reads as it was written, and is the object
which `LookupType` and `WrapType` give. -/
structure IsInputValue (s : Schema) (f : InputField) (v : InputValue) : Prop where
  name : v.name = f.name
  description : v.description = f.description
  default : v.defaultValue = f.defaultValueString
  type : Reads s v.type (typeOf f.type f.modifiers)
  object : Denotes s (typeOf f.type f.modifiers) v.type

/-- A field of the schema is what the loaded one says. -/
structure IsField (s : Schema) (f : OutputField) (v : Field) : Prop where
  name : v.name = f.name
  description : v.description = f.description
  deprecation : v.deprecationReason = f.deprecationReason
  type : Reads s v.type (typeOf f.type f.modifiers)
  object : Denotes s (typeOf f.type f.modifiers) v.type
  args : List.Forall₂ (IsInputValue s) f.arguments v.args

/-- The type found by name has this kind and description, and `P`. -/
def HasType (s : Schema) (n : Str) (k : Kind) (d : Str) (P : BaseType → Prop) : Prop :=
  ∃ a t, s.lookupType n = .ok a ∧ s.store a = some t ∧ Introspection.getKind t = k ∧
    Introspection.getName t = some n ∧ Introspection.getDescription t = nullIfEmpty d ∧ P t

/-- The objects which implement an interface, in order. -/
def implementing (l : Loader) (n : Str) : List Str :=
  l.objectTypes.flatMap fun o => (o.interfaces.filter (· = n)).map fun _ => o.type

/-- The schema has all the loaded types. -/
structure HasTypes (s : Schema) (l : Loader) : Prop where
  scalars : ∀ t ∈ l.scalarTypes, HasType s t.type .scalar t.description fun _ => True
  enums : ∀ t ∈ l.enumTypes, HasType s t.type .enum t.description fun e =>
    Introspection.getEnumValues e (some true) = some (t.values.map fun v => ⟨v.value, v.description, v.deprecationReason⟩)
  inputs : ∀ t ∈ l.inputTypes, HasType s t.type .inputObject t.description fun e =>
    ∃ fs, Introspection.getInputFields e = some fs ∧ List.Forall₂ (IsInputValue s) t.fields fs
  unions : ∀ t ∈ l.unionTypes, HasType s t.type .union t.description fun e =>
    ∃ ps, Introspection.getPossibleTypes e = some ps ∧ List.Forall₂ (fun n p => s.lookupType n = .ok p) t.options ps
  interfaces : ∀ t ∈ l.interfaceTypes, HasType s t.type .interface t.description fun e =>
    (∃ fs, Introspection.getFields e (some true) = some fs ∧ List.Forall₂ (IsField s) t.fields fs) ∧
    ∃ ps, Introspection.getPossibleTypes e = some ps ∧
      List.Forall₂ (fun n p => s.lookupType n = .ok p) (implementing l t.type) ps
  objects : ∀ t ∈ l.objectTypes, HasType s t.type .object t.description fun e =>
    (∃ fs, Introspection.getFields e (some true) = some fs ∧ List.Forall₂ (IsField s) t.fields fs) ∧
    ∃ is, Introspection.getInterfaces e = some is ∧ List.Forall₂ (fun n i => s.lookupType n = .ok i) t.interfaces is

/-- A directive of the schema is what the loaded one says. -/
structure IsSchemaDirective (s : Schema) (d : DirectiveType) (v : TypeSystem.Directive) : Prop where
  name : v.name = d.name
  description : v.description = d.description
  locations : List.Forall₂ (fun n l => (n, l) ∈ locationNames) d.locations v.locations
  args : List.Forall₂ (IsInputValue s) d.arguments v.args

/-- The type of a root operation: the last one which is given. -/
def IsRoot (s : Schema) (l : Loader) (operation : Str) : Option Addr → Prop
  | none => ∀ o ∈ l.operationTypes, o.operation ≠ operation
  | some a => ∃ pre o post, l.operationTypes = pre ++ o :: post ∧ o.operation = operation ∧
      (∀ o' ∈ post, o'.operation ≠ operation) ∧ s.lookupType o.type = .ok a

/-- The schema has the introspection types and the loaded types, in this order, and nothing else; it was made by calls of
`schema::Schema`, where each type was added once, under its own name. -/
structure BuiltFrom (l : Loader) (s : Schema) : Prop where
  built : ∃ ops, Built ops s ∧ OwnNames ops
  introspection : HasTypes s Introspect.types
  types : HasTypes s l
  order : List.Forall₂ (fun n a => s.lookupType n = .ok a) (typeNames Introspect.types ++ typeNames l)
    (Introspection.getTypes s)
  directives : List.Forall₂ (IsSchemaDirective s) (Introspect.types.directives ++ l.directives)
    (Introspection.getDirectives s)
  query : IsRoot s l (str "query") (Introspection.getQueryType s)
  mutation : IsRoot s l (str "mutation") (Introspection.getMutationType s)
  subscription : IsRoot s l (str "subscription") (Introspection.getSubscriptionType s)

/-- `alloc` chooses unused addresses. -/
def FreshAddrs (alloc : List Op → Addr) : Prop := ∀ ops s, Built ops s → s.store (alloc ops) = none

end Verif.Gen
