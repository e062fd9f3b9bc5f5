import Verif.Schema.Wrap
import Verif.Errors.Model

/-!
# Model of `schema::Schema`, the schema types and their introspection

Models `/repo/src/Schema.cpp` (all of it; `WrapType` here for one thread, see `Verif.Schema.Wrap` for many) and
`/repo/src/Introspection.cpp`.

* A `shared_ptr` or `weak_ptr` to a type is its address; `store` has the objects which are alive. Types are not destroyed
  while the schema is in use, so `lock()` of a pointer to a type which was made gives this type.
* Fields, input values, enum values and directives never change, so they are values here.
* `introspection::Type { type }` is the address of `type`; `introspection::Field { field }` is the field, and so on.
-/
namespace Verif.TypeSystem
open Verif.Value Verif.Errors Verif.SortedMap
export Verif.Schema.Wrap (Kind Addr)
open Verif.Schema

/-- `schema::InputValue`, Schema.cpp:465-505. `defaultValue` is text. -/
structure InputValue where
  name : Str
  description : Str := []
  type : Addr
  defaultValue : Str := []
deriving DecidableEq

/-- `schema::Field`, Schema.cpp:413-463. -/
structure Field where
  name : Str
  description : Str := []
  deprecationReason : Option Str := none
  type : Addr
  args : List InputValue := []
deriving DecidableEq

/-- `schema::EnumValue`, Schema.cpp:507-540, and `EnumValueType`, Schema.h:218-223. -/
structure EnumValue where
  name : Str
  description : Str := []
  deprecationReason : Option Str := none
deriving DecidableEq

/-- `introspection::DirectiveLocation`, IntrospectionSchema.h:48-68. -/
inductive DirectiveLocation where
  | query | mutation | subscription | field | fragmentDefinition | fragmentSpread | inlineFragment
  | schema | scalar | object | fieldDefinition | argumentDefinition | interface | union | enum | enumValue
  | inputObject | inputFieldDefinition
deriving DecidableEq

/-- `schema::Directive`, Schema.cpp:542-585. -/
structure Directive where
  name : Str
  description : Str := []
  locations : List DirectiveLocation := []
  args : List InputValue := []

/-- The classes derived from `schema::BaseType`, Schema.h:110-296. -/
inductive BaseType where
  | scalar (name description : Str)
  | object (name description : Str) (interfaces : List Addr) (fields : List Field)
  | interface (name description : Str) (fields : List Field) (possibleTypes : List Addr)
  | union (name description : Str) (possibleTypes : List Addr)
  | enum (name description : Str) (values : List EnumValue)
  | inputObject (name description : Str) (inputFields : List InputValue)
  | wrapper (kind : Kind) (ofType : Addr)
deriving DecidableEq

namespace BaseType

/-- `kind()`, Schema.cpp:117-126 with the constructors 185-189, 207-211, 256-260, 298-302, 330-334, 369-373, 402-406. -/
def kind : BaseType → Kind
  | scalar .. => .scalar
  | object .. => .object
  | interface .. => .interface
  | union .. => .union
  | enum .. => .enum
  | inputObject .. => .inputObject
  | wrapper k _ => k

/-- `name()`, Schema.cpp:128-131, 191-194, 229-232, 272-275, 309-312, 347-350, 380-383. -/
def name : BaseType → Str
  | scalar n _ | object n .. | interface n .. | union n .. | enum n .. | inputObject n .. => n
  | wrapper .. => []

/-- `description()`, Schema.cpp:133-136. -/
def description : BaseType → Str
  | scalar _ d | object _ d .. | interface _ d .. | union _ d .. | enum _ d .. | inputObject _ d .. => d
  | wrapper .. => []

/-- `fields()`, Schema.cpp:138-142, 234-237, 277-280. -/
def fields : BaseType → List Field
  | object _ _ _ fs | interface _ _ fs _ => fs
  | _ => []

/-- `interfaces()`, Schema.cpp:144-148, 239-242. -/
def interfaces : BaseType → List Addr
  | object _ _ is _ => is
  | _ => []

/-- `possibleTypes()`, Schema.cpp:150-154, 282-285, 314-317. -/
def possibleTypes : BaseType → List Addr
  | interface _ _ _ ps | union _ _ ps => ps
  | _ => []

/-- `enumValues()`, Schema.cpp:156-160, 352-355. -/
def enumValues : BaseType → List EnumValue
  | enum _ _ vs => vs
  | _ => []

/-- `inputFields()`, Schema.cpp:162-166, 385-388. -/
def inputFields : BaseType → List InputValue
  | inputObject _ _ fs => fs
  | _ => []

/-- `ofType()`, Schema.cpp:168-172, 408-411. -/
def ofType : BaseType → Option Addr
  | wrapper _ t => some t
  | _ => none

/-- `ObjectType::AddFields` and `InterfaceType::AddFields`, Schema.cpp:224-227, 267-270. -/
def addFields (fs : List Field) : BaseType → BaseType
  | object n d is _ => object n d is fs
  | interface n d _ ps => interface n d fs ps
  | t => t

/-- `InterfaceType::AddPossibleType`, Schema.cpp:262-265. -/
def addPossibleType (a : Addr) : BaseType → BaseType
  | interface n d fs ps => interface n d fs (ps ++ [a])
  | t => t

/-- `_interfaces = std::move(interfaces)`, Schema.cpp:215. -/
def setInterfaces (is : List Addr) : BaseType → BaseType
  | object n d _ fs => object n d is fs
  | t => t

/-- `UnionType::AddPossibleTypes`, Schema.cpp:304-307. -/
def addPossibleTypes (ps : List Addr) : BaseType → BaseType
  | union n d _ => union n d ps
  | t => t

/-- `EnumType::AddEnumValues`, Schema.cpp:336-345. -/
def addEnumValues (vs : List EnumValue) : BaseType → BaseType
  | enum n d _ => enum n d vs
  | t => t

/-- `InputObjectType::AddInputValues`, Schema.cpp:375-378. -/
def addInputValues (fs : List InputValue) : BaseType → BaseType
  | inputObject n d _ => inputObject n d fs
  | t => t

end BaseType

/-- The kinds of the types which have names. -/
def isNamed : Kind → Bool
  | .list | .nonNull => false
  | _ => true

/-- `ScalarType::Make` and so on, Schema.cpp:180-183, 202-205, 250-254, 293-296, 325-328, 363-367. -/
def BaseType.make : Kind → Str → Str → BaseType
  | .scalar, n, d => .scalar n d
  | .object, n, d => .object n d [] []
  | .interface, n, d => .interface n d [] []
  | .union, n, d => .union n d []
  | .enum, n, d => .enum n d []
  | .inputObject, n, d => .inputObject n d []
  | k, _, _ => .wrapper k 0  -- not used: these kinds have no names

/-- `schema::Schema`, Schema.h:65-78, and the types. -/
structure Schema where
  store : Addr → Option BaseType := fun _ => none
  typeMap : SMap Str Nat := []
  types : List (Str × Addr) := []
  query : Option Addr := none
  mutation : Option Addr := none
  subscription : Option Addr := none
  directives : List Directive := []
  listWrappers : SMap Addr Addr := []
  nonNullWrappers : SMap Addr Addr := []

/-- `shorter_or_less` for names. -/
def nameCmp (a b : Str) : Bool := shorterOrLess (a.map UInt8.ofBitVec) (b.map UInt8.ofBitVec)

namespace Schema

/-- Change the type at an address. -/
def modify (s : Schema) (a : Addr) (f : BaseType → BaseType) : Schema :=
  { s with store := Function.update s.store a ((s.store a).map f) }

/-- `Schema::AddType`, Schema.cpp:32-36. -/
def addType (s : Schema) (name : Str) (a : Addr) : Schema :=
  { s with
    typeMap := (index nameCmp 0 s.typeMap name fun _ => s.types.length).1
    types := s.types ++ [(name, a)] }

/-- `Schema::LookupType`, Schema.cpp:43-62. -/
def lookupType (s : Schema) (name : Str) : Except Exn Addr :=
  match find nameCmp s.typeMap name with
  | none => .error (.message (str "Type not found" ++ (if name.isEmpty then [] else str " name: " ++ name)))
  | some e =>
    match s.types[e.2]? with
    | some t => .ok t.2
    | none => .error (.other (str "undefined behaviour"))  -- not reachable, see `C37_lookup`

/-- `ObjectType::AddInterfaces`, Schema.cpp:213-222. -/
def addInterfaces (s : Schema) (a : Addr) (is : List Addr) : Schema :=
  is.foldl (fun s i => s.modify i (·.addPossibleType a)) (s.modify a (·.setInterfaces is))

/-- `Schema::WrapType`, Schema.cpp:64-84, by one thread; `fresh` is the address `WrapperType::Make` would use. -/
def wrapType (s : Schema) (kind : Kind) (ofType : Addr) (fresh : Addr) : Schema × Addr :=
  let wrappers := if kind = .list then s.listWrappers else s.nonNullWrappers
  match find Wrap.addrLess wrappers ofType with
  | some e => (s, e.2)
  | none =>
    let wrappers := (emplace Wrap.addrLess wrappers ofType fresh).1
    let store := Function.update s.store fresh (some (.wrapper kind ofType))
    (if kind = .list then { s with listWrappers := wrappers, store := store }
     else { s with nonNullWrappers := wrappers, store := store }, fresh)

end Schema

/-! ## Building a schema -/

/-- The calls which make and change a schema and its types. The address of `make` and `wrap` is the one of the new
object. -/
inductive Op where
  | make (a : Addr) (kind : Kind) (name description : Str)
  | addFields (a : Addr) (fields : List Field)
  | addInterfaces (a : Addr) (interfaces : List Addr)
  | addPossibleTypes (a : Addr) (types : List Addr)
  | addEnumValues (a : Addr) (values : List EnumValue)
  | addInputValues (a : Addr) (values : List InputValue)
  | addType (name : Str) (a : Addr)
  | wrap (a : Addr) (kind : Kind) (ofType : Addr)
  | addQueryType (a : Addr)
  | addMutationType (a : Addr)
  | addSubscriptionType (a : Addr)
  | addDirective (d : Directive)

/-- Each call; also Schema.cpp:17-30, 86-89. -/
def Schema.apply (s : Schema) : Op → Schema
  | .make a k n d => { s with store := Function.update s.store a (some (.make k n d)) }
  | .addFields a fs => s.modify a (·.addFields fs)
  | .addInterfaces a is => s.addInterfaces a is
  | .addPossibleTypes a ps => s.modify a (·.addPossibleTypes ps)
  | .addEnumValues a vs => s.modify a (·.addEnumValues vs)
  | .addInputValues a vs => s.modify a (·.addInputValues vs)
  | .addType n a => s.addType n a
  | .wrap a k t => (s.wrapType k t a).1
  | .addQueryType a => { s with query := some a }
  | .addMutationType a => { s with mutation := some a }
  | .addSubscriptionType a => { s with subscription := some a }
  | .addDirective d => { s with directives := s.directives ++ [d] }

/-- The object at the address is of one of these classes. -/
def Schema.Is (s : Schema) (a : Addr) (kinds : List Kind) : Prop := ∃ t, s.store a = some t ∧ t.kind ∈ kinds

/-- What the C++ types of the parameters and the allocator guarantee. -/
def Op.Valid (s : Schema) : Op → Prop
  | .make a k _ _ => s.store a = none ∧ isNamed k
  | .addFields a _ => s.Is a [.object, .interface]
  | .addInterfaces a is => s.Is a [.object] ∧ ∀ i ∈ is, s.Is i [.interface]
  | .addPossibleTypes a _ => s.Is a [.union]
  | .addEnumValues a _ => s.Is a [.enum]
  | .addInputValues a _ => s.Is a [.inputObject]
  | .addType _ a => s.store a ≠ none
  | .wrap a k t => s.store a = none ∧ s.store t ≠ none ∧ (k = .list ∨ k = .nonNull)
  | .addQueryType a | .addMutationType a | .addSubscriptionType a => s.Is a [.object]
  | .addDirective _ => True

/-- All the ways to build a schema, with the calls in order. -/
inductive Built : List Op → Schema → Prop where
  | nil : Built [] {}
  | snoc {ops : List Op} {s : Schema} {op : Op} : Built ops s → op.Valid s → Built (ops ++ [op]) (s.apply op)

/-! ## Introspection -/

/-- `empty() ? std::nullopt : ...` -/
def optional (s : Str) : Option Str := if s.isEmpty then none else some s

namespace Introspection

/-- `introspection::Schema::getTypes`, Introspection.cpp:13-24. -/
def getTypes (s : Schema) : List Addr := s.types.map (·.2)
/-- `introspection::Schema::getQueryType`, Introspection.cpp:26-32. -/
def getQueryType (s : Schema) : Option Addr := s.query
/-- `introspection::Schema::getMutationType`, Introspection.cpp:34-40. -/
def getMutationType (s : Schema) : Option Addr := s.mutation
/-- `introspection::Schema::getSubscriptionType`, Introspection.cpp:42-48. -/
def getSubscriptionType (s : Schema) : Option Addr := s.subscription
/-- `introspection::Schema::getDirectives`, Introspection.cpp:50-61. -/
def getDirectives (s : Schema) : List Directive := s.directives

/-- `introspection::Type::getKind`, Introspection.cpp:68-71. -/
def getKind (t : BaseType) : Kind := t.kind
/-- `introspection::Type::getName`, Introspection.cpp:73-79. -/
def getName (t : BaseType) : Option Str := optional t.name
/-- `introspection::Type::getDescription`, Introspection.cpp:81-88. -/
def getDescription (t : BaseType) : Option Str := optional t.description

/-- The loops of `getFields` and `getEnumValues`, Introspection.cpp:107-114, 185-192. -/
def collect {α : Type} (deprecated : Bool) (reason : α → Option Str) : List α → List α → List α
  | [], result => result
  | x :: rest, result =>
    if deprecated || !(reason x).isSome then collect deprecated reason rest (result ++ [x])
    else collect deprecated reason rest result

/-- `introspection::Type::getFields`, Introspection.cpp:90-117. -/
def getFields (t : BaseType) (includeDeprecated : Option Bool) : Option (List Field) :=
  match t.kind with
  | .object | .interface =>
    some (collect (includeDeprecated.isSome && includeDeprecated.getD false) (·.deprecationReason) t.fields [])
  | _ => none

/-- `introspection::Type::getInterfaces`, Introspection.cpp:119-139. -/
def getInterfaces (t : BaseType) : Option (List Addr) :=
  match t.kind with
  | .object => some t.interfaces
  | _ => none

/-- `introspection::Type::getPossibleTypes`, Introspection.cpp:141-166. -/
def getPossibleTypes (t : BaseType) : Option (List Addr) :=
  match t.kind with
  | .interface | .union => some t.possibleTypes
  | _ => none

/-- `introspection::Type::getEnumValues`, Introspection.cpp:168-195. -/
def getEnumValues (t : BaseType) (includeDeprecated : Option Bool) : Option (List EnumValue) :=
  match t.kind with
  | .enum =>
    some (collect (includeDeprecated.isSome && includeDeprecated.getD false) (·.deprecationReason) t.enumValues [])
  | _ => none

/-- `introspection::Type::getInputFields`, Introspection.cpp:197-218. -/
def getInputFields (t : BaseType) : Option (List InputValue) :=
  match t.kind with
  | .inputObject => some t.inputFields
  | _ => none

/-- `introspection::Type::getOfType`, Introspection.cpp:220-235. -/
def getOfType (s : Schema) (t : BaseType) : Option Addr :=
  match t.kind with
  | .list | .nonNull => t.ofType.bind fun a => if (s.store a).isSome then some a else none
  | _ => none

/-- `introspection::Field`, Introspection.cpp:242-288. -/
def fieldName (f : Field) : Str := f.name
def fieldDescription (f : Field) : Option Str := optional f.description
def fieldArgs (f : Field) : List InputValue := f.args
def fieldType (s : Schema) (f : Field) : Option Addr := if (s.store f.type).isSome then some f.type else none
def fieldIsDeprecated (f : Field) : Bool := f.deprecationReason.isSome
def fieldDeprecationReason (f : Field) : Option Str :=
  match f.deprecationReason with
  | some r => some r
  | none => none

/-- `introspection::InputValue`, Introspection.cpp:295-324. -/
def inputName (f : InputValue) : Str := f.name
def inputDescription (f : InputValue) : Option Str := optional f.description
def inputType (s : Schema) (f : InputValue) : Option Addr := if (s.store f.type).isSome then some f.type else none
def inputDefaultValue (f : InputValue) : Option Str := optional f.defaultValue

/-- `introspection::EnumValue`, Introspection.cpp:331-357. -/
def enumName (v : EnumValue) : Str := v.name
def enumDescription (v : EnumValue) : Option Str := optional v.description
def enumIsDeprecated (v : EnumValue) : Bool := v.deprecationReason.isSome
def enumDeprecationReason (v : EnumValue) : Option Str :=
  match v.deprecationReason with
  | some r => some r
  | none => none

end Introspection

end Verif.TypeSystem
