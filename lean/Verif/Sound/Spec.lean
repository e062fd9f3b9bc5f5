import Verif.Request.Spec
import Verif.Validation.InputSpec
import Verif.Gen.ParseSpec
import Verif.Json.Spec

/-!
# Specification: services which match their schema

When the objects of a service match a schema, and what the results of accessors have to be. Nothing here refers to the
executor or the validator.
-/
namespace Verif.Sound
open Verif.Value Verif.Resp Verif.Errors Verif.Ast Verif.Exec
open Verif.Validation (Schema FieldDef InputValue Kind baseName findArgument VariableTypes)
open Verif.Validation.Spec
open Verif.Gen.Client (LeafHolds NoDuplicates)

/-! ## Schemas -/

/-- `Subtype S a b`: a field of type `a` implements one of type `b` (GraphQL specification, June 2018, 3.6 Objects, "Type
validation"). -/
inductive Subtype (S : Schema) : TypeRef → TypeRef → Prop where
  | same {n} : Subtype S (.named n) (.named n)
  | member {m n} (hm : S.isComposite m = true) (hn : S.isComposite n = true) (h : S.matching m ⊆ S.matching n) :
      Subtype S (.named m) (.named n)
  | list {a b} (h : Subtype S a b) : Subtype S (.list a) (.list b)
  | nonNull {a b} (h : Subtype S a b) : Subtype S (.nonNull a) (.nonNull b)
  | stronger {a b} (hb : ∀ t, b ≠ .nonNull t) (h : Subtype S a b) : Subtype S (.nonNull a) b

/-- The types of a schema which can be selected on, and their object types: each object type has all the fields which the
interfaces have, with subtypes of their types and the same arguments. -/
structure Implements (S : Schema) : Prop where
  objects : ∀ type object, object ∈ S.matching type → S.kind object = some .object
  fields : ∀ type object name def_, object ∈ S.matching type → S.findField type name = some def_ →
    ∃ own, S.findField object name = some own ∧ Subtype S own.type def_.type ∧
      (∀ arg a, findArgument def_.arguments arg = some a → ∃ b, findArgument own.arguments arg = some b ∧
        b.type = a.type ∧ (a.defaultValue = true → b.defaultValue = true)) ∧
      (∀ arg b, findArgument own.arguments arg = some b → Required b.type → b.defaultValue = false →
        ∃ a, findArgument def_.arguments arg = some a ∧ Required a.type ∧ a.defaultValue = false)

/-- `@skip(if: Boolean!)` and `@include(if: Boolean!)` are what they have to be. -/
structure Standard (S : Schema) : Prop where
  boolean : S.kind (str "Boolean") = some .scalar
  conditions : ∀ name d, (name = str "skip" ∨ name = str "include") → S.findDirective name = some d →
    d.arguments = [⟨str "if", .nonNull (.named (str "Boolean")), []⟩]

/-! ## Services -/

/-- The arguments of a call are those of the field, of their types, and all the required ones are there. -/
def ArgumentsInhabit (S : Schema) (defs : List InputValue) (ms : Members) : Prop :=
  (∀ m ∈ ms, ∃ a, findArgument defs m.1 = some a ∧ Inhabits S a.defaultValue m.2 a.type) ∧
  (∀ name a, findArgument defs name = some a → Required a.type → a.defaultValue = false → name ∈ ms.map (·.1))

/-- `StaticType S τ t`: the accessor of a field of type `τ` returns values of the C++ type `t`: an optional for what may be
null, a vector for a list, a pointer for an object. -/
inductive StaticType (S : Schema) : TypeRef → OutType → Prop where
  | leaf {n} (hc : S.isComposite n = false) : StaticType S (.nonNull (.named n)) .leaf
  | enum {n} (hk : S.kind n = some .enum) : StaticType S (.nonNull (.named n)) .enum
  | object {n direct} (hc : S.isComposite n = true) : StaticType S (.nonNull (.named n)) (.object direct)
  | list {τ t} (h : StaticType S τ t) : StaticType S (.nonNull (.list τ)) (.list t)
  | nullable {τ t} (hn : ∀ σ, τ ≠ .nonNull σ) (h : StaticType S (.nonNull τ) t) : StaticType S τ (.nullable t)

/-- `ValueOf S typeOf τ x`: `x` is a value of type `τ`; the objects in it are of its object types, and there is no null
pointer for an object which is not nullable; neither is a leaf null, nor is it written as null in JSON. -/
inductive ValueOf {O : Type} (S : Schema) (typeOf : O → Str) : TypeRef → Out O → Prop where
  | leaf {n v d} (hc : S.isComposite n = false) (hv : Verif.Json.Spec.normalize v ≠ .null) (hd : NoDuplicates v) (h : LeafHolds S n v d) :
      ValueOf S typeOf (.nonNull (.named n)) (.leaf v)
  | object {n o} (hc : S.isComposite n = true) (h : typeOf o ∈ S.matching n) :
      ValueOf S typeOf (.nonNull (.named n)) (.object (some o))
  | list {τ xs} (h : ∀ x ∈ xs, ValueOf S typeOf τ x) : ValueOf S typeOf (.nonNull (.list τ)) (.list xs)
  | absent {τ} (hn : ∀ σ, τ ≠ .nonNull σ) : ValueOf S typeOf τ .absent
  | present {τ x} (hn : ∀ σ, τ ≠ .nonNull σ) (h : ValueOf S typeOf (.nonNull τ) x) : ValueOf S typeOf τ (.present x)

/-- `Throws P x`: the exception `x` reports at least one error, and only messages with the property `P` (in the wording of
the library, if it is not a `schema_exception`). -/
def Throws (P : Str → Prop) : Exn → Prop
  | .schema errors => errors ≠ [] ∧ ∀ e ∈ errors, P e.message
  | .other what => ∀ name, P (str "Field name: " ++ name ++ str " unknown error: " ++ what) ∧
      P (str "Field error name: " ++ name ++ str " unknown error: " ++ what)

/-- `Serves S I typeOf P`: the service implements the schema. `typeOf` is the object type of each object. Every object has
an accessor for every field of its type, and only the names of types it belongs to; called with arguments of their types,
an accessor returns (now or later) a value of the type of the field, or it fails with messages which have the property `P`
(for `fun _ => False`: it does not fail). -/
structure Serves {E O : Type} (S : Schema) (I : Impl E O) (typeOf : O → Str) (P : Str → Prop) : Prop where
  names : ∀ o name, name ∈ I.typeNames o → typeOf o ∈ S.matching name
  fields : ∀ o name def_, S.findField (typeOf o) name = some def_ → ∃ resolver, I.resolver o name = some resolver ∧
    StaticType S def_.type resolver.type ∧
    ∀ params, ArgumentsInhabit S def_.arguments params.arguments →
      (∀ x, (resolver.access params).result = .error x → Throws P x) ∧
      (∀ x, (resolver.access params).result = .ok (.value x) → ValueOf S typeOf def_.type x) ∧
      (∀ later x, (resolver.access params).result = .ok (.future later (.ok x)) → ValueOf S typeOf def_.type x) ∧
      (∀ later x, (resolver.access params).result = .ok (.future later (.error x)) → Throws P x)
  begins : ∀ o params x, (I.beginSet o params).result = .error x → Throws P x
  ends : ∀ o params x, (I.endSet o params).result = .error x → Throws P x

/-! ## Requests -/

/-- The arguments of the fields which share their response name with a field on another
type are right. (The validator does not look at them.) -/
def SharedArguments (S : Schema) (fragments : List FragmentDef) (vars : VariableTypes) (root : Str) (sel : List Selection) :
    Prop :=
  ∀ type' sel', Below S fragments root sel type' sel' → ∀ on f sub on' f' sub',
    Selects fragments type' sel' on f sub → Selects fragments type' sel' on' f' sub' →
    Exec.responseName f = Exec.responseName f' → on ≠ on' → ∀ def_, S.findField on f.name = some def_ →
    ArgumentsOk S (some vars) def_.arguments (f.arguments.getD [])

/-- `@skip` and `@include` are written with an argument. (The validator does not insist on that.) -/
def Conditional (ds : Option (List Directive)) : Prop :=
  ∀ d ∈ ds.getD [], (d.name = str "skip" ∨ d.name = str "include") → d.arguments ≠ none

/-- The directives are written on some selection among these, or in the fragments which they reach. -/
inductive Written (fragments : List FragmentDef) : List Selection → Option (List Directive) → Prop where
  | leaf {sel f} (hm : .leaf f ∈ sel) : Written fragments sel f.directives
  | nodeHere {sel f pos sub} (hm : .node f pos sub ∈ sel) : Written fragments sel f.directives
  | node {sel f pos sub ds} (hm : .node f pos sub ∈ sel) (h : Written fragments sub ds) : Written fragments sel ds
  | spreadHere {sel pos g ds} (hm : .spread pos g ds ∈ sel) : Written fragments sel ds
  | spread {sel pos g ds fragment ds'} (hm : .spread pos g ds ∈ sel)
      (hf : fragments.find? (fun f => f.name == g) = some fragment) (h : Written fragments fragment.sub ds') :
      Written fragments sel ds'
  | inlineHere {sel pos t ds sub} (hm : .inline pos t ds sub ∈ sel) : Written fragments sel ds
  | inline {sel pos t ds sub ds'} (hm : .inline pos t ds sub ∈ sel) (h : Written fragments sub ds') :
      Written fragments sel ds'

/-- An operation which the validator accepts, and what it does not look at is right too. -/
structure Accepted (S : Schema) (overflow : Int → Int) (doc : Document) (op : Operation) (root : Str) : Prop where
  /-- The schema has the types it mentions. -/
  closed : Schema.Closed S
  /-- Its object types implement its interfaces. -/
  implements : Implements S
  /-- The conditions are the standard ones. -/
  standard : Standard S
  /-- What the grammar ensures. -/
  wellFormed : WellFormedDocument doc
  operationsNonEmpty : ∀ op ∈ doc.operations, NonEmpty op.sub
  fragmentsNonEmpty : ∀ f ∈ doc.fragments, NonEmpty f.sub
  /-- The document is valid. -/
  accepted : (Verif.Validation.validate S overflow doc {}).1 = []
  operation : op ∈ doc.operations
  rootType : S.operationType (op.type.getD (str "query")) = some root
  /-- Fields which share their response names have the same selections, and right arguments. -/
  consistent : Consistent S doc.fragments root op.sub
  shared : SharedArguments S doc.fragments (declared op.variables) root op.sub
  /-- Conditions have an argument. -/
  conditional : ∀ ds, Written doc.fragments op.sub ds → Conditional ds

/-- The variables which are written have values, and all values are of their types. -/
structure Assigned (S : Schema) (doc : Document) (op : Operation) (values : Members) : Prop where
  known : ∀ v, InSelections doc.fragments op.sub v → (values.find v).isSome
  values : VariablesInhabit S (declared op.variables) values

/-- The values which come with a request are those which the operation needs. -/
structure Supplied (S : Schema) (doc : Document) (op : Operation) (supplied : Members) : Prop where
  /-- Variables are declared. -/
  declared : ∀ v, InSelections doc.fragments op.sub v ∨ InDirectives op.directives v → v ∈ op.variables.map (·.name)
  /-- Values are of the types of the variables; and not null in place of a default which is not null. -/
  values : ∀ d ∈ op.variables, ∀ v, supplied.find d.name = some v → Inhabits S false v d.type ∧
    ((∃ l, d.default = some l ∧ l ≠ .null) → v ≠ .null)
  /-- Those which are required are there. -/
  required : ∀ d ∈ op.variables, Required d.type → d.default = none → (supplied.find d.name).isSome
  /-- Defaults are constants. -/
  constants : ∀ d ∈ op.variables, ∀ l, d.default = some l → ∀ v, ¬ InLit l v
  /-- The directives of the definitions of fragments only have variables which are supplied. -/
  definitions : ∀ f ∈ doc.fragments, ∀ v, InDirectives f.directives v → (supplied.find v).isSome

end Verif.Sound
