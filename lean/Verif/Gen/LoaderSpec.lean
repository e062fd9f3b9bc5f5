import Verif.Gen.Loader
import Verif.Gen.TypesProps

/-!
# What a schema document says

The specification for `Verif.Gen.Loader`: which definitions a document has, which extensions belong to them, and what
the loaded types have to be.
-/
namespace Verif.Gen
open Verif.Value Verif.Resp Verif.Ast Verif.Modifiers

/-- The kind and the name of the type which is defined. -/
def TypeDef.defines : TypeDef → Option (SchemaType × Str)
  | .scalar _ n => some (.scalar, n)
  | .object _ n _ _ => some (.object, n)
  | .interface _ n _ => some (.interface, n)
  | .union _ n _ => some (.union, n)
  | .enum _ n _ => some (.enum, n)
  | .input _ n _ => some (.input, n)
  | _ => none

/-- The kind and the name of the type which is extended. -/
def TypeDef.extended : TypeDef → Option (SchemaType × Str)
  | .objectExtension n _ _ => some (.object, n)
  | .interfaceExtension n _ => some (.interface, n)
  | .unionExtension n _ => some (.union, n)
  | .enumExtension n _ => some (.enum, n)
  | .inputExtension n _ => some (.input, n)
  | _ => none

/-- The description of the definition. -/
def TypeDef.description : TypeDef → Str
  | .scalar d _ | .object d _ _ _ | .interface d _ _ | .union d _ _ | .enum d _ _ | .input d _ _ | .directive d _ _ _ => d
  | _ => []

/-- The interfaces after `implements`. -/
def TypeDef.interfaces : TypeDef → List Str
  | .object _ _ is _ | .objectExtension _ is _ => is
  | _ => []

/-- The fields of an object or interface. -/
def TypeDef.fields : TypeDef → List FieldDef
  | .object _ _ _ fs | .objectExtension _ _ fs | .interface _ _ fs | .interfaceExtension _ fs => fs
  | _ => []

/-- The members of a union. -/
def TypeDef.options : TypeDef → List Str
  | .union _ _ os | .unionExtension _ os => os
  | _ => []

/-- The values of an enum. -/
def TypeDef.values : TypeDef → List EnumValueDef
  | .enum _ _ vs | .enumExtension _ vs => vs
  | _ => []

/-- The fields of an input object. -/
def TypeDef.inputFields : TypeDef → List InputValueDef
  | .input _ _ fs | .inputExtension _ fs => fs
  | _ => []

/-- The operation types. -/
def TypeDef.operations : TypeDef → List (Str × Str)
  | .schema os | .schemaExtension os => os
  | _ => []

/-- All the places with a default value, in the order of the text. -/
def TypeDef.inputs : TypeDef → List InputValueDef
  | .input _ _ fs | .inputExtension _ fs | .directive _ _ fs _ => fs
  | d => d.fields.flatMap (·.arguments)

/-- The definitions of types of the kind `k`, in order, each with the rest of the document after it. -/
def definitions (k : SchemaType) : List TypeDef → List (TypeDef × List TypeDef)
  | [] => []
  | d :: rest => if d.defines.map (·.1) = some k then (d, rest) :: definitions k rest else definitions k rest

/-- The extensions of the type `n` in what comes after its definition, up to the next definition of it. -/
def extensions (k : SchemaType) (n : Str) (rest : List TypeDef) : List TypeDef :=
  (rest.takeWhile fun d => d.defines ≠ some (k, n)).filter fun d => d.extended = some (k, n)

/-- The definition of a type (the first of the list) and the extensions which belong to it. -/
def Written (k : SchemaType) (n : Str) (d : TypeDef × List TypeDef) (parts : List TypeDef) : Prop :=
  d.1.defines = some (k, n) ∧ parts = d.1 :: extensions k n d.2

/-! ## Fields -/

/-- `f` is what `d` says. (The kind of its type is not known yet.) -/
structure IsInputField (atoi : Int → Int) (d : InputValueDef) (f : InputField) : Prop where
  name : f.name = d.name
  description : f.description = d.description
  type : Proper d.type → ModifiersOf d.type f.modifiers ∧ typeOf f.type f.modifiers = d.type
  text : f.defaultValueString = match d.default with | some v => v.text | none => []
  value : f.defaultValue = match d.default with | some v => defaultValue atoi v.value | none => .null
  fieldType : f.fieldType = .builtin

/-- The reason given by the directive: the first argument, if it is called `reason` and a string. -/
def GivesReason (d : Directive) (s : Str) : Prop := ∃ rest, d.arguments = some ((str "reason", .string s) :: rest)

/-- The deprecation of a field: the last `@deprecated` counts; without a reason the reason is empty. -/
def IsFieldDeprecation (ds : List Directive) : Option Str → Prop
  | none => ∀ d ∈ ds, d.name ≠ str "deprecated"
  | some s => ∃ pre d post, ds = pre ++ d :: post ∧ d.name = str "deprecated" ∧ (∀ e ∈ post, e.name ≠ str "deprecated") ∧
      (GivesReason d s ∨ (∀ r, ¬ GivesReason d r) ∧ s = [])

/-- The deprecation of an enum value: the last `@deprecated` with a reason counts; the others do not. -/
def IsEnumDeprecation (ds : List Directive) : Option Str → Prop
  | none => ∀ d ∈ ds, d.name = str "deprecated" → ∀ r, ¬ GivesReason d r
  | some s => ∃ pre d post, ds = pre ++ d :: post ∧ d.name = str "deprecated" ∧ GivesReason d s ∧
      ∀ e ∈ post, e.name = str "deprecated" → ∀ r, ¬ GivesReason e r

/-- `f` is what `d` says. -/
structure IsOutputField (atoi : Int → Int) (d : FieldDef) (f : OutputField) : Prop where
  name : f.name = d.name
  description : f.description = d.description
  type : Proper d.type → ModifiersOf d.type f.modifiers ∧ typeOf f.type f.modifiers = d.type
  arguments : List.Forall₂ (IsInputField atoi) d.arguments f.arguments
  deprecation : IsFieldDeprecation d.directives f.deprecationReason
  fieldType : f.fieldType = .builtin
  flags : f.interfaceField = false ∧ f.inheritedField = false ∧ f.accessor = str "get"

/-- `v` is what `d` says. -/
structure IsEnumValue (d : EnumValueDef) (v : EnumValueType) : Prop where
  value : v.value = d.value
  description : v.description = d.description
  deprecation : IsEnumDeprecation d.directives v.deprecationReason

/-! ## Types -/

/-- `t` is the scalar defined at `d`. -/
structure IsScalar (d : TypeDef × List TypeDef) (t : ScalarType) : Prop where
  defines : d.1.defines = some (.scalar, t.type)
  description : t.description = d.1.description

/-- `t` is the object defined at `d`, with its extensions. -/
structure IsObject (atoi : Int → Int) (d : TypeDef × List TypeDef) (t : ObjectType) : Prop where
  parts : ∃ parts, Written .object t.type d parts ∧ t.interfaces = parts.flatMap (·.interfaces) ∧
    List.Forall₂ (IsOutputField atoi) (parts.flatMap (·.fields)) t.fields
  description : t.description = d.1.description
  unions : t.unions = []

/-- `t` is the interface defined at `d`, with its extensions. -/
structure IsInterface (atoi : Int → Int) (d : TypeDef × List TypeDef) (t : InterfaceType) : Prop where
  parts : ∃ parts, Written .interface t.type d parts ∧
    List.Forall₂ (IsOutputField atoi) (parts.flatMap (·.fields)) t.fields
  description : t.description = d.1.description

/-- `t` is the input object defined at `d`, with its extensions. -/
structure IsInput (atoi : Int → Int) (d : TypeDef × List TypeDef) (t : InputType) : Prop where
  parts : ∃ parts, Written .input t.type d parts ∧
    List.Forall₂ (IsInputField atoi) (parts.flatMap (·.inputFields)) t.fields
  description : t.description = d.1.description
  dependencies : t.dependencies = []

/-- `t` is the union defined at `d`, with its extensions. -/
structure IsUnion (d : TypeDef × List TypeDef) (t : UnionType) : Prop where
  parts : ∃ parts, Written .union t.type d parts ∧ t.options = parts.flatMap (·.options)
  description : t.description = d.1.description

/-- `t` is the enum defined at `d`, with its extensions. -/
structure IsEnum (d : TypeDef × List TypeDef) (t : EnumType) : Prop where
  parts : ∃ parts, Written .enum t.type d parts ∧ List.Forall₂ IsEnumValue (parts.flatMap (·.values)) t.values
  description : t.description = d.1.description

/-- `t` is the directive `d`. -/
structure IsDirective (atoi : Int → Int) (d : TypeDef) (t : DirectiveType) : Prop where
  definition : ∃ arguments, d = .directive t.description t.name arguments t.locations ∧
    List.Forall₂ (IsInputField atoi) arguments t.arguments

/-- Is this a directive? -/
def TypeDef.isDirective : TypeDef → Bool
  | .directive .. => true
  | _ => false

/-! ## Errors -/

/-- A null default for a non-null type. (A variable as default value counts as null.) -/
def NullDefault (d : InputValueDef) : Prop :=
  ∃ v τ, d.default = some v ∧ v.text ≠ [] ∧ (v.value = .null ∨ ∃ p n, v.value = .variable p n) ∧ d.type = .nonNull τ

/-- The definition is an extension of a type which has not been defined before: such extensions are not looked at. -/
def Ignored (pre : List TypeDef) (d : TypeDef) : Prop :=
  ∃ k n, d.extended = some (k, n) ∧ ∀ e ∈ pre, e.defines ≠ some (k, n)

/-- `d` is rejected with `e` if `pre` comes before. -/
inductive Problem (pre : List TypeDef) : TypeDef → LoadError → Prop where
  | executable : Problem pre .executable .unexpectedDefinition
  | scalarExtension {n} : Problem pre (.scalarExtension n) .unexpectedDefinition
  | nullDefault {d as a bs} : ¬ Ignored pre d → d.inputs = as ++ a :: bs → (∀ b ∈ as, ¬ NullDefault b) → NullDefault a →
      Problem pre d (.nullDefault a.name)

/-- No default value contains a variable. -/
inductive Constant : Lit → Prop where
  | int {n} : Constant (.int n)
  | float {d} : Constant (.float d)
  | string {s} : Constant (.string s)
  | boolean {b} : Constant (.boolean b)
  | null : Constant .null
  | enumValue {s} : Constant (.enumValue s)
  | list {xs} : (∀ x ∈ xs, Constant x) → Constant (.list xs)
  | object {fields} : (∀ f ∈ fields, Constant f.2) → Constant (.object fields)

end Verif.Gen
