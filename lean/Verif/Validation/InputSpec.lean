import Verif.Validation.Spec

/-!
# Specification: values of input types

What it means that a value, as a resolver gets it, is of an input type.
-/
namespace Verif.Validation.Spec
open Verif.Value Verif.Resp Verif.Errors Verif.Ast Verif.Validation

/-- The values of scalar types; a custom scalar type has every value. -/
def ScalarValue (type : Str) (v : Resp) : Prop :=
  (type = str "Int" → ∃ n, v = .int n) ∧
  (type = str "Float" → (∃ d, v = .float d) ∨ ∃ n, v = .int n) ∧
  (type = str "String" → ∃ s j, v = .string s j) ∧
  (type = str "ID" → ∃ s j bytes, v = .string s j ∧ Verif.Base64.fromBase64 s = .ok bytes) ∧
  (type = str "Boolean" → ∃ b, v = .boolean b)

/-- `Inhabits S hasDefault v t`: the value is one of the type; null is one of a non-null type only in a place which has a
default. -/
inductive Inhabits (S : Schema) : Bool → Resp → TypeRef → Prop where
  | null {hasDefault t} (h : Required t → hasDefault = true) : Inhabits S hasDefault .null t
  | scalar {hasDefault v t name def_} (hn : v ≠ .null) (ht : nullable t = .named name) (hdef : S.find name = some def_)
      (hk : def_.kind = .scalar) (h : ScalarValue name v) : Inhabits S hasDefault v t
  | enum {hasDefault s t name def_} (ht : nullable t = .named name) (hdef : S.find name = some def_)
      (hk : def_.kind = .enum) (h : s ∈ def_.enumValues) : Inhabits S hasDefault (.enumValue s) t
  | jsonEnum {hasDefault s t name def_} (ht : nullable t = .named name) (hdef : S.find name = some def_)
      (hk : def_.kind = .enum) (h : s ∈ def_.enumValues) : Inhabits S hasDefault (.string s true) t
  | list {hasDefault vs t of} (ht : nullable t = .list of) (h : ∀ v ∈ vs, Inhabits S false v of) :
      Inhabits S hasDefault (.list vs) t
  | object {hasDefault ms t name def_} (ht : nullable t = .named name) (hdef : S.find name = some def_)
      (hk : def_.kind = .inputObject)
      (hknown : ∀ m ∈ ms, (findArgument def_.inputFields m.1).isSome)
      (hvalues : ∀ m ∈ ms, ∀ field, findArgument def_.inputFields m.1 = some field →
        Inhabits S field.defaultValue m.2 field.type)
      (hrequired : ∀ name field, findArgument def_.inputFields name = some field → Required field.type →
        field.defaultValue = true ∨ name ∈ ms.map (·.1)) :
      Inhabits S hasDefault (.map ms) t

/-- The values of the variables are of their types, and not null if the variable has a default which is not null. -/
def VariablesInhabit (S : Schema) (vars : VariableTypes) (values : Members) : Prop :=
  ∀ name d v, findVariable vars name = some d → values.find name = some v →
    Inhabits S false v d.type ∧ (d.nonNullDefaultValue = true → v ≠ .null)

end Verif.Validation.Spec
