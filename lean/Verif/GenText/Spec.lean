import Verif.GenText.Model
import Verif.Cpp.Spec

/-!
# Schemas which can be written as C++

A specification: what the names and descriptions of a schema must satisfy for the written code to be what it is meant to be.
-/
namespace Verif.GenText
open Verif.Value Verif.Gen Verif.Text Verif.Cpp

/-- The text can be between `R"md(` and `)md"`. -/
def MdOk (s : Str) : Prop := NoClose (str ")md\"") s

/-- The text can be between `R"gql(` and `)gql"`. -/
def GqlOk (s : Str) : Prop := NoClose (str ")gql\"") s

structure InputOk (f : InputField) : Prop where
  name : IsName f.name
  type : IsName f.type
  description : MdOk f.description
  default : GqlOk f.defaultValueString

structure FieldOk (f : OutputField) : Prop where
  name : IsName f.name
  type : IsName f.type
  description : MdOk f.description
  deprecation : ∀ r, f.deprecationReason = some r → MdOk r
  arguments : ∀ a ∈ f.arguments, InputOk a

structure EnumValueOk (v : EnumValueType) : Prop where
  name : IsName v.value
  /-- an identifier of C++, which need not be changed -/
  word : v.value ∉ keywords
  same : cpp v.value = v.value
  description : MdOk v.description
  deprecation : ∀ r, v.deprecationReason = some r → MdOk r

/-- The types which have variables in the code. -/
def variableTypes (l : Loader) : List Str :=
  l.enumTypes.map (·.type) ++ l.inputTypes.map (·.type) ++ l.unionTypes.map (·.type) ++ l.interfaceTypes.map (·.type) ++
  l.objectTypes.map (·.type)

/-- All the names and texts can be written. -/
structure Writable (l : Loader) : Prop where
  scalars : ∀ t ∈ l.scalarTypes, IsName t.type ∧ MdOk t.description
  enums : ∀ t ∈ l.enumTypes, MdOk t.description ∧ cpp t.type ∉ keywords ∧ (t.values.map (·.value)).Nodup ∧
    ∀ v ∈ t.values, EnumValueOk v
  inputs : ∀ t ∈ l.inputTypes, MdOk t.description ∧ ∀ f ∈ t.fields, InputOk f
  unions : ∀ t ∈ l.unionTypes, MdOk t.description ∧ ∀ n ∈ t.options, IsName n
  interfaces : ∀ t ∈ l.interfaceTypes, MdOk t.description ∧ ∀ f ∈ t.fields, FieldOk f
  objects : ∀ t ∈ l.objectTypes, MdOk t.description ∧ (∀ f ∈ t.fields, FieldOk f) ∧
    ∀ n ∈ t.interfaces, n ∈ l.interfaceTypes.map (·.type)
  directives : ∀ d ∈ l.directives, IsName d.name ∧ MdOk d.description ∧ (∀ f ∈ d.arguments, InputOk f) ∧
    ∀ n ∈ d.locations, n ∈ locationNames.map (·.1)
  operations : ∀ o ∈ l.operationTypes, (o.operation = str "query" ∨ o.operation = str "mutation" ∨
    o.operation = str "subscription") ∧ o.type ∈ l.objectTypes.map (·.type)
  names : ∀ n ∈ variableTypes l, IsName n
  /-- the variables are identifiers -/
  words : ∀ n ∈ variableTypes l, str "type" ++ cpp n ∉ keywords
  /-- the variables are different -/
  distinct : ((variableTypes l).map cpp).Nodup

/-- The types which are meant to be in the schema: the introspection schema has the built-in types and no operations, and
without introspection there are no descriptions. -/
def shown (o : Options) (l : Loader) : Loader :=
  let l := if o.isIntrospection then
      { l with
        scalarTypes := builtinNames.map (fun n => { type := n, description := str "Built-in type" }) ++ l.scalarTypes
        operationTypes := [] }
    else l
  if o.noIntrospection then withoutDescriptions l else l

/-- The namespace of the schema is `a::b::c`. -/
def IsNamespace (text : Str) (q : Path) : Prop :=
  text = q.head ++ q.tail.flatMap (fun s => str "::" ++ s) ∧ ∀ s ∈ q.head :: q.tail, IsName s ∧ s ∉ keywords

end Verif.GenText
