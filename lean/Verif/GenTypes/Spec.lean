import Verif.GenTypes.Run
import Verif.GenTypes.Model

/-!
# Types which can be written as C++

A specification: what the names of the enums and input objects must satisfy, in addition to what the conversions of input objects
need (`Verif.GenCode.TypesOk`).
-/
namespace Verif.GenTypes
open Verif.Value Verif.Resp Verif.Text Verif.GenCode
open Verif.Gen.Service (Types)
open Verif.Cpp (Path keywords)
open Verif.GenText (cpp)

structure HeaderOk (T : Types) : Prop where
  /-- the C++ name of an enum is the name of a type -/
  enum : ∀ e ∈ T.enums, IsName e.type ∧ cpp e.type ∉ keywords
  /-- the values are written as they are -/
  value : ∀ e ∈ T.enums, ∀ v ∈ e.values, IsName v.value ∧ v.value ∉ keywords
  values : ∀ e ∈ T.enums, (e.values.map (·.value)).Nodup
  /-- the C++ name of a field is the name of a member -/
  member : ∀ i ∈ T.inputs, ∀ f ∈ i.fields, cpp f.name ∉ keywords
  members : ∀ i ∈ T.inputs, (i.fields.map fun f => cpp f.name).Nodup
  /-- no field has the name of an enum or input object which is the type of a field -/
  meaning : ∀ i ∈ T.inputs, ∀ f ∈ i.fields, f.fieldType = .enum ∨ f.fieldType = .input → cpp f.type ∉ i.fields.map fun f => cpp f.name

end Verif.GenTypes
