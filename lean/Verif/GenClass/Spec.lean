import Verif.GenClass.Run
import Verif.GenClass.Model
import Verif.GenObject.Spec
import Verif.GenTypes.Spec

/-!
# Interfaces and objects which can be declared in C++

A specification: what the names and types of the interfaces and objects of a schema must satisfy.
-/
namespace Verif.GenClass
open Verif.Value Verif.Resp Verif.Text
open Verif.GenCode (TypeKnown builtinPath typePath valueT accessPath)
open Verif.GenTypes (argumentType)
open Verif.Gen (InputField InterfaceType ObjectType OutputField)
open Verif.Gen.Service (Types)
open Verif.Cpp (Path path keywords)
open Verif.GenText (cpp)
open Verif.GenObject (WrittenOk capital resolver)
open Verif.Modifiers (Mod)

/-- The name of the function which gives the value of a field. -/
def accessorName (f : OutputField) : Str := f.accessor ++ capital f

/-- The types of the arguments are the same. -/
def SameArgument (a b : InputField) : Prop := a.type = b.type ∧ a.fieldType = b.fieldType ∧ a.modifiers = b.modifiers

/-- Two fields have the same name, type and arguments. -/
structure Same (f g : OutputField) : Prop where
  name : f.name = g.name
  accessor : f.accessor = g.accessor
  type : f.type = g.type
  fieldType : f.fieldType = g.fieldType
  modifiers : f.modifiers = g.modifiers
  arguments : List.Forall₂ SameArgument f.arguments g.arguments

/-- The declarations can be written. -/
structure ClassesWritten (print : Double → Str) (read : Str → Double) (is : List InterfaceType) (os : List ObjectType) : Prop where
  interfaces : ∀ i ∈ is, WrittenOk print read { type := i.type, fields := i.fields }
  objects : ∀ t ∈ os, WrittenOk print read t
  /-- the interfaces of an object are those of the schema -/
  implements : ∀ t ∈ os, ∀ n ∈ t.interfaces, ∃ i ∈ is, i.type = n

/-- The C++ names of the types which fields and arguments can have. -/
def typeNames (T : Types) (os : List ObjectType) : List Str :=
  (T.enums.map (·.type) ++ T.inputs.map (·.type) ++ os.map (·.type)).map cpp

/-- Modifiers never say twice that there may be a null. -/
def Alternating : List Mod → Prop
  | .nullable :: .nullable :: _ => False
  | _ :: ms => Alternating ms
  | [] => True

/-- The types of a field and its arguments are those of the schema. -/
structure Known (T : Types) (os : List ObjectType) (f : OutputField) : Prop where
  enum : f.fieldType = .enum → ∃ e ∈ T.enums, e.type = f.type
  object : f.fieldType = .object → ∃ t ∈ os, t.type = f.type
  arguments : ∀ a ∈ f.arguments, TypeKnown T a
  modifiers : Alternating f.modifiers

/-- They are what they are meant to be. -/
structure ClassesOk (print : Double → Str) (read : Str → Double) (T : Types) (is : List InterfaceType) (os : List ObjectType) : Prop
    extends ClassesWritten print read is os where
  /-- the C++ names of types are different -/
  names : (typeNames T os ++ is.map fun i => cpp i.type).Nodup
  /-- no type has the name of the base class -/
  notObject : str "Object" ∉ typeNames T os
  /-- no type has the name of a function, or of another member of the base class -/
  notMember : ∀ n ∈ typeNames T os, n ∉ objectMembers ++ [str "resolve_typename", str "resolve_schema", str "resolve_type", str "_schema"] ∧
    (∀ t ∈ os, ∀ f ∈ t.fields, n ≠ accessorName f ∧ n ≠ resolver f) ∧ ∀ i ∈ is, ∀ f ∈ i.fields, n ≠ accessorName f
  /-- the fields of an object or interface have different C++ names, up to the case of the first letter -/
  distinct : ∀ t ∈ os, (t.fields.map capital).Nodup
  distinctI : ∀ i ∈ is, (i.fields.map capital).Nodup
  known : ∀ t ∈ os, ∀ f ∈ t.fields, Known T os f
  knownI : ∀ i ∈ is, ∀ f ∈ i.fields, Known T os f
  /-- the marks of `SchemaLoader` -/
  mark : ∀ t ∈ os, ∀ f ∈ t.fields, f.interfaceField = false
  markI : ∀ i ∈ is, ∀ f ∈ i.fields, f.interfaceField = true
  inherited : ∀ t ∈ os, ∀ f ∈ t.fields,
    f.inheritedField = true ↔ ∃ i ∈ is, i.type ∈ t.interfaces ∧ ∃ g ∈ i.fields, g.name = f.name
  /-- an object has the fields of its interfaces -/
  same : ∀ t ∈ os, ∀ i ∈ is, i.type ∈ t.interfaces → ∀ g ∈ i.fields, ∃ f ∈ t.fields, Same f g
  fields : ∀ t ∈ os, t.fields ≠ []

/-- The interfaces of an object have no field in common. -/
def Apart (is : List InterfaceType) (t : ObjectType) : Prop :=
  (t.interfaces.flatMap fun n => (is.filter fun i => i.type = n).flatMap fun i => i.fields.map capital).Nodup

/-- The C++ type of the values of a field, without lists and null. -/
def fieldPath (ns : Path) (f : OutputField) : Path :=
  match f.fieldType with
  | .builtin => builtinPath f.type
  | .scalar => valueT
  | .enum => typePath ns f.type
  | .object => ⟨ns.head, ns.tail ++ [str "object", cpp f.type]⟩
  | .union => path "service" ["Object"]
  | .interface => path "service" ["Object"]

/-- The function which gives the value of a field. -/
def fieldSignature (ns : Path) (f : OutputField) : Signature :=
  ⟨accessorName f, resultType (composite f) (fieldPath ns f) f.modifiers, f.arguments.map fun a => argumentType (accessPath ns a) a.modifiers⟩

end Verif.GenClass
