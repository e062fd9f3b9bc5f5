import Verif.GenObject.Run
import Verif.GenObject.Model
import Verif.GenCode.Spec

/-!
# Objects which can be written as C++

A specification: what the names and arguments of an object type must satisfy for the class to be what it is meant to be.
-/
namespace Verif.GenObject
open Verif.Value Verif.Resp Verif.Text Verif.Gen.Service Verif.GenCode
open Verif.Gen (InputField ObjectType OutputField)
open Verif.Cpp (Path path word keywords)
open Verif.GenText (cpp)

/-- The names of the fields which every object has, and the object for queries. -/
def hiddenFields (introspection : Bool) : List Str :=
  if introspection then [str "__typename", str "__schema", str "__type"] else [str "__typename"]

/-- The class can be written. -/
structure WrittenOk (print : Double → Str) (read : Str → Double) (t : ObjectType) : Prop where
  /-- the C++ name is the name of a class -/
  type : IsName t.type ∧ cpp t.type ∉ keywords
  interfaces : ∀ i ∈ t.interfaces ++ t.unions, IsName i
  name : ∀ f ∈ t.fields, IsName f.name
  accessor : ∀ f ∈ t.fields, f.accessor = str "get" ∨ f.accessor = str "apply"
  result : ∀ f ∈ t.fields, IsName f.type ∧ cpp f.type ∉ keywords
  arguments : ∀ f ∈ t.fields, FieldsOk print read f.arguments

/-- It is what it is meant to be. -/
structure ObjectOk (print : Double → Str) (read : Str → Double) (T : Types) (introspection : Bool) (t : ObjectType) : Prop
    extends WrittenOk print read t where
  names : (t.fields.map (·.name)).Nodup
  reserved : ∀ f ∈ t.fields, f.name ∉ hiddenFields introspection
  known : ∀ f ∈ t.fields, ∀ a ∈ f.arguments, TypeKnown T a
  /-- the names of the methods are different: those of the fields, `_typename`, `_schema` and `_type` -/
  distinct : (t.fields.map capital ++ (hiddenFields introspection).map (·.drop 1)).Nodup

/-- The C++ type of the results of a field, without lists and null. -/
def resultPath (f : OutputField) : Path :=
  match f.fieldType with
  | .builtin => builtinPath f.type
  | .enum => word (cpp f.type)
  | .object => word (cpp f.type)
  | .scalar => valueT
  | .union => path "service" ["Object"]
  | .interface => path "service" ["Object"]

end Verif.GenObject
