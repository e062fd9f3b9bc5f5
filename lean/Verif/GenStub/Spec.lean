import Verif.GenStub.Run
import Verif.GenStub.Model
import Verif.GenClass.Spec

/-!
# Root types for which `Operations` can be written

A specification: what the root types of a schema must satisfy.
-/
namespace Verif.GenStub
open Verif.Value Verif.Resp Verif.Text
open Verif.Gen (ObjectType OperationType OutputField)
open Verif.Cpp (keywords)
open Verif.GenText (cpp)

/-- The kinds of operations of GraphQL. -/
def kinds : List Str := [str "query", str "mutation", str "subscription"]

/-- The text can be written. -/
structure OperationsWritten (ops : List OperationType) : Prop where
  type : ∀ o ∈ ops, IsName o.type ∧ cpp o.type ∉ keywords
  kind : ∀ o ∈ ops, o.operation ∈ kinds

/-- It is what it is meant to be. -/
structure OperationsOk (objects : List ObjectType) (ops : List OperationType) : Prop extends OperationsWritten ops where
  /-- there is one root type for each kind of operations -/
  distinct : (ops.map (·.operation)).Nodup
  /-- root types are objects of the schema -/
  known : ∀ o ∈ ops, ∃ t ∈ objects, t.type = o.type

/-- What a stub says. -/
def message (t : ObjectType) (f : OutputField) : Str :=
  cpp t.type ++ str "::" ++ (f.accessor ++ GenObject.capital f) ++ str " is not implemented"

end Verif.GenStub
