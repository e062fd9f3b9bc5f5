import Verif.GenHidden.Run
import Verif.GenObject.Run
import Verif.GenObject.Model
import Verif.Intro.Spec
import Verif.Sound.Spec
import Verif.Gen.ValidateSpec

/-!
# A service which is made of generated classes

A specification. The user writes the accessors of the objects; the generator writes the class `Operations`, the names of the types to
which an object belongs, and the resolvers of introspection of the object for queries.
-/
namespace Verif.GenService
open Verif.Value Verif.Resp Verif.Exec
open Verif.Gen (Loader)
open Verif.Intro (Obj)
open Verif.GenHidden (resolverOf)
open Verif.GenStub (Made)
open Verif.Request (Service)
open Verif.Cpp.Code (Constructor Definition SchemaMethod TypeMethod Method ReadsClass)

variable {E O : Type}

/-- The service which is made of the class of the object for queries (`k`, `ds`, `a`, `b`, `Verif.Cpp.HiddenSpec`), of the `Operations` `m`
(`Verif.GenStub.Run`) and of the user's objects; `isQuery` says which of them are for queries. The other objects, those of introspection, are
of the library (`Verif.Intro.Model`). The generated code: /repo/src/SchemaGenerator.cpp:799-833 (`Operations`), 1416-1422 and 1569-1596. -/
def service (k : Constructor) (ds : List Definition) (a : SchemaMethod) (b : TypeMethod) (m : Made O) (s : TypeSystem.Schema)
    (isQuery : O → Bool) (user : Service E O) : Service E (Obj O) where
  impl :=
    { Intro.withIntrospection s isQuery user.impl with
      resolver := fun x name =>
        match x with
        | .user o =>
          if isQuery o ∧ (name = str "__schema" ∨ name = str "__type") then resolverOf k ds a b s name
          else (user.impl.resolver o name).map Intro.userResolver
        | x => (Intro.withIntrospection s isQuery user.impl).resolver x name }
  operations kind := (m.find kind).map (·.map .user)
  validate := user.validate
  atoiOverflow := user.atoiOverflow

/-- The user's objects are of the generated classes: each has the type names which the constructor of its class passes on
(/repo/src/SchemaGenerator.cpp:1374-1392). But for these names, which the user does not write, they serve the schema. -/
structure ObjectsFor (print : Double → Str) (ns : Str) (l : Loader) (I : Impl E O) (typeOf : O → Str) (P : Str → Prop) : Prop where
  ofClass : ∀ o, ∃ t ∈ l.objectTypes, typeOf o = t.type ∧ ∃ introspection k ms,
    ReadsClass (GenObject.objectText print ns introspection t) k ms ∧ I.typeNames o = k.types
  serves : Sound.Serves (View.declared false l) { I with typeNames := fun _ => [] } typeOf P

end Verif.GenService
