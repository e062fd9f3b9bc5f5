import Verif.Cpp.HiddenSpec
import Verif.GenStub.Run
import Verif.Intro.Model

/-!
# What the resolvers of introspection do

A specification: the meaning of `Verif.Cpp.HiddenSpec`, as resolvers of the executor (`Verif.Exec`). The schema is the one which
`_schema` points to. `introspection::Schema` and `introspection::Type` are classes of the library, with the base classes
`introspection::object::Schema` and `introspection::object::Type`, and `service::Object` (`/repo/include/graphqlservice/introspection/Introspection.h`).
`none` is code which is not C++, or not known here.
-/
namespace Verif.GenHidden
open Verif.Value Verif.Resp Verif.Errors Verif.Exec Verif.Modifiers
open Verif.GenCode (cString modifier)
open Verif.Intro (Obj)
open Verif.GenStub (resolver?)
open Verif.TypeSystem (Addr)
open Verif.Cpp (Path path word)
open Verif.Cpp.Code (Constructor Definition SchemaMethod TypeMethod)

variable {E O : Type}

/-- `ModifiedResult<t>` of the type of an object: of `service::Object` itself, or of a class which is derived from it. -/
def kind (t : Path) : Option OutType :=
  if t = path "service" ["Object"] then some (.object true)
  else if t = path "introspection" ["object", "Type"] then some (.object false)
  else none

/-- `convert<ms...>` of a pointer to an object: as it is, or as a value which can be null. (There are no vectors here.) -/
def converted (t : Path) (ms : List Path) (o : Option (Obj O)) : Option (OutType × Out (Obj O)) :=
  match kind t, ms.mapM modifier with
  | some k, some [] => some (k, .object o)
  | some k, some [.nullable] =>
    some (.nullable k, match o with
      | none => .absent
      | some o => .present (.object (some o)))
  | _, _ => none

/-- Names which are not declared twice. -/
def declared (vs : List Str) : Prop := vs.Nodup

instance (vs : List Str) : Decidable (declared vs) := inferInstanceAs (Decidable vs.Nodup)

/-- `resolve_schema`, of an object which has the member `_schema` or not. -/
def schemaMeans (member : Bool) (a : SchemaMethod) : Option (Resolver E (Obj O)) :=
  if member ∧ a.m = str "_schema" ∧ a.v = path "introspection" ["Schema"] ∧ a.u = path "service" ["Object"] ∧ a.t = a.u then
    (converted a.t [] (some .schema)).map fun r => ⟨r.1, fun _ => .pure (.value r.2)⟩
  else none

/-- `resolve_type`. `s.lookupType` is `Schema::LookupType`, which returns a pointer to a type of the schema or throws; so the pointer is
not null. -/
def typeMeans (member : Bool) (s : TypeSystem.Schema) (b : TypeMethod) : Option (Resolver E (Obj O)) :=
  if member ∧ b.m = str "_schema" ∧ b.g = str "LookupType" ∧ declared [str "params", b.x, b.y, b.r] ∧
      b.a = path "response" ["StringType"] ∧ b.x' = b.x ∧ b.y' = b.y ∧ b.y'' = b.y ∧ b.r' = b.r ∧
      b.u = path "introspection" ["Type"] ∧ b.t = path "introspection" ["object", "Type"] ∧ b.v = b.t then
    (converted (O := O) b.v b.ms none).map fun r => ⟨r.1, fun params =>
      (Run.lift (requireLeaf convertString (cString b.name) params.arguments)).bind fun name =>
      (Run.lift (s.lookupType name)).bind fun p =>
        .pure (.value (((converted b.v b.ms (some (.type p))).map (·.2)).getD .absent))⟩
  else none

/-- The object which is made by the constructor is asked for a field: the first entry with this name, and the method which it calls, if
that is one of the two and no other method has its name. -/
def resolverOf (k : Constructor) (ds : List Definition) (a : SchemaMethod) (b : TypeMethod) (s : TypeSystem.Schema) (name : Str) :
    Option (Resolver E (Obj O)) :=
  (k.entries.find? fun e => e.name = name).bind fun e =>
    match (ds.filterMap resolver?).filter fun m => m.c = k.c ∧ m.f = e.method with
    | [] =>
      if (a.c = k.c ∧ a.f = e.method) ∧ ¬(b.c = k.c ∧ b.f = e.method) then schemaMeans k.schema a
      else if (b.c = k.c ∧ b.f = e.method) ∧ ¬(a.c = k.c ∧ a.f = e.method) then typeMeans k.schema s b
      else none
    | _ => none

end Verif.GenHidden
