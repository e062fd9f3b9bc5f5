import Verif.Gen.Parse
import Verif.Gen.ResponseSpec

/-!
# What reading a response has to give

How the values of a response are represented, and which responses a server may send.
-/
namespace Verif.Gen.Client
open Verif.Value Verif.Resp Verif.Errors Verif.Ast Verif.Modifiers
open Verif.Validation (Schema baseName)

/-- The kinds of leaves: the built-in scalar types, enums, and custom scalar types. -/
inductive LeafType where
  | int | float | string | boolean | id | enum | custom

/-- The built-in scalar types. -/
def builtinTypes : List (Str × LeafType) :=
  [(str "Int", .int), (str "Float", .float), (str "String", .string), (str "Boolean", .boolean), (str "ID", .id)]

/-- The kind of a type which is not composite. -/
inductive LeafTypeOf (S : Schema) (type : Str) : LeafType → Prop where
  | enum (h : S.kind type = some .enum) : LeafTypeOf S type .enum
  | builtin {t} (h : S.kind type ≠ some .enum) (ht : (type, t) ∈ builtinTypes) : LeafTypeOf S type t
  | custom (h : S.kind type ≠ some .enum) (ht : ∀ t, (type, t) ∉ builtinTypes) : LeafTypeOf S type .custom

/-- `LeafHolds S type v d`: the C++ value for the leaf `v` of the type is `d`. An enum value is a string from JSON, or an
enum value, and is represented by its index; an ID is the Base64 of its bytes. -/
inductive LeafHolds (S : Schema) (type : Str) : Resp → Data → Prop where
  | int {i} (h : LeafTypeOf S type .int) : LeafHolds S type (.int i) (.int i)
  | float {d} (h : LeafTypeOf S type .float) : LeafHolds S type (.float d) (.float d)
  | integral {i} (h : LeafTypeOf S type .float) : LeafHolds S type (.int i) (.float (.finite i))
  | string {s j} (h : LeafTypeOf S type .string) : LeafHolds S type (.string s j) (.string s)
  | boolean {b} (h : LeafTypeOf S type .boolean) : LeafHolds S type (.boolean b) (.boolean b)
  | id {s j bytes} (h : LeafTypeOf S type .id) (hb : Verif.Base64.fromBase64 s = .ok bytes) :
      LeafHolds S type (.string s j) (.id bytes)
  | enum {v s} {i : Nat} {t : Validation.TypeDef} (h : LeafTypeOf S type .enum) (hv : v = .string s true ∨ v = .enumValue s)
      (ht : (type, t) ∈ S.types) (hi : t.enumValues[i]? = some s) : LeafHolds S type v (.enum i)
  | custom {v} (h : LeafTypeOf S type .custom) : LeafHolds S type v (.scalar v)

/-- The value of a leaf which has not been read. -/
inductive LeafEmpty (S : Schema) (type : Str) : Data → Prop where
  | int (h : LeafTypeOf S type .int) : LeafEmpty S type (.int 0)
  | float (h : LeafTypeOf S type .float) : LeafEmpty S type (.float (.finite 0))
  | string (h : LeafTypeOf S type .string) : LeafEmpty S type (.string [])
  | boolean (h : LeafTypeOf S type .boolean) : LeafEmpty S type (.boolean false)
  | id (h : LeafTypeOf S type .id) : LeafEmpty S type (.id [])
  | enum (h : LeafTypeOf S type .enum) : LeafEmpty S type (.enum 0)
  | custom (h : LeafTypeOf S type .custom) : LeafEmpty S type (.scalar .null)

/-- `IsEmpty S type children ms a`: the value of a member which has not been read. -/
inductive IsEmpty (S : Schema) : Str → List ResponseField → List Mod → Arg Data → Prop where
  | none {type children ms} : IsEmpty S type children (.nullable :: ms) .none
  | list {type children ms} : IsEmpty S type children (.list :: ms) (.list [])
  | leaf {type children d} (hc : S.isComposite type = false) (h : LeafEmpty S type d) : IsEmpty S type children [] (.leaf d)
  | object {type children} {ds : List (Str × Arg Data)} (hc : S.isComposite type = true)
      (hn : ds.map (·.1) = children.map (·.name))
      (h : ∀ (f : ResponseField) a, (f, a) ∈ children.zip (ds.map (·.2)) → IsEmpty S f.type f.children f.modifiers a) :
      IsEmpty S type children [] (.leaf (.object ds))

/-- `Reads S type children ms v a`: the value `v` is read as `a`. Null is read where it can be, and a list as a list; an
object as its members with these names, where those which are not there are empty. What is not a list where one is expected
is an empty list, and what is not an object an empty object. -/
inductive Reads (S : Schema) : Str → List ResponseField → List Mod → Resp → Arg Data → Prop where
  | null {type children ms} : Reads S type children (.nullable :: ms) .null .none
  | some {type children ms v a} (hv : v ≠ .null) (h : Reads S type children ms v a) :
      Reads S type children (.nullable :: ms) v (.some a)
  | list {type children ms vs as} (hl : vs.length = as.length)
      (h : ∀ v a, (v, a) ∈ vs.zip as → Reads S type children ms v a) : Reads S type children (.list :: ms) (.list vs) (.list as)
  | notList {type children ms v} (hv : ∀ vs, v ≠ .list vs) : Reads S type children (.list :: ms) v (.list [])
  | leaf {type children v d} (hc : S.isComposite type = false) (h : LeafHolds S type v d) :
      Reads S type children [] v (.leaf d)
  | object {type children members} {ds : List (Str × Arg Data)} (hc : S.isComposite type = true)
      (hn : ds.map (·.1) = children.map (·.name))
      (h : ∀ (f : ResponseField) a, (f, a) ∈ children.zip (ds.map (·.2)) → ∀ w, (f.name, w) ∈ members →
        Reads S f.type f.children f.modifiers w a)
      (he : ∀ (f : ResponseField) a, (f, a) ∈ children.zip (ds.map (·.2)) → (∀ w, (f.name, w) ∉ members) →
        IsEmpty S f.type f.children f.modifiers a) :
      Reads S type children [] (.map members) (.leaf (.object ds))
  | notObject {type children v a} (hc : S.isComposite type = true) (hv : ∀ members, v ≠ .map members)
      (h : IsEmpty S type children [] a) : Reads S type children [] v a

/-- `Represents S type children ms v a`: `a` is all of the value `v`. As `Reads`, but a list is where a list is expected and
an object where an object is expected, and the object has no other members. -/
inductive Represents (S : Schema) : Str → List ResponseField → List Mod → Resp → Arg Data → Prop where
  | null {type children ms} : Represents S type children (.nullable :: ms) .null .none
  | some {type children ms v a} (hv : v ≠ .null) (h : Represents S type children ms v a) :
      Represents S type children (.nullable :: ms) v (.some a)
  | list {type children ms vs as} (hl : vs.length = as.length)
      (h : ∀ v a, (v, a) ∈ vs.zip as → Represents S type children ms v a) :
      Represents S type children (.list :: ms) (.list vs) (.list as)
  | leaf {type children v d} (hc : S.isComposite type = false) (h : LeafHolds S type v d) :
      Represents S type children [] v (.leaf d)
  | object {type children members} {ds : List (Str × Arg Data)} (hc : S.isComposite type = true)
      (hn : ds.map (·.1) = children.map (·.name)) (hall : ∀ n w, (n, w) ∈ members → n ∈ children.map (·.name))
      (h : ∀ (f : ResponseField) a, (f, a) ∈ children.zip (ds.map (·.2)) → ∀ w, (f.name, w) ∈ members →
        Represents S f.type f.children f.modifiers w a)
      (he : ∀ (f : ResponseField) a, (f, a) ∈ children.zip (ds.map (·.2)) → (∀ w, (f.name, w) ∉ members) →
        IsEmpty S f.type f.children f.modifiers a) :
      Represents S type children [] (.map members) (.leaf (.object ds))

/-- The names of the members are distinct, at all levels. -/
inductive Distinct : List ResponseField → Prop where
  | mk {fields : List ResponseField} (hn : (fields.map (·.name)).Nodup) (h : ∀ f ∈ fields, Distinct f.children) :
      Distinct fields

/-- No object in the value has two members of the same name (`response::Value` does not allow it). -/
inductive NoDuplicates : Resp → Prop where
  | map {members} (hn : (members.map (·.1)).Nodup) (h : ∀ m ∈ members, NoDuplicates m.2) : NoDuplicates (.map members)
  | list {vs} (h : ∀ v ∈ vs, NoDuplicates v) : NoDuplicates (.list vs)
  | other {v} (hm : ∀ members, v ≠ .map members) (hl : ∀ vs, v ≠ .list vs) : NoDuplicates v

/-- The values of enums are distinct, and are their own names in C++. -/
def EnumsSafe (S : Schema) : Prop :=
  ∀ e ∈ S.types, e.2.enumValues.Nodup ∧ ∀ v ∈ e.2.enumValues, safeName v = v

/-- `Answers S fragments τ sub v`: a server may send `v` for a field of the type `τ` with the selections `sub`: every member
of an object is for some field which is selected, on whatever type. -/
inductive Answers (S : Schema) (fragments : List FragmentDef) : TypeRef → Option (List Selection) → Resp → Prop where
  | null {n sub} : Answers S fragments (.named n) sub .null
  | nullList {τ sub} : Answers S fragments (.list τ) sub .null
  | list {τ sub vs} (h : ∀ v ∈ vs, Answers S fragments τ sub v) : Answers S fragments (.list τ) sub (.list vs)
  | nonNull {τ sub v} (hv : v ≠ .null) (h : Answers S fragments τ sub v) : Answers S fragments (.nonNull τ) sub v
  | leaf {n sub v d} (hc : S.isComposite n = false) (h : LeafHolds S n v d) : Answers S fragments (.named n) sub v
  | object {n sel os members} (hc : S.isComposite n = true) (hflat : Flat fragments n sel os)
      (hn : (members.map (·.1)).Nodup) (o : Str → Selected) (def_ : Str → Validation.FieldDef)
      (ho : ∀ name v, (name, v) ∈ members → o name ∈ os ∧ (o name).name = name ∧
        S.findField (o name).on (o name).field.name = some (def_ name))
      (h : ∀ name v, (name, v) ∈ members → Answers S fragments (def_ name).type (o name).sub v) :
      Answers S fragments (.named n) (some sel) (.map members)

end Verif.Gen.Client
