import Verif.Gen.Input
import Verif.Json.Spec

/-!
# What the arguments of a resolver have to be
-/
namespace Verif.Gen.Service
open Verif.Value Verif.Resp Verif.Errors Verif.Modifiers Verif.Gen
open Verif.Gen.Client (Data)

/-- Nothing is defined twice. -/
structure Types.Unique (T : Types) : Prop where
  enums : (T.enums.map (·.type)).Nodup
  values : ∀ e ∈ T.enums, (e.values.map (·.value)).Nodup
  inputs : (T.inputs.map (·.type)).Nodup
  fields : ∀ i ∈ T.inputs, (i.fields.map (·.name)).Nodup

/-- The type of the field is what its kind says. -/
def Known (T : Types) (f : InputField) : Prop :=
  match f.fieldType with
  | .builtin => f.type ∈ builtinTypes
  | .scalar => True
  | .enum => True
  | .input => ∃ t ∈ T.inputs, t.type = f.type

/-- The types of all fields are what their kinds say. -/
def Types.Closed (T : Types) : Prop := ∀ t ∈ T.inputs, ∀ f ∈ t.fields, Known T f

/-- `LeafIs T kind type v d`: the value `v` of the type is the C++ value `d`. -/
inductive LeafIs (T : Types) : InputFieldType → Str → Resp → Data → Prop where
  | int {i} : LeafIs T .builtin (str "Int") (.int i) (.int i)
  | float {d} : LeafIs T .builtin (str "Float") (.float d) (.float d)
  | integral {i} : LeafIs T .builtin (str "Float") (.int i) (.float (.finite i))
  | string {s j} : LeafIs T .builtin (str "String") (.string s j) (.string s)
  | boolean {b} : LeafIs T .builtin (str "Boolean") (.boolean b) (.boolean b)
  | id {s j bytes} (h : Verif.Base64.fromBase64 s = .ok bytes) : LeafIs T .builtin (str "ID") (.string s j) (.id bytes)
  | enum {e v s} {i : Nat} (he : e ∈ T.enums) (hv : v = .string s true ∨ v = .enumValue s)
      (hi : (e.values.map (·.value))[i]? = some s) : LeafIs T .enum e.type v (.enum i)
  | scalar {type v} : LeafIs T .scalar type v (.scalar v)

/-- The type allows null. -/
def Nullable (ms : List Mod) : Prop := ∃ rest, ms = .nullable :: rest

/-- `Coerces T kind type ms v a`: the value `v` is valid for the type, and is the C++ value `a`. Fields of an input object
which are not given are null if they can be, whether or not they have a default; the others have their default. -/
inductive Coerces (T : Types) : InputFieldType → Str → List Mod → Resp → Arg Data → Prop where
  | null {kind type ms} : Coerces T kind type (.nullable :: ms) .null .none
  | some {kind type ms v a} (hv : v ≠ .null) (h : Coerces T kind type ms v a) :
      Coerces T kind type (.nullable :: ms) v (.some a)
  | list {kind type ms vs as} (hl : vs.length = as.length) (h : ∀ v a, (v, a) ∈ vs.zip as → Coerces T kind type ms v a) :
      Coerces T kind type (.list :: ms) (.list vs) (.list as)
  | leaf {kind type v d} (h : LeafIs T kind type v d) : Coerces T kind type [] v (.leaf d)
  | object {t : InputType} {members : Members} {ds : List (Str × Arg Data)} (ht : t ∈ T.inputs)
      (hm : (members.map (·.1)).Nodup) (hn : ds.map (·.1) = t.fields.map (·.name))
      (hgiven : ∀ (f : InputField) a v, (f, a) ∈ t.fields.zip (ds.map (·.2)) → (f.name, v) ∈ members →
        Coerces T f.fieldType f.type f.modifiers v a)
      (hnull : ∀ (f : InputField) a, (f, a) ∈ t.fields.zip (ds.map (·.2)) → (∀ v, (f.name, v) ∉ members) →
        Nullable f.modifiers → a = .none)
      (hrequired : ∀ (f : InputField) a, (f, a) ∈ t.fields.zip (ds.map (·.2)) → (∀ v, (f.name, v) ∉ members) →
        ¬ Nullable f.modifiers → f.defaultValue ≠ .null)
      (hdefault : ∀ (f : InputField) a, (f, a) ∈ t.fields.zip (ds.map (·.2)) → (∀ v, (f.name, v) ∉ members) →
        ¬ Nullable f.modifiers → Coerces T f.fieldType f.type f.modifiers f.defaultValue a) :
      Coerces T .input t.type [] (.map members) (.leaf (.object ds))

/-- The arguments which a resolver gets are those which are given; or null, if it is allowed; or the default. -/
structure Passed (T : Types) (fields : List InputField) (members : Members) (ds : List (Str × Arg Data)) : Prop where
  names : ds.map (·.1) = fields.map (·.name)
  given : ∀ (f : InputField) a v, (f, a) ∈ fields.zip (ds.map (·.2)) → (f.name, v) ∈ members →
    Coerces T f.fieldType f.type f.modifiers v a
  null : ∀ (f : InputField) a, (f, a) ∈ fields.zip (ds.map (·.2)) → (∀ v, (f.name, v) ∉ members) →
    Nullable f.modifiers → a = .none
  required : ∀ (f : InputField) a, (f, a) ∈ fields.zip (ds.map (·.2)) → (∀ v, (f.name, v) ∉ members) →
    ¬ Nullable f.modifiers → f.defaultValue ≠ .null
  default : ∀ (f : InputField) a, (f, a) ∈ fields.zip (ds.map (·.2)) → (∀ v, (f.name, v) ∉ members) →
    ¬ Nullable f.modifiers → Coerces T f.fieldType f.type f.modifiers f.defaultValue a

/-- Where the value of a field comes from. -/
inductive Source where
  | given | absent | default

/-- The member of this name, if the value is an object. -/
def Given (v : Resp) (name : Str) (w : Resp) : Prop := ∃ members, v = .map members ∧ (name, w) ∈ members

/-- `Obtained T kind type ms v a`: as `Coerces`, but a field which has a default may have it whatever is given, and then
what is given need not be an object. -/
inductive Obtained (T : Types) : InputFieldType → Str → List Mod → Resp → Arg Data → Prop where
  | null {kind type ms} : Obtained T kind type (.nullable :: ms) .null .none
  | some {kind type ms v a} (hv : v ≠ .null) (h : Obtained T kind type ms v a) :
      Obtained T kind type (.nullable :: ms) v (.some a)
  | list {kind type ms vs as} (hl : vs.length = as.length) (h : ∀ v a, (v, a) ∈ vs.zip as → Obtained T kind type ms v a) :
      Obtained T kind type (.list :: ms) (.list vs) (.list as)
  | leaf {kind type v d} (h : LeafIs T kind type v d) : Obtained T kind type [] v (.leaf d)
  | object {t : InputType} {v} {ds : List (Str × Arg Data)} (ht : t ∈ T.inputs) (hn : ds.map (·.1) = t.fields.map (·.name))
      (source : InputField → Source) (given : InputField → Resp)
      (hgiven : ∀ f ∈ t.fields, source f = .given → Given v f.name (given f))
      (hvalue : ∀ (f : InputField) a, (f, a) ∈ t.fields.zip (ds.map (·.2)) → source f = .given →
        Obtained T f.fieldType f.type f.modifiers (given f) a)
      (habsent : ∀ (f : InputField) a, (f, a) ∈ t.fields.zip (ds.map (·.2)) → source f = .absent →
        (∃ members, v = .map members ∧ ∀ w, (f.name, w) ∉ members) ∧ Nullable f.modifiers ∧ a = .none)
      (hdefault : ∀ f ∈ t.fields, source f = .default → f.defaultValue ≠ .null)
      (hdefaultValue : ∀ (f : InputField) a, (f, a) ∈ t.fields.zip (ds.map (·.2)) → source f = .default →
        Obtained T f.fieldType f.type f.modifiers f.defaultValue a) :
      Obtained T .input t.type [] v (.leaf (.object ds))

/-- The arguments which a resolver gets are those which are given; or null, if it is allowed; or the default, for those
which have one. -/
def Received (T : Types) (fields : List InputField) (members : Members) (ds : List (Str × Arg Data)) : Prop :=
  ds.map (·.1) = fields.map (·.name) ∧ ∀ (f : InputField) a, (f, a) ∈ fields.zip (ds.map (·.2)) →
    (∃ w, (f.name, w) ∈ members ∧ Obtained T f.fieldType f.type f.modifiers w a) ∨
    ((∀ w, (f.name, w) ∉ members) ∧ Nullable f.modifiers ∧ a = .none) ∨
    (f.defaultValue ≠ .null ∧ Obtained T f.fieldType f.type f.modifiers f.defaultValue a)

/-- No field of an input object has a default. -/
def Types.NoDefaults (T : Types) : Prop := ∀ t ∈ T.inputs, ∀ f ∈ t.fields, f.defaultValue = .null

/-- `Typed T P kind type ms a`: the values of the C++ type of a field, where custom scalars have the property `P`. -/
inductive Typed (T : Types) (P : Resp → Prop) : InputFieldType → Str → List Mod → Arg Data → Prop where
  | none {kind type ms} : Typed T P kind type (.nullable :: ms) .none
  | some {kind type ms a} (h : Typed T P kind type ms a) : Typed T P kind type (.nullable :: ms) (.some a)
  | list {kind type ms as} (h : ∀ a ∈ as, Typed T P kind type ms a) : Typed T P kind type (.list :: ms) (.list as)
  | int {i} : Typed T P .builtin (str "Int") [] (.leaf (.int i))
  | float {d} : Typed T P .builtin (str "Float") [] (.leaf (.float d))
  | string {s} : Typed T P .builtin (str "String") [] (.leaf (.string s))
  | boolean {b} : Typed T P .builtin (str "Boolean") [] (.leaf (.boolean b))
  | id {bytes} : Typed T P .builtin (str "ID") [] (.leaf (.id bytes))
  | scalar {type v} (hv : P v) : Typed T P .scalar type [] (.leaf (.scalar v))
  | enum {e i} (he : e ∈ T.enums) (hi : i < e.values.length) : Typed T P .enum e.type [] (.leaf (.enum i))
  | object {t : InputType} {ds : List (Str × Arg Data)} (ht : t ∈ T.inputs) (hn : ds.map (·.1) = t.fields.map (·.name))
      (h : ∀ (f : InputField) a, (f, a) ∈ t.fields.zip (ds.map (·.2)) → Typed T P f.fieldType f.type f.modifiers a) :
      Typed T P .input t.type [] (.leaf (.object ds))

/-- The members of a structure have the C++ types of the fields. -/
def TypedMembers (T : Types) (P : Resp → Prop) (fields : List InputField) (ds : List (Str × Arg Data)) : Prop :=
  ds.map (·.1) = fields.map (·.name) ∧
  ∀ (f : InputField) a, (f, a) ∈ fields.zip (ds.map (·.2)) → Typed T P f.fieldType f.type f.modifiers a

/-- No `std::optional<std::optional<>>`: the modifiers of a type never are. -/
def SingleNullable (fields : List InputField) : Prop :=
  ∀ f ∈ fields, ∀ pre post, f.modifiers ≠ pre ++ .nullable :: .nullable :: post

/-- The values of enums are their own names in C++. -/
def Types.EnumsSafe (T : Types) : Prop := ∀ e ∈ T.enums, ∀ v ∈ e.values, Client.safeName v.value = v.value

end Verif.Gen.Service
