import Verif.GenCode.Run
import Verif.GenText.Spec
import Verif.GenCode.Model

/-!
# Defaults and fields which can be written as C++

A specification: what the default values, names and types of a schema must satisfy for the written code to be what it is meant to
be.
-/
namespace Verif.GenCode
open Verif.Value Verif.Resp Verif.Text Verif.Modifiers Verif.Gen.Service
open Verif.Gen (Client.Data Client.wrap)
open Verif.Gen.Client (Data)
open Verif.Cpp (Path path keywords token)
open Verif.Gen (InputField InputType)
open Verif.GenText (cpp GqlOk)

/-- The minus of a number, and the number behind it. -/
def sign (s : Str) : Bool × Str :=
  match s with
  | c :: s => if c = Cpp.chr '-' then (true, s) else (false, c :: s)
  | [] => (false, [])

/-- The text which is written for a `double` is a number, of which the value is the same `double`. -/
def FloatOk (print : Double → Str) (read : Str → Double) (d : Double) : Prop :=
  token ((sign (print d)).2 ++ str ")") = some (.number (sign (print d)).2, str ")") ∧
  (numberValue read (sign (print d)).1 (sign (print d)).2).bind (castTo (path "response" ["FloatType"])) = some (.double d)

mutual
/-- A default value which can be written: no string has `)gql"` or a zero in it, and a float is what was written. The others hold
for all values which are read from a document. -/
def DefaultOk (print : Double → Str) (read : Str → Double) : Resp → Prop
  | .map members => (members.map (·.1)).Nodup ∧ MembersOk print read members
  | .list elements => ElementsOk print read elements
  | .string s fromJson => fromJson = false ∧ GqlOk s ∧ (0 : Byte) ∉ s
  | .null => True
  | .boolean _ => True
  | .int i => -2 ^ 31 ≤ i ∧ i < 2 ^ 31
  | .float d => FloatOk print read d
  | .enumValue s => IsName s
  | .scalar v => ScalarOk print read v
termination_by structural v => v
def MembersOk (print : Double → Str) (read : Str → Double) : List (Str × Resp) → Prop
  | [] => True
  | m :: ms => MemberOk print read m ∧ MembersOk print read ms
termination_by structural v => v
def MemberOk (print : Double → Str) (read : Str → Double) : Str × Resp → Prop
  | (n, v) => IsName n ∧ DefaultOk print read v
termination_by structural v => v
def ElementsOk (print : Double → Str) (read : Str → Double) : List Resp → Prop
  | [] => True
  | v :: vs => DefaultOk print read v ∧ ElementsOk print read vs
termination_by structural v => v
def ScalarOk (print : Double → Str) (read : Str → Double) : Option Resp → Prop
  | some v => DefaultOk print read v
  | none => False
termination_by structural v => v
end

/-- The arguments of a field, or the fields of an input object, can be written. -/
structure FieldsOk (print : Double → Str) (read : Str → Double) (fs : List InputField) : Prop where
  name : ∀ f ∈ fs, IsName f.name
  /-- the C++ name is the name of a type -/
  type : ∀ f ∈ fs, IsName f.type ∧ cpp f.type ∉ keywords
  default : ∀ f ∈ fs, DefaultOk print read f.defaultValue
  names : (fs.map (·.name)).Nodup
  /-- the names of the variables are different -/
  distinct : (fs.map capital).Nodup

/-! ## Types -/

def valueT : Path := path "response" ["Value"]

/-- The C++ type of a built-in type. -/
def builtinPath (type : Str) : Path :=
  if type = str "Int" then path "response" ["IntType"]
  else if type = str "Float" then path "response" ["FloatType"]
  else if type = str "String" then path "response" ["StringType"]
  else if type = str "Boolean" then path "response" ["BooleanType"]
  else path "response" ["IdType"]

/-- `ns::X` -/
def typePath (ns : Path) (type : Str) : Path := ⟨ns.head, ns.tail ++ [cpp type]⟩

/-- The C++ type of the values of a field, without lists and null. -/
def accessPath (ns : Path) (f : InputField) : Path :=
  match f.fieldType with
  | .builtin => builtinPath f.type
  | .enum => typePath ns f.type
  | .input => typePath ns f.type
  | .scalar => valueT

/-- The conversions which are there already: those of the library, and those of the enums. -/
def knownConversions (T : Types) (ns : Path) (t : Path) : Option (Resp → Res Data) :=
  if t = path "response" ["IntType"] then some fun v => .of (convertBuiltin (str "Int") v)
  else if t = path "response" ["FloatType"] then some fun v => .of (convertBuiltin (str "Float") v)
  else if t = path "response" ["StringType"] then some fun v => .of (convertBuiltin (str "String") v)
  else if t = path "response" ["BooleanType"] then some fun v => .of (convertBuiltin (str "Boolean") v)
  else if t = path "response" ["IdType"] then some fun v => .of (convertBuiltin (str "ID") v)
  else if t = valueT then some fun v => .of (Client.wrap .scalar (convertScalar v))
  else (T.enums.find? fun e => typePath ns e.type = t).map fun e v => .of (convertEnum T e.type v)

/-- The members of the structures, named by the fields. -/
def structures (T : Types) (ns : Path) (t : Path) : List Str :=
  ((T.inputs.find? fun i => typePath ns i.type = t).map fun i => i.fields.map (·.name)).getD []

/-- The type of a field is there. -/
def TypeKnown (T : Types) (f : InputField) : Prop :=
  match f.fieldType with
  | .enum => ∃ e ∈ T.enums, e.type = f.type
  | .input => ∃ i ∈ T.inputs, i.type = f.type
  | _ => True

/-- All the input objects can be written. -/
structure TypesOk (print : Double → Str) (read : Str → Double) (T : Types) (ns : Path) : Prop where
  /-- the namespace is not that of the library -/
  namespace' : ns.head ≠ str "response"
  name : ∀ i ∈ T.inputs, IsName i.type ∧ cpp i.type ∉ keywords
  fields : ∀ i ∈ T.inputs, FieldsOk print read i.fields
  known : ∀ i ∈ T.inputs, ∀ f ∈ i.fields, TypeKnown T f
  /-- the C++ names of the types are different -/
  distinct : ((T.enums.map (·.type) ++ T.inputs.map (·.type)).map cpp).Nodup

end Verif.GenCode
