import Verif.Json.Model
import Verif.Resp.Basic

/-!
# JSON documents and response trees

`J` is the syntax tree of a JSON text, `J.events` the handler calls RapidJSON's reader makes for it (assumed, third
party), `Resp` is a response value without the implementation's index, `meaning` what a JSON document means.
-/
namespace Verif.Json.Spec
open Verif.Value Verif.Json Verif.Resp

/-- JSON documents. `num` is a number written without fraction and exponent, `dbl` any other number. -/
inductive J where
  | null
  | bool (b : Bool)
  | num (n : Int)
  | dbl (d : Double)
  | str (s : Str)
  | arr (elements : List J)
  | obj (members : List (Str × J))

/-- How RapidJSON classifies an integer literal (`reader.h`, `ParseNumber`): 32 bit if it fits, else 64 bit if it
fits, else `double`. (The rounding to a `double` beyond 64 bits is not modelled.) -/
def numEvent (n : Int) : Event :=
  if 0 ≤ n then
    if n < 2 ^ 32 then .uint n.toNat else if n < 2 ^ 64 then .uint64 n.toNat else .double (.finite n)
  else
    if -2 ^ 31 ≤ n then .int n else if -2 ^ 63 ≤ n then .int64 n else .double (.finite n)

mutual
/-- The handler calls made for a document. -/
def J.events : J → List Event
  | .null => [.null]
  | .bool b => [.bool b]
  | .num n => [numEvent n]
  | .dbl d => [.double d]
  | .str s => [.string s]
  | .arr js => .startArray :: J.eventsArr js ++ [.endArray]
  | .obj ms => .startObject :: J.eventsObj ms ++ [.endObject]
def J.eventsArr : List J → List Event
  | [] => []
  | j :: js => J.events j ++ J.eventsArr js
def J.eventsObj : List (Str × J) → List Event
  | [] => []
  | (k, j) :: ms => .key k :: J.events j ++ J.eventsObj ms
end

/-- The 32 bit range of GraphQL's `Int`. -/
def fits32 (n : Int) : Prop := -2 ^ 31 ≤ n ∧ n < 2 ^ 31

/-- The 64 bit range RapidJSON treats as integers. -/
def fits64 (n : Int) : Prop := -2 ^ 63 ≤ n ∧ n < 2 ^ 64

mutual
/-- The value a JSON document denotes: strings are marked as coming from JSON, of members with the same name the
first counts, integers beyond 64 bits are floating point numbers. -/
def meaning : J → Resp
  | .null => .null
  | .bool b => .boolean b
  | .num n => if -2 ^ 63 ≤ n ∧ n < 2 ^ 64 then .int n else .float (.finite n)
  | .dbl d => .float d
  | .str s => .string s true
  | .arr js => .list (meaningArr js)
  | .obj ms => .map (Verif.Value.Spec.addAll [] (meaningObj ms))
def meaningArr : List J → List Resp
  | [] => []
  | j :: js => meaning j :: meaningArr js
def meaningObj : List (Str × J) → List (Str × Resp)
  | [] => []
  | (k, j) :: ms => (k, meaning j) :: meaningObj ms
end

mutual
/-- No string or member name contains a NUL character. -/
def J.NoNul : J → Prop
  | .str s => 0 ∉ s
  | .arr js => J.NoNulArr js
  | .obj ms => J.NoNulObj ms
  | _ => True
def J.NoNulArr : List J → Prop
  | [] => True
  | j :: js => J.NoNul j ∧ J.NoNulArr js
def J.NoNulObj : List (Str × J) → Prop
  | [] => True
  | (k, j) :: ms => 0 ∉ k ∧ J.NoNul j ∧ J.NoNulObj ms
end

mutual
/-- Some integer literal, at any depth, fits 64 but not 32 bits. -/
def J.TooBig : J → Prop
  | .num n => fits64 n ∧ ¬ fits32 n
  | .arr js => J.TooBigArr js
  | .obj ms => J.TooBigObj ms
  | _ => False
def J.TooBigArr : List J → Prop
  | [] => False
  | j :: js => J.TooBig j ∨ J.TooBigArr js
def J.TooBigObj : List (Str × J) → Prop
  | [] => False
  | (_, j) :: ms => J.TooBig j ∨ J.TooBigObj ms
end

mutual
/-- The normalisation a round trip through JSON causes: strings and enum values come back as strings from JSON,
a scalar comes back as what it holds. -/
def normalize : Resp → Resp
  | .map ms => .map (normalizeEntries ms)
  | .list xs => .list (normalizeList xs)
  | .string s _ => .string s true
  | .enumValue s => .string s true
  | .scalar (some v) => normalize v
  | .scalar none => .scalar none
  | .null => .null
  | .boolean b => .boolean b
  | .int i => .int i
  | .float d => .float d
def normalizeEntries : List (Str × Resp) → List (Str × Resp)
  | [] => []
  | (n, v) :: rest => (n, normalize v) :: normalizeEntries rest
def normalizeList : List Resp → List Resp
  | [] => []
  | v :: rest => normalize v :: normalizeList rest
end

mutual
/-- Values with a JSON representation: integers are 32 bit (as `IntType` is), numbers are finite, scalars are not
empty. No string or name contains a NUL character. -/
def Representable : Resp → Prop
  | .map ms => RepresentableEntries ms
  | .list xs => RepresentableList xs
  | .string s _ => 0 ∉ s
  | .enumValue s => 0 ∉ s
  | .scalar (some v) => Representable v
  | .scalar none => False
  | .int i => fits32 i
  | .float d => match d with
    | .finite _ => True
    | .negZero => True
    | _ => False
  | _ => True
def RepresentableEntries : List (Str × Resp) → Prop
  | [] => True
  | (n, v) :: rest => 0 ∉ n ∧ Representable v ∧ RepresentableEntries rest
def RepresentableList : List Resp → Prop
  | [] => True
  | v :: rest => Representable v ∧ RepresentableList rest
end

end Verif.Json.Spec
