import Verif.Base64.Model
import Verif.SortedMap.Model

/-!
# Model of `graphql::response::Value`

Models `/repo/include/graphqlservice/GraphQLResponse.h` and `/repo/src/GraphQLResponse.cpp`.

* `std::string` is its list of bytes (`Str`), `std::string_view::operator<` is the lexicographic order of
  unsigned bytes.
* `IntType` (a 32 bit `int`) is an unbounded `Int`: no operation modelled here computes with it.
* `FloatType` (`double`) is `Double`, which only has the comparison and the conversion from `int` that the code uses.
* `reserve` has no observable effect and is left out.
* A moved-from vector, string or pointer is empty.
-/
namespace Verif.Value
open Verif.Std
open Verif.SortedMap (vectorInsert)

/-- A byte, and `std::string` as a list of bytes. -/
abbrev Byte := Verif.Base64.Byte
abbrev Str := List Byte

/-- A string literal in C++ source (ASCII only). -/
def str (s : String) : Str := s.toList.map (fun c => BitVec.ofNat 8 c.toNat)

/-- `std::string_view::operator<`. -/
def strLess (a b : Str) : Bool := decide (a < b)

/-- A `double`. Finite non-zero-signed values are their rational value; no arithmetic is modelled. -/
inductive Double where
  | finite (q : Rat)
  | negZero
  | inf (negative : Bool)
  | nan
deriving DecidableEq

/-- `double == double`. -/
def Double.eq : Double → Double → Bool
  | .nan, _ => false
  | _, .nan => false
  | .finite p, .finite q => decide (p = q)
  | .negZero, .negZero => true
  | .finite p, .negZero => decide (p = 0)
  | .negZero, .finite p => decide (p = 0)
  | .inf a, .inf b => a == b
  | _, _ => false

/-- `static_cast<FloatType>(int)`: exact for every 32 bit integer. -/
def Double.ofInt (i : Int) : Double := .finite i

/-- `Value::_data`, GraphQLResponse.h:200-238: `MapData` (entries and index), `ListType`, `StringData`, `NullData`,
`BooleanType`, `IntType`, `FloatType`, `EnumData`, `ScalarData` (a `std::unique_ptr<Value>`). -/
inductive Value where
  | map (entries : List (Str × Value)) (members : List Nat)
  | list (elements : List Value)
  | string (s : Str) (fromJson : Bool)
  | null
  | boolean (b : Bool)
  | int (i : Int)
  | float (d : Double)
  | enumValue (s : Str)
  | scalar (v : Option Value)

/-- `enum class Type`, GraphQLResponse.h:32-43. -/
inductive Ty where
  | map | list | string | null | boolean | int | float | enumValue | scalar
deriving DecidableEq, Repr

/-- `Value::type`, GraphQLResponse.cpp:494-532. -/
def Value.type : Value → Ty
  | .map .. => .map
  | .list .. => .list
  | .string .. => .string
  | .null => .null
  | .boolean .. => .boolean
  | .int .. => .int
  | .float .. => .float
  | .enumValue .. => .enumValue
  | .scalar .. => .scalar

/-- `Value::Value(Type)`, GraphQLResponse.cpp:313-353. -/
def Value.ofType : Ty → Value
  | .map => .map [] []
  | .list => .list []
  | .string => .string [] false
  | .null => .null
  | .boolean => .boolean false
  | .int => .int 0
  | .float => .float (.finite 0)
  | .enumValue => .enumValue []
  | .scalar => .scalar none

/-- The exceptions thrown by `Value`. -/
inductive Err where
  | logicError (what : String)
  | runtimeError (what : String)
  | base64 (e : Verif.Base64.Err)
  | outOfRange
deriving DecidableEq, Repr

/-! ## Objects: `MapData` -/

section MapData
variable {V : Type}

/-- `mapData.map[i].first`. An index out of range is undefined behaviour in C++; the invariant proved in `Props`
rules it out. -/
def nameAt (entries : List (Str × V)) (i : Nat) : Str := (entries[i]?.map (·.1)).getD []

/-- The `std::equal_range` call of `emplace_back` and `find`, GraphQLResponse.cpp:601-608 and 629-636. -/
def memberRange (entries : List (Str × V)) (members : List Nat) (name : Str) : Nat × Nat :=
  equalRange (fun i => strLess (nameAt entries i) name) (fun i => strLess name (nameAt entries i)) members

/-- `Value::emplace_back(std::string&&, Value&&)` on a map, GraphQLResponse.cpp:600-618. -/
def mapEmplaceBack (entries : List (Str × V)) (members : List Nat) (name : Str) (value : V) :
    (List (Str × V) × List Nat) × Bool :=
  let r := memberRange entries members name
  if r.1 ≠ r.2 then ((entries, members), false)
  else ((entries ++ [(name, value)], vectorInsert members r.1 members.length), true)

/-- `Value::find` on a map, GraphQLResponse.cpp:628-643; `none` is `end()`. -/
def mapFind (entries : List (Str × V)) (members : List Nat) (name : Str) : Option (Str × V) :=
  let r := memberRange entries members name
  if r.1 = r.2 then none
  else match members[r.1]? with
    | some i => entries[i]?
    | none => none  -- not reachable: `itr` is dereferenceable when it is not `itrEnd`

/-- `Value::operator[](std::string_view)` on a map, GraphQLResponse.cpp:666-676. -/
def mapIndex (entries : List (Str × V)) (members : List Nat) (name : Str) : Except Err V :=
  match mapFind entries members name with
  | some e => .ok e.2
  | none => .error (.runtimeError "Missing Map member")

/-- A sequence of `emplace_back` calls on an object, with the results of the calls. -/
def mapInsertAll (entries : List (Str × V)) (members : List Nat) :
    List (Str × V) → (List (Str × V) × List Nat) × List Bool
  | [] => ((entries, members), [])
  | (n, v) :: rest =>
    let r := mapEmplaceBack entries members n v
    let r' := mapInsertAll r.1.1 r.1.2 rest
    (r'.1, r.2 :: r'.2)

end MapData

/-- `Value::emplace_back(std::string&&, Value&&)`, GraphQLResponse.cpp:593-619. -/
def Value.emplaceBack (v : Value) (name : Str) (value : Value) : Except Err (Value × Bool) :=
  match v with
  | .map entries members =>
    let r := mapEmplaceBack entries members name value
    .ok (.map r.1.1 r.1.2, r.2)
  | _ => .error (.logicError "Invalid call to Value::emplace_back for MapType")

/-- `Value::find`, GraphQLResponse.cpp:621-644. -/
def Value.find (v : Value) (name : Str) : Except Err (Option (Str × Value)) :=
  match v with
  | .map entries members => .ok (mapFind entries members name)
  | _ => .error (.logicError "Invalid call to Value::find for MapType")

/-- `Value::operator[](std::string_view)`, GraphQLResponse.cpp:666-676. -/
def Value.index (v : Value) (name : Str) : Except Err Value :=
  match v with
  | .map entries members => mapIndex entries members name
  | _ => .error (.logicError "Invalid call to Value::find for MapType")

/-- `Value::size`, GraphQLResponse.cpp:574-591. -/
def Value.size : Value → Except Err Nat
  | .map entries _ => .ok entries.length
  | .list elements => .ok elements.length
  | _ => .error (.logicError "Invalid call to Value::size")

/-- `Value::emplace_back(Value&&)`, GraphQLResponse.cpp:678-686. -/
def Value.push (v : Value) (value : Value) : Except Err Value :=
  match v with
  | .list elements => .ok (.list (elements ++ [value]))
  | _ => .error (.logicError "Invalid call to Value::emplace_back for ListType")

/-- `Value::operator[](size_t)`, GraphQLResponse.cpp:688-696. -/
def Value.at (v : Value) (index : Nat) : Except Err Value :=
  match v with
  | .list elements => match elements[index]? with
    | some x => .ok x
    | none => .error .outOfRange
  | _ => .error (.logicError "Invalid call to Value::operator[] for ListType")

/-- `Value::from_json`, GraphQLResponse.cpp:534-542. -/
def Value.fromJson : Value → Value
  | .string s _ => .string s true
  | v => v

/-- `Value::maybe_enum`, GraphQLResponse.cpp:544-548. -/
def Value.maybeEnum : Value → Bool
  | .enumValue _ => true
  | .string _ j => j
  | _ => false

/-! ## Comparison and copy -/

mutual
/-- `Value::operator==`, GraphQLResponse.cpp:484-487, with the comparison operators of the alternatives,
GraphQLResponse.cpp:17-40. `std::variant` compares the index first. -/
def Value.eq : Value → Value → Bool
  | .map a _, .map b _ => Value.eqEntries a b
  | .list a, .list b => Value.eqList a b
  | .string a j, .string b k => j == k && a == b
  | .null, .null => true
  | .boolean a, .boolean b => a == b
  | .int a, .int b => a == b
  | .float a, .float b => a.eq b
  | .enumValue a, .enumValue b => a == b
  | .scalar (some a), .scalar (some b) => Value.eq a b
  | .scalar none, .scalar none => true
  | _, _ => false
/-- `std::vector<std::pair<std::string, Value>>::operator==` -/
def Value.eqEntries : List (Str × Value) → List (Str × Value) → Bool
  | [], [] => true
  | (n, a) :: as, (m, b) :: bs => n == m && Value.eq a b && Value.eqEntries as bs
  | _, _ => false
/-- `std::vector<Value>::operator==` -/
def Value.eqList : List Value → List Value → Bool
  | [], [] => true
  | a :: as, b :: bs => Value.eq a b && Value.eqList as bs
  | _, _ => false
end

/-- `std::map<std::string_view, size_t>::operator[](name) = i`: a map ordered by key. -/
def orderedAssign (name : Str) (i : Nat) : List (Str × Nat) → List (Str × Nat)
  | [] => [(name, i)]
  | (n, j) :: rest =>
    if strLess name n then (name, i) :: (n, j) :: rest
    else if strLess n name then (n, j) :: orderedAssign name i rest
    else (n, i) :: rest

/-- The loop building the index of a copied map, GraphQLResponse.cpp:411-416. Since C++17 the right-hand side
`members.size()` is evaluated before `members[entry.first]` inserts the entry. -/
def buildMembers (ordered : List (Str × Nat)) : List Str → List (Str × Nat)
  | [] => ordered
  | n :: rest => buildMembers (orderedAssign n ordered.length ordered) rest

mutual
/-- `Value::Value(const Value&)`, GraphQLResponse.cpp:397-472. -/
def Value.copy : Value → Except Err Value
  | .map entries _ => do
    let copied ← Value.copyEntries entries
    .ok (.map copied ((buildMembers [] (copied.map (·.1))).map (·.2)))
  | .list elements => do
    let copied ← Value.copyList elements
    .ok (.list copied)
  | .string s j => .ok (.string s j)
  | .null => .ok .null
  | .boolean b => .ok (.boolean b)
  | .int i => .ok (.int i)
  | .float d => .ok (.float d)
  | .enumValue s => .ok (.enumValue s)
  | .scalar (some v) => do
    let copied ← Value.copy v
    .ok (.scalar (some copied))
  | .scalar none => .error (.logicError "Invalid call to Value::get for ScalarType")
/-- the entry loop, GraphQLResponse.cpp:406-409 -/
def Value.copyEntries : List (Str × Value) → Except Err (List (Str × Value))
  | [] => .ok []
  | (n, v) :: rest => do
    let v' ← Value.copy v
    let rest' ← Value.copyEntries rest
    .ok ((n, v') :: rest')
/-- the element loop, GraphQLResponse.cpp:435-438 -/
def Value.copyList : List Value → Except Err (List Value)
  | [] => .ok []
  | v :: rest => do
    let v' ← Value.copy v
    let rest' ← Value.copyList rest
    .ok (v' :: rest')
end

/-! ## Typed access -/

/-- The `ValueType` template arguments of `get`, `set` and `release`. -/
inductive VT where
  | map | list | string | boolean | int | float | scalar | id
deriving DecidableEq, Repr

/-- The values passed to and returned from typed access. -/
inductive Payload where
  | map (entries : List (Str × Value))
  | list (elements : List Value)
  | string (s : Str)
  | boolean (b : Bool)
  | int (i : Int)
  | float (d : Double)
  | scalar (v : Value)
  | id (bytes : List Byte)

/-- `Value::get<…>`, GraphQLResponse.cpp:121-224. -/
def Value.get (t : VT) (v : Value) : Except Err Payload :=
  match t, v with
  | .map, .map entries _ => .ok (.map entries)
  | .map, _ => .error (.logicError "Invalid call to Value::get for MapType")
  | .list, .list elements => .ok (.list elements)
  | .list, _ => .error (.logicError "Invalid call to Value::get for ListType")
  | .string, .enumValue s => .ok (.string s)
  | .string, .string s _ => .ok (.string s)
  | .string, _ => .error (.logicError "Invalid call to Value::get for StringType")
  | .boolean, .boolean b => .ok (.boolean b)
  | .boolean, _ => .error (.logicError "Invalid call to Value::get for BooleanType")
  | .int, .int i => .ok (.int i)
  | .int, _ => .error (.logicError "Invalid call to Value::get for IntType")
  | .float, .int i => .ok (.float (Double.ofInt i))
  | .float, .float d => .ok (.float d)
  | .float, _ => .error (.logicError "Invalid call to Value::get for FloatType")
  | .scalar, .scalar (some s) => .ok (.scalar s)
  | .scalar, _ => .error (.logicError "Invalid call to Value::get for ScalarType")
  | .id, .string s _ => match Verif.Base64.fromBase64 s with
    | .ok bytes => .ok (.id bytes)
    | .error e => .error (.base64 e)
  | .id, _ => .error (.logicError "Invalid call to Value::get for IdType")

/-- `Value::set<…>`, GraphQLResponse.cpp:42-119: the outcome and the value afterwards. There is no `set` for maps
and lists. -/
def Value.set (p : Payload) (v : Value) : Except Err Unit × Value :=
  match p, v with
  | .string s, .enumValue _ => (.ok (), .enumValue s)
  | .string s, .string _ j => (.ok (), .string s j)
  | .string _, v => (.error (.logicError "Invalid call to Value::set for StringType"), v)
  | .boolean b, .boolean _ => (.ok (), .boolean b)
  | .boolean _, v => (.error (.logicError "Invalid call to Value::set for BooleanType"), v)
  | .int i, .float _ => (.ok (), .float (Double.ofInt i))
  | .int i, .int _ => (.ok (), .int i)
  | .int _, v => (.error (.logicError "Invalid call to Value::set for IntType"), v)
  | .float d, .float _ => (.ok (), .float d)
  | .float _, v => (.error (.logicError "Invalid call to Value::set for FloatType"), v)
  | .scalar s, .scalar _ => (.ok (), .scalar (some s))
  | .scalar _, v => (.error (.logicError "Invalid call to Value::set for ScalarType"), v)
  | .id bytes, .string s j => match Verif.Base64.toBase64 bytes with
    | .ok txt => (.ok (), .string txt j)
    | .error e => (.error (.base64 e), .string s j)
  | .id _, v => (.error (.logicError "Invalid call to Value::set for IdType"), v)
  | .map _, v => (.error (.logicError "no such specialization"), v)
  | .list _, v => (.error (.logicError "no such specialization"), v)

/-- `Value::release<…>`, GraphQLResponse.cpp:226-311: the outcome and the value afterwards. There is no `release`
for `BooleanType`, `IntType` and `FloatType`. -/
def Value.release (t : VT) (v : Value) : Except Err Payload × Value :=
  match t, v with
  | .map, .map entries _ => (.ok (.map entries), .map [] [])
  | .map, v => (.error (.logicError "Invalid call to Value::release for MapType"), v)
  | .list, .list elements => (.ok (.list elements), .list [])
  | .list, v => (.error (.logicError "Invalid call to Value::release for ListType"), v)
  | .string, .enumValue s => (.ok (.string s), .enumValue [])
  | .string, .string s _ => (.ok (.string s), .string [] false)
  | .string, v => (.error (.logicError "Invalid call to Value::release for StringType"), v)
  | .scalar, .scalar (some s) => (.ok (.scalar s), .scalar none)
  | .scalar, v => (.error (.logicError "Invalid call to Value::release for ScalarType"), v)
  -- GraphQLResponse.cpp:307-310: the string is moved out before it is decoded, and `from_json` is kept
  | .id, .string s j => match Verif.Base64.fromBase64 s with
    | .ok bytes => (.ok (.id bytes), .string [] j)
    | .error e => (.error (.base64 e), .string [] j)
  | .id, v => (.error (.logicError "Invalid call to Value::release for IdType"), v)
  | .boolean, v => (.error (.logicError "no such specialization"), v)
  | .int, v => (.error (.logicError "no such specialization"), v)
  | .float, v => (.error (.logicError "no such specialization"), v)

end Verif.Value
