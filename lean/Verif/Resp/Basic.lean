import Verif.Value.Model
import Verif.Value.Spec

/-!
# Response values without the index

`Resp` is what a program can see of a `response::Value`. The rest of the model (execution, validation, subscriptions,
client) uses `Resp` instead of the concrete `Value`; `Verif.Resp.Refine` proves that the operations below are what the
concrete ones do to every value a program can build.
-/
namespace Verif.Resp
open Verif.Value

/-- Response values without the index kept beside every object. -/
inductive Resp where
  | map (members : List (Str × Resp))
  | list (elements : List Resp)
  | string (s : Str) (fromJson : Bool)
  | null
  | boolean (b : Bool)
  | int (i : Int)
  | float (d : Double)
  | enumValue (s : Str)
  | scalar (v : Option Resp)

mutual
/-- What a program can see of a value: everything but the index. -/
def tree : Value → Resp
  | .map entries _ => .map (treeEntries entries)
  | .list elements => .list (treeList elements)
  | .string s j => .string s j
  | .null => .null
  | .boolean b => .boolean b
  | .int i => .int i
  | .float d => .float d
  | .enumValue s => .enumValue s
  | .scalar (some v) => .scalar (some (tree v))
  | .scalar none => .scalar none
def treeEntries : List (Str × Value) → List (Str × Resp)
  | [] => []
  | (n, v) :: rest => (n, tree v) :: treeEntries rest
def treeList : List Value → List Resp
  | [] => []
  | v :: rest => tree v :: treeList rest
end


/-- `Value::type`, GraphQLResponse.cpp:494-532. -/
def Resp.type : Resp → Ty
  | .map .. => .map
  | .list .. => .list
  | .string .. => .string
  | .null => .null
  | .boolean .. => .boolean
  | .int .. => .int
  | .float .. => .float
  | .enumValue .. => .enumValue
  | .scalar .. => .scalar

/-- The members of an object: name and value, in order of insertion. -/
abbrev Members := List (Str × Resp)

/-- `Value::emplace_back(std::string&&, Value&&)` on an object, GraphQLResponse.cpp:593-619: nothing happens if the name
is there already. -/
def Members.emplace (ms : Members) (name : Str) (value : Resp) : Members :=
  if ms.any (fun e => e.1 == name) then ms else ms ++ [(name, value)]

/-- The result of `emplace_back`: was the name new? -/
def Members.isNew (ms : Members) (name : Str) : Bool := !ms.any (fun e => e.1 == name)

/-- `Value::find` on an object, GraphQLResponse.cpp:621-644; `none` is `end()`. -/
def Members.find (ms : Members) (name : Str) : Option Resp := (ms.find? (fun e => e.1 == name)).map (·.2)

end Verif.Resp
