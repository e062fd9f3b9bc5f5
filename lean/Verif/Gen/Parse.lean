import Verif.Gen.Response
import Verif.Gen.Names
import Verif.Modifiers.Model

/-!
# The functions which read a response

Models the code which `clientgen` writes for `parseResponse` and the specializations of `ModifiedResponse<T>::parse`
(`/repo/src/ClientGenerator.cpp:562-595`, 641-682, 727-811), for the members of `Response`: what the generated functions
do, as a function of the members. (`ModifiedResponse<T>::parse<Modifiers...>` and the functions for the built-in types are
modelled in `Verif.Modifiers`.)

The members of a structure are identified by their response names. (Two members may have the same C++ name; then the
generated code does not compile.) `response::IdType` is a list of bytes.
-/
namespace Verif.Gen.Client
open Verif.Value Verif.Resp Verif.Errors Verif.Ast Verif.Modifiers
open Verif.Validation (Schema)

/-- A C++ value of the generated types (below `std::optional` and `std::vector`): `getResponseFieldCppType`,
ClientGenerator.cpp:141-169, with `getCppType`, SchemaLoader.cpp:1331-1353. -/
inductive Data where
  | int (i : Int)
  | float (d : Double)
  | string (s : Str)
  | boolean (b : Bool)
  | id (bytes : List Byte)
  | scalar (v : Resp)
  | enum (index : Nat)
  | object (members : List (Str × Arg Data))

/-- `getSafeCppName` of a new name, SchemaLoader.cpp:1035-1069 (the cache does not change the result, C42). -/
def safeName (name : Str) : Str := (Gen.getSafeCppName (fun _ => none) name).1

/-- `s_namesX`, ClientGenerator.cpp:472-496: the names of the values of an enum. -/
def enumNames (S : Schema) (type : Str) : List Str := ((S.find type).map (·.enumValues)).getD [] |>.map safeName

/-- `ModifiedResponse<X>::parse` for an enum, ClientGenerator.cpp:562-595 -/
def parseEnum (S : Schema) (type : Str) (v : Resp) : Except Exn Data :=
  let invalid := Exn.other (str "not a valid " ++ safeName type ++ str " value")
  let find (s : Str) : Except Exn Data :=
    match (enumNames S type).findIdx? (· == s) with
    | some i => .ok (.enum i)
    | none => .error invalid
  match v with
  | .string s true => find s
  | .enumValue s => find s
  | _ => .error invalid

/-- The result, with another kind of value. -/
def wrap {α : Type} (f : α → Data) : Except Exn α → Except Exn Data
  | .ok a => .ok (f a)
  | .error e => .error e

/-- `ModifiedResponse<T>::parse` for scalar types and enums: `getCppType`, SchemaLoader.cpp:1331-1353, and
GraphQLClient.cpp:205-264. -/
def parseLeaf (S : Schema) (type : Str) (v : Resp) : Except Exn Data :=
  if S.kind type = some .enum then parseEnum S type v
  else if type = str "Int" then wrap .int (parseInt v)
  else if type = str "Float" then wrap .float (parseFloat v)
  else if type = str "String" then wrap .string (parseString v)
  else if type = str "Boolean" then wrap .boolean (parseBoolean v)
  else if type = str "ID" then wrap .id (parseId v)
  else wrap .scalar (parseScalar v)

/-- The value `{}` of a scalar type or enum. -/
def emptyLeaf (S : Schema) (type : Str) : Data :=
  if S.kind type = some .enum then .enum 0
  else if type = str "Int" then .int 0
  else if type = str "Float" then .float (.finite 0)
  else if type = str "String" then .string []
  else if type = str "Boolean" then .boolean false
  else if type = str "ID" then .id []
  else .scalar .null

/-- `result.name = value` -/
def assign (members : List (Str × Arg Data)) (name : Str) (value : Arg Data) : List (Str × Arg Data) :=
  members.map fun m => if m.1 = name then (m.1, value) else m

/-- The loop over the members of the response, ClientGenerator.cpp:645-678, 764-806: the first function with the name
reads the value. -/
def readMembers (readers : List (Str × (Resp → Except Exn (Arg Data)))) : Members → List (Str × Arg Data) →
    Except Exn (List (Str × Arg Data))
  | [], result => .ok result
  | (name, v) :: rest, result =>
    match readers.find? (fun r => r.1 == name) with
    | none => readMembers readers rest result
    | some (_, read) =>
      match read v with
      | .error e => .error e
      | .ok a => readMembers readers rest (assign result name a)

/-- The body of `parseResponse`, and of `ModifiedResponse<X>::parse` for a structure, ClientGenerator.cpp:641-682,
755-810. -/
def parseObject (readers : List (Str × (Resp → Except Exn (Arg Data)))) (empty : List (Str × Arg Data)) (v : Resp) :
    Except Exn Data :=
  match v with
  | .map members => wrap .object (readMembers readers members empty)
  | _ => .ok (.object empty)

mutual
/-- The initial value `{}` of a member, ClientGenerator.cpp:317-323, 416-421. -/
def emptyField (S : Schema) : ResponseField → Arg Data
  | .mk type ms _ _ children =>
    Arg.empty (if S.isComposite type then .object (emptyFields S children) else emptyLeaf S type) ms
/-- The initial values of the members of a structure. -/
def emptyFields (S : Schema) : List ResponseField → List (Str × Arg Data)
  | [] => []
  | f :: fs => (f.name, emptyField S f) :: emptyFields S fs
end

mutual
/-- `ModifiedResponse<T>::parse<Modifiers...>` for a member, ClientGenerator.cpp:661-670, 781-793. -/
def parseField (S : Schema) : ResponseField → Resp → Except Exn (Arg Data)
  | .mk type ms _ _ children =>
    Modifiers.parse
      (if S.isComposite type then parseObject (fieldReaders S children) (emptyFields S children) else parseLeaf S type) ms
/-- The functions for the members of a structure. -/
def fieldReaders (S : Schema) : List ResponseField → List (Str × (Resp → Except Exn (Arg Data)))
  | [] => []
  | f :: fs => (f.name, parseField S f) :: fieldReaders S fs
end

/-- `parseResponse`, ClientGenerator.cpp:641-682. -/
def parseResponse (S : Schema) (fields : List ResponseField) (v : Resp) : Except Exn Data :=
  parseObject (fieldReaders S fields) (emptyFields S fields) v

end Verif.Gen.Client
