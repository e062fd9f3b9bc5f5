import Verif.Value.Model

/-!
# Model of the JSON conversions

Models `/repo/src/JSONResponse.cpp`. RapidJSON is third-party code: its `Writer` is modelled as the sequence of
calls it receives, its `Reader` as the sequence of handler calls (`Event`) it makes for a JSON text. A JSON text is
given as its syntax tree (`Verif.Json.Spec`). The assumption about RapidJSON is that a text written by the `Writer`
is read back by the `Reader` as the same calls, where a non-negative integer arrives as `Uint` (`reread`), and that a
finite `double` is read back exactly.
-/
namespace Verif.Json
open Verif.Value

/-- The handler calls made by `rapidjson::Reader` (SAX interface). -/
inductive Event where
  | null
  | bool (b : Bool)
  | int (i : Int)
  | uint (n : Nat)
  | int64 (i : Int)
  | uint64 (n : Nat)
  | double (d : Double)
  | string (s : Str)
  | startObject
  | key (s : Str)
  | endObject
  | startArray
  | endArray
deriving DecidableEq

/-- The outcome of a conversion which throws, or which C++ leaves undefined. -/
inductive Err where
  | value (e : Verif.Value.Err)
  | overflow                      -- `std::overflow_error`, JSONResponse.cpp:155, 163, 169
  | undefinedBehaviour            -- `back()` of an empty vector
deriving DecidableEq

/-- A C string stops at the first NUL byte: `entry.first.c_str()` (JSONResponse.cpp:31), `value.c_str()` (59),
`std::string(str)` (183), `_keyStack.push_back(str)` (195). -/
def cstr (s : Str) : Str := s.takeWhile (fun c => c != 0)

mutual
/-- `writeResponse`, JSONResponse.cpp:19-99: the calls made on the RapidJSON `Writer`. -/
def write : Value → Except Err (List Event)
  | .map entries _ => do
    let es ← writeEntries entries
    .ok (.startObject :: es ++ [.endObject])
  | .list elements => do
    let es ← writeElements elements
    .ok (.startArray :: es ++ [.endArray])
  | .string s _ => .ok [.string (cstr s)]
  | .enumValue s => .ok [.string (cstr s)]
  | .null => .ok [.null]
  | .boolean b => .ok [.bool b]
  | .int i => .ok [.int i]
  | .float d => .ok [.double d]
  | .scalar (some v) => write v
  | .scalar none => .error (.value (.logicError "Invalid call to Value::release for ScalarType"))
/-- JSONResponse.cpp:29-33 -/
def writeEntries : List (Str × Value) → Except Err (List Event)
  | [] => .ok []
  | (n, v) :: rest => do
    let es ← write v
    let es' ← writeEntries rest
    .ok (.key (cstr n) :: es ++ es')
/-- JSONResponse.cpp:45-48 -/
def writeElements : List Value → Except Err (List Event)
  | [] => .ok []
  | v :: rest => do
    let es ← write v
    let es' ← writeElements rest
    .ok (es ++ es')
end

/-- How the `Reader` reports what the `Writer` call `Int(i)` wrote. -/
def reread : Event → Event
  | .int i => if 0 ≤ i then .uint i.toNat else .int i
  | e => e

/-- `ResponseHandler`, JSONResponse.cpp:110-239: the two stacks, the back of each vector first. -/
structure Handler where
  keys : List Str
  stack : List Value

/-- `ResponseHandler::ResponseHandler`, JSONResponse.cpp:112-116. -/
def Handler.init : Handler := ⟨[], [.null]⟩

/-- `ResponseHandler::getResponse`, JSONResponse.cpp:118-125. -/
def Handler.getResponse (h : Handler) : Except Err (Value × Handler) :=
  match h.stack with
  | v :: rest => .ok (v, { h with stack := rest })
  | [] => .error .undefinedBehaviour

/-- `ResponseHandler::setValue`, JSONResponse.cpp:218-235. -/
def Handler.setValue (h : Handler) (value : Value) : Except Err Handler :=
  match h.stack with
  | .map entries members :: rest =>
    match h.keys with
    | k :: keys =>
      let r := mapEmplaceBack entries members k value
      .ok ⟨keys, .map r.1.1 r.1.2 :: rest⟩
    | [] => .error .undefinedBehaviour
  | .list elements :: rest => .ok ⟨h.keys, .list (elements ++ [value]) :: rest⟩
  | _ :: rest => .ok ⟨h.keys, value :: rest⟩
  | [] => .error .undefinedBehaviour

/-- The largest `int`. -/
def intMax : Nat := 2147483647

/-- The handler calls, JSONResponse.cpp:127-215. -/
def Handler.step (h : Handler) : Event → Except Err Handler
  | .null => h.setValue .null
  | .bool b => h.setValue (.boolean b)
  | .int i => h.setValue (.int i)
  | .uint n => if n > intMax then .error .overflow else h.setValue (.int n)
  | .int64 _ => .error .overflow
  | .uint64 _ => .error .overflow
  | .double d => h.setValue (.float d)
  | .string s => h.setValue (.string (cstr s) true)
  | .startObject => .ok { h with stack := .map [] [] :: h.stack }
  | .key s => .ok { h with keys := cstr s :: h.keys }
  | .endObject => do
    let r ← h.getResponse
    r.2.setValue r.1
  | .startArray => .ok { h with stack := .list [] :: h.stack }
  | .endArray => do
    let r ← h.getResponse
    r.2.setValue r.1

/-- All the handler calls of one parse. -/
def Handler.run (h : Handler) : List Event → Except Err Handler
  | [] => .ok h
  | e :: es => do
    let h' ← h.step e
    h'.run es

/-- `parseJSON`, JSONResponse.cpp:241-250, for the handler calls the reader makes. The result of `reader.Parse` is
not looked at: if the text is malformed, the calls made before the error was found count. -/
def parseEvents (es : List Event) : Except Err Value := do
  let h ← Handler.init.run es
  let r ← h.getResponse
  .ok r.1

end Verif.Json
