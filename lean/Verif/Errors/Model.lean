import Verif.Resp.Basic

/-!
# Model of error reporting

Models `/repo/src/GraphQLService.cpp:16-165` and the types in `/repo/include/graphqlservice/GraphQLService.h:52-101`,
and the client's reading of errors, `/repo/src/GraphQLClient.cpp:10-167`.
-/
namespace Verif.Errors
open Verif.Value Verif.Resp

/-- `schema_location`, GraphQLService.h:53-57. The default is `{ 0, 1 }`. -/
structure Loc where
  line : Nat := 0
  column : Nat := 1
deriving DecidableEq, Repr

/-- `path_segment`, GraphQLService.h:62. -/
inductive Seg where
  | name (s : Str)
  | index (i : Nat)
deriving DecidableEq

/-- `field_path`, GraphQLService.h:64-68: a segment and a reference to the parent. (The lifetime of the referenced
parent is not modelled.) -/
inductive FieldPath where
  | root (segment : Seg)
  | child (parent : FieldPath) (segment : Seg)
deriving DecidableEq

/-- The `parent` and `segment` members. -/
def FieldPath.segment : FieldPath → Seg
  | .root s => s
  | .child _ s => s

/-- `field_path { parent, segment }` for an optional parent. -/
def FieldPath.extend (parent : Option FieldPath) (segment : Seg) : FieldPath :=
  match parent with
  | none => .root segment
  | some p => .child p segment

/-- The loop of `buildErrorPath`, GraphQLService.cpp:79-83: from the field to the root, `push_front` each segment. -/
def collectSegments : FieldPath → List Seg → List Seg
  | .root s, segments => s :: segments
  | .child p s, segments => collectSegments p (s :: segments)

/-- `buildErrorPath`, GraphQLService.cpp:71-95. -/
def buildErrorPath (path : Option FieldPath) : List Seg :=
  match path with
  | none => []
  | some p => collectSegments p []

/-- `schema_error`, GraphQLService.h:74-79. -/
structure SchemaError where
  message : Str
  location : Loc := {}
  path : List Seg := []
deriving DecidableEq

/-- `static_cast<response::IntType>(size_t)`: reduced modulo 2^32 to the range of `int`. -/
def toIntType (n : Nat) : Int := Int.bmod n (2 ^ 32)

/-- `addErrorMessage`, GraphQLService.cpp:16-19. -/
def addErrorMessage (message : Str) (error : Members) : Members :=
  error.emplace (str "message") (.string message false)

/-- `addErrorLocation`, GraphQLService.cpp:21-42. -/
def addErrorLocation (location : Loc) (error : Members) : Members :=
  if location.line == 0 then error
  else
    let errorLocation := (Members.emplace [] (str "line") (.int (toIntType location.line))).emplace
      (str "column") (.int (toIntType location.column))
    error.emplace (str "locations") (.list [.map errorLocation])

/-- GraphQLService.cpp:54-66 -/
def segmentValue : Seg → Resp
  | .name s => .string s false
  | .index i => .int (toIntType i)

/-- `addErrorPath`, GraphQLService.cpp:44-69. -/
def addErrorPath (path : List Seg) (error : Members) : Members :=
  if path.isEmpty then error
  else error.emplace (str "path") (.list (path.map segmentValue))

/-- `buildErrorValues`, GraphQLService.cpp:97-116. -/
def buildErrorValues (errors : List SchemaError) : Resp :=
  .list (errors.map fun e =>
    .map (addErrorPath e.path (addErrorLocation e.location (addErrorMessage e.message []))))

/-- `schema_exception::what`, GraphQLService.cpp:143-153. -/
def what (errors : List SchemaError) : Str :=
  match errors with
  | [] => str "Unknown schema error"
  | e :: _ => e.message

/-- `schema_exception::convertMessages`, GraphQLService.cpp:128-141. -/
def convertMessages (messages : List Str) : List SchemaError := messages.map fun m => { message := m }

/-- An exception: `schema_exception` with its errors, or any other `std::exception` with its `what()`. -/
inductive Exn where
  | schema (errors : List SchemaError)
  | other (what : Str)
deriving DecidableEq

/-- `throw schema_exception { { message } }` -/
def Exn.message (m : Str) : Exn := .schema [{ message := m }]

/-! ## The client -/

/-- `client::ErrorLocation`, GraphQLClient.h:35-39. -/
structure ClientLoc where
  line : Int := 0
  column : Int := 0
deriving DecidableEq

/-- `client::ErrorPathSegment`, GraphQLClient.h:43. -/
inductive ClientSeg where
  | name (s : Str)
  | index (i : Int)
deriving DecidableEq

/-- `client::Error`, GraphQLClient.h:46-51. -/
structure ClientError where
  message : Str := []
  locations : List ClientLoc := []
  path : List ClientSeg := []
deriving DecidableEq

/-- One member of an error location, GraphQLClient.cpp:18-39. The cast to `size_t` and the conversion back to
`IntType` cancel. -/
def locationMember (result : ClientLoc) (member : Str × Resp) : ClientLoc :=
  if member.1 = str "line" then
    match member.2 with
    | .int i => { result with line := i }
    | _ => result
  else if member.1 = str "column" then
    match member.2 with
    | .int i => { result with column := i }
    | _ => result
  else result

/-- `parseServiceErrorLocation`, GraphQLClient.cpp:10-43. -/
def parseServiceErrorLocation (location : Resp) : ClientLoc :=
  match location with
  | .map members => members.foldl locationMember {}
  | _ => {}

/-- `parseServiceErrorPathSegment`, GraphQLClient.cpp:45-64. -/
def parseServiceErrorPathSegment (segment : Resp) : ClientSeg :=
  match segment with
  | .int i => .index i
  | .string s _ => .name s
  | _ => .index 0

/-- One member of an error, GraphQLClient.cpp:74-123. `std::back_inserter` appends to what is there. -/
def errorMember (result : ClientError) (member : Str × Resp) : ClientError :=
  if member.1 = str "message" then
    match member.2 with
    | .string s _ => { result with message := s }
    | _ => result
  else if member.1 = str "locations" then
    match member.2 with
    | .list ls => { result with locations := result.locations ++ ls.map parseServiceErrorLocation }
    | _ => result
  else if member.1 = str "path" then
    match member.2 with
    | .list ls => { result with path := result.path ++ ls.map parseServiceErrorPathSegment }
    | _ => result
  else result

/-- `parseServiceError`, GraphQLClient.cpp:66-127. -/
def parseServiceError (error : Resp) : ClientError :=
  match error with
  | .map members => members.foldl errorMember {}
  | _ => {}

/-- `client::ServiceResponse`, GraphQLClient.h:55-59. -/
structure ServiceResponse where
  data : Resp := .null
  errors : List ClientError := []

/-- One member of a response, GraphQLClient.cpp:137-163. -/
def responseMember (result : ServiceResponse) (member : Str × Resp) : ServiceResponse :=
  if member.1 = str "data" then { result with data := member.2 }
  else if member.1 = str "errors" then
    match member.2 with
    | .list ls => { result with errors := result.errors ++ ls.map parseServiceError }
    | _ => result
  else result

/-- `parseServiceResponse`, GraphQLClient.cpp:129-167. -/
def parseServiceResponse (response : Resp) : ServiceResponse :=
  match response with
  | .map members => members.foldl responseMember {}
  | _ => {}

end Verif.Errors
