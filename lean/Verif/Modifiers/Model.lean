import Verif.Errors.Model
import Verif.Base64.Model

/-!
# Model of the type modifiers: arguments, client variables and client results

Models `ModifiedArgument` (`/repo/include/graphqlservice/GraphQLService.h:294-425`, `/repo/src/GraphQLService.cpp:526-596`),
`ModifiedVariable` and `ModifiedResponse` (`/repo/include/graphqlservice/GraphQLClient.h:74-243`,
`/repo/src/GraphQLClient.cpp:169-264`).
-/
namespace Verif.Modifiers
open Verif.Value Verif.Resp Verif.Errors

/-- `TypeModifier::Nullable` and `TypeModifier::List`; the trailing `None` is the empty list of modifiers. -/
inductive Mod where
  | nullable
  | list
deriving DecidableEq, Repr

/-- A C++ value of a type `ArgumentTraits<U, ...>::type`, GraphQLService.h:302-316 (the same for `VariableTraits` and
`ResponseTraits`): `U` itself, `std::optional` or `std::vector`. -/
inductive Arg (α : Type) where
  | leaf (a : α)
  | none
  | some (a : Arg α)
  | list (as : List (Arg α))

/-- The values of the C++ type described by a list of modifiers, outermost first. C++ guarantees it statically. -/
inductive HasType {α : Type} : List Mod → Arg α → Prop where
  | leaf {a} : HasType [] (.leaf a)
  | none {ms} : HasType (.nullable :: ms) .none
  | some {ms a} : HasType ms a → HasType (.nullable :: ms) (.some a)
  | list {ms as} : (∀ a ∈ as, HasType ms a) → HasType (.list :: ms) (.list as)

/-- The empty value `Type {}` of an argument type. -/
def Arg.empty {α : Type} (d : α) : (ms : List Mod) → Arg α
  | [] => .leaf d
  | .nullable :: _ => .none
  | .list :: _ => .list []

/-! ## Arguments -/

/-- `Value::operator[](std::string_view)` on the arguments: GraphQLResponse.cpp:666-676. -/
def index (arguments : Members) (name : Str) : Except Exn Resp :=
  match arguments.find name with
  | some v => .ok v
  | none => .error (.other (str "Missing Map member"))

/-- The catch block of `require`, GraphQLService.h:328-342: prefix every message. -/
def prefixErrors (name : Str) : Exn → Exn
  | .schema errors => .schema (errors.map fun e =>
      { e with message := str "Invalid argument: " ++ name ++ str " error: " ++ e.message })
  | e => e

variable {α : Type}

/-- `require(name, arguments)` without modifiers, GraphQLService.h:322-343. -/
def requireLeaf (convert : Resp → Except Exn α) (name : Str) (arguments : Members) : Except Exn α :=
  match index arguments name with
  | .error e => .error e
  | .ok v =>
    match convert v with
    | .ok a => .ok a
    | .error e => .error (prefixErrors name e)

/-- `Value::get<ListType>` after `Value::size`, GraphQLService.h:394-395: both throw `std::logic_error` unless the value
is a list (`size` also accepts an object, `get` does not). -/
def elementsOf (v : Resp) : Except Exn (List Resp) :=
  match v with
  | .list xs => .ok xs
  | .map _ => .error (.other (str "Invalid call to Value::get for ListType"))
  | _ => .error (.other (str "Invalid call to Value::size"))

/-- `std::transform` with a function which may throw: left to right, the first exception counts. -/
def mapE {β γ : Type} (f : β → Except Exn γ) : List β → Except Exn (List γ)
  | [] => .ok []
  | x :: xs =>
    match f x with
    | .error e => .error e
    | .ok y =>
      match mapE f xs with
      | .error e => .error e
      | .ok ys => .ok (y :: ys)

/-- `require<Modifiers...>(name, arguments)`, GraphQLService.h:359-409. -/
def require (convert : Resp → Except Exn α) : (ms : List Mod) → (name : Str) → (arguments : Members) →
    Except Exn (Arg α)
  | [], name, arguments =>
    match requireLeaf convert name arguments with
    | .ok a => .ok (.leaf a)
    | .error e => .error e
  | .nullable :: ms, name, arguments =>
    match arguments.find name with
    | none => .ok .none
    | some .null => .ok .none
    | some _ =>
      match require convert ms name arguments with
      | .ok a => .ok (.some a)
      | .error e => .error e
  | .list :: ms, name, arguments =>
    match index arguments name with
    | .error e => .error e
    | .ok values =>
      match elementsOf values with
      | .error e => .error e
      | .ok elements =>
        match mapE (fun element => require convert ms name (Members.emplace [] name element)) elements with
        | .ok as => .ok (.list as)
        | .error e => .error e

/-- `find<Modifiers...>(name, arguments)`, GraphQLService.h:411-424. -/
def find (convert : Resp → Except Exn α) (default : α) (ms : List Mod) (name : Str) (arguments : Members) :
    Arg α × Bool :=
  match require convert ms name arguments with
  | .ok a => (a, true)
  | .error _ => (Arg.empty default ms, false)

/-- `ModifiedArgument<IntType>::convert`, GraphQLService.cpp:526-535. -/
def convertInt : Resp → Except Exn Int
  | .int i => .ok i
  | _ => .error (.message (str "not an integer"))

/-- `ModifiedArgument<FloatType>::convert`, GraphQLService.cpp:537-546. -/
def convertFloat : Resp → Except Exn Double
  | .float d => .ok d
  | .int i => .ok (Double.ofInt i)
  | _ => .error (.message (str "not a float"))

/-- `ModifiedArgument<StringType>::convert`, GraphQLService.cpp:548-557. -/
def convertString : Resp → Except Exn Str
  | .string s _ => .ok s
  | _ => .error (.message (str "not a string"))

/-- `ModifiedArgument<BooleanType>::convert`, GraphQLService.cpp:559-568. -/
def convertBoolean : Resp → Except Exn Bool
  | .boolean b => .ok b
  | _ => .error (.message (str "not a boolean"))

/-- `ModifiedArgument<Value>::convert`, GraphQLService.cpp:570-574. (Copying an empty scalar throws, C05; left out.) -/
def convertScalar (v : Resp) : Except Exn Resp := .ok v

/-- The text of the exception thrown by the Base64 decoder (Base64.cpp). -/
def base64What : Verif.Base64.Err → Str
  | .invalidCharacter => str "invalid character in base64 encoded string"
  | .invalidPadding => str "invalid padding at the end of a base64 encoded string"
  | .invalidSextet => str "invalid 6-bit value"

/-- `ModifiedArgument<IdType>::convert`, GraphQLService.cpp:576-596. -/
def convertId : Resp → Except Exn (List Byte)
  | .string s _ =>
    match Verif.Base64.fromBase64 s with
    | .ok bytes => .ok bytes
    | .error e => .error (.message (base64What e))
  | _ => .error (.message (str "not a string"))

/-! ## Client variables -/

/-- `ModifiedVariable<T>::serialize<Modifiers...>`, GraphQLClient.h:98-138. -/
def serialize (leaf : α → Resp) : (ms : List Mod) → Arg α → Resp
  | [], .leaf a => leaf a
  | .nullable :: _, .none => .null
  | .nullable :: ms, .some a => serialize leaf ms a
  | .list :: ms, .list as => .list (as.map (serialize leaf ms))
  | _, _ => .null  -- not possible: see `HasType`

/-- `ModifiedVariable<T>::serialize` for the built-in types, GraphQLClient.cpp:169-203; `Value(const IdType&)` encodes
Base64 (which never throws, C02). -/
def serializeInt (i : Int) : Resp := .int i
def serializeFloat (d : Double) : Resp := .float d
def serializeString (s : Str) : Resp := .string s false
def serializeBoolean (b : Bool) : Resp := .boolean b
def serializeScalar (v : Resp) : Resp := v
def serializeId (bytes : List Byte) : Resp :=
  match Verif.Base64.toBase64 bytes with
  | .ok s => .string s false
  | .error _ => .string [] false

/-! ## Client results -/

/-- `ModifiedResponse<T>::parse<Modifiers...>`, GraphQLClient.h:197-242. -/
def parse (leaf : Resp → Except Exn α) : (ms : List Mod) → Resp → Except Exn (Arg α)
  | [], v =>
    match leaf v with
    | .ok a => .ok (.leaf a)
    | .error e => .error e
  | .nullable :: ms, v =>
    match v with
    | .null => .ok .none
    | v =>
      match parse leaf ms v with
      | .ok a => .ok (.some a)
      | .error e => .error e
  | .list :: ms, v =>
    match v with
    | .list xs =>
      match mapE (parse leaf ms) xs with
      | .ok as => .ok (.list as)
      | .error e => .error e
    | _ => .ok (.list [])

/-- `ModifiedResponse<T>::parse` for the built-in types, GraphQLClient.cpp:205-264. They throw `std::logic_error`. -/
def parseInt : Resp → Except Exn Int
  | .int i => .ok i
  | _ => .error (.other (str "not an integer"))
def parseFloat : Resp → Except Exn Double
  | .float d => .ok d
  | .int i => .ok (Double.ofInt i)
  | _ => .error (.other (str "not a float"))
def parseString : Resp → Except Exn Str
  | .string s _ => .ok s
  | _ => .error (.other (str "not a string"))
def parseBoolean : Resp → Except Exn Bool
  | .boolean b => .ok b
  | _ => .error (.other (str "not a boolean"))
def parseScalar (v : Resp) : Except Exn Resp := .ok v
def parseId : Resp → Except Exn (List Byte)
  | .string s _ =>
    match Verif.Base64.fromBase64 s with
    | .ok bytes => .ok bytes
    | .error e => .error (.other (base64What e))
  | _ => .error (.other (str "not a string"))

end Verif.Modifiers
