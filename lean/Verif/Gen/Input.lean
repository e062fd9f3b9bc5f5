import Verif.Gen.Parse
import Verif.Gen.Data

/-!
# Arguments and input objects in generated code

Models the code which `schemagen` writes for the arguments of a resolver and for `ModifiedArgument<X>::convert` of enums and
input objects (`/repo/src/SchemaGenerator.cpp:606-657`, 681-764, 1487-1530, 1854-1915), and the code which `clientgen`
writes for `ModifiedVariable<X>::serialize` of enums and input objects (`/repo/src/ClientGenerator.cpp:498-560`): what the
generated functions do, as functions of the types which `SchemaLoader` keeps (`Verif.Gen.Data`).

The members of a structure are identified by the names of the fields. That the written code does this, and builds the default
values, is C73 (`Verif.GenCode`), for default values and names which can be written as C++.
-/
namespace Verif.Gen.Service
open Verif.Value Verif.Resp Verif.Errors Verif.Modifiers Verif.Gen
open Verif.Gen.Client (Data safeName)

/-- A result, an exception, or a recursion which is deeper than the bound. One which never ends is `depth` for all bounds. -/
inductive Res (α : Type) where
  | ok (a : α)
  | error (e : Exn)
  | depth

/-- The result of a function which ends. -/
def Res.of {α : Type} : Except Exn α → Res α
  | .ok a => .ok a
  | .error e => .error e

def Res.bind {α β : Type} (r : Res α) (f : α → Res β) : Res β :=
  match r with
  | .ok a => f a
  | .error e => .error e
  | .depth => .depth

def Res.map {α β : Type} (f : α → β) (r : Res α) : Res β := r.bind fun a => .ok (f a)

/-- The enums and input objects of a schema. -/
structure Types where
  enums : List EnumType
  inputs : List InputType

/-- The names of the values of an enum, in the order of `s_namesX`. -/
def Types.values (T : Types) (type : Str) : List Str :=
  ((T.enums.find? fun e => e.type == type).map fun e => e.values.map (·.value)).getD []

/-- The fields of an input object. -/
def Types.fields (T : Types) (type : Str) : List InputField :=
  ((T.inputs.find? fun i => i.type == type).map (·.fields)).getD []

/-! ## The service -/

/-- `ModifiedArgument<X>::convert` for an enum, SchemaGenerator.cpp:606-657; `s_namesX` has the names as they are. -/
def convertEnum (T : Types) (type : Str) (v : Resp) : Except Exn Data :=
  let invalid := Exn.message (str "not a valid " ++ type ++ str " value")
  let find (s : Str) : Except Exn Data :=
    match (T.values type).findIdx? (· == s) with
    | some i => .ok (.enum i)
    | none => .error invalid
  match v with
  | .string s true => find s
  | .enumValue s => find s
  | _ => .error invalid

/-- `ModifiedArgument<T>::convert` for the built-in types, `getCppType`, SchemaLoader.cpp:1331-1353. -/
def convertBuiltin (type : Str) (v : Resp) : Except Exn Data :=
  if type = str "Int" then Client.wrap .int (convertInt v)
  else if type = str "Float" then Client.wrap .float (convertFloat v)
  else if type = str "String" then Client.wrap .string (convertString v)
  else if type = str "Boolean" then Client.wrap .boolean (convertBoolean v)
  else Client.wrap .id (convertId v)

/-- `Value::find`, GraphQLResponse.cpp:621-637. -/
def lookup (arguments : Resp) (name : Str) : Except Exn (Option Resp) :=
  match arguments with
  | .map members => .ok (Members.find members name)
  | _ => .error (.other (str "Invalid call to Value::find for MapType"))

/-- `Value::operator[]`, GraphQLResponse.cpp:666-676. -/
def at_ (arguments : Resp) (name : Str) : Except Exn Resp :=
  match lookup arguments name with
  | .error e => .error e
  | .ok none => .error (.other (str "Missing Map member"))
  | .ok (some v) => .ok v

/-- The catch block of `require`, GraphQLService.h:328-342. -/
def Res.prefixed {α : Type} (name : Str) : Res α → Res α
  | .error e => .error (prefixErrors name e)
  | r => r

/-- `std::transform` with a function which may throw. -/
def mapRes {α β : Type} (f : α → Res β) : List α → Res (List β)
  | [] => .ok []
  | x :: xs => (f x).bind fun y => (mapRes f xs).bind fun ys => .ok (y :: ys)

/-- `require<Modifiers...>(name, arguments)`, GraphQLService.h:322-343, 359-409. (`Verif.Modifiers.require` is the same for
arguments which are an object and a conversion which always ends.) -/
def require (convert : Resp → Res Data) : (ms : List Mod) → (name : Str) → (arguments : Resp) → Res (Arg Data)
  | [], name, arguments => ((Res.of (at_ arguments name)).bind convert).prefixed name |>.map .leaf
  | .nullable :: ms, name, arguments =>
    (Res.of (lookup arguments name)).bind fun
      | none => .ok .none
      | some .null => .ok .none
      | some _ => (require convert ms name arguments).map .some
  | .list :: ms, name, arguments =>
    (Res.of (at_ arguments name)).bind fun values => (Res.of (elementsOf values)).bind fun elements =>
      (mapRes (fun element => require convert ms name (.map [(name, element)])) elements).map .list

/-- `defaultArguments` and `defaultValue`: the default values, SchemaGenerator.cpp:694-723, 1491-1521. -/
def defaults (fields : List InputField) : Resp :=
  .map (fields.filterMap fun f => if f.defaultValue.type = .null then none else some (f.name, f.defaultValue))

/-- The value of an argument: `getArgumentDeclaration`, SchemaGenerator.cpp:1854-1887, with `find`, GraphQLService.h:411-424. -/
def getArgument (convert : Resp → Res Data) (defaults : Resp) (f : InputField) (arguments : Resp) : Res (Arg Data) :=
  match require convert f.modifiers f.name arguments with
  | .ok a => .ok a
  | .depth => .depth
  | .error e =>
    if f.defaultValue.type = .null then .error e else require convert f.modifiers f.name defaults

/-- The arguments of a resolver, and the members of an input object: one after the other. SchemaGenerator.cpp:725-728,
1523-1529 -/
def getArguments (convert : InputField → Resp → Res Data) (defaults : Resp) : List InputField → Resp →
    Res (List (Str × Arg Data))
  | [], _ => .ok []
  | f :: fs, arguments =>
    (getArgument (convert f) defaults f arguments).bind fun a =>
      (getArguments convert defaults fs arguments).bind fun as => .ok ((f.name, a) :: as)

/-- `ModifiedArgument<X>::convert` for the type of a field, `getArgumentAccessType`, SchemaGenerator.cpp:1889-1914; that of
an input object, 681-764. `depth` bounds the nesting of input objects. -/
def convert (T : Types) : (depth : Nat) → InputField → Resp → Res Data
  | depth, f, v =>
    match f.fieldType with
    | .builtin => .of (convertBuiltin f.type v)
    | .scalar => .of (Client.wrap .scalar (convertScalar v))
    | .enum => .of (convertEnum T f.type v)
    | .input =>
      match depth with
      | 0 => .depth
      | depth + 1 =>
        (getArguments (convert T depth) (defaults (T.fields f.type)) (T.fields f.type) v).map .object

/-- The arguments of a resolver, SchemaGenerator.cpp:1487-1530. -/
def resolverArguments (T : Types) (depth : Nat) (fields : List InputField) (arguments : Members) :
    Res (List (Str × Arg Data)) :=
  getArguments (convert T depth) (defaults fields) fields (.map arguments)

/-! ## The client -/

/-- `ModifiedVariable<T>::serialize` for the built-in types, GraphQLClient.cpp:169-203. -/
def serializeLeaf : Data → Resp
  | .int i => serializeInt i
  | .float d => serializeFloat d
  | .string s => serializeString s
  | .boolean b => serializeBoolean b
  | .id bytes => serializeId bytes
  | .scalar v => serializeScalar v
  | _ => .null  -- not possible: see `Typed`

/-- `ModifiedVariable<X>::serialize` for an enum, ClientGenerator.cpp:505-520; `s_namesX`, 472-496, has the C++ names. -/
def serializeEnum (T : Types) (type : Str) (index : Nat) : Resp := .enumValue (((T.values type).map safeName).getD index [])

mutual
/-- `ModifiedVariable<X>::serialize` for the type of a field, ClientGenerator.cpp:505-520, 526-555. -/
def serialize (T : Types) (f : InputField) : Data → Resp
  | .enum i => serializeEnum T f.type i
  | .object members => .map (serializeMembers T (T.fields f.type) members)
  | .int i => serializeLeaf (.int i)
  | .float d => serializeLeaf (.float d)
  | .string s => serializeLeaf (.string s)
  | .boolean b => serializeLeaf (.boolean b)
  | .id bytes => serializeLeaf (.id bytes)
  | .scalar v => serializeLeaf (.scalar v)
/-- `ModifiedVariable<X>::serialize<Modifiers...>`, GraphQLClient.h:98-138. -/
def serializeArg (T : Types) (f : InputField) : Arg Data → Resp
  | .leaf d => serialize T f d
  | .none => .null
  | .some a => serializeArg T f a
  | .list as => .list (serializeArgs T f as)
def serializeArgs (T : Types) (f : InputField) : List (Arg Data) → List Resp
  | [] => []
  | a :: as => serializeArg T f a :: serializeArgs T f as
/-- The members of an input object: ClientGenerator.cpp:538-550. -/
def serializeMembers (T : Types) : List InputField → List (Str × Arg Data) → Members
  | f :: fs, (_, a) :: ms => (f.name, serializeArg T f a) :: serializeMembers T fs ms
  | _, _ => []
end

end Verif.Gen.Service
