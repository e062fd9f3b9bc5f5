import Verif.Gen.Response
import Verif.Gen.Loader

/-!
# What clientgen collects from a request

Models the rest of the constructor of `RequestLoader` (`/repo/src/RequestLoader.cpp:61-80`): `collectVariables` (740-796),
`collectInputTypes` (798-831) and `collectEnums` (913-968).

`reorderInputTypeDependencies` changes the order of the input types only; C42 is about this order. Types are named by their
names here (C38 and C55 are about the schema objects).
-/
namespace Verif.Gen.Client
open Verif.Value Verif.Resp Verif.Errors Verif.Ast Verif.Modifiers
open Verif.Validation (Schema baseName)

/-- `RequestVariable`, RequestLoader.h:43-52. `default` is the value if `defaultValueString` is not empty. -/
structure RequestVariable where
  type : Str
  modifiers : List Mod
  name : Str
  default : Option Resp

/-- There is a default value, and it is null: RequestLoader.cpp:777-778. -/
def nullDefault : Option Resp → Bool
  | some v => v.type == .null
  | none => false

/-- The body of the loop of `collectVariables`, RequestLoader.cpp:744-795. -/
def collectVariable (S : Schema) (atoi : Int → Int) (d : VarDef) : Except Exn RequestVariable :=
  let value := d.default.map (defaultValue atoi)
  let type := getType d.type
  if (S.find type.1).isNone then .error (typeNotFound type.1)
  else
    if nullDefault value && !(type.2.head? == some .nullable) then
      .error (.message (str "Expected Non-Null default value for variable name: " ++ d.name))
    else .ok { type := type.1, modifiers := type.2, name := d.name, default := value }

/-- `collectVariables`, RequestLoader.cpp:740-796: the variables, or the exception which is thrown in it. -/
def collectVariables (S : Schema) (atoi : Int → Int) : List VarDef → Except Exn (List RequestVariable)
  | [] => .ok []
  | d :: ds =>
    match collectVariable S atoi d with
    | .error e => .error e
    | .ok v =>
      match collectVariables S atoi ds with
      | .error e => .error e
      | .ok vs => .ok (v :: vs)

/-- `_referencedInputTypes` and `_referencedEnums`; `_inputTypeNames` and `_enumNames` hold the same names. -/
structure Referenced where
  inputTypes : List Str := []
  enums : List Str := []
deriving DecidableEq

/-- `collectEnums` for a type, RequestLoader.cpp:913-938: the wrapped type counts. -/
def collectEnum (S : Schema) (type : Str) (r : Referenced) : Referenced :=
  if S.kind type = some .enum then
    if type ∈ r.enums then r else { r with enums := r.enums ++ [type] }
  else r

/-- `collectInputTypes`, RequestLoader.cpp:798-831: the wrapped type counts. `depth` bounds the nesting of the calls; `none`
if it is exceeded. -/
def collectInputTypes (S : Schema) : (depth : Nat) → Str → Referenced → Option Referenced
  | 0, _, _ => none
  | depth + 1, type, r =>
    if S.kind type = some .inputObject then
      if type ∈ r.inputTypes then some r
      else
        (((S.find type).map (·.inputFields)).getD []).foldl
          (fun r field => (r.bind (collectInputTypes S depth (baseName field.type))).map (collectEnum S (baseName field.type)))
          (some { r with inputTypes := r.inputTypes ++ [type] })
    else some r

/-- The loop over the variables, RequestLoader.cpp:65-70. -/
def collectFromVariables (S : Schema) (depth : Nat) : List RequestVariable → Referenced → Option Referenced
  | [], r => some r
  | v :: vs, r =>
    match collectInputTypes S depth v.type r with
    | none => none
    | some r => collectFromVariables S depth vs (collectEnum S v.type r)

mutual
/-- `collectEnums` for a field of the response, RequestLoader.cpp:940-968. -/
def collectFieldEnums (S : Schema) : ResponseField → Referenced → Referenced
  | .mk type _ _ _ children, r =>
    if S.kind type = some .enum then collectEnum S type r
    else if S.isComposite type then collectAllEnums S children r
    else r
/-- The loops over fields, RequestLoader.cpp:76-79, 957-960. -/
def collectAllEnums (S : Schema) : List ResponseField → Referenced → Referenced
  | [], r => r
  | f :: fs, r => collectAllEnums S fs (collectFieldEnums S f r)
end

/-- What the loader has in the end. -/
structure Loaded where
  request : Request
  «variables» : List RequestVariable
  referenced : Referenced

/-- How the constructor ends otherwise: with an exception, with `std::terminate` because an exception leaves a `noexcept`
function, or not at all. -/
inductive LoadStop where
  | exception (e : Exn)
  | terminate
  | depth

/-- The constructor of `RequestLoader`, RequestLoader.cpp:23-80, without `reorderInputTypeDependencies`. `depth` bounds the
nesting of fragments and of input types. -/
def loadAll (S : Schema) (overflow : Int → Int) (operationName : Str) (depth : Nat) (doc : Document) : Except LoadStop Loaded :=
  match loadRequest S overflow operationName depth doc with
  | .error (.exception e) => .error (.exception e)
  | .error .depth => .error .depth
  | .ok request =>
    match collectVariables S (Exec.Env.atoi ⟨[], overflow⟩) request.operation.variables with
    | .error _ => .error .terminate
    | .ok vars =>
      match collectFromVariables S depth vars {} with
      | none => .error .depth
      | some r => .ok { request := request, «variables» := vars, referenced := collectAllEnums S request.fields r }

end Verif.Gen.Client
