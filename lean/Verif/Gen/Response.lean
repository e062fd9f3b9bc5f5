import Verif.Gen.Types
import Verif.Validation.Model
import Verif.Exec.Model

/-!
# The response type of a request in the client generator

Models `RequestLoader::findOperation`, `RequestLoader::SelectionVisitor` and the part of the constructor which uses them
(`/repo/src/RequestLoader.cpp:23-80`, 659-738, 970-1186).

The schema is that of `Verif.Validation`: a type is represented by its name, the type of a field by a type reference (C41 and
C55 are about the step from there to the objects of `schema::Schema`). Positions are those of the syntax tree. The names
`cppName` are left out (`getSafeCppName` of the names, see `Verif.Gen.Names`).

`LookupType` of the built-in and introspection types does not fail (C55).
-/
namespace Verif.Gen.Client
open Verif.Value Verif.Errors Verif.Ast Verif.Modifiers
open Verif.Validation (Schema)

/-- `ResponseField`, RequestLoader.h:33-41. -/
inductive ResponseField where
  | mk (type : Str) (modifiers : List Mod) (name : Str) (pos : Loc) (children : List ResponseField)

namespace ResponseField
def type : ResponseField → Str | .mk t _ _ _ _ => t
def modifiers : ResponseField → List Mod | .mk _ m _ _ _ => m
def name : ResponseField → Str | .mk _ _ n _ _ => n
def pos : ResponseField → Loc | .mk _ _ _ p _ => p
def children : ResponseField → List ResponseField | .mk _ _ _ _ c => c
end ResponseField

/-- Why there is no result: an exception, or fragments which are nested deeper than the bound. A recursion which never ends
is `depth` for all bounds. -/
inductive Stop where
  | exception (e : Exn)
  | depth

/-- The loop of `RequestLoader::unwrapSchemaType`, RequestLoader.cpp:223-261. -/
def unwrapType : (nonNull : Bool) → TypeRef → Str × List Mod
  | _, .nonNull τ => unwrapType true τ
  | nonNull, .list τ =>
    let r := unwrapType false τ
    (r.1, (if nonNull then [] else [.nullable]) ++ .list :: r.2)
  | nonNull, .named n => (n, if nonNull then [] else [.nullable])

/-- The type of a field of an object, RequestLoader.cpp:1060-1077: the first one of its name. -/
def findField (S : Schema) (type name : Str) : Option TypeRef :=
  ((S.find type).bind fun t => t.fields.find? fun f => f.name == name).map (·.type)

/-- RequestLoader.cpp:1047-1077 -/
def schemaType (S : Schema) (type name : Str) : Option TypeRef :=
  if S.introspection && type == S.query && name == str "__schema" then some (.named (str "__Schema"))
  else if S.introspection && type == S.query && name == str "__type" then some (.named (str "__Type"))
  else findField S type name

/-- `type` and `modifiers` of a field, RequestLoader.cpp:1039-1080; `none` if it is not found. (The modifiers which are set
for `__type` are overwritten.) -/
def responseType (S : Schema) (type name : Str) : Option (Str × List Mod) :=
  if name = str "__typename" then some (str "String", [])
  else (schemaType S type name).map (unwrapType false)

/-- `_names` and `_fields` -/
structure VisitState where
  names : List Str := []
  fields : List ResponseField := []

/-- A new field. -/
def VisitState.push (st : VisitState) (f : ResponseField) : VisitState := { st with fields := st.fields ++ [f] }

/-- A new name. -/
def VisitState.enter (st : VisitState) (n : Str) : VisitState := { st with names := st.names ++ [n] }

/-- `mergeFragmentFields`, RequestLoader.cpp:1168-1186. -/
def mergeFields (st : VisitState) (fields : List ResponseField) : VisitState :=
  fields.foldl (fun st f => if f.name ∈ st.names then st else (st.enter f.name).push f) st

/-- `Schema::LookupType`, Schema.cpp:43-62: its exception -/
def typeNotFound (name : Str) : Exn :=
  .message (str "Type not found" ++ if name.isEmpty then [] else str " name: " ++ name)

/-- RequestLoader.cpp:1122-1135 -/
def unknownFragment (pos : Loc) (name : Str) : Exn :=
  .schema [{ message := str "Unknown fragment name: " ++ name, location := pos }]

/-- `SelectionVisitor::visit` with `visitField`, `visitFragmentSpread` and `visitInlineFragment`,
RequestLoader.cpp:987-1166. `depth` bounds the nesting of fragment spreads. The first fragment of a name counts,
`collectFragments`, 733-738. -/
def visitSelections (S : Schema) (fragments : List FragmentDef) : (depth : Nat) → (type : Str) → List Selection →
    VisitState → Except Stop VisitState
  | _, _, [], st => .ok st
  | d, type, .leaf f :: rest, st =>
    if Exec.responseName f ∈ st.names then visitSelections S fragments d type rest st
    else
      let st := st.enter (Exec.responseName f)
      match responseType S type f.name with
      | none => visitSelections S fragments d type rest st
      | some (base, ms) => visitSelections S fragments d type rest (st.push (.mk base ms (Exec.responseName f) f.pos []))
  | d, type, .node f _ sub :: rest, st =>
    if Exec.responseName f ∈ st.names then visitSelections S fragments d type rest st
    else
      let st := st.enter (Exec.responseName f)
      match responseType S type f.name with
      | none => visitSelections S fragments d type rest st
      | some (base, ms) =>
        if S.isComposite base then
          match visitSelections S fragments d base sub {} with
          | .error e => .error e
          | .ok inner =>
            visitSelections S fragments d type rest (st.push (.mk base ms (Exec.responseName f) f.pos inner.fields))
        else visitSelections S fragments d type rest (st.push (.mk base ms (Exec.responseName f) f.pos []))
  | d, type, .spread pos name _ :: rest, st =>
    match fragments.find? (fun f => f.name == name) with
    | none => .error (.exception (unknownFragment pos name))
    | some fragment =>
      if (S.find fragment.typeCondition).isNone then .error (.exception (typeNotFound fragment.typeCondition))
      else
        match d with
        | 0 => .error .depth
        | d + 1 =>
          match visitSelections S fragments d fragment.typeCondition fragment.sub {} with
          | .error e => .error e
          | .ok inner => visitSelections S fragments (d + 1) type rest (mergeFields st inner.fields)
  | d, type, .inline _ none _ sub :: rest, st =>
    match visitSelections S fragments d type sub {} with
    | .error e => .error e
    | .ok inner => visitSelections S fragments d type rest (mergeFields st inner.fields)
  | d, type, .inline _ (some condition) _ sub :: rest, st =>
    if (S.find condition).isNone then .error (.exception (typeNotFound condition))
    else
      match visitSelections S fragments d condition sub {} with
      | .error e => .error e
      | .ok inner => visitSelections S fragments d type rest (mergeFields st inner.fields)
termination_by d _ sels _ => (d, sizeOf sels)

/-- The operation for a name, RequestLoader.cpp:661-685. -/
def chooseOperation (operationName : Str) (doc : Document) : Option Operation :=
  doc.operations.find? fun op => operationName.isEmpty || Validation.operationName op == operationName

/-- `findOperation`, RequestLoader.cpp:659-731: the operation and the type of its response. `_operationName` is empty when
there is no operation, so that the name is not in the message. -/
def findOperation (S : Schema) (operationName : Str) (doc : Document) : Except Exn (Operation × Str) :=
  match chooseOperation operationName doc with
  | none => .error (.message (str "Missing operation"))
  | some op =>
    match S.operationType (op.type.getD (str "query")) with
    | some root => .ok (op, root)
    | none => .error (.message (str "Unsupported operation type: " ++ op.type.getD (str "query") ++
        if (Validation.operationName op).isEmpty then [] else str " name: " ++ Validation.operationName op))

/-- What the loader knows about the response. -/
structure Request where
  operation : Operation
  root : Str
  fields : List ResponseField

/-- The constructor of `RequestLoader` up to the fields, RequestLoader.cpp:23-61; `overflow` is for `std::atoi` in the
validation. -/
def loadRequest (S : Schema) (overflow : Int → Int) (operationName : Str) (depth : Nat) (doc : Document) :
    Except Stop Request :=
  match (Validation.validate S overflow doc {}).1 with
  | e :: es => .error (.exception (.schema ((e :: es).map fun m => { message := m })))
  | [] =>
    match findOperation S operationName doc with
    | .error e => .error (.exception e)
    | .ok (op, root) =>
      match visitSelections S doc.fragments depth root op.sub {} with
      | .error e => .error e
      | .ok st => .ok { operation := op, root := root, fields := st.fields }

end Verif.Gen.Client
