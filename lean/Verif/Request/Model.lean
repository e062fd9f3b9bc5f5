import Verif.Exec.Model

/-!
# Model of `Request::resolve`

Models `FragmentDefinitionVisitor`, `OperationDefinitionVisitor` and `Request::resolve`
(`/repo/src/GraphQLService.cpp:1223-1389`, `1613-1777`), for `std::launch::deferred`
(`Verif.Async` models the other launch policies).

* A `string_view_map` is the list of its entries (C09 and C10 justify this).
* `variables` is an object (for another type of value `Value::find` throws, and the exception leaves `resolve`).
* The executor looks fragments up while it runs. Here the lookups are done in advance (`expand`): the result is the
  finite tree of all the selections which can be reached, or `none` if the spreads nest more deeply than there are
  fragments, that is, if they are cyclic. `Expands` in the specification says the same without a bound; documents with
  cycles are not modelled further (the program would not stop), and the validation area shows that they are rejected.
-/
namespace Verif.Request
open Verif.Value Verif.Resp Verif.Errors Verif.Ast Verif.Exec

/-! ## Fragments -/

/-- `Fragment`, GraphQLService.h:228-242. -/
structure Fragment where
  info : FragInfo
  sub : List Selection

/-- `FragmentMap`, GraphQLService.h:246. -/
abbrev FragmentMap := List (Str × Fragment)

/-- `FragmentMap::find` -/
def FragmentMap.find (m : FragmentMap) (name : Str) : Option Fragment := (m.find? fun e => e.1 == name).map (·.2)

/-- `FragmentMap::emplace`: an existing entry stays. -/
def FragmentMap.emplace (m : FragmentMap) (name : Str) (f : Fragment) : FragmentMap :=
  if (m.find name).isSome then m else m ++ [(name, f)]

/-- `Fragment::Fragment`, GraphQLService.cpp:475-488: the directives are evaluated at once. -/
def makeFragment (env : Env) (f : FragmentDef) : Except Exn Fragment :=
  match evalDirectives env f.directives with
  | .error e => .error e
  | .ok ds => .ok ⟨⟨f.typeCondition, ds⟩, f.sub⟩

/-- The loop with `FragmentDefinitionVisitor::visit`, GraphQLService.cpp:1251-1255, 1692-1697. The argument of `emplace`
is constructed also if the name is there already. -/
def collectFragments (env : Env) : List FragmentDef → FragmentMap → Except Exn FragmentMap
  | [], acc => .ok acc
  | f :: fs, acc =>
    match makeFragment env f with
    | .error e => .error e
    | .ok fragment => collectFragments env fs (acc.emplace f.name fragment)

/-- What is found for a spread: nothing, or a fragment with its selections expanded. -/
abbrev Found := Option (FragInfo × List XSelection)

mutual
/-- The selections with every spread replaced by what is found for it; `none` if one cannot be expanded.
GraphQLService.cpp:976-1050 (the lookup of a spread, and the visit of the selections of the fragment). -/
def expandSel (find : Str → Option Found) : Selection → Option XSelection
  | .leaf f => some (.leaf f)
  | .node f pos sub =>
    match expandAll find sub with
    | none => none
    | some xs => some (.node f pos xs)
  | .spread pos name ds =>
    match find name with
    | none => none
    | some none => some (.unknownSpread pos name)
    | some (some (info, xs)) => some (.spread info ds xs)
  | .inline _ t ds sub =>
    match expandAll find sub with
    | none => none
    | some xs => some (.inline t ds xs)
/-- The same for lists of selections. -/
def expandAll (find : Str → Option Found) : List Selection → Option (List XSelection)
  | [] => some []
  | s :: rest =>
    match expandSel find s, expandAll find rest with
    | some x, some xs => some (x :: xs)
    | _, _ => none
end

/-- Looking up a fragment and expanding it, to a depth. -/
def expandFragment (m : FragmentMap) : Nat → Str → Option Found
  | 0, name =>
    match m.find name with
    | none => some none
    | some _ => none
  | depth + 1, name =>
    match m.find name with
    | none => some none
    | some f =>
      match expandAll (expandFragment m depth) f.sub with
      | none => none
      | some xs => some (some (f.info, xs))

/-- The selections of an operation with all the fragments found. -/
def expand (m : FragmentMap) (sub : List Selection) : Option (List XSelection) :=
  expandAll (expandFragment m m.length) sub

/-! ## Operations -/

/-- A `Request`: the user's service, the root objects (`_operations`; the pointer may be null), the validator (the errors
it gives for a document), and the undefined part of `std::atoi`. -/
structure Service (E O : Type) where
  impl : Impl E O
  operations : Str → Option (Option O)
  validate : Document → List SchemaError
  atoiOverflow : Int → Int

/-- The result of a call; `undefined` stands for undefined behaviour, or for executions which do not stop. -/
inductive Outcome (α : Type) where
  | done (a : α)
  | undefined

/-- `strQuery`, GraphQLService.cpp:1654: the type of an operation without a keyword. -/
def operationType (op : Operation) : Str := op.type.getD (str "query")

/-- The search in `Request::findOperationDefinition`, GraphQLService.cpp:1650-1677. -/
def findOperation (name : Str) : List Operation → Option Operation
  | [] => none
  | op :: ops => if name.isEmpty || op.name.getD [] == name then some op else findOperation name ops

/-- `Request::validate`, GraphQLService.cpp:1625-1637: errors, and the new value of `query.validated`. -/
def validate {E O : Type} (S : Service E O) (doc : Document) (validated : Bool) : List SchemaError × Bool :=
  if validated then ([], true) else (S.validate doc, (S.validate doc).isEmpty)

/-- The variable definitions in `OperationDefinitionVisitor::visit`, GraphQLService.cpp:1315-1347. -/
def operationVariables (env : Env) : List VarDef → Members → Except Exn Members
  | [], acc => .ok acc
  | d :: ds, acc =>
    match env.variables.find d.name with
    | some v => operationVariables env ds (acc.emplace d.name v)
    | none =>
      match d.default with
      | none => operationVariables env ds (acc.emplace d.name .null)
      | some l =>
        match evalLit env l with
        | .error e => .error e
        | .ok v => operationVariables env ds (acc.emplace d.name v)

/-- `{ data, errors }` with the errors only if there are some, GraphQLService.cpp:1749-1761. -/
def document (r : Result) : Resp :=
  .map (if r.errors.isEmpty then Members.emplace [] (str "data") r.data
    else (Members.emplace [] (str "data") r.data).emplace (str "errors") (buildErrorValues r.errors))

/-- The document of an exception, GraphQLService.cpp:1765-1774. -/
def errorDocument (errors : List SchemaError) : Resp :=
  .map ((Members.emplace [] (str "data") .null).emplace (str "errors") (buildErrorValues errors))

/-- `" name: " << operationName` if there is one. -/
def nameSuffix (name : Str) : Str := if name.isEmpty then [] else str " name: " ++ name

/-- An operation ready to run. -/
structure Ready where
  op : Operation
  fragments : FragmentMap
  variables : Members
  directives : Members

/-- Everything in `Request::resolve` before the operation runs, GraphQLService.cpp:1690-1745 with 1310-1361. -/
def prepare {E O : Type} (S : Service E O) (validated : Bool) (doc : Document) (name : Str) (supplied : Members) :
    Except Exn Ready :=
  let env : Env := ⟨supplied, S.atoiOverflow⟩
  match collectFragments env doc.fragments [] with
  | .error e => .error e
  | .ok fragments =>
    match validate S doc validated with
    | (e :: es, _) => .error (.schema (e :: es))
    | ([], _) =>
      match findOperation name doc.operations with
      | none => .error (.message (str "Missing operation" ++ nameSuffix name))
      | some op =>
        if operationType op = str "subscription" then
          .error (.schema [{ message := str "Unexpected subscription" ++ nameSuffix name, location := op.pos }])
        else
          match operationVariables env op.variables [] with
          | .error e => .error e
          | .ok vars =>
            match evalDirectives ⟨vars, S.atoiOverflow⟩ op.directives with
            | .error e => .error e
            | .ok ds => .ok ⟨op, fragments, vars, ds⟩

/-- The context of an operation, GraphQLService.cpp:1732-1734. -/
def contextOf (op : Operation) : Context := if operationType op = str "mutation" then .mutation else .query

/-- The parameters of the root, GraphQLService.cpp:1370-1382; the same for subscriptions, 2015-2025, 2271-2281. -/
def rootParams (context : Context) (directives : Members) : SetParams where
  context := context
  operationDirectives := directives
  fragmentDirectives := {}
  errorPath := none

/-- `Request::resolve`, GraphQLService.cpp:1686-1776: the future it returns. A `schema_exception` before the operation
runs gives a document. (Another exception would leave `resolve` itself; `prepare_schema` shows that there is none.) -/
def resolve {E O : Type} (S : Service E O) (validated : Bool) (doc : Document) (name : Str) (supplied : Members) :
    Outcome (Run E Resp) :=
  match prepare S validated doc name supplied with
  | .error (.schema errors) => .done (.pure (errorDocument errors))
  | .error (.other what) => .done (.throw (.other what))
  | .ok ready =>
    match S.operations (operationType ready.op) with
    | none => .undefined
    | some none => .undefined
    | some (some root) =>
      match expand ready.fragments ready.op.sub with
      | none => .undefined
      | some xs =>
        .done ((execute S.impl ⟨ready.variables, S.atoiOverflow⟩ root (rootParams (contextOf ready.op) ready.directives) xs).bind
          fun r => .pure (document r))

end Verif.Request
