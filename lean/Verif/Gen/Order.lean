import Verif.Gen.Data
import Mathlib.Data.List.Basic

/-!
# The order of generated input types

Models `SchemaLoader::reorderInputTypeDependencies` (`/repo/src/SchemaLoader.cpp:500-550`),
`RequestLoader::collectInputTypes` and `RequestLoader::reorderInputTypeDependencies`
(`/repo/src/RequestLoader.cpp:798-911`).
-/
namespace Verif.Gen
open Verif.Value Verif.TypeSystem
open Verif.Schema.Wrap (Kind Addr)

/-- The loop over the fields, SchemaLoader.cpp:503-512. -/
def addDependencies (entry : InputType) : InputType :=
  { entry with
    dependencies := entry.fields.foldl
      (fun deps field => if field.fieldType = .input then deps ++ [field.type] else deps) entry.dependencies }

/-- The predicate of `std::stable_partition`, SchemaLoader.cpp:522-530 and RequestLoader.cpp:879-886: no dependency is
outside of `handled`. -/
def ready (handled : List Str) (dependencies : List Str) : Bool :=
  (dependencies.find? fun d => !handled.contains d).isNone

/-- The loop of `SchemaLoader`, SchemaLoader.cpp:517-548; `rest` is the part of `_inputTypes` from `itr` to the end. -/
def orderLoop (handled : List Str) (rest : List InputType) : Except LoadError (List InputType) :=
  match rest with
  | [] => .ok []
  | first :: others =>
    if h : (first :: others).filter (fun e => ready handled e.dependencies) = [] then .error (.cycle first.type)
    else
      let front := (first :: others).filter fun e => ready handled e.dependencies
      let back := (first :: others).filter fun e => !ready handled e.dependencies
      match orderLoop (if back.isEmpty then handled else handled ++ front.map (·.type)) back with
      | .error e => .error e
      | .ok result => .ok (front ++ result)
termination_by rest.length
decreasing_by
  have h1 := List.length_eq_length_filter_add (l := first :: others) fun e => ready handled e.dependencies
  have h2 := List.length_pos_iff.2 h
  omega

/-- `SchemaLoader::reorderInputTypeDependencies`, SchemaLoader.cpp:500-550 -/
def reorderInputTypes (types : List InputType) : Except LoadError (List InputType) :=
  orderLoop [] (types.map addDependencies)

/-! ## The client generator -/

/-- `_inputTypeNames` and `_referencedInputTypes` -/
structure Collected where
  names : List Str := []
  types : List Addr := []

/-- A sequence of calls of `RequestLoader::collectInputTypes`, RequestLoader.cpp:798-831, with the state before and after;
as in the loop over the variables, RequestLoader.cpp:66-70, and the one over the fields of an input type,
RequestLoader.cpp:809-815. (`collectEnums` changes nothing here.) -/
inductive CollectInputTypes (s : Schema) : Collected → List Addr → Collected → Prop where
  | nil {c} : CollectInputTypes s c [] c
  | new {c a t c' rest c''} : s.store a = some t → t.kind = .inputObject → t.name ∉ c.names →
      CollectInputTypes s { names := c.names ++ [t.name], types := c.types ++ [a] } (t.inputFields.map (·.type)) c' →
      CollectInputTypes s c' rest c'' → CollectInputTypes s c (a :: rest) c''
  | known {c a t rest c'} : s.store a = some t → t.kind = .inputObject → t.name ∈ c.names →
      CollectInputTypes s c rest c' → CollectInputTypes s c (a :: rest) c'
  | wrapper {c a t b rest c'} : s.store a = some t → t.kind = .list ∨ t.kind = .nonNull → t.ofType = some b →
      CollectInputTypes s c (b :: rest) c' → CollectInputTypes s c (a :: rest) c'
  | other {c a t rest c'} : s.store a = some t → t.kind ∉ [Kind.inputObject, .list, .nonNull] →
      CollectInputTypes s c rest c' → CollectInputTypes s c (a :: rest) c'

/-- `InputTypeDependencies`, RequestLoader.cpp:841-846. -/
structure Entry where
  type : Addr
  name : Str
  dependencies : List Str

/-- The lambda at RequestLoader.cpp:853-869. -/
def entry (s : Schema) (a : Addr) : Option Entry :=
  match s.store a with
  | none => none
  | some t =>
    some { type := a, name := t.name, dependencies := t.inputFields.filterMap fun f =>
      match s.store f.type with
      | some fieldType => if fieldType.kind = .inputObject then some fieldType.name else none
      | none => none }

/-- The loop of `RequestLoader`, RequestLoader.cpp:874-898: there is no check that a round makes progress. -/
inductive Rounds : (handled : List Str) → List Entry → List Entry → Prop where
  | done {handled} : Rounds handled [] []
  | round {handled rest result} : rest ≠ [] →
      Rounds
        (if (rest.filter fun e => !ready handled e.dependencies).isEmpty then handled
          else handled ++ (rest.filter fun e => ready handled e.dependencies).map (·.name))
        (rest.filter fun e => !ready handled e.dependencies) result →
      Rounds handled rest ((rest.filter fun e => ready handled e.dependencies) ++ result)

/-- `RequestLoader::reorderInputTypeDependencies`, RequestLoader.cpp:833-911: if it comes to an end, the new
`_referencedInputTypes`. (If `handled` stays empty there was at most one round, which changes nothing.) -/
def ReorderReferenced (s : Schema) (types result : List Addr) : Prop :=
  ∃ entries sorted, types.map (entry s) = entries.map some ∧ Rounds [] entries sorted ∧ result = sorted.map (·.type)

end Verif.Gen
