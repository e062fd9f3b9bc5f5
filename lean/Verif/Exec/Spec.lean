import Verif.Exec.Model

/-!
# Specification of execution

What a selection set selects, and what it means to execute one of the selected fields alone.
-/
namespace Verif.Exec
open Verif.Value Verif.Resp Verif.Errors Verif.Ast

/-- A selected field: the field, its selection set, and the directives of the fragments around it. -/
structure Visit where
  field : Field
  sub : Option (Loc × List XSelection)
  dirs : FragDirs

/-- The response name. -/
def Visit.name (v : Visit) : Str := responseName v.field

/-- Is a selection with these directives skipped (C15), or are the directives malformed? -/
def skips (env : Env) (ds : Option (List Directive)) : Except Exn Bool :=
  match evalDirectives env ds with
  | .error e => .error e
  | .ok ms => shouldSkip ms

/-- The directives, for those which can be evaluated. -/
def directivesOf (env : Env) (ds : Option (List Directive)) : Members :=
  match evalDirectives env ds with
  | .error _ => []
  | .ok ms => ms

mutual
/-- The fields selected by a selection for an object whose types are given by `types`, in document order: fragments are
replaced by their fields if they apply to the object and are not skipped. The second component is the exception, if one
of the fragments around the next field cannot be decided or does not exist. -/
def flatten1 (types : Str → Bool) (env : Env) (path : Option FieldPath) :
    XSelection → FragDirs → List Visit × Option Exn
  | .leaf f, dirs => ([⟨f, none, dirs⟩], none)
  | .node f pos sub, dirs => ([⟨f, some (pos, sub), dirs⟩], none)
  | .unknownSpread pos name, _ => ([], some (.schema [{
      message := str "Unknown fragment name: " ++ name, location := pos, path := buildErrorPath path }]))
  | .spread fragment ds sub, dirs =>
    if types fragment.type then
      match skips env ds with
      | .error e => ([], some e)
      | .ok true => ([], none)
      | .ok false => flatten types env path sub {
          definition := mergeOuter fragment.directives dirs.definition
          spread := mergeOuter (directivesOf env ds) dirs.spread
          inline := dirs.inline }
    else ([], none)
  | .inline typeCondition ds sub, dirs =>
    match skips env ds with
    | .error e => ([], some e)
    | .ok true => ([], none)
    | .ok false =>
      if typeCondition.all types then
        flatten types env path sub {
          definition := dirs.definition
          spread := dirs.spread
          inline := mergeOuter (directivesOf env ds) dirs.inline }
      else ([], none)
/-- The fields selected by a list of selections. -/
def flatten (types : Str → Bool) (env : Env) (path : Option FieldPath) :
    List XSelection → FragDirs → List Visit × Option Exn
  | [], _ => ([], none)
  | x :: xs, dirs =>
    match flatten1 types env path x dirs with
    | (vs, some e) => (vs, some e)
    | (vs, none) => (vs ++ (flatten types env path xs dirs).1, (flatten types env path xs dirs).2)
end

/-- The first field of every response name (of those not in `seen`), in order. -/
def firsts (seen : List Str) : List Visit → List Visit
  | [] => []
  | v :: vs => if v.name ∈ seen then firsts seen vs else v :: firsts (v.name :: seen) vs

section
variable {E O : Type}

/-- The fields selected for an object by a selection set. -/
def selected (I : Impl E O) (env : Env) (o : O) (params : SetParams) (xs : List XSelection) : List Visit × Option Exn :=
  flatten (matchesType I o) env params.errorPath xs {}

/-- The callbacks around the selection set (`beginSelectionSet`, `endSelectionSet`) return. -/
def Brackets (I : Impl E O) (o : O) (params : SetParams) : Prop :=
  (I.beginSet o params).result = .ok () ∧ (I.endSet o params).result = .ok ()

/-- Visiting exactly one field. -/
def visitOne (I : Impl E O) (env : Env) (v : Visit) : SetVisitor E O := fun o params st =>
  visitField I env v.field (v.sub.map fun s => (s.1, visitAll I env s.2)) o
    { params with fragmentDirectives := v.dirs } st

/-- Executing a selection set which selects only the field `v`. -/
def executeAlone (I : Impl E O) (env : Env) (o : O) (params : SetParams) (v : Visit) : Fut E :=
  (resolveObject I (visitOne I env v) o params).bind fun f => f

/-- The members of the data of a result. -/
def members : Resp → Members
  | .map ms => ms
  | _ => []

/-- Is the field part of the response? A field the object does not have is reported under its name; any other is
there unless it is skipped. -/
def present (I : Impl E O) (env : Env) (o : O) (v : Visit) : Bool :=
  (I.resolver o v.field.name).isNone ||
    (match skips env v.field.directives with
    | .ok b => !b
    | .error _ => false)

end

end Verif.Exec
