import Verif.Ast.Basic

/-!
# Model of execution

Models `ValueVisitor`, `DirectiveVisitor`, `Fragment`, `SelectionVisitor`, `Object::resolve`
(`/repo/src/GraphQLService.cpp:179-1199`) and `ModifiedResult` (`/repo/include/graphqlservice/GraphQLService.h:496-776`).

* A computation which may throw and which calls user code is `Run E α`: the list of user events (of any type `E`) in
  order, and the result or the exception.
* A `std::future` is the suspended computation (`Run E Result`) which `get()` performs: this is `std::launch::deferred`,
  the default and the only policy for mutations. `Verif.Async` models the other policies, and shows that the results
  are the same and that the events are the same but may interleave.
* A fragment spread carries the selection of the fragment which `_fragments.find(name)` finds (`XSelection`); the
  lookups are done in advance by `Verif.Exec.Expand`. All the executions of the model are those of documents in which
  no fragment spreads itself; the validation area shows that the validator accepts no others.
* Object types are the user's: any type `O` with the names of its GraphQL types and its resolvers.
-/
namespace Verif.Exec
open Verif.Value Verif.Resp Verif.Errors Verif.Ast

/-! ## Computations -/

/-- Events in order, and the outcome. -/
structure Run (E α : Type) where
  trace : List E
  result : Except Exn α

namespace Run
variable {E α β : Type}

/-- Return. -/
def pure (a : α) : Run E α := ⟨[], .ok a⟩
/-- `throw` -/
def throw (e : Exn) : Run E α := ⟨[], .error e⟩
/-- User code runs. -/
def emit (t : List E) : Run E Unit := ⟨t, .ok ()⟩
/-- A result computed without events. -/
def lift (r : Except Exn α) : Run E α := ⟨[], r⟩
/-- Sequence; an exception skips the rest. -/
def bind (x : Run E α) (f : α → Run E β) : Run E β :=
  match x.result with
  | .error e => ⟨x.trace, .error e⟩
  | .ok a => ⟨x.trace ++ (f a).trace, (f a).result⟩
/-- `try { x } catch` where the handler runs no user code and does not throw. -/
def handle (x : Run E α) (h : Exn → α) : Run E α :=
  match x.result with
  | .error e => ⟨x.trace, .ok (h e)⟩
  | .ok a => ⟨x.trace, .ok a⟩

instance : Monad (Run E) where
  pure := Run.pure
  bind := Run.bind

end Run

/-! ## Values and directives -/

/-- The variables of the operation, and what `std::atoi` returns for a number which does not fit `int` (undefined
behaviour in C++; here any function). -/
structure Env where
  variables : Members
  atoiOverflow : Int → Int

/-- `std::atoi` on the text of an integer token, GraphQLService.cpp:279. -/
def Env.atoi (env : Env) (n : Int) : Int :=
  if -2 ^ 31 ≤ n ∧ n < 2 ^ 31 then n else env.atoiOverflow n

/-- `ValueVisitor::visitVariable`, GraphQLService.cpp:257-275. -/
def visitVariable (env : Env) (pos : Loc) (name : Str) : Except Exn Resp :=
  match env.variables.find name with
  | some v => .ok v
  | none => .error (.schema [{ message := str "Unknown variable name: " ++ name, location := pos }])

mutual
/-- `ValueVisitor::visit`, GraphQLService.cpp:217-334. -/
def evalLit (env : Env) : Lit → Except Exn Resp
  | .variable pos name => visitVariable env pos name
  | .int n => .ok (.int (env.atoi n))
  | .float d => .ok (.float d)
  | .string s => .ok (.string s false)
  | .boolean b => .ok (.boolean b)
  | .null => .ok .null
  | .enumValue s => .ok (.enumValue s)
  | .list xs =>
    match evalList env xs [] with
    | .ok vs => .ok (.list vs)
    | .error e => .error e
  | .object fields =>
    match evalArgs env fields [] with
    | .ok ms => .ok (.map ms)
    | .error e => .error e
/-- `ValueVisitor::visitListValue`, GraphQLService.cpp:308-320. -/
def evalList (env : Env) : List Lit → List Resp → Except Exn (List Resp)
  | [], acc => .ok acc
  | x :: xs, acc =>
    match evalLit env x with
    | .error e => .error e
    | .ok v => evalList env xs (acc ++ [v])
/-- `ValueVisitor::visitObjectValue`, GraphQLService.cpp:322-334; the same loop over arguments at 382-390 and
896-903. -/
def evalArgs (env : Env) : List (Str × Lit) → Members → Except Exn Members
  | [], acc => .ok acc
  | (name, x) :: xs, acc =>
    match evalLit env x with
    | .error e => .error e
    | .ok v => evalArgs env xs (acc.emplace name v)
end

/-- Arguments of a field or directive; none is the empty map. GraphQLService.cpp:378-391, 893-904. -/
def evalOptArgs (env : Env) : Option Args → Except Exn Members
  | none => .ok []
  | some args => evalArgs env args []

/-- `DirectiveVisitor::visit`, GraphQLService.cpp:360-397: a map from the name of the directive to its arguments. -/
def visitDirectives (env : Env) : List Directive → Members → Except Exn Members
  | [], acc => .ok acc
  | d :: ds, acc =>
    if d.name.isEmpty then visitDirectives env ds acc
    else
      match evalOptArgs env d.arguments with
      | .error e => .error e
      | .ok args => visitDirectives env ds (acc.emplace d.name (.map args))

/-- The directives of a node, if it has any. -/
def evalDirectives (env : Env) : Option (List Directive) → Except Exn Members
  | none => .ok []
  | some ds => visitDirectives env ds []

/-- The loop over the arguments of a directive, GraphQLService.cpp:434-452: `(argumentTrue, argumentFalse)`. -/
def skipArguments (directive : Str) : Members → Bool × Bool → Except Exn (Bool × Bool)
  | [], acc => .ok acc
  | (name, v) :: rest, (t, f) =>
    let invalid : Exn := .message (str "Invalid argument to directive: " ++ directive ++ str " name: " ++ name)
    match v with
    | .boolean b =>
      if t || f || name ≠ str "if" then .error invalid
      else skipArguments directive rest (b, !b)
    | _ => .error invalid

/-- One iteration of the loop of `shouldSkip`, GraphQLService.cpp:415-469: `some` if it returns. -/
def skipEntry (directives : Members) (skip : Bool) (name : Str) : Except Exn (Option Bool) :=
  match directives.find name with
  | none => .ok none
  | some (.map arguments) =>
    match skipArguments name arguments (false, false) with
    | .error e => .error e
    | .ok (true, _) => .ok (some skip)
    | .ok (false, true) => .ok (some (!skip))
    | .ok (false, false) => .error (.message (str "Missing argument directive: " ++ name ++ str " name: if"))
  | some _ => .error (.message (str "Invalid arguments to directive: " ++ name))

/-- `DirectiveVisitor::shouldSkip`, GraphQLService.cpp:406-473. -/
def shouldSkip (directives : Members) : Except Exn Bool :=
  match skipEntry directives true (str "skip") with
  | .error e => .error e
  | .ok (some b) => .ok b
  | .ok none =>
    match skipEntry directives false (str "include") with
    | .error e => .error e
    | .ok (some b) => .ok b
    | .ok none => .ok false

/-! ## Parameters and results -/

/-- `ResolverContext`, GraphQLService.h:129-147. -/
inductive Context where
  | query | mutation | notifySubscribe | subscription | notifyUnsubscribe
deriving DecidableEq

/-- `FragmentDirectives`, GraphQLService.cpp:750-755. -/
structure FragDirs where
  definition : Members := []
  spread : Members := []
  inline : Members := []

/-- `SelectionSetParams`, GraphQLService.h:151-173, without the user's state pointer and the launch policy. -/
structure SetParams where
  context : Context
  operationDirectives : Members
  fragmentDirectives : FragDirs
  errorPath : Option FieldPath

/-- What the accessor of a field gets: `FieldParams`, GraphQLService.h:176-191, and the arguments. -/
structure FieldParams where
  set : SetParams
  fieldDirectives : Members
  arguments : Members

/-- `ResolverResult`, GraphQLService.h:275-279. -/
structure Result where
  data : Resp := .null
  errors : List SchemaError := []

/-- `std::future<ResolverResult>` -/
abbrev Fut (E : Type) := Run E Result

/-- The static type of a result: `ModifiedResult<T>::convert<Modifiers...>`. `leaf`: a built-in type; `enum`: an enum type, whose
conversion is generated (SchemaGenerator.cpp:659-676). `object direct`: an object type; `direct` if
the accessor returns `std::shared_ptr<Object>` itself (interfaces and unions), not a pointer to a derived class. -/
inductive OutType where
  | leaf
  | enum
  | object (direct : Bool)
  | nullable (t : OutType)
  | list (t : OutType)

/-- The C++ value returned by an accessor: a leaf (as the response value it is converted to), a `std::shared_ptr` to an
object (which may be null), an absent or present optional (or nullable object pointer), a vector. -/
inductive Out (O : Type) where
  | leaf (v : Resp)
  | object (o : Option O)
  | absent
  | present (x : Out O)
  | list (xs : List (Out O))

/-- `FieldResult<T>`, GraphQLService.h:196-223: a value, or a future (its events and outcome). -/
inductive FieldResult (E O : Type) where
  | value (x : Out O)
  | future (later : List E) (outcome : Except Exn (Out O))

namespace FieldResult
variable {E O : Type}
/-- `FieldResult::get`, GraphQLService.h:206-214. -/
def get : FieldResult E O → Run E (Out O)
  | .value x => .pure x
  | .future later outcome => ⟨later, outcome⟩
/-- `FieldResult::is_future`, GraphQLService.h:216-219. -/
def isFuture : FieldResult E O → Bool
  | .value _ => false
  | .future .. => true
end FieldResult

/-- A generated resolver: the static type of the field, and the user's accessor with the conversion of its arguments;
it may run user code, and throw. -/
structure Resolver (E O : Type) where
  type : OutType
  access : FieldParams → Run E (FieldResult E O)

/-- The user's service: for every object its type names (`_typeNames`), its resolvers (`_resolvers`) and its callbacks
(`beginSelectionSet`, `endSelectionSet`). -/
structure Impl (E O : Type) where
  typeNames : O → List Str
  resolver : O → Str → Option (Resolver E O)
  beginSet : O → SetParams → Run E Unit
  endSet : O → SetParams → Run E Unit

/-- `SelectionVisitor`'s members `_names` and `_values`, GraphQLService.cpp:786-787. (`_names` is a set, C09.) -/
structure St (E : Type) where
  names : List Str
  values : List (Str × Fut E)

/-- Visiting a selection set of an object within some parameters. -/
abbrev SetVisitor (E O : Type) := O → SetParams → St E → Run E (St E)

/-- `ResolverParams`, GraphQLService.h:251-271; `selection` is the visitor of the sub-selection, if there is one, with
its position. -/
structure ResolverParams (E O : Type) where
  set : SetParams
  pos : Loc
  fieldName : Str
  selection : Option (Loc × SetVisitor E O)

/-! ## Object::resolve -/

section
variable {E O : Type}

/-- The body of the loop over the children in `Object::resolve`, GraphQLService.cpp:1150-1194: the new `document`. -/
def collectField (ms : Members) (errors : List SchemaError) (name : Str) (child : Except Exn Result) :
    Members × List SchemaError :=
  match child with
  | .ok value =>
    let ambiguous : List SchemaError :=
      if ms.isNew name then [] else [{ message := str "Ambiguous field error name: " ++ name }]
    (ms.emplace name value.data, errors ++ ambiguous ++ value.errors)
  | .error (.schema es) => (ms.emplace name .null, errors ++ es)
  | .error (.other what) => (ms.emplace name .null, errors ++
      [{ message := str "Field error name: " ++ name ++ str " unknown error: " ++ what }])

/-- The deferred function of `Object::resolve`, GraphQLService.cpp:1145-1197. -/
def collectFields : List (Str × Fut E) → Members → List SchemaError → Fut E
  | [], ms, errors => .pure { data := .map ms, errors := errors }
  | (name, child) :: rest, ms, errors =>
    let next := collectField ms errors name child.result
    (Run.emit child.trace).bind fun _ => collectFields rest next.1 next.2

/-- `Object::resolve`, GraphQLService.cpp:1123-1199; `visit` visits the children of the selection set. -/
def resolveObject (I : Impl E O) (visit : SetVisitor E O) (o : O) (params : SetParams) : Run E (Fut E) :=
  (I.beginSet o params).bind fun _ =>
  (visit o { params with fragmentDirectives := {} } { names := [], values := [] }).bind fun st =>
  (I.endSet o params).bind fun _ =>
  .pure (collectFields st.values [] [])

/-! ## ModifiedResult -/

/-- `blockSubFields`, GraphQLService.cpp:598-612. -/
def blockSubFields (params : ResolverParams E O) : Run E Unit :=
  match params.selection with
  | none => .pure ()
  | some (pos, _) => .throw (.schema [{
      message := str "Field may not have sub-fields name: " ++ params.fieldName
      location := pos
      path := buildErrorPath params.set.errorPath }])

/-- The error of `requireSubFields`, GraphQLService.cpp:692-706. -/
def missingSubFields (params : ResolverParams E O) : Exn :=
  .schema [{
    message := str "Field must have sub-fields name: " ++ params.fieldName
    location := params.pos
    path := buildErrorPath params.set.errorPath }]

/-- `buildResult` in `ModifiedResult::resolve`, GraphQLService.h:728-759. -/
def leafResult (params : ResolverParams E O) : Except Exn (Out O) → Result
  | .ok (.leaf v) => { data := v }
  | .ok _ => {}  -- not possible: the value has the static type
  | .error (.schema errors) => { errors := errors }
  | .error (.other what) => { errors := [{
      message := str "Field name: " ++ params.fieldName ++ str " unknown error: " ++ what
      location := params.pos
      path := buildErrorPath params.set.errorPath }] }

/-- `ModifiedResult::resolve`, GraphQLService.h:722-775; also `ModifiedResult<T>::convert` of a generated enum,
SchemaGenerator.cpp:659-676 and IntrospectionSchema.cpp:51-62, 104-115, which does not call `blockSubFields`. -/
def resolveLeaf (params : ResolverParams E O) : FieldResult E O → Run E (Fut E)
  | .value x => .pure (.pure (leafResult params (.ok x)))
  | .future later outcome => .pure ⟨later, .ok (leafResult params outcome)⟩

/-- `ModifiedResult<T>::convert` of a leaf, GraphQLService.cpp:614-690. -/
def convertLeaf (params : ResolverParams E O) (r : FieldResult E O) : Run E (Fut E) :=
  (blockSubFields params).bind fun _ => resolveLeaf params r

/-- `buildResult` in `ModifiedResult<Object>::convert`, GraphQLService.cpp:714-729. -/
def objectResult (I : Impl E O) (params : ResolverParams E O) (visit : SetVisitor E O) (r : FieldResult E O) : Fut E :=
  r.get.bind fun x =>
    match x with
    | .object (some o) => (resolveObject I visit o params.set).bind fun f => f
    | _ => .pure {}

/-- `ModifiedResult<Object>::convert`, GraphQLService.cpp:708-744. For a derived class the pointer is first wrapped in a
deferred future (GraphQLService.h:542-549), so only a direct value is resolved at once. -/
def convertObject (I : Impl E O) (direct : Bool) (params : ResolverParams E O) (r : FieldResult E O) : Run E (Fut E) :=
  match params.selection with
  | none => .throw (missingSubFields params)
  | some (_, visit) =>
    if direct && !r.isFuture then
      (objectResult I params visit r).bind fun result => .pure (.pure result)
    else .pure (objectResult I params visit r)

/-- `ResolverParams(wrappedParams)` with the index of a list element, GraphQLService.h:641-643, 655-657. -/
def ResolverParams.atIndex (params : ResolverParams E O) (i : Nat) : ResolverParams E O :=
  { params with set := { params.set with errorPath := some (.extend params.set.errorPath (.index i)) } }

/-- The first loop over the elements, GraphQLService.h:662-667: convert each of them. -/
def convertElements (convert : ResolverParams E O → FieldResult E O → Run E (Fut E)) (params : ResolverParams E O) :
    Nat → List (Out O) → Run E (List (Fut E))
  | _, [] => .pure []
  | i, x :: xs =>
    (convert (params.atIndex i) (.value x)).bind fun child =>
    (convertElements convert params (i + 1) xs).bind fun children => .pure (child :: children)

/-- The second loop, GraphQLService.h:675-710: an exception adds errors, but no element. -/
def collectElements (params : ResolverParams E O) : Nat → List (Fut E) → List Resp → List SchemaError → Fut E
  | _, [], data, errors => .pure { data := .list data, errors := errors }
  | i, child :: rest, data, errors =>
    let next : List Resp × List SchemaError :=
      match child.result with
      | .ok value => (data ++ [value.data], errors ++ value.errors)
      | .error (.schema es) => (data, errors ++ es)
      | .error (.other what) => (data, errors ++ [{
          message := str "Field error name: " ++ params.fieldName ++ str " unknown error: " ++ what
          location := params.pos
          path := buildErrorPath (params.atIndex i).set.errorPath }])
    (Run.emit child.trace).bind fun _ => collectElements params (i + 1) rest next.1 next.2

/-- The elements of a vector. -/
def Out.elements : Out O → List (Out O)
  | .list xs => xs
  | _ => []  -- not possible: the value has the static type

/-- `ModifiedResult<T>::convert<Modifiers...>`, GraphQLService.h:531-716. -/
def convert (I : Impl E O) : OutType → ResolverParams E O → FieldResult E O → Run E (Fut E)
  | .leaf, params, r => convertLeaf params r
  | .enum, params, r => resolveLeaf params r
  | .object direct, params, r => convertObject I direct params r
  | .nullable t, params, r =>
    .pure (r.get.bind fun x =>
      match x with
      | .present y => (convert I t params (.future [] (.ok y))).bind fun f => f
      | _ => .pure {})
  | .list t, params, r =>
    .pure (r.get.bind fun x =>
      (convertElements (convert I t) params 0 x.elements).bind fun children =>
        collectElements params 0 children [] [])

/-! ## SelectionVisitor -/

/-- The response name of a field: the alias, or the name. GraphQLService.cpp:838-853. -/
def responseName (f : Field) : Str :=
  match f.alias with
  | none => f.name
  | some a => if a.isEmpty then f.name else a

/-- The handlers at GraphQLService.cpp:936-973: add the location and the path where they are missing. -/
def fieldException (pos : Loc) (alias : Str) (path : List Seg) : Exn → Exn
  | .schema errors => .schema (errors.map fun e =>
      let e := if e.location.line == 0 then { e with location := pos } else e
      if e.path.isEmpty then { e with path := path } else e)
  | .other what => .schema [{
      message := str "Field error name: " ++ alias ++ str " unknown error: " ++ what
      location := pos
      path := path }]

/-- `SelectionVisitor::visitField`, GraphQLService.cpp:836-974; `sub` visits the selection set of the field. -/
def visitField (I : Impl E O) (env : Env) (f : Field) (sub : Option (Loc × SetVisitor E O)) (o : O) (params : SetParams)
    (st : St E) : Run E (St E) :=
  let alias := responseName f
  if st.names.contains alias then .pure st
  else
    let st := { st with names := alias :: st.names }
    match I.resolver o f.name with
    | none =>
      .pure { st with values := st.values ++ [(alias, .throw (.schema [{
        message := str "Unknown field name: " ++ f.name
        location := f.pos
        path := buildErrorPath params.errorPath }]))] }
    | some resolver =>
      (Run.lift (evalDirectives env f.directives)).bind fun directives =>
      (Run.lift (shouldSkip directives)).bind fun skip =>
      if skip then .pure st
      else
        (Run.lift (evalOptArgs env f.arguments)).bind fun arguments =>
        let set : SetParams := { params with errorPath := some (.extend params.errorPath (.name alias)) }
        let resolve : Run E (Fut E) :=
          (resolver.access { set := set, fieldDirectives := directives, arguments := arguments }).bind fun r =>
            convert I resolver.type { set := set, pos := f.pos, fieldName := alias, selection := sub } r
        (resolve.handle fun e => .throw (fieldException f.pos alias (buildErrorPath set.errorPath) e)).bind fun future =>
        .pure { st with values := st.values ++ [(alias, future)] }

/-- Merging the directives of enclosing fragments, GraphQLService.cpp:1014-1033, 1084-1092: the inner ones win. -/
def mergeOuter (inner outer : Members) : Members :=
  outer.foldl (fun ms e => ms.emplace e.1 e.2) inner

/-- A fragment as the executor keeps it: `Fragment`, GraphQLService.h:228-242 (the selection apart). -/
structure FragInfo where
  type : Str
  directives : Members

/-- Selections in which every spread carries the fragment found under its name. -/
inductive XSelection where
  | leaf (field : Field)
  | node (field : Field) (subPos : Loc) (sub : List XSelection)
  | unknownSpread (pos : Loc) (name : Str)
  | spread (fragment : FragInfo) (directives : Option (List Directive)) (sub : List XSelection)
  | inline (typeCondition : Option Str) (directives : Option (List Directive)) (sub : List XSelection)

/-- `_typeNames.find(name) != _typeNames.end()` -/
def matchesType (I : Impl E O) (o : O) (name : Str) : Bool := (I.typeNames o).contains name

mutual
/-- `SelectionVisitor::visit`, GraphQLService.cpp:820-834, 976-1115. -/
def visit (I : Impl E O) (env : Env) : XSelection → SetVisitor E O
  | .leaf f, o, params, st => visitField I env f none o params st
  | .node f pos sub, o, params, st => visitField I env f (some (pos, visitAll I env sub)) o params st
  | .unknownSpread pos name, _, params, _ =>
    .throw (.schema [{
      message := str "Unknown fragment name: " ++ name
      location := pos
      path := buildErrorPath params.errorPath }])
  | .spread fragment directives sub, o, params, st =>
    if !matchesType I o fragment.type then .pure st
    else
      (Run.lift (evalDirectives env directives)).bind fun ds =>
      (Run.lift (shouldSkip ds)).bind fun skip =>
      if skip then .pure st
      else
        visitAll I env sub o { params with fragmentDirectives := {
          definition := mergeOuter fragment.directives params.fragmentDirectives.definition
          spread := mergeOuter ds params.fragmentDirectives.spread
          inline := params.fragmentDirectives.inline } } st
  | .inline typeCondition directives sub, o, params, st =>
    (Run.lift (evalDirectives env directives)).bind fun ds =>
    (Run.lift (shouldSkip ds)).bind fun skip =>
    if skip then .pure st
    else if typeCondition.all (matchesType I o) then
      visitAll I env sub o { params with fragmentDirectives := {
        definition := params.fragmentDirectives.definition
        spread := params.fragmentDirectives.spread
        inline := mergeOuter ds params.fragmentDirectives.inline } } st
    else .pure st
/-- The loops over the children of a selection set, GraphQLService.cpp:1047-1050, 1107-1110, 1136-1139. -/
def visitAll (I : Impl E O) (env : Env) : List XSelection → SetVisitor E O
  | [], _, _, st => .pure st
  | s :: rest, o, params, st => (visit I env s o params st).bind fun st => visitAll I env rest o params st
end

/-- Executing the selection set of an object and waiting for the result: `resolve(...)` followed by `get()`. -/
def execute (I : Impl E O) (env : Env) (o : O) (params : SetParams) (sub : List XSelection) : Fut E :=
  (resolveObject I (visitAll I env sub) o params).bind fun f => f

end

end Verif.Exec
