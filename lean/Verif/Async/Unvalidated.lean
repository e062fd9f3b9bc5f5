import Verif.Async.Props

/-!
# `Request::resolve` with the root of a syntax tree

Models the overloads of `Request::resolve` which take a `peg::ast_node` and not a `peg::ast`: `resolveUnvalidated`
(`/repo/src/GraphQLService.cpp:1778-1928`).
-/
namespace Verif.Async
open Verif.Value Verif.Resp Verif.Errors Verif.Ast Verif.Exec Verif.Request

variable {E O : Type}

/-- `Request::findUnvalidatedOperationDefinition`, GraphQLService.cpp:1784-1816. -/
def findUnvalidated (name : Str) : List Operation → Option (Str × Operation)
  | [] => none
  | op :: ops => if name.isEmpty || op.name.getD [] == name then some (op.type.getD (str "query"), op) else findUnvalidated name ops

/-- The beginning of `Request::resolveUnvalidated`, GraphQLService.cpp:1838-1901 with 1310-1361. -/
def prepareUnvalidated (S : Service E O) (doc : Document) (name : Str) (supplied : Members) : Except Exn Ready :=
  match collectFragments ⟨supplied, S.atoiOverflow⟩ doc.fragments [] with
  | .error e => .error e
  | .ok fragments =>
    match findUnvalidated name doc.operations with
    | none => .error (.message (str "Missing operation" ++ nameSuffix name))
    | some (type, op) =>
      if type = str "subscription" then
        .error (.schema [{ message := str "Unexpected subscription" ++ nameSuffix name, location := op.pos }])
      else
        match operationVariables ⟨supplied, S.atoiOverflow⟩ op.variables [] with
        | .error e => .error e
        | .ok vars =>
          match evalDirectives ⟨vars, S.atoiOverflow⟩ op.directives with
          | .error e => .error e
          | .ok ds => .ok ⟨op, fragments, vars, ds⟩

/-- `Request::resolveUnvalidated`, GraphQLService.cpp:1834-1928, and `get()` of the caller: a mutation is deferred altogether, 1880-1884. -/
def resolveUnvalidated (S : Service E O) (launch : Launch) (doc : Document) (name : Str) (supplied : Members) : Outcome (Proc E O) :=
  match prepareUnvalidated S doc name supplied with
  | .error (.schema errors) => .done (.done (.ok { data := errorDocument errors }))
  | .error (.other what) => .done (.done (.error (.other what)))
  | .ok ready =>
    let launch := if operationType ready.op = str "mutation" then .deferred else launch
    match S.operations (operationType ready.op) with
    | none => .undefined
    | some none => .undefined
    | some (some root) =>
      match expand ready.fragments ready.op.sub with
      | none => .undefined
      | some xs =>
        .done (((async launch (execute S.impl launch ⟨ready.variables, S.atoiOverflow⟩ root
          (rootParams (contextOf ready.op) ready.directives) xs) []).bind fun operation =>
        (async launch (operation.get.bind fun r => .pure { data := document r }) operation.owned).bind fun f => f.get) .done)

theorem findUnvalidated_eq (name : Str) (ops : List Operation) :
    findUnvalidated name ops = (findOperation name ops).map fun op => (operationType op, op) := by
  induction ops with
  | nil => rfl
  | cons op ops ih =>
    unfold findUnvalidated findOperation
    split
    · rfl
    · exact ih

theorem prepareUnvalidated_eq (S : Service E O) (doc : Document) (name : Str) (supplied : Members) :
    prepareUnvalidated S doc name supplied = prepare S true doc name supplied := by
  unfold prepareUnvalidated prepare
  simp only [findUnvalidated_eq, validate, if_true]
  cases collectFragments ⟨supplied, S.atoiOverflow⟩ doc.fragments [] with
  | error e => rfl
  | ok fragments =>
    dsimp only
    cases findOperation name doc.operations <;> rfl

/-- The overloads which take a node do what the others do with a document which is marked as validated; only a mutation is always
deferred. -/
theorem unvalidated_same (S : Service E O) (launch : Launch) (doc : Document) (name : Str) (supplied : Members) :
    (∀ op, findOperation name doc.operations = some op → operationType op ≠ str "mutation") →
    resolveUnvalidated S launch doc name supplied = (Call.mk S true doc name supplied).program launch := by
  intro h
  unfold resolveUnvalidated Call.program resolve
  rw [prepareUnvalidated_eq]
  cases hp : prepare S true doc name supplied with
  | error e => cases e <;> rfl
  | ok ready =>
    have hm : operationType ready.op ≠ str "mutation" := h _ (prepare_op hp)
    simp only [runOperation, operationLaunch, if_neg hm]
    rfl

/-- For a mutation the launch policy makes no difference. -/
theorem unvalidated_mutation (S : Service E O) (launch : Launch) (doc : Document) (name : Str) (supplied : Members) :
    (∃ op, findOperation name doc.operations = some op ∧ operationType op = str "mutation") →
    resolveUnvalidated S launch doc name supplied = (Call.mk S true doc name supplied).program .deferred := by
  rintro ⟨op, h1, h2⟩
  unfold resolveUnvalidated Call.program resolve
  rw [prepareUnvalidated_eq]
  cases hp : prepare S true doc name supplied with
  | error e => cases e <;> rfl
  | ok ready =>
    have h3 := prepare_op hp
    rw [h1] at h3
    cases h3
    simp only [runOperation, operationLaunch, if_pos h2]
    rfl

/-- A document which the validator accepts: both overloads are the same with `std::launch::deferred`. -/
theorem unvalidated_valid (S : Service E O) (doc : Document) (name : Str) (supplied : Members) (h : S.validate doc = []) :
    resolveUnvalidated S .deferred doc name supplied = (Call.mk S false doc name supplied).program .deferred := by
  have e : resolveUnvalidated S .deferred doc name supplied = (Call.mk S true doc name supplied).program .deferred := by
    by_cases hm : ∃ op, findOperation name doc.operations = some op ∧ operationType op = str "mutation"
    · exact unvalidated_mutation S _ doc name supplied hm
    · exact unvalidated_same S _ doc name supplied fun op h1 h2 => hm ⟨op, h1, h2⟩
  rw [e]
  unfold Call.program resolve
  have : prepare S true doc name supplied = prepare S false doc name supplied := by
    simp [prepare, validate, h]
  dsimp only
  rw [this]

/-- So every schedule gives the answer of `Request::resolve` with a document which is marked as validated; a mutation is done in the
thread of the caller, in order. -/
theorem unvalidated_answer {S : Service E O} {launch : Launch} {doc : Document} {name : Str} {supplied : Members} {p : Proc E O}
    (hp : resolveUnvalidated S launch doc name supplied = .done p) {t : List (Nat × E)} {c : Config E O} (hs : Steps (start p) t c)
    {r : Except Exn Resp} (ha : Answered c r) :
    ∃ run, Request.resolve S true doc name supplied = .done run ∧ r = run.result ∧
      ((∃ op, findOperation name doc.operations = some op ∧ operationType op = str "mutation") →
        c.threads.length = 1 ∧ events t = run.trace) := by
  by_cases hm : ∃ op, findOperation name doc.operations = some op ∧ operationType op = str "mutation"
  · rw [unvalidated_mutation S launch doc name supplied hm] at hp
    have hr : (Call.mk S true doc name supplied).Reaches .deferred t c := ⟨p, hp, hs⟩
    obtain ⟨run, hd⟩ := (defined_iff _ _).1 ⟨p, hp⟩
    obtain ⟨h1, _, h2⟩ := deferred_order hr hd
    exact ⟨run, hd, answer_same hr hd ha, fun _ => ⟨h1, h2 ⟨r, ha⟩⟩⟩
  · rw [unvalidated_same S launch doc name supplied fun op h1 h2 => hm ⟨op, h1, h2⟩] at hp
    have hr : (Call.mk S true doc name supplied).Reaches launch t c := ⟨p, hp, hs⟩
    obtain ⟨run, hd⟩ := (defined_iff _ _).1 ⟨p, hp⟩
    exact ⟨run, hd, answer_same hr hd ha, fun h => absurd h hm⟩

end Verif.Async
