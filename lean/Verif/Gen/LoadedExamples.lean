import Verif.Gen.LoadedClaims
import Verif.Gen.ResponseExamples

/-!
# Examples for C69
-/
namespace Verif.Gen.Client
open Verif.Value Verif.Resp Verif.Errors Verif.Ast Verif.Modifiers
open Verif.Validation (Schema baseName)
open Verif.Validation.Spec
open Verif.Validation.Examples

/-- `query ($n: String! = "Rex", $o: Opts) { find(name: $n, opts: $o) { name } }` -/
def withOpts : Document := ⟨[
  query (vars := [{ name := str "n", type := required "String", default := some (.string (str "Rex")) },
      { name := str "o", type := named "Opts" }])
    [node "find" [leaf "name"] (args := some [(str "name", var "n"), (str "opts", var "o")])]]⟩

theorem withOpts_wellFormed : WellFormedDocument withOpts := by
  intro op hop d hd
  simp only [withOpts, Document.operations, query, List.filterMap_cons, List.filterMap_nil, List.mem_cons, List.not_mem_nil,
    or_false] at hop
  subst hop
  simp only [List.mem_cons, List.not_mem_nil, or_false] at hd
  rcases hd with rfl | rfl <;> trivial

/-- The request of the example. -/
def optsRequest : Request where
  operation := ⟨{}, some (str "query"), none,
    [{ name := str "n", type := required "String", default := some (.string (str "Rex")) },
      { name := str "o", type := named "Opts" }], none,
    [node "find" [leaf "name"] (args := some [(str "name", var "n"), (str "opts", var "o")])]⟩
  root := str "Query"
  fields := [.mk (str "Pet") [.nullable] (str "find") {} [.mk (str "String") [] (str "name") {} []]]

theorem withOpts_request (depth : Nat) : loadRequest pets (fun n => n) [] depth withOpts = .ok optsRequest := by
  have hv : (Validation.validate pets (fun n => n) withOpts {}).1 = [] := by decide +kernel
  have h1 : responseType pets (str "Query") (str "find") = some (str "Pet", [.nullable]) := by decide +kernel
  have h2 : responseType pets (str "Pet") (str "name") = some (str "String", []) := by decide +kernel
  have c : pets.isComposite (str "Pet") = true := by decide +kernel
  have q : pets.operationType (str "query") = some (str "Query") := by decide +kernel
  unfold loadRequest
  simp only [hv]
  simp [findOperation, chooseOperation, withOpts, Document.operations, Document.fragments, query, node, leaf, field,
    visitSelections, VisitState.enter, VisitState.push, Exec.responseName, h1, h2, c, q, optsRequest]

/-- What is collected: the two variables, the input type `Opts`, and the enum `Mood` of its field. -/
theorem withOpts_loaded : ∃ l, loadAll pets (fun n => n) [] 11 withOpts = .ok l ∧
    l.variables.map (fun v => (v.name, v.type, v.modifiers)) =
      [(str "n", str "String", []), (str "o", str "Opts", [.nullable])] ∧
    l.referenced = { inputTypes := [str "Opts"], enums := [str "Mood"] } := by
  unfold loadAll
  rw [withOpts_request]
  exact ⟨_, rfl, by decide +kernel, by decide +kernel⟩

/-- So the theorems apply to it. -/
theorem withOpts_applies : ∃ l, loadAll pets (fun n => n) [] 11 withOpts = .ok l ∧
    (∀ n, n ∈ l.referenced.enums ↔
      pets.kind n = some .enum ∧ (InVariables pets l.request.operation.variables n ∨ InResponse n l.request.fields)) ∧
    Verif.Request.findOperation [] withOpts.operations = some l.request.operation := by
  obtain ⟨l, hl, _⟩ := withOpts_loaded
  exact ⟨l, hl, (C69_enums pets_ready pets_closed withOpts_wellFormed hl).2,
    (C69_operation pets_ready pets_closed withOpts_wellFormed hl).1⟩

/-- An enum in the response: its field is found below a composite one. -/
theorem response_enum : collectAllEnums pets
    [.mk (str "Pet") [.nullable] (str "pet") {} [.mk (str "Mood") [] (str "mood") {} [], .mk (str "Int") [] (str "age") {} []]] {} =
    { inputTypes := [], enums := [str "Mood"] } := by decide +kernel

/-- `query ($x: Int!, $y: Int! = $x) { find(name: "Rex", limit: $y) { name } }` -/
def variableDefault : Document := ⟨[
  query (vars := [{ name := str "x", type := required "Int" },
      { name := str "y", type := required "Int", default := some (var "x") }])
    [node "find" [leaf "name"] (args := some [(str "name", .string (str "Rex")), (str "limit", var "y")])]]⟩

/-- **C69** (finding) The validator accepts a variable as the default value of a variable; clientgen then throws an exception
in a function which is `noexcept`, and is terminated. -/
theorem C69_variable_default : errors variableDefault = [] ∧
    ∀ depth, loadAll pets (fun n => n) [] depth variableDefault = .error .terminate := by
  have hv : (Validation.validate pets (fun n => n) variableDefault {}).1 = [] := by decide +kernel
  refine ⟨hv, fun depth => ?_⟩
  have h1 : responseType pets (str "Query") (str "find") = some (str "Pet", [.nullable]) := by decide +kernel
  have h2 : responseType pets (str "Pet") (str "name") = some (str "String", []) := by decide +kernel
  have c : pets.isComposite (str "Pet") = true := by decide +kernel
  have q : pets.operationType (str "query") = some (str "Query") := by decide +kernel
  have hr : ∃ r, loadRequest pets (fun n => n) [] depth variableDefault = .ok r ∧ r.operation.variables =
      [{ name := str "x", type := required "Int" }, { name := str "y", type := required "Int", default := some (var "x") }] := by
    unfold loadRequest
    simp only [hv]
    simp [findOperation, chooseOperation, variableDefault, Document.operations, Document.fragments, query, node, leaf, field,
      visitSelections, VisitState.enter, VisitState.push, Exec.responseName, h1, h2, c, q]
  obtain ⟨r, hr, hvars⟩ := hr
  have hw : WellFormedDocument variableDefault := by
    intro op hop d hd
    simp only [variableDefault, Document.operations, query, List.filterMap_cons, List.filterMap_nil, List.mem_cons,
      List.not_mem_nil, or_false] at hop
    subst hop
    simp only [List.mem_cons, List.not_mem_nil, or_false] at hd
    rcases hd with rfl | rfl <;> trivial
  rw [C69_terminates_iff pets_ready pets_closed hw hr, hvars]
  exact ⟨_, List.mem_cons_of_mem _ List.mem_cons_self, ⟨_, rfl⟩, _, _, rfl⟩

end Verif.Gen.Client
