import Verif.Gen.ParseClaims
import Verif.Gen.ResponseExamples

/-!
# Examples for C57
-/
namespace Verif.Gen.Client
open Verif.Value Verif.Resp Verif.Errors Verif.Ast Verif.Modifiers
open Verif.Validation (Schema baseName)
open Verif.Validation.Spec
open Verif.Validation.Examples

theorem pets_enums : EnumsSafe pets := by
  have : ∀ e ∈ pets.types, e.2.enumValues.Nodup ∧ ∀ v ∈ e.2.enumValues, safeName v = v := by decide +kernel
  exact this

/-- `{ "pet": { "name": "Rex", "friend": null } }` -/
def rex : Resp := .map [(str "pet", .map [(str "name", .string (str "Rex") true), (str "friend", .null)])]

theorem rex_noDuplicates : NoDuplicates rex := by
  refine .map (by simp) fun m hm => ?_
  simp only [List.mem_singleton] at hm
  subst hm
  refine .map (by decide) fun m hm => ?_
  simp only [List.mem_cons, List.not_mem_nil, or_false] at hm
  rcases hm with rfl | rfl
  · exact .other (by nofun) (by nofun)
  · exact .other (by nofun) (by nofun)

/-- It is an answer to `small`. -/
theorem rex_answers : Answers pets small.fragments (.named (str "Query")) (some [node "pet" [leaf "name", spread "F"]]) rex := by
  have hf : Flat small.fragments (str "Query") [node "pet" [leaf "name", spread "F"]]
      [⟨str "Query", field "pet", some [leaf "name", spread "F"]⟩] := .node .nil
  have hp : Flat small.fragments (str "Pet") [leaf "name", spread "F"]
      ([⟨str "Pet", field "name", none⟩, ⟨str "Pet", field "friend", some [leaf "name"]⟩] ++ []) :=
    .leaf (.spread (fragment := ⟨{}, str "F", str "Pet", none, [node "friend" [leaf "name"]]⟩) small_find (.node .nil) .nil)
  refine .object (by decide +kernel) hf (by simp)
    (fun _ => ⟨str "Query", field "pet", some [leaf "name", spread "F"]⟩) (fun _ => ⟨str "pet", named "Pet", []⟩) ?_ ?_
  · intro n v hm
    simp only [List.mem_singleton, Prod.mk.injEq] at hm
    obtain ⟨rfl, rfl⟩ := hm
    exact ⟨List.mem_singleton.mpr rfl, rfl, by rfl⟩
  · intro n v hm
    simp only [List.mem_singleton, Prod.mk.injEq] at hm
    obtain ⟨rfl, rfl⟩ := hm
    refine .object (by decide +kernel) hp (by decide)
      (fun n => if n = str "name" then ⟨str "Pet", field "name", none⟩ else ⟨str "Pet", field "friend", some [leaf "name"]⟩)
      (fun n => if n = str "name" then ⟨str "name", required "String", []⟩ else ⟨str "friend", named "Pet", []⟩) ?_ ?_
    · intro n v hm
      simp only [List.mem_cons, Prod.mk.injEq, List.not_mem_nil, or_false] at hm
      rcases hm with ⟨rfl, rfl⟩ | ⟨rfl, rfl⟩
      · exact ⟨by simp, rfl, by rfl⟩
      · have : str "friend" ≠ str "name" := by decide
        simp only [if_neg this]
        exact ⟨by simp, rfl, by rfl⟩
    · intro n v hm
      simp only [List.mem_cons, Prod.mk.injEq, List.not_mem_nil, or_false] at hm
      rcases hm with ⟨rfl, rfl⟩ | ⟨rfl, rfl⟩
      · simp only [if_pos]
        refine .nonNull (by nofun) (.leaf (d := .string (str "Rex")) (by decide +kernel) (.string (.builtin ?_ ?_)))
        · intro h
          have : pets.kind (str "String") = some .scalar := by decide +kernel
          rw [this] at h
          cases h
        · simp [builtinTypes]
      · have : str "friend" ≠ str "name" := by decide
        simp only [if_neg this]
        exact .null

/-- `C57_answers` applies to it. -/
theorem rex_read : ∃ r d, loadRequest pets (fun n => n) [] 1 small = .ok r ∧ parseResponse pets r.fields rex = .ok d ∧
    Represents pets r.root r.fields [] rex (.leaf d) := by
  obtain ⟨r, hr⟩ := small_total
  have h := hr 1 (by omega)
  obtain ⟨_, hch, hroot, _⟩ := C56_response pets_ready pets_closed small_wellFormed h
  have hop : r.operation = ⟨{}, some (str "query"), none, [], none, [node "pet" [leaf "name", spread "F"]]⟩ := by
    have hm := hch.mem
    simpa [small, Document.operations, query, fragment] using hm
  have hq : r.root = str "Query" := by
    have : pets.operationType (str "query") = some (str "Query") := by decide +kernel
    rw [hop] at hroot
    simp only [Option.getD_some, this, Option.some.injEq] at hroot
    exact hroot.symm
  obtain ⟨d, h1, h2⟩ := C57_answers pets_ready pets_closed pets_enums small_wellFormed h
    (by rw [hq]; decide +kernel) (by rw [hop]; exact small_sets (.inl rfl)) rex_noDuplicates
    (by rw [hop, hq]; exact rex_answers) (by nofun)
  exact ⟨r, d, h, h1, h2⟩

/-- The structure of `small`. -/
def smallFields : List ResponseField := [.mk (str "Pet") [.nullable] (str "pet") {} [
  .mk (str "String") [] (str "name") {} [],
  .mk (str "Pet") [.nullable] (str "friend") {} [.mk (str "String") [] (str "name") {} []]]]

/-- What is read. -/
theorem rex_value : parseResponse pets smallFields rex = .ok (.object [(str "pet", .some (.leaf (.object [
    (str "name", .leaf (.string (str "Rex"))), (str "friend", .none)])))]) := by rfl

/-! ## Findings -/

/-- **C57** (finding) `{ pet { ... on Dog { a: friend { x: name } } ... on Cat { a: friend { x: friend { name } } } } }` is
accepted by the validator, and code is generated for it, but the answer for a cat makes `parseResponse` throw. -/
theorem C57_inconsistent_throws :
    let doc : Document := ⟨[query [node "pet" [
      on "Dog" [aliasNode "a" "friend" [aliasLeaf "x" "name"]],
      on "Cat" [aliasNode "a" "friend" [aliasNode "x" "friend" [leaf "name"]]]]]]⟩
    let cat : Resp := .map [(str "pet", .map [(str "a", .map [(str "x", .map [(str "name", .string (str "Tom") true)])])])]
    errors doc = [] ∧ membersOf 0 doc = some [(0, str "pet", str "Pet", [.nullable]), (1, str "a", str "Pet", [.nullable]),
      (2, str "x", str "String", [])] ∧
    ∀ p1 p2 p3, ∃ e, parseResponse pets [.mk (str "Pet") [.nullable] (str "pet") p1 [.mk (str "Pet") [.nullable] (str "a") p2 [
      .mk (str "String") [] (str "x") p3 []]]] cat = .error e := by
  refine ⟨by decide +kernel, ?_, fun _ _ _ => ⟨_, rfl⟩⟩
  have hv : (Validation.validate pets (fun n => n) ⟨[query [node "pet" [
      on "Dog" [aliasNode "a" "friend" [aliasLeaf "x" "name"]],
      on "Cat" [aliasNode "a" "friend" [aliasNode "x" "friend" [leaf "name"]]]]]]⟩ {}).1 = [] := by decide +kernel
  have h1 : responseType pets (str "Query") (str "pet") = some (str "Pet", [.nullable]) := by decide +kernel
  have h2 : responseType pets (str "Pet") (str "name") = some (str "String", []) := by decide +kernel
  have h3 : responseType pets (str "Dog") (str "friend") = some (str "Pet", [.nullable]) := by decide +kernel
  have h4 : responseType pets (str "Cat") (str "friend") = some (str "Pet", [.nullable]) := by decide +kernel
  have h5 : responseType pets (str "Pet") (str "friend") = some (str "Pet", [.nullable]) := by decide +kernel
  have c : pets.isComposite (str "Pet") = true := by decide +kernel
  have k1 : pets.find (str "Cat") ≠ none := fun h => absurd (congrArg Option.isSome h) (by decide +kernel)
  have k2 : pets.find (str "Dog") ≠ none := fun h => absurd (congrArg Option.isSome h) (by decide +kernel)
  have q : pets.operationType (str "query") = some (str "Query") := by decide +kernel
  have e1 : str "a" ≠ [] := by decide
  have e2 : str "x" ≠ [] := by decide
  unfold membersOf loadRequest
  simp only [hv]
  simp [findOperation, chooseOperation, Document.operations, Document.fragments, query, node, leaf, field, on, aliasNode,
    aliasLeaf, visitSelections, mergeFields, VisitState.enter, VisitState.push, Exec.responseName, ResponseField.name,
    h1, h2, h3, h4, h5, c, k1, k2, q, shapes, ResponseField.shape, e1, e2]

/-- **C57** (finding) An enum value whose name is not a safe C++ name cannot be read. The service sends it as it is. -/
theorem C57_unsafe_enum_value :
    let S : Schema := { types := [(str "Mood", { kind := .enum, enumValues := [str "_HAPPY", str "SAD"] })], query := str "Query" }
    parseLeaf S (str "Mood") (.string (str "_HAPPY") true) = .error (.other (str "not a valid Mood value")) ∧
    parseLeaf S (str "Mood") (.string (str "HAPPY") true) = .ok (.enum 0) := by
  constructor <;> rfl

/-- **C57** (finding) What is not there, or has the wrong kind, is not always noticed: a response without members, and one
which is a number, are read as empty structures, and an object where a list is expected as an empty list. -/
theorem C57_lenient (S : Schema) (fields : List ResponseField) :
    parseResponse S fields (.map []) = .ok (.object (emptyFields S fields)) ∧
    parseResponse S fields (.int 1) = .ok (.object (emptyFields S fields)) ∧
    ∀ type pos children v, (∀ vs, v ≠ .list vs) →
      parseField S (.mk type [.list] (str "xs") pos children) v = .ok (.list []) := by
  refine ⟨rfl, rfl, ?_⟩
  intro type pos children v hv
  rw [parseField]
  simp only [Modifiers.parse]

end Verif.Gen.Client
