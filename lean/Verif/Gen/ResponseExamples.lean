import Verif.Gen.ResponseClaims

/-!
# Examples for C56
-/
namespace Verif.Gen.Client
open Verif.Value Verif.Errors Verif.Ast Verif.Modifiers
open Verif.Validation (Schema baseName Acyclic)
open Verif.Validation.Spec
open Verif.Validation.Examples

/-- The schema meets the assumptions. -/
theorem pets_ready : Ready pets where
  unique := pets_unique
  proper := by
    intro e he f hf
    simp only [pets, List.mem_cons, List.not_mem_nil, or_false] at he
    rcases he with rfl | rfl | rfl | rfl | rfl | rfl | rfl | rfl | rfl | rfl <;> try (simp at hf; done)
    all_goals
      simp only [petFields, best, named, required, List.cons_append, List.nil_append, List.mem_cons, List.not_mem_nil,
        or_false] at hf
      rcases hf with rfl | rfl | rfl | rfl <;> first | exact .named | exact .nonNullNamed

mutual
/-- A field of the result and those below it: depth, response name, and the name and the modifiers of its type. -/
def ResponseField.shape (depth : Nat) : ResponseField → List (Nat × Str × Str × List Mod)
  | .mk type ms name _ children => (depth, name, type, ms) :: shapes (depth + 1) children
def shapes (depth : Nat) : List ResponseField → List (Nat × Str × Str × List Mod)
  | [] => []
  | f :: fs => f.shape depth ++ shapes depth fs
end

/-- The members for a document with one operation, or the exception. -/
def membersOf (depth : Nat) (doc : Document) : Option (List (Nat × Str × Str × List Mod)) :=
  match loadRequest pets (fun n => n) [] depth doc with
  | .ok r => some (shapes 0 r.fields)
  | .error _ => none

/-- The members of `good`: `find`, and in it those of the fragments. -/
theorem good_members : membersOf 1 good = some [
    (0, str "find", str "Pet", [.nullable]),
    (1, str "name", str "String", []),
    (1, str "friend", str "Pet", [.nullable]),
    (2, str "name", str "String", []),
    (1, str "barks", str "Boolean", [.nullable])] := by
  have hv : (Validation.validate pets (fun n => n) good {}).1 = [] := good_accepted
  have h1 : responseType pets (str "Query") (str "find") = some (str "Pet", [.nullable]) := by decide +kernel
  have h2 : responseType pets (str "Pet") (str "name") = some (str "String", []) := by decide +kernel
  have h3 : responseType pets (str "Pet") (str "friend") = some (str "Pet", [.nullable]) := by decide +kernel
  have h4 : responseType pets (str "Dog") (str "barks") = some (str "Boolean", [.nullable]) := by decide +kernel
  have c : pets.isComposite (str "Pet") = true := by decide +kernel
  have k1 : pets.find (str "Pet") ≠ none := fun h => absurd (congrArg Option.isSome h) (by decide +kernel)
  have k2 : pets.find (str "Dog") ≠ none := fun h => absurd (congrArg Option.isSome h) (by decide +kernel)
  have n1 : str "friend" ≠ str "name" := by decide
  have n2 : str "barks" ≠ str "name" := by decide
  have n3 : str "barks" ≠ str "friend" := by decide
  have q : pets.operationType (str "query") = some (str "Query") := by decide +kernel
  unfold membersOf loadRequest
  simp only [hv]
  simp [findOperation, chooseOperation, good, Document.operations, Document.fragments, query, fragment, node, leaf, field,
    spread, visitSelections, mergeFields, VisitState.enter, VisitState.push, Exec.responseName, ResponseField.name,
    h1, h2, h3, h4, c, k1, k2, n1, n2, n3, q, shapes, ResponseField.shape]

/-- So `C56_response` applies to it. -/
theorem good_response : ∃ r, loadRequest pets (fun n => n) [] 1 good = .ok r ∧
    Members pets good.fragments (str "Query") r.operation.sub r.fields := by
  cases h : loadRequest pets (fun n => n) [] 1 good with
  | error e =>
    have := good_members
    rw [membersOf, h] at this
    cases this
  | ok r =>
    obtain ⟨_, hch, hroot, hm⟩ := C56_response pets_ready pets_closed good_wellFormed h
    have hop : r.operation ∈ good.operations := hch.mem
    simp only [good, Document.operations, query, fragment, List.filterMap_cons, List.filterMap_nil, List.mem_cons,
      List.not_mem_nil, or_false] at hop
    have hr : r.root = str "Query" := by
      rw [hop] at hroot
      simpa [Schema.operationType, pets] using hroot.symm
    rw [hr] at hm
    exact ⟨r, rfl, hm⟩

/-- `{ pet { name ...F } }  fragment F on Pet { friend { name } }` -/
def small : Document := ⟨[query [node "pet" [leaf "name", spread "F"]], fragment "F" "Pet" [node "friend" [leaf "name"]]]⟩

theorem small_accepted : errors small = [] := by decide +kernel

theorem small_wellFormed : WellFormedDocument small := by
  intro op hop d hd
  simp only [small, Document.operations, query, fragment, List.filterMap_cons, List.filterMap_nil, List.mem_cons,
    List.not_mem_nil, or_false] at hop
  subst hop
  simp at hd

theorem small_find : small.fragments.find? (fun f => f.name == str "F") =
    some ⟨{}, str "F", str "Pet", none, [node "friend" [leaf "name"]]⟩ := by rfl

/-- Its selection sets are consistent. -/
theorem small_sets {type0 : Str} {sel0 : List Selection}
    (h0 : sel0 = [node "pet" [leaf "name", spread "F"]] ∨ sel0 = [node "friend" [leaf "name"]]) :
    Consistent pets small.fragments type0 sel0 := by
  have one : ∀ {type on : Str} {f : Field} {name : String} {below : List Selection} {sub : Option (List Selection)},
      Selects small.fragments type [node name below] on f sub → f = field name ∧ sub = some below := by
    intro type on f name below sub h
    exact (Selects.node_iff.mp h).2
  have name : ∀ {type on : Str} {f : Field} {sub : Option (List Selection)},
      Selects small.fragments type [leaf "name"] on f sub → f = field "name" ∧ sub = none := by
    intro type on f sub h
    exact (Selects.leaf_iff.mp h).2
  have both : ∀ {type on : Str} {f : Field} {sub : Option (List Selection)},
      Selects small.fragments type [leaf "name", spread "F"] on f sub →
      (f = field "name" ∧ sub = none) ∨ (f = field "friend" ∧ sub = some [leaf "name"]) := by
    intro type on f sub h
    rcases Selects.cons_iff.mp h with h | h
    · exact .inl (name h)
    · exact .inr (one ((Selects.spread_iff small_find).mp h))
  have sets : ∀ type sel, Below pets small.fragments type0 sel0 type sel →
      sel = [node "pet" [leaf "name", spread "F"]] ∨ sel = [leaf "name", spread "F"] ∨ sel = [node "friend" [leaf "name"]] ∨
        sel = [leaf "name"] := by
    intro type sel hb
    induction hb with
    | self =>
      rcases h0 with rfl | rfl
      · exact .inl rfl
      · exact .inr (.inr (.inl rfl))
    | field _ hs _ _ ih =>
      rcases ih with rfl | rfl | rfl | rfl
      · have := (one hs).2; cases this; exact .inr (.inl rfl)
      · rcases both hs with h | h
        · cases h.2
        · cases h.2; exact .inr (.inr (.inr rfl))
      · have := (one hs).2; cases this; exact .inr (.inr (.inr rfl))
      · cases (name hs).2
  intro type sel hb on f sub hs on' f' sub' hs' hn
  rcases sets type sel hb with rfl | rfl | rfl | rfl
  · rw [(one hs).2, (one hs').2]
  · rcases both hs with h | h <;> rcases both hs' with h' | h'
    · rw [h.2, h'.2]
    · rw [h.1, h'.1] at hn
      exact absurd hn (by decide)
    · rw [h.1, h'.1] at hn
      exact absurd hn (by decide)
    · rw [h.2, h'.2]
  · rw [(one hs).2, (one hs').2]
  · rw [(name hs).2, (name hs').2]

/-- `C56_total` applies to it. -/
theorem small_total : ∃ r, ∀ depth, 1 ≤ depth → loadRequest pets (fun n => n) [] depth small = .ok r := by
  refine C56_total pets_ready pets_closed small_wellFormed
    ((Validation.C48_accepts_iff_valid pets_closed small_wellFormed).mp small_accepted) (.first rfl)
    (fun root _ => small_sets (.inl rfl)) ?_ ?_
  · intro f hf
    simp only [small, Document.fragments, query, fragment, List.filterMap_cons, List.filterMap_nil, List.mem_cons,
      List.not_mem_nil, or_false] at hf
    subst hf
    exact small_sets (.inr rfl)
  · have l : ¬ EmptyCondition small.fragments [leaf "name"] := by
      intro h
      cases h <;> rename_i hm <;> simp [leaf] at hm
    have fr : ¬ EmptyCondition small.fragments [node "friend" [leaf "name"]] := by
      intro h
      cases h with
      | here hm => simp [node] at hm
      | node hm h =>
        simp only [node, List.mem_singleton, Selection.node.injEq] at hm
        obtain ⟨_, _, rfl⟩ := hm
        exact l h
      | inline hm => simp [node] at hm
      | spread hm => simp [node] at hm
    have pet : ¬ EmptyCondition small.fragments [leaf "name", spread "F"] := by
      intro h
      cases h with
      | here hm => simp [leaf, spread] at hm
      | node hm h => simp [leaf, spread] at hm
      | inline hm => simp [leaf, spread] at hm
      | spread hm hf h =>
        simp only [leaf, spread, List.mem_cons, List.not_mem_nil, or_false, reduceCtorEq, false_or,
          Selection.spread.injEq] at hm
        obtain ⟨_, rfl, _⟩ := hm
        rw [small_find] at hf
        cases hf
        exact fr h
    intro h
    cases h with
    | here hm => simp [node] at hm
    | node hm h =>
      simp only [node, List.mem_singleton, Selection.node.injEq] at hm
      obtain ⟨_, _, rfl⟩ := hm
      exact pet h
    | inline hm => simp [node] at hm
    | spread hm => simp [node] at hm

/-! ## Findings -/

/-- **C56** (finding) A document with a cycle of fragments which the validator accepts makes clientgen recurse until the
stack is exhausted. -/
theorem C56_cyclic_never_ends : errors cyclic = [] ∧
    ∀ depth, loadRequest pets (fun n => n) [] depth cyclic = .error .depth := by
  refine ⟨by decide +kernel, ?_⟩
  have key : ∀ d, visitSelections pets cyclic.fragments d (str "Pet")
      [on "Dog" [aliasNode "a" "friend" [leaf "name"]], on "Cat" [aliasNode "a" "friend" [spread "F"]]] {} =
      .error .depth := by
    have hdog : ∀ d st, visitSelections pets cyclic.fragments d (str "Dog") [aliasNode "a" "friend" [leaf "name"]] {} = st →
        ∃ f, st = .ok ⟨[str "a"], [f]⟩ ∧ f.name = str "a" := by
      rintro d st rfl
      have h1 : responseType pets (str "Dog") (str "friend") = some (str "Pet", [.nullable]) := by decide +kernel
      have h2 : responseType pets (str "Pet") (str "name") = some (str "String", []) := by decide +kernel
      have h3 : pets.isComposite (str "Pet") = true := by decide +kernel
      simp [aliasNode, leaf, field, visitSelections, h1, h2, h3, VisitState.enter, VisitState.push, Exec.responseName,
        ResponseField.name]
      intro h
      exact absurd h (by decide)
    intro d
    induction d with
    | zero =>
      obtain ⟨f, hf, _⟩ := hdog 0 _ rfl
      have h1 : responseType pets (str "Cat") (str "friend") = some (str "Pet", [.nullable]) := by decide +kernel
      have h3 : pets.isComposite (str "Pet") = true := by decide +kernel
      have h4 : (pets.find (str "Dog")).isNone = false := by decide +kernel
      have h5 : (pets.find (str "Cat")).isNone = false := by decide +kernel
      have h6 : (pets.find (str "Pet")).isNone = false := by decide +kernel
      have h7 : cyclic.fragments.find? (fun f => f.name == str "F") = some ⟨{}, str "F", str "Pet", none,
        [on "Dog" [aliasNode "a" "friend" [leaf "name"]], on "Cat" [aliasNode "a" "friend" [spread "F"]]]⟩ := by rfl
      simp only [on, visitSelections, h4, h5, hf]
      simp [aliasNode, spread, visitSelections, h1, h3, h6, h7]
    | succ d ih =>
      obtain ⟨f, hf, _⟩ := hdog (d + 1) _ rfl
      have h1 : responseType pets (str "Cat") (str "friend") = some (str "Pet", [.nullable]) := by decide +kernel
      have h3 : pets.isComposite (str "Pet") = true := by decide +kernel
      have h4 : (pets.find (str "Dog")).isNone = false := by decide +kernel
      have h5 : (pets.find (str "Cat")).isNone = false := by decide +kernel
      have h6 : (pets.find (str "Pet")).isNone = false := by decide +kernel
      have h7 : cyclic.fragments.find? (fun f => f.name == str "F") = some ⟨{}, str "F", str "Pet", none,
        [on "Dog" [aliasNode "a" "friend" [leaf "name"]], on "Cat" [aliasNode "a" "friend" [spread "F"]]]⟩ := by rfl
      have h8 : visitSelections pets cyclic.fragments (d + 1) (str "Pet") [spread "F"] {} = .error .depth := by
        unfold spread visitSelections
        simp only [h7, h6, ih]
        simp
      rw [on, on, visitSelections]
      simp only [h4, hf]
      simp only [Bool.false_eq_true, if_false]
      rw [visitSelections]
      simp only [h5, Bool.false_eq_true, if_false]
      have h9 : visitSelections pets cyclic.fragments (d + 1) (str "Cat") [aliasNode "a" "friend" [spread "F"]] {} =
          .error .depth := by
        rw [aliasNode, visitSelections]
        simp only [h1, h3, h8]
        simp
      rw [h9]
  intro depth
  have hv : (Validation.validate pets (fun n => n) cyclic {}).1 = [] := by
    have : errors cyclic = [] := by decide +kernel
    exact this
  have hfind : findOperation pets [] cyclic = .ok (⟨{}, some (str "query"), none, [], none, [node "pet" [spread "F"]]⟩, str "Query") := by
    rfl
  have h1 : responseType pets (str "Query") (str "pet") = some (str "Pet", [.nullable]) := by decide +kernel
  have h3 : pets.isComposite (str "Pet") = true := by decide +kernel
  have h6 : (pets.find (str "Pet")).isNone = false := by decide +kernel
  have h7 : cyclic.fragments.find? (fun f => f.name == str "F") = some ⟨{}, str "F", str "Pet", none,
    [on "Dog" [aliasNode "a" "friend" [leaf "name"]], on "Cat" [aliasNode "a" "friend" [spread "F"]]]⟩ := by rfl
  have h8 : visitSelections pets cyclic.fragments depth (str "Pet") [spread "F"] {} = .error .depth := by
    unfold spread visitSelections
    simp only [h7, h6]
    cases depth with
    | zero => simp
    | succ d => simp [key d]
  have h9 : visitSelections pets cyclic.fragments depth (str "Query") [node "pet" [spread "F"]] {} = .error .depth := by
    rw [node, visitSelections]
    simp only [field, h1, h3, h8]
    simp
  unfold loadRequest
  simp only [hv, hfind, h9]

/-- **C56** (finding) The selections of a repeated field are lost: for `{ pet { name } pet { friend { name } } }` the
response has a pet with a name and a friend, but the generated structure only has the name. -/
theorem C56_repeated_field_lost :
    membersOf 0 ⟨[query [node "pet" [leaf "name"], node "pet" [node "friend" [leaf "name"]]]]⟩ =
      some [(0, str "pet", str "Pet", [.nullable]), (1, str "name", str "String", [])] := by
  have hv : (Validation.validate pets (fun n => n)
    ⟨[query [node "pet" [leaf "name"], node "pet" [node "friend" [leaf "name"]]]]⟩ {}).1 = [] := by decide +kernel
  have h1 : responseType pets (str "Query") (str "pet") = some (str "Pet", [.nullable]) := by decide +kernel
  have h2 : responseType pets (str "Pet") (str "name") = some (str "String", []) := by decide +kernel
  have c : pets.isComposite (str "Pet") = true := by decide +kernel
  have q : pets.operationType (str "query") = some (str "Query") := by decide +kernel
  unfold membersOf loadRequest
  simp only [hv]
  simp [findOperation, chooseOperation, Document.operations, Document.fragments, query, node, leaf, field,
    visitSelections, VisitState.enter, VisitState.push, Exec.responseName,
    h1, h2, c, q, shapes, ResponseField.shape]

/-- **C56** (finding) `{ pet { name } ... { pet { ...Fish } } }` is accepted by the validator, but clientgen stops with the
exception for an unknown fragment. -/
theorem C56_unknown_fragment :
    let doc : Document := ⟨[query [node "pet" [leaf "name"], .inline {} none none [node "pet" [spread "Fish"]]]]⟩
    errors doc = [] ∧ ∀ depth, loadRequest pets (fun n => n) [] depth doc =
      .error (.exception (.schema [{ message := str "Unknown fragment name: Fish", location := {} }])) := by
  refine ⟨by decide +kernel, fun depth => ?_⟩
  have hv : (Validation.validate pets (fun n => n)
    ⟨[query [node "pet" [leaf "name"], .inline {} none none [node "pet" [spread "Fish"]]]]⟩ {}).1 = [] := by decide +kernel
  unfold loadRequest
  simp only [hv]
  have hfind : findOperation pets [] ⟨[query [node "pet" [leaf "name"], .inline {} none none [node "pet" [spread "Fish"]]]]⟩ =
      .ok (⟨{}, some (str "query"), none, [], none,
        [node "pet" [leaf "name"], .inline {} none none [node "pet" [spread "Fish"]]]⟩, str "Query") := by rfl
  have hfr : Document.fragments ⟨[query [node "pet" [leaf "name"], .inline {} none none [node "pet" [spread "Fish"]]]]⟩ = [] := rfl
  have h1 : responseType pets (str "Query") (str "pet") = some (str "Pet", [.nullable]) := by decide +kernel
  have h2 : responseType pets (str "Pet") (str "name") = some (str "String", []) := by decide +kernel
  have h3 : pets.isComposite (str "Pet") = true := by decide +kernel
  simp only [hfind, hfr]
  simp [node, leaf, field, spread, visitSelections, h1, h2, h3, unknownFragment]
  rfl

/-- **C56** (finding) The message for an operation which is not there never has its name. -/
theorem C56_missing_operation (S : Schema) {overflow : Int → Int} {doc : Document} {name : Str}
    (hv : (Validation.validate S overflow doc {}).1 = []) (h : ∀ op, ¬ Chosen name doc.operations op) (depth : Nat) :
    loadRequest S overflow name depth doc = .error (.exception (.message (str "Missing operation"))) := by
  have hnone : chooseOperation name doc = none := by
    rw [Option.eq_none_iff_forall_not_mem]
    exact fun op hop => h op (chooseOperation_iff.mp hop)
  unfold loadRequest findOperation
  simp only [hv, hnone]

end Verif.Gen.Client
