import Verif.Validation.Meaning

/-!
# A schema and documents

Concrete cases for the theorems, and documents which show the limits of validation.

```
type Query { pet: Pet  dog: Dog  find(name: String!, limit: Int! = 10, tags: [String!], opts: Opts, any: Any): Pet }
interface Pet { name: String!  friend: Pet }
type Dog implements Pet { name: String!  friend: Pet  barks(loud: Boolean): Boolean  best(of: Int!): Pet }
type Cat implements Pet { name: String!  friend: Pet  lives: Int  best(of: Int!): Pet }
enum Mood { HAPPY SAD }
input Opts { mood: Mood!  depth: Int! = 3 }
scalar Any
```
-/
namespace Verif.Validation.Examples
open Verif.Value Verif.Resp Verif.Errors Verif.Ast Verif.Validation Verif.Validation.Spec

def named (s : String) : TypeRef := .named (str s)
def required (s : String) : TypeRef := .nonNull (named s)

def petFields : List FieldDef := [⟨str "name", required "String", []⟩, ⟨str "friend", named "Pet", []⟩]
def best : FieldDef := ⟨str "best", named "Pet", [⟨str "of", required "Int", []⟩]⟩

def pets : Schema where
  types := [
    (str "String", { kind := .scalar }), (str "Int", { kind := .scalar }), (str "Boolean", { kind := .scalar }),
    (str "Any", { kind := .scalar }), (str "Mood", { kind := .enum, enumValues := [str "HAPPY", str "SAD"] }),
    (str "Opts", { kind := .inputObject, inputFields := [⟨str "mood", required "Mood", []⟩, ⟨str "depth", required "Int", str "3"⟩] }),
    (str "Pet", { kind := .interface, fields := petFields, possibleTypes := [str "Dog", str "Cat"] }),
    (str "Dog", { kind := .object, fields := petFields ++
      [⟨str "barks", named "Boolean", [⟨str "loud", named "Boolean", []⟩]⟩, best] }),
    (str "Cat", { kind := .object, fields := petFields ++ [⟨str "lives", named "Int", []⟩, best] }),
    (str "Query", { kind := .object, fields := [
      ⟨str "pet", named "Pet", []⟩, ⟨str "dog", named "Dog", []⟩,
      ⟨str "find", named "Pet", [⟨str "name", required "String", []⟩, ⟨str "limit", required "Int", str "10"⟩,
        ⟨str "tags", .list (required "String"), []⟩, ⟨str "opts", named "Opts", []⟩, ⟨str "any", named "Any", []⟩]⟩] })]
  query := str "Query"
  directives := [
    ⟨str "skip", [.field, .fragmentSpread, .inlineFragment], [⟨str "if", required "Boolean", []⟩]⟩,
    ⟨str "include", [.field, .fragmentSpread, .inlineFragment], [⟨str "if", required "Boolean", []⟩]⟩]

/-- The errors of a new validator. -/
def errors (doc : Document) : List Str := (validate pets (fun n => n) doc {}).1

theorem find_mem {S : Schema} {name : Str} {t : TypeDef} (h : S.find name = some t) : t ∈ S.types.map (·.2) := by
  unfold Schema.find at h
  obtain ⟨e, he, rfl⟩ := Option.map_eq_some_iff.mp h
  exact List.mem_map_of_mem (List.mem_reverse.mp (List.mem_of_find?_eq_some he))

/-- The schema meets the assumptions of the theorems. -/
theorem pets_closed : Schema.Closed pets where
  names := rfl
  inputFields := by
    intro name t ht v hv
    have := find_mem ht
    simp only [pets, List.map_cons, List.map_nil, List.mem_cons, List.not_mem_nil, or_false] at this
    rcases this with rfl | rfl | rfl | rfl | rfl | rfl | rfl | rfl | rfl | rfl <;> try (simp at hv; done)
    simp only [List.mem_cons, List.not_mem_nil, or_false] at hv
    rcases hv with rfl | rfl <;> exact ⟨rfl, trivial⟩
  arguments := by
    intro name t ht f hf v hv
    have := find_mem ht
    simp only [pets, List.map_cons, List.map_nil, List.mem_cons, List.not_mem_nil, or_false] at this
    rcases this with rfl | rfl | rfl | rfl | rfl | rfl | rfl | rfl | rfl | rfl <;> try (simp at hf; done)
    · simp only [petFields, List.mem_cons, List.not_mem_nil, or_false] at hf
      rcases hf with rfl | rfl <;> cases hv
    · simp only [petFields, List.cons_append, List.nil_append, List.mem_cons, List.not_mem_nil, or_false] at hf
      rcases hf with rfl | rfl | rfl | rfl
      · cases hv
      · cases hv
      · simp only [List.mem_cons, List.not_mem_nil, or_false] at hv; subst hv; exact ⟨rfl, trivial⟩
      · simp only [best, List.mem_cons, List.not_mem_nil, or_false] at hv; subst hv; exact ⟨rfl, trivial⟩
    · simp only [petFields, List.cons_append, List.nil_append, List.mem_cons, List.not_mem_nil, or_false] at hf
      rcases hf with rfl | rfl | rfl | rfl
      · cases hv
      · cases hv
      · cases hv
      · simp only [best, List.mem_cons, List.not_mem_nil, or_false] at hv; subst hv; exact ⟨rfl, trivial⟩
    · simp only [List.mem_cons, List.not_mem_nil, or_false] at hf
      rcases hf with rfl | rfl | rfl
      · cases hv
      · cases hv
      · simp only [List.mem_cons, List.not_mem_nil, or_false] at hv
        rcases hv with rfl | rfl | rfl | rfl | rfl <;> exact ⟨rfl, trivial⟩
  directives := by
    intro d hd v hv
    simp only [pets, List.mem_cons, List.not_mem_nil, or_false] at hd
    rcases hd with rfl | rfl <;>
    · simp only [List.mem_cons, List.not_mem_nil, or_false] at hv; subst hv; exact ⟨rfl, trivial⟩
  string := rfl

theorem pets_unique : Schema.UniqueNames pets where
  types := by decide +kernel
  fields := by decide +kernel
  inputFields := by decide +kernel
  arguments := by decide +kernel
  directives := by decide +kernel
  directiveArguments := by decide +kernel

/-! ## Documents -/

def field (name : String) (args : Option Args := none) (ds : Option (List Directive) := none) : Field :=
  { pos := {}, name := str name, arguments := args, directives := ds }
def leaf (name : String) (args : Option Args := none) (ds : Option (List Directive) := none) : Selection :=
  .leaf (field name args ds)
def node (name : String) (sub : List Selection) (args : Option Args := none) : Selection := .node (field name args) {} sub
def aliasLeaf (a name : String) (args : Option Args := none) : Selection := .leaf ⟨{}, some (str a), str name, args, none⟩
def aliasNode (a name : String) (sub : List Selection) (args : Option Args := none) : Selection :=
  .node ⟨{}, some (str a), str name, args, none⟩ {} sub
def on (type : String) (sub : List Selection) : Selection := .inline {} (some (str type)) none sub
def spread (name : String) : Selection := .spread {} (str name) none
def fragment (name type : String) (sub : List Selection) : Definition := .fragment ⟨{}, str name, str type, none, sub⟩
def query (sub : List Selection) (vars : List VarDef := []) : Definition :=
  .operation ⟨{}, some (str "query"), none, vars, none, sub⟩
def var (name : String) : Lit := .variable {} (str name)

/-- `query ($n: String!, $d: Int = 5) { find(name: $n, limit: $d, tags: ["a", "b"], opts: { mood: HAPPY }) { ...F ... on Dog
@include(if: true) { barks(loud: true) } } }  fragment F on Pet { name friend { name } }` -/
def good : Document := ⟨[
  query (vars := [{ name := str "n", type := required "String" }, { name := str "d", type := named "Int", default := some (.int 5) }])
    [node "find" (args := some [(str "name", var "n"), (str "limit", var "d"), (str "tags", .list [.string (str "a"), .string (str "b")]),
        (str "opts", .object [(str "mood", .enumValue (str "HAPPY"))])])
      [spread "F",
        .inline {} (some (str "Dog")) (some [⟨str "include", some [(str "if", .boolean true)]⟩])
          [leaf "barks" (some [(str "loud", .boolean true)])]]],
  fragment "F" "Pet" [leaf "name", node "friend" [leaf "name"]]]⟩

/-- It is accepted, so the theorems apply to it. -/
theorem good_accepted : errors good = [] := by decide +kernel

theorem good_wellFormed : WellFormedDocument good := by
  intro op hop d hd
  simp only [good, Document.operations, query, fragment, List.filterMap_cons, List.filterMap_nil, List.mem_cons, List.not_mem_nil,
    or_false] at hop
  subst hop
  simp only [List.mem_cons, List.not_mem_nil, or_false] at hd
  rcases hd with rfl | rfl <;> trivial

theorem good_valid : Valid pets (fun n => n) good := (C48_accepts_iff_valid pets_closed good_wellFormed).mp good_accepted

/-- Wrong documents are rejected: an unknown field, a missing argument, a variable of the wrong type, a cycle. -/
theorem rejected_examples :
    errors ⟨[query [leaf "fish"]]⟩ = [str "Undefined field type: Query name: fish"] ∧
    errors ⟨[query [node "find" [leaf "name"]]]⟩ = [str "Missing argument type: Query field: find name: name"] ∧
    errors ⟨[query (vars := [{ name := str "n", type := named "String" }])
      [node "find" [leaf "name"] (some [(str "name", var "n")])]]⟩ =
      [str "Expected Non-Null variable type", str "Incompatible argument type: Query field: find name: name"] ∧
    errors ⟨[query [node "pet" [spread "F"]], fragment "F" "Pet" [node "friend" [leaf "name", spread "F"]]]⟩ =
      [str "Cyclic fragment spread name: F"] := by
  decide +kernel

/-- The selection sets of the fragment are consistent. -/
theorem good_consistent : ∀ f ∈ good.fragments, Consistent pets good.fragments f.typeCondition f.sub := by
  intro f hf
  simp only [good, Document.fragments, query, fragment, List.filterMap_cons, List.filterMap_nil, List.mem_cons, List.not_mem_nil,
    or_false] at hf
  subst hf
  have sets : ∀ type sel, Below pets good.fragments (str "Pet") [leaf "name", node "friend" [leaf "name"]] type sel →
      sel = [leaf "name", node "friend" [leaf "name"]] ∨ sel = [leaf "name"] := by
    intro type sel hb
    induction hb with
    | self => exact .inl rfl
    | field _ hs _ _ ih =>
      rcases ih with rfl | rfl
      · rcases Selects.cons_iff.mp hs with h | h
        · have := (Selects.leaf_iff.mp h).2.2; cases this
        · have := (Selects.node_iff.mp h).2.2; cases this; exact .inr rfl
      · have := (Selects.leaf_iff.mp hs).2.2; cases this
  intro type sel hb o f sub hs o' f' sub' hs' hn
  rcases sets type sel hb with rfl | rfl
  · rcases Selects.cons_iff.mp hs with h | h <;> rcases Selects.cons_iff.mp hs' with h' | h'
    · rw [(Selects.leaf_iff.mp h).2.2, (Selects.leaf_iff.mp h').2.2]
    · rw [(Selects.leaf_iff.mp h).2.1, (Selects.node_iff.mp h').2.1] at hn
      exact absurd hn (by decide)
    · rw [(Selects.node_iff.mp h).2.1, (Selects.leaf_iff.mp h').2.1] at hn
      exact absurd hn (by decide)
    · rw [(Selects.node_iff.mp h).2.2, (Selects.node_iff.mp h').2.2]
  · rw [(Selects.leaf_iff.mp hs).2.2, (Selects.leaf_iff.mp hs').2.2]

/-! ## Limits of validation -/

/-- `{ pet { ... on Dog { a: friend { name } } ... on Cat { a: friend { ...F } } } } fragment F on Pet { ... the same }` -/
def cyclic : Document :=
  let sub := [on "Dog" [aliasNode "a" "friend" [leaf "name"]], on "Cat" [aliasNode "a" "friend" [spread "F"]]]
  ⟨[query [node "pet" [spread "F"]], fragment "F" "Pet" sub]⟩

/-- **C20** (finding) A document with a cyclic fragment is accepted, if the cycle is below a field whose response name an
earlier field of the selection set has. Its execution on a cat with itself as its friend does not end. -/
theorem C20_cyclic_fragment_accepted :
    errors cyclic = [] ∧ (∃ f ∈ cyclic.fragments, Reaches cyclic.fragments f.sub f.name) ∧
    ∀ env, ∃ m, Request.collectFragments env cyclic.fragments [] = .ok m ∧ Request.expand m [spread "F"] = none := by
  refine ⟨by decide +kernel, ⟨_, List.mem_singleton.mpr rfl, ?_⟩, fun env => ⟨_, rfl, rfl⟩⟩
  exact .inline (List.mem_cons_of_mem _ List.mem_cons_self) (.node List.mem_cons_self (.here List.mem_cons_self))

/-- **C32** (finding) What is below a field is not looked at if an earlier field has its response name: unknown fields and
missing selections are accepted. -/
theorem C32_below_repeated_unchecked :
    errors ⟨[query [node "pet" [on "Dog" [aliasNode "a" "friend" [leaf "name"]],
      on "Cat" [aliasNode "a" "friend" [leaf "fish"]]]]]⟩ = [] ∧
    errors ⟨[query [node "pet" [leaf "name"], leaf "pet"]]⟩ = [] := by decide +kernel

/-- **C33** (finding) Agreement with the first field is not agreement with each other: after `a: name` of dogs, the fields
`a: best(of: 1)` and `a: best(of: 2)` of cats are both accepted. -/
theorem C33_conflict_accepted :
    errors ⟨[query [node "pet" [on "Dog" [aliasNode "a" "friend" [leaf "name"]],
      on "Cat" [aliasNode "a" "best" [leaf "name"] (some [(str "of", .int 1)])],
      on "Cat" [aliasNode "a" "best" [leaf "name"] (some [(str "of", .int 2)])]]]]⟩ = [] := by decide +kernel

/-- **C29** (finding) The arguments of such a field are not looked at either: here a required one is missing and another is
unknown. -/
theorem C29_repeated_arguments_unchecked :
    errors ⟨[query [node "pet" [on "Dog" [aliasNode "a" "friend" [leaf "name"]],
      on "Cat" [aliasNode "a" "best" [leaf "name"] (some [(str "fish", .int 1)])]]]]⟩ = [] := by decide +kernel

/-- **C29** (finding) `@include` without its required argument is accepted if it is written without parentheses. -/
theorem C29_directive_without_arguments :
    errors ⟨[query [.leaf (field "__typename" none (some [⟨str "include", none⟩]))]]⟩ = [] := by decide +kernel

/-- **C29** (finding) The null literal is accepted for a non-null argument with a default, and the resolver gets it. -/
theorem C29_null_for_non_null :
    errors ⟨[query [node "find" [leaf "name"] (some [(str "name", .string (str "a")), (str "limit", .null)])]]⟩ = [] ∧
    ∀ env, Exec.evalArgs env [(str "name", .string (str "a")), (str "limit", .null)] [] =
      .ok [(str "name", .string (str "a") false), (str "limit", .null)] := ⟨by decide +kernel, fun _ => rfl⟩

/-- **C29** (finding) A single value is not accepted for a list type. -/
theorem C29_no_list_coercion :
    errors ⟨[query [node "find" [leaf "name"] (some [(str "name", .string (str "a")), (str "tags", .string (str "b"))])]]⟩ =
      [str "Expected List value", str "Incompatible argument type: Query field: find name: tags"] := by decide +kernel

/-- **C30** (finding) A variable which is not declared is accepted inside of a literal of a custom scalar type, and one
which is only used there counts as unused. -/
theorem C30_variables_in_custom_scalars :
    errors ⟨[query [node "find" [leaf "name"] (some [(str "name", .string (str "a")), (str "any", .list [var "x"])])]]⟩ = [] ∧
    errors ⟨[query (vars := [{ name := str "x", type := named "Int" }])
      [node "find" [leaf "name"] (some [(str "name", .string (str "a")), (str "any", .list [var "x"])])]]⟩ =
      [str "Unused variable name: x"] := by decide +kernel

/-- `mutation ($x: Int) { fish }` -/
def unsupported : Document :=
  ⟨[.operation ⟨{}, some (str "mutation"), none, [{ name := str "x", type := named "Int" }], none, [leaf "fish"]⟩]⟩

/-- **C31** (finding) After an operation of a type which the schema does not have, the variables of the operation are still
there: the next document, valid by itself, is rejected. -/
theorem C31_unsupported_operation_leaks :
    errors ⟨[query [node "pet" [leaf "name"]]]⟩ = [] ∧
    (validate pets (fun n => n) ⟨[query [node "pet" [leaf "name"]]]⟩ (visitorAfter pets (fun n => n) [unsupported])).1 =
      [str "Unused variable name: x"] := by decide +kernel

end Verif.Validation.Examples
