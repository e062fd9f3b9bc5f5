import Verif.Intro.Plain
import Verif.View.Examples

/-!
# C64: examples
-/
namespace Verif.Intro.Examples
open Verif.Value Verif.Resp Verif.Errors Verif.Ast Verif.Exec
open Verif.Gen (Loader DistinctNames Unchecked FreshAddrs generatedSchema visitDefinitions validateSchema accepted)
open Verif.TypeSystem (Schema Addr Op)
open Verif.Request (Service resolve response)
open Verif.Validation.Spec
open Verif.Sound (StaticType ValueOf Throws Serves Accepted Supplied)
open Verif.View (declared Fresh Reachable Validator)

/-! ## The schema document -/

/-- `type Query { "says hello" hello(times: Int! = 3): String  old: [Color!]! @deprecated(reason: "new is better") }
enum Color { RED GREEN }` -/
def exampleSchema : List Gen.TypeDef :=
  [.object [] (str "Query") []
    [{ description := str "says hello", name := str "hello", type := .named (str "String")
       arguments := [{ name := str "times", type := .nonNull (.named (str "Int")), default := some ⟨.int 3, str "3"⟩ }] },
     { name := str "old", type := .nonNull (.list (.nonNull (.named (str "Color"))))
       directives := [⟨str "deprecated", some [(str "reason", .string (str "new is better"))]⟩] }],
   .enum [] (str "Color") [{ value := str "RED" }, { value := str "GREEN" }]]

/-! ## The service -/

def hello : Resolver Str Unit := ⟨.nullable .leaf, fun _ => .pure (.value (.present (.leaf (.string (str "hello") false))))⟩
def old : Resolver Str Unit := ⟨.list .enum, fun _ => .pure (.value (.list [.leaf (.enumValue (str "GREEN"))]))⟩
def typename : Resolver Str Unit := ⟨.leaf, fun _ => .pure (.value (.leaf (.string (str "Query") false)))⟩

def exampleImpl : Impl Str Unit where
  typeNames _ := [str "Query"]
  resolver _ name := List.lookup name [(str "hello", hello), (str "old", old), (str "__typename", typename)]
  beginSet _ _ := .pure ()
  endSet _ _ := .pure ()

def exampleUser (l : Loader) : Service Str Unit where
  impl := exampleImpl
  operations type := if type = str "query" then some (some ()) else none
  validate doc := (Validation.validate (declared true l) id doc {}).1.map fun m => { message := m }
  atoiOverflow := id

/-! ## Requests -/

def field (name : String) (args : Option Args := none) (as : Option Str := none) : Field :=
  { pos := {}, «alias» := as, name := str name, arguments := args }
def leaf (name : String) (args : Option Args := none) : Selection := .leaf (field name args)
def node (name : String) (sub : List Selection) (args : Option Args := none) (as : Option Str := none) : Selection :=
  .node (field name args as) {} sub

/-- `{ hello __schema { queryType { name } } __type(name: "Query") { name fields(includeDeprecated: true) { name description
isDeprecated deprecationReason args { name defaultValue } type { kind ofType { kind ofType { kind ofType { kind name enumValues { name }
} } } } } } }` -/
def exampleRequest : List Selection :=
  [leaf "hello",
   node "__schema" [node "queryType" [leaf "name"]],
   node "__type"
     [leaf "name", node "fields"
       [leaf "name", leaf "description", leaf "isDeprecated", leaf "deprecationReason",
        node "args" [leaf "name", leaf "defaultValue"],
        node "type" [leaf "kind", node "ofType" [leaf "kind", node "ofType" [leaf "kind",
          node "ofType" [leaf "kind", leaf "name", node "enumValues" [leaf "name"]]]]]]
       (some [(str "includeDeprecated", .boolean true)])]
     (some [(str "name", .string (str "Query"))])]

/-- `{ __type(name: "Nope") { name } hello }` -/
def unknownRequest : List Selection :=
  [node "__type" [leaf "name"] (some [(str "name", .string (str "Nope"))]), leaf "hello"]

/-- Decides `Plain`. -/
def plain : Nat → List Selection → Bool
  | 0, _ => false
  | n + 1, sel =>
    !sel.isEmpty && sel.all (fun
      | .leaf f => f.directives.isNone && constant f
      | .node f _ sub => f.directives.isNone && constant f && plain n sub
      | _ => false) && decide (sel.map name).Nodup
where
  constant (f : Field) : Bool := (f.arguments.getD []).all fun a => match a.2 with
    | .string _ | .boolean _ => true
    | _ => false
  name : Selection → Str
    | .leaf f => responseName f
    | .node f _ _ => responseName f
    | _ => []

theorem bare {f : Field} (h1 : f.directives.isNone = true) (h2 : plain.constant f = true) : BareField f := by
  refine ⟨by simpa using h1, ?_⟩
  rintro v ⟨a, ha, hv⟩
  have := List.all_eq_true.1 h2 a ha
  split at this
  · rename_i e; rw [e] at hv; cases hv
  · rename_i e; rw [e] at hv; cases hv
  · cases this

theorem nodup_eq {α β : Type} {f : α → β} {as : List α} (h : (as.map f).Nodup) {a b : α} (ha : a ∈ as) (hb : b ∈ as) (e : f a = f b) :
    a = b := by
  induction as with
  | nil => cases ha
  | cons x xs ih =>
    rw [List.map_cons, List.nodup_cons] at h
    rcases List.mem_cons.1 ha with h1 | h1 <;> rcases List.mem_cons.1 hb with h2 | h2
    · rw [h1, h2]
    · exact absurd (List.mem_map.2 ⟨b, h2, by rw [← e, h1]⟩) h.1
    · exact absurd (List.mem_map.2 ⟨a, h1, by rw [e, h2]⟩) h.1
    · exact ih h.2 h1 h2

theorem plain_sound (n : Nat) : ∀ {sel}, plain n sel = true → Plain sel := by
  induction n with
  | zero => intro sel h; cases h
  | succ n ih =>
    intro sel h
    simp only [plain, Bool.and_eq_true, List.all_eq_true, decide_eq_true_eq, Bool.not_eq_true', List.isEmpty_eq_false_iff] at h
    obtain ⟨⟨h1, h2⟩, h3⟩ := h
    refine .mk h1 ?_ ?_ ?_ ?_ ?_ ?_ ?_
    · intro f hm; have := h2 _ hm; simp only [Bool.and_eq_true] at this; exact bare this.1 this.2
    · intro f pos sub hm; have := h2 _ hm; simp only [Bool.and_eq_true] at this; exact bare this.1.1 this.1.2
    · intro f pos sub hm; have := h2 _ hm; simp only [Bool.and_eq_true] at this; exact ih this.2
    · intro pos g ds hm; have := h2 _ hm; simp at this
    · intro pos g ds sub hm; have := h2 _ hm; simp at this
    · intro f f' hf hf' e
      rcases hf with hf | ⟨_, _, hf⟩ <;> rcases hf' with hf' | ⟨_, _, hf'⟩ <;>
      · have := nodup_eq h3 hf hf' e
        cases this
        try rfl
    · intro f pos sub hm
      refine ⟨fun hl => ?_, fun pos' sub' hm' => ?_⟩
      · cases nodup_eq h3 hm hl rfl
      · have := nodup_eq h3 hm hm' rfl
        cases this
        rfl

/-! ## The responses -/

/-- The response of a request which runs. -/
def answerOf {E : Type} : Request.Outcome (Run E Resp) → Option (Except Exn Resp)
  | .done run => some run.result
  | .undefined => none

def text (s : String) : Resp := .string (str s) false
def entries (es : List (String × Resp)) : Resp := .map (es.map fun e => (str e.1, e.2))

def exampleAnswer : Resp :=
  entries [("data", entries [("hello", text "hello"),
    ("__schema", entries [("queryType", entries [("name", text "Query")])]),
    ("__type", entries [("name", text "Query"), ("fields", .list
      [entries [("name", text "hello"), ("description", text "says hello"), ("isDeprecated", .boolean false), ("deprecationReason", .null),
        ("args", .list [entries [("name", text "times"), ("defaultValue", text "3")]]),
        ("type", entries [("kind", .enumValue (str "SCALAR")), ("ofType", .null)])],
       entries [("name", text "old"), ("description", .null), ("isDeprecated", .boolean true), ("deprecationReason", text "new is better"),
        ("args", .list []),
        ("type", entries [("kind", .enumValue (str "NON_NULL")), ("ofType", entries [("kind", .enumValue (str "LIST")),
          ("ofType", entries [("kind", .enumValue (str "NON_NULL")), ("ofType", entries [("kind", .enumValue (str "ENUM")),
            ("name", text "Color"), ("enumValues", .list [entries [("name", text "RED")], entries [("name", text "GREEN")]])])])])])]])])])]

def unknownAnswer : Resp :=
  entries [("data", entries [("__type", .null), ("hello", text "hello")]),
    ("errors", .list [entries [("message", text "Type not found name: Nope"), ("path", .list [text "__type"])]])]

def queryDef : Validation.TypeDef :=
  { kind := .object
    fields := [⟨str "hello", .named (str "String"), [⟨str "times", .nonNull (.named (str "Int")), str "3"⟩]⟩,
      ⟨str "old", .nonNull (.list (.nonNull (.named (str "Color")))), []⟩] }

def colorDef : Validation.TypeDef := { kind := .enum, enumValues := [str "RED", str "GREEN"] }

theorem exampleLoaded : ∃ l₀ l, visitDefinitions id {} exampleSchema = .ok l₀ ∧ validateSchema false l₀ = .ok l ∧
    DistinctNames l ∧ Unchecked l ∧ (∀ d ∈ l.directives, d.name ≠ str "skip" ∧ d.name ≠ str "include") ∧
    (∀ e ∈ (declared true l).types, e.2.kind ≠ .interface ∧ e.2.kind ≠ .union) ∧
    (declared true l).find (str "Query") = some queryDef ∧ (declared true l).find (str "Color") = some colorDef ∧
    (declared true l).operationType (str "query") = some (str "Query") ∧
    (declared true l).mutation = none ∧ (declared true l).subscription = none ∧
    (Validation.validate (declared true l) id (single exampleRequest) {}).1 = [] ∧
    (Validation.validate (declared true l) id (single unknownRequest) {}).1 = [] ∧
    answerOf (resolve (Spec.requests l (fun _ => true) (exampleUser l)) true (single exampleRequest) [] []) = some (.ok exampleAnswer) ∧
    answerOf (resolve (Spec.requests l (fun _ => true) (exampleUser l)) true (single unknownRequest) [] []) = some (.ok unknownAnswer) := by
  obtain ⟨l₀, l, h1, h2, h3⟩ := accepted (doc := exampleSchema)
    (f := fun s => (decide (DistinctNames s), decide (Unchecked s), decide (∀ d ∈ s.directives, d.name ≠ str "skip" ∧ d.name ≠ str "include"),
      (declared true s).types.all (fun e => e.2.kind != .interface && e.2.kind != .union),
      (declared true s).find (str "Query"), (declared true s).find (str "Color"), (declared true s).operationType (str "query"),
      (declared true s).mutation, (declared true s).subscription,
      (Validation.validate (declared true s) id (single exampleRequest) {}).1,
      (Validation.validate (declared true s) id (single unknownRequest) {}).1,
      answerOf (resolve (Spec.requests s (fun _ => true) (exampleUser s)) true (single exampleRequest) [] []),
      answerOf (resolve (Spec.requests s (fun _ => true) (exampleUser s)) true (single unknownRequest) [] [])))
    (v := (true, true, true, true, some queryDef, some colorDef, some (str "Query"), none, none, [], [], some (.ok exampleAnswer), some (.ok unknownAnswer)))
    (by computed)
  simp only [Prod.mk.injEq, decide_eq_true_eq, List.all_eq_true, Bool.and_eq_true, bne_iff_ne] at h3
  obtain ⟨a1, a2, a3, a4, a5, a6, a7, a8, a9, b1, b2, b3, b4⟩ := h3
  exact ⟨l₀, l, h1, h2, a1, a2, a3, a4, a5, a6, a7, a8, a9, b1, b2, b3, b4⟩

theorem exampleServes {l : Loader} (hd : DistinctNames l) (h1 : (declared true l).find (str "Query") = some queryDef)
    (h2 : (declared true l).find (str "Color") = some colorDef) :
    Serves (declared false l) exampleImpl (fun _ => str "Query") (fun _ => False) where
  names o name h := by
    simp only [exampleImpl, List.mem_singleton] at h
    subst h
    have e : (declared false l).find (str "Query") = some queryDef := h1
    simp [Validation.Schema.matching, e, queryDef]
  begins := nofun
  ends := nofun
  fields o name def_ h := by
    have e : (declared false l).find (str "Query") = some queryDef := h1
    have ec : (declared false l).find (str "Color") = some colorDef := h2
    obtain ⟨t, ht, rfl, hm⟩ := Sound.Examples.findField_cases h
    rw [e] at ht
    cases ht
    have hs : (declared false l).kind (str "String") = some .scalar := by
      rw [kind_intro hd false (by decide +kernel)]; decide +kernel
    have hsc : (declared false l).isComposite (str "String") = false := by
      rw [Validation.Schema.isComposite, hs]; rfl
    have hk : (declared false l).kind (str "Color") = some .enum := by rw [Validation.Schema.kind, ec]; rfl
    have string : ∀ x, ValueOf (declared false l) (fun _ : Unit => str "Query") (.nonNull (.named (str "String"))) (.leaf (.string x false)) :=
      fun x => .leaf (d := .string x) hsc nofun (.other nofun nofun) (.string (.builtin (by rw [hs]; nofun) (by simp [Gen.Client.builtinTypes])))
    have own : ∀ name {d}, name ≠ str "__typename" → (declared false l).findField (str "Query") name = some d → d ∈ queryDef.fields := by
      intro name d hne hf
      unfold Validation.Schema.findField at hf
      rw [e] at hf
      simp only [show (View.declared false l).introspection = false from rfl, Bool.and_false, Bool.false_and, if_neg hne,
        Bool.false_eq_true, if_false] at hf
      exact List.mem_reverse.1 (List.mem_of_find?_eq_some hf)
    rcases hm with rfl | hm | ⟨_, hm⟩
    · refine ⟨typename, rfl, .leaf hsc, fun params _ => ⟨nofun, fun x hx => ?_, nofun, nofun⟩⟩
      cases hx
      exact string _
    · simp only [queryDef, List.mem_cons, List.not_mem_nil, or_false] at hm
      rcases hm with rfl | rfl
      · refine ⟨hello, rfl, .nullable nofun (.leaf hsc), fun params _ => ⟨nofun, fun x hx => ?_, nofun, nofun⟩⟩
        cases hx
        exact .present nofun (string _)
      · refine ⟨old, rfl, .list (.enum hk), fun params _ => ⟨nofun, fun x hx => ?_, nofun, nofun⟩⟩
        cases hx
        refine .list fun y hy => ?_
        simp only [List.mem_singleton] at hy
        subst hy
        refine .leaf (d := .enum 1) (by rw [Validation.Schema.isComposite, hk]; rfl) nofun (.other nofun nofun)
          (.enum (t := colorDef) (.enum hk) (.inr rfl) ?_ rfl)
        exact (View.find_eq _ (by simp only [View.declared, List.map_append, View.typesOf_names]; exact hd.1) _ _).1 ec
    · rcases hm with rfl | rfl
      · have hm := List.mem_map_of_mem (f := fun d => d.name) (own _ (by decide +kernel) h)
        exact absurd hm (by decide +kernel)
      · have hm := List.mem_map_of_mem (f := fun d => d.name) (own _ (by decide +kernel) h)
        exact absurd hm (by decide +kernel)

/-- A document, its service and a request, which meet all the hypotheses of C64; and the response of the service. -/
theorem example_document : ∃ alloc alloc' l₀ l s v,
    FreshAddrs alloc ∧ Fresh alloc' ∧ visitDefinitions id {} exampleSchema = .ok l₀ ∧ validateSchema false l₀ = .ok l ∧ DistinctNames l ∧
    (∃ o ∈ l.operationTypes, o.operation = str "query") ∧ generatedSchema false alloc l = .ok s ∧ Reachable alloc' s true v ∧
    UserServiceFor l (exampleUser l) (fun _ => true) (fun _ => str "Query") (fun _ => False) ∧
    Accepted (declared true l) id (single exampleRequest) { pos := {}, type := some (str "query"), sub := exampleRequest } (str "Query") ∧
    Supplied (declared true l) (single exampleRequest) { pos := {}, type := some (str "query"), sub := exampleRequest } [] ∧
    answerOf (resolve (introspected v.schema (fun _ => true) (exampleUser l)) true (single exampleRequest) [] []) =
      some (.ok exampleAnswer) ∧
    answerOf (resolve (introspected v.schema (fun _ => true) (exampleUser l)) true (single unknownRequest) [] []) =
      some (.ok unknownAnswer) := by
  obtain ⟨alloc, hf⟩ := Gen.freshAddrs_exists
  obtain ⟨alloc', hf'⟩ := View.fresh_exists
  obtain ⟨l₀, l, h1, h2, hd, hu, hn, hk, hq, hc, ho, hm, hs, v1, v2, r1, r2⟩ := exampleLoaded
  obtain ⟨s, hb, _⟩ := View.C62_document hf hf' h1 h2 hd hu false
  have hquery := View.accepted_query h1 h2
  have R : Reachable alloc' s true (View.construct s true) := .start
  have find_kind : ∀ n t, (declared true l).find n = some t → t.kind ≠ .interface ∧ t.kind ≠ .union := by
    intro n t ht
    exact hk _ ((View.find_eq _ (by simp only [View.declared, List.map_append, View.typesOf_names]; exact hd.1) _ _).1 ht)
  have hp : Plain exampleRequest := plain_sound 8 (by decide +kernel)
  refine ⟨alloc, alloc', l₀, l, s, _, hf, hf', h1, h2, hd, hquery, hb, R, ⟨?_, exampleServes hd hq hc, ?_, ?_⟩, ?_, hp.supplied, ?_, ?_⟩
  · intro doc
    simp [exampleUser, List.map_map, Function.comp_def]
  · intro o
    have : (declared false l).query = str "Query" := by
      have e : (declared true l).operationType (str "query") = some (declared true l).query := by
        simp [Validation.Schema.operationType]
      rw [ho] at e
      exact (Option.some.inj e).symm
    simp [this]
  · intro type root h
    unfold Validation.Schema.operationType at h
    split at h
    · rename_i ht
      subst ht
      refine ⟨(), rfl, ?_⟩
      have e : (declared false l).operationType (str "query") = some root := by
        simp only [Validation.Schema.operationType, if_pos]; exact h
      have e' : (declared false l).operationType (str "query") = some (str "Query") := ho
      rw [e'] at e
      cases e
      have ef : (declared false l).find (str "Query") = some queryDef := hq
      simp [Validation.Schema.matching, ef, queryDef]
    · split at h
      · rw [show (declared false l).mutation = none from hm] at h; cases h
      · split at h
        · rw [show (declared false l).subscription = none from hs] at h; cases h
        · cases h
  · exact hp.accepted (View.represents_closed (View.generated_represents hf hd hquery hb)) (implements_plain find_kind)
      (View.C62_standard true hd hn) ho v1
  · rw [C64_reports hf hd hquery hb hf' R, r1]
  · rw [C64_reports hf hd hquery hb hf' R, r2]

end Verif.Intro.Examples
