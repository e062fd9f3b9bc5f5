import Verif.Intro.Answers
import Verif.View.Claims

/-!
# C64: introspection reports the schema document
-/
namespace Verif.Intro
open Verif.Value Verif.Resp Verif.Errors Verif.Exec Verif.Gen
open Verif.Ast (TypeRef Document Operation)
open Verif.TypeSystem (Schema Addr Op)
open Verif.Request (Service resolve response)
open Verif.Sound (StaticType ValueOf Throws Serves ArgumentsInhabit Accepted Supplied)
open Verif.Validation.Spec (Consistent)
open Verif.Gen.Client (NoDuplicates Answers)
open Verif.View (declared Fresh Reachable Validator Later)
open Spec (Entity)

variable {E O : Type} {l : Loader} {P : Str → Prop} {typeOf : O → Str} {s : Schema}

/-- What the validator does to the schema. -/
theorem reachable_later {S : Validation.Schema} {alloc : Schema → Addr} (hf : Fresh alloc) (hr : View.Represents s S) {v : Validator}
    (h : Reachable alloc s S.introspection v) : Later s v.schema := by
  induction h with
  | start =>
    have : (View.construct s S.introspection).schema = s := View.construct_schema s S.introspection
    rw [this]
    exact .refl s
  | step hv hs ih =>
    have g := View.Reachable.good hf hr hv
    cases hs with
    | others hv => exact ih.trans (View.later_wrap hv)
    | fields hl h =>
      obtain ⟨v', r, h1, _, h3, _⟩ := View.fields_spec hf g hl
      rw [h1] at h
      cases h
      exact ih.trans h3
    | inputFields => rw [(View.inputFields_spec g _).2.1]; exact ih
    | @variableType τ s' i p h =>
      obtain ⟨s'', p', h1, h2, _⟩ := View.variableType_spec hf τ g
      rw [h1] at h
      cases h
      exact ih.trans h2

/-- The schema reports the loaded types, whatever its validator has done. -/
theorem reachable_reports {alloc : List Op → Addr} (hf : FreshAddrs alloc) (hd : DistinctNames l)
    (hq : ∃ o ∈ l.operationTypes, o.operation = str "query") (hb : generatedSchema false alloc l = .ok s)
    {alloc' : Schema → Addr} (hf' : Fresh alloc') {v : Validator} (hv : Reachable alloc' s true v) : Reports l v.schema :=
  reports ((C55_generated hf hd false).2 s hb) hd hq
    (reachable_later (S := declared true l) hf' (View.generated_represents hf hd hq hb) hv)

theorem similarService {v : Validator} (hr : Reports l v.schema) (isQuery : O → Bool) (user : Service E O) :
    SimilarService (Is v.schema) (introspected v.schema isQuery user) (Spec.requests l isQuery user) where
  impl := similar hr isQuery user.impl
  operations type := by
    simp only [introspected, Spec.requests]
    rcases user.operations type with _ | (_ | o)
    · exact .none
    · exact .some .none
    · exact .some (.some .user)
  validate := rfl
  atoiOverflow := rfl

/-- **C64.** A service with introspection, of a schema which is built from loaded types, whatever its validator has done before:
every request, valid or not, has the same events and the same response as with the service of the specification, whose objects of
introspection tell what the loaded types say. -/
theorem C64_reports {alloc : List Op → Addr} (hf : FreshAddrs alloc) (hd : DistinctNames l)
    (hq : ∃ o ∈ l.operationTypes, o.operation = str "query") (hb : generatedSchema false alloc l = .ok s)
    {alloc' : Schema → Addr} (hf' : Fresh alloc') {v : Validator} (hv : Reachable alloc' s true v)
    (isQuery : O → Bool) (user : Service E O) (validated : Bool) (doc : Document) (name : Str) (supplied : Members) :
    resolve (introspected v.schema isQuery user) validated doc name supplied =
      resolve (Spec.requests l isQuery user) validated doc name supplied :=
  resolve_eq (similarService (reachable_reports hf hd hq hb hf' hv) isQuery user) validated doc name supplied

/-! ## Accepted requests -/

/-- A service of the user for the loaded types: his objects implement what is declared, without introspection; requests are
validated with introspection. -/
structure UserServiceFor (l : Loader) (user : Service E O) (isQuery : O → Bool) (typeOf : O → Str) (P : Str → Prop) : Prop where
  validates : ∀ doc, (user.validate doc).map (·.message) = (Validation.validate (declared true l) user.atoiOverflow doc {}).1
  serves : Serves (declared false l) user.impl typeOf P
  isQuery : ∀ o, isQuery o = true ↔ typeOf o = (declared false l).query
  roots : ∀ type root, (declared false l).operationType type = some root →
    ∃ o, user.operations type = some (some o) ∧ typeOf o ∈ (declared false l).matching root

theorem query_name {alloc : List Op → Addr} (hf : FreshAddrs alloc) (hd : DistinctNames l)
    (hq : ∃ o ∈ l.operationTypes, o.operation = str "query") (hb : generatedSchema false alloc l = .ok s) :
    (declared true l).query ∉ Gen.typeNames Introspect.types := by
  have known := (C55_generated hf hd false).1.1 ⟨s, hb⟩
  have hm : (declared true l).query ∈ Gen.typeNames l := by
    simp only [declared, View.rootOf]
    cases h : l.operationTypes.reverse.find? (fun o => o.operation == str "query") with
    | none =>
      obtain ⟨o, ho, he⟩ := hq
      exact absurd (by simpa using he) (List.find?_eq_none.1 h o (List.mem_reverse.2 ho))
    | some o =>
      have h1 := List.mem_reverse.1 (List.mem_of_find?_eq_some h)
      have h2 := List.find?_some h
      simp only [beq_iff_eq] at h2
      have := known.operations o h1 (by rw [h2]; simp)
      exact List.mem_append_right _ this
  intro h
  exact (List.nodup_append.1 hd.1).2.2 _ h _ hm rfl

theorem serviceFor {alloc : List Op → Addr} (hf : FreshAddrs alloc) (hd : DistinctNames l)
    (hq : ∃ o ∈ l.operationTypes, o.operation = str "query") (hb : generatedSchema false alloc l = .ok s)
    {user : Service E O} {isQuery : O → Bool} (hu : UserServiceFor l user isQuery typeOf P) :
    Sound.ServiceFor (declared true l)
      { impl := safe l isQuery user.impl, operations := (Spec.requests l isQuery user).operations
        validate := user.validate, atoiOverflow := user.atoiOverflow } (entityType typeOf) (OrNotFound P) where
  validates := hu.validates
  serves := serves hd (query_name hf hd hq hb) hu.serves hu.isQuery
  roots type root h := by
    obtain ⟨o, h1, h2⟩ := hu.roots type root h
    exact ⟨.user o, by simp only [Spec.requests, h1]; rfl, h2⟩

/-- **C64.** A request with an operation which the validator accepts, which may select the fields of introspection too, made to a
service of the user which implements the types of the document: each error of the response has a message of the user's service, or it
is about a name for `__type` which is not the name of a type; if there is none, the data is an answer to the operation. -/
theorem C64_answers {alloc : List Op → Addr} (hf : FreshAddrs alloc) (hd : DistinctNames l)
    (hq : ∃ o ∈ l.operationTypes, o.operation = str "query") (hb : generatedSchema false alloc l = .ok s)
    {alloc' : Schema → Addr} (hf' : Fresh alloc') {v : Validator} (hv : Reachable alloc' s true v)
    {user : Service E O} {isQuery : O → Bool} (hu : UserServiceFor l user isQuery typeOf P) {doc : Document}
    {op : Operation} {root : Str} (h : Accepted (declared true l) user.atoiOverflow doc op root)
    (hfr : ∀ f ∈ doc.fragments, Consistent (declared true l) doc.fragments f.typeCondition f.sub) {supplied : Members}
    (hsup : Supplied (declared true l) doc op supplied) {name : Str} (hname : Request.Spec.Selects doc.operations name op)
    (hsub : op.type.getD (str "query") ≠ str "subscription") (validated : Bool) :
    ∃ run, resolve (introspected v.schema isQuery user) validated doc name supplied = .done run ∧
      match run.result with
      | .ok answer => ∃ data errors, answer = response ⟨data, errors⟩ ∧
          (∀ e ∈ errors, P e.message ∨ ∃ n, e.message = Spec.notFound n) ∧
          (errors = [] → Answers (declared true l) doc.fragments (.named root) (some op.sub) data ∧ NoDuplicates data ∧ data ≠ .null)
      | .error x => Throws (fun m => P m ∨ ∃ n, m = Spec.notFound n) x := by
  have hr := reachable_reports hf hd hq hb hf' hv
  have sim : SimilarService (Is v.schema) (introspected v.schema isQuery user)
      { impl := safe l isQuery user.impl, operations := (Spec.requests l isQuery user).operations
        validate := user.validate, atoiOverflow := user.atoiOverflow } :=
    ⟨similar_safe hr isQuery user.impl, (similarService hr isQuery user).operations, rfl, rfl⟩
  rw [resolve_eq sim]
  exact Sound.C60_request (serviceFor hf hd hq hb hu) h hfr hsup hname hsub validated

/-! ## Findings -/

/-- **Finding.** `__type` of a name which is not the name of a type is an error; by the GraphQL specification (June 2018, 4.
Introspection, `__type(name: String!): __Type`) it is null. -/
theorem C64_finding_unknown {alloc : List Op → Addr} (hf : FreshAddrs alloc) (hd : DistinctNames l)
    (hq : ∃ o ∈ l.operationTypes, o.operation = str "query") (hb : generatedSchema false alloc l = .ok s)
    {alloc' : Schema → Addr} (hf' : Fresh alloc') {v : Validator} (hv : Reachable alloc' s true v)
    (isQuery : O → Bool) (user : Service E O) {o : O} (ho : isQuery o = true) :
    ∃ r, (introspected v.schema isQuery user).impl.resolver (.user o) (str "__type") = some r ∧
      ∀ params n j, params.arguments.find (str "name") = some (.string n j) → n ∉ (Spec.allDefinitions l).map (·.1) →
        r.access params = .throw (.message (Spec.notFound n)) := by
  have hr := reachable_reports hf hd hq hb hf' hv
  refine ⟨resolveType v.schema, ?_, fun params n j hp hn => ?_⟩
  · simp only [introspected, withIntrospection, resolvers, ho, Bool.true_and, beq_self_eq_true, if_true]
    rw [if_neg (by decide +kernel)]
  · have := (typeField_rel (E := E) (O := O) hr).access params
    simp only [Spec.typeField, hp, if_neg hn] at this
    obtain ⟨h1, h2⟩ := this
    generalize (resolveType v.schema).access params = run at h1 h2
    obtain ⟨t, res⟩ := run
    have e : (Run.throw (.message (Spec.notFound n)) : Run E (FieldResult E (Entity O))) = ⟨[], .error (.message (Spec.notFound n))⟩ := rfl
    rw [e] at h1 h2
    cases h2
    cases h1
    rfl

end Verif.Intro
