import Verif.View.Claims

/-!
# C62: examples and findings
-/
namespace Verif.View
open Verif.Value Verif.Errors Verif.SortedMap Verif.SortedMap.Spec Verif.TypeSystem Verif.TypeSystem.Spec Verif.Gen Verif.Modifiers
open Verif.Ast (TypeRef)

theorem fresh_exists : ∃ alloc, Fresh alloc := by
  classical
  have : ∀ s : Schema, ∃ a : Addr, ∀ ops, Built ops s → s.store a = none := by
    intro s
    by_cases h : ∃ ops, Built ops s
    · obtain ⟨ops, hs⟩ := h
      obtain ⟨a, ha⟩ := hs.fresh
      exact ⟨a, fun _ _ => ha a (Nat.le_refl _)⟩
    · exact ⟨0, fun ops hs => absurd ⟨ops, hs⟩ h⟩
  choose f hf using this
  exact ⟨f, fun ops s hs => hf s ops hs⟩

/-- The kernel computes both sides. -/
macro "computed" : tactic => `(tactic| run_tac do
    let goal ← Lean.Elab.Tactic.getMainGoal
    let some (type, _, right) := (← Lean.instantiateMVars (← goal.getType)).eq? | throwError "not an equation"
    let level ← Lean.Meta.getLevel type
    goal.assign (Lean.mkApp2 (.const ``Eq.refl [level]) type right))

/-- What the schema of the example declares. -/
def exampleFacts (S : Validation.Schema) : Bool :=
  S.query == str "Query" && S.mutation == some (str "M") && S.subscription == none &&
  S.overlap (str "U") (str "I") && !S.overlap (str "M") (str "I") && S.isComposite (str "U") &&
  (S.findField (str "Query") (str "a")).isSome &&
  (S.findField (str "Query") (str "__schema")).isSome && (S.findField (str "M") (str "__schema")).isNone &&
  (S.findField (str "U") (str "__typename")).isSome && (S.findField (str "U") (str "a")).isNone &&
  S.kind (str "A") == some .inputObject && (Validation.variableType S (.nonNull (.list (.named (str "A"))))).isSome &&
  (Validation.variableType S (.named (str "U"))).isNone && (S.findDirective (str "skip")).isSome

/-- A schema document with all the hypotheses of C62, and a validator of its schema which has been used: the fields of the query
type have been asked for, a variable has had the type `[A]!` and the input fields of `A` have been asked for. -/
theorem example_document : ∃ alloc alloc' l₀ l schema v₁ v₂ s₃ type r,
    FreshAddrs alloc ∧ Fresh alloc' ∧ visitDefinitions id {} (exampleWith (str "A")) = .ok l₀ ∧
    validateSchema false l₀ = .ok l ∧ DistinctNames l ∧ Unchecked l ∧
    (∀ d ∈ l.directives, d.name ≠ str "skip" ∧ d.name ≠ str "include") ∧
    exampleFacts (declared true l) = true ∧
    generatedSchema false alloc l = .ok schema ∧
    Reachable alloc' schema true v₁ ∧ v₁.typeFields = [] ∧
    (∃ query, v₁.schema.lookupType (str "Query") = .ok query ∧ getScopedTypeFields alloc' v₁ query = .ok (v₂, some r)) ∧
    (∃ field, get r (str "a") = some field ∧ Refers v₂.schema field.returnType (.nonNull (.list (.named (str "Int"))))) ∧
    (∃ field, get r (str "__schema") = some field ∧ Refers v₂.schema field.returnType (.nonNull (.named (str "__Schema")))) ∧
    get r (str "b") = none ∧
    variableType alloc' v₂.types v₂.schema (.nonNull (.list (.named (str "A")))) = .ok (s₃, true, type) ∧
    Reachable alloc' schema true (getInputTypeFields { v₂ with schema := s₃ } (str "A")).1 ∧
    (∃ fields x, (getInputTypeFields { v₂ with schema := s₃ } (str "A")).2 = some fields ∧ get fields (str "b") = some x ∧
      Refers s₃ x.type (.named (str "B"))) := by
  obtain ⟨alloc, hf⟩ := freshAddrs_exists
  obtain ⟨alloc', hf'⟩ := fresh_exists
  obtain ⟨l₀, l, h1, h2, h3⟩ := accepted (doc := exampleWith (str "A"))
    (f := fun s => (decide (DistinctNames s), decide (Unchecked s), decide (∀ d ∈ s.directives, d.name ≠ str "skip" ∧ d.name ≠ str "include"),
      exampleFacts (declared true s),
      (((declared true s).findField (str "Query") (str "a")).map (·.type)),
      (((declared true s).findField (str "Query") (str "__schema")).map (·.type)),
      (((declared true s).findField (str "Query") (str "b")).map (·.type)),
      ((Validation.variableType (declared true s) (.nonNull (.list (.named (str "A"))))).isSome,
       ((declared true s).find (str "A")).map (fun t => (t.kind, (Validation.findArgument t.inputFields (str "b")).map (·.type))),
       (declared true s).isComposite (str "Query"))))
    (v := (true, true, true, true, some (.nonNull (.list (.named (str "Int")))), some (.nonNull (.named (str "__Schema"))), none,
      (true, some (.inputObject, some (.named (str "B"))), true))) (by computed)
  simp only [Prod.mk.injEq, decide_eq_true_eq] at h3
  obtain ⟨hd, hu, hn, hx, ha, hs, hb, hvt, hin, hc⟩ := h3
  obtain ⟨schema, hg, hall, _⟩ := C62_document hf hf' h1 h2 hd hu false
  have R₁ : Reachable alloc' schema true (construct schema true) := .start
  obtain ⟨S₁, A₁⟩ := hall _ R₁
  obtain ⟨query, hq⟩ : ∃ q, (construct schema true).schema.lookupType (str "Query") = .ok q := by
    have := S₁.types (str "Query")
    have hf : ((declared (!false) l).find (str "Query")).isSome := by
      have : (declared true l).isComposite (str "Query") = true := hc
      rw [Validation.Schema.isComposite, Validation.Schema.kind] at this
      cases hf : (declared true l).find (str "Query") with
      | none => rw [hf] at this; cases this
      | some d => exact congrArg Option.isSome hf
    obtain ⟨d, hf⟩ := Option.isSome_iff_exists.1 hf
    rw [hf] at this
    generalize get (construct schema true).types (str "Query") = x at this
    cases this with
    | some h =>
      obtain ⟨⟨a, _, hd⟩, _⟩ := h
      cases hd with
      | named h => exact ⟨a, h⟩
  obtain ⟨v₂, r, hr, hr', hm⟩ := A₁.fields _ _ hq
  rw [show (declared (!false) l).isComposite (str "Query") = true from hc] at hr'
  obtain ⟨r, rfl⟩ := Option.isSome_iff_exists.1 hr'
  have hm := hm r rfl
  have R₂ : Reachable alloc' schema true v₂ := R₁.step (.fields hq hr)
  obtain ⟨S₂, A₂⟩ := hall _ R₂
  obtain ⟨s₃, type, hty, _⟩ := A₂.variableTypes (.nonNull (.list (.named (str "A"))))
  rw [show (Validation.variableType (declared (!false) l) (.nonNull (.list (.named (str "A"))))).isSome = true from hvt] at hty
  have R₃ := R₂.step (.variableType hty)
  obtain ⟨S₃, A₃⟩ := hall _ R₃
  have field : ∀ k τ, ((declared true l).findField (str "Query") k).map (·.type) = some τ →
      ∃ field, get r k = some field ∧ Refers v₂.schema field.returnType τ := by
    intro k τ hk
    have := hm k
    generalize get r k = x at this
    simp only [Bool.not_false] at this
    cases hf : (declared true l).findField (str "Query") k with
    | none => rw [hf] at hk; cases hk
    | some f =>
      rw [hf] at hk this
      cases this with
      | some h =>
        cases hk
        exact ⟨_, rfl, h.type⟩
  refine ⟨alloc, alloc', l₀, l, schema, _, v₂, s₃, type, r, hf, hf', h1, h2, hd, hu, hn, hx, hg, R₁, ?_, ⟨query, hq, hr⟩,
    field _ _ ha, field _ _ hs, ?_, hty, R₃.step .inputFields, ?_⟩
  · exact (addTypeEntries_rest _ _).2.2.2
  · have := hm (str "b")
    simp only [Bool.not_false] at this
    cases hf : (declared true l).findField (str "Query") (str "b") with
    | some f => rw [hf] at hb; cases hb
    | none =>
      rw [hf] at this
      generalize get r (str "b") = x at this
      cases this; rfl
  · have := A₃.inputFields (str "A")
    simp only [Bool.not_false] at this
    cases hf : (declared true l).find (str "A") with
    | none => rw [hf] at hin; cases hin
    | some d =>
      rw [hf] at hin this
      simp only [Option.map_some, Option.some_inj, Prod.mk.injEq] at hin
      rw [show (some d).filter (fun t => decide (t.kind = .inputObject)) = some d by simp [Option.filter, hin.1]] at this
      generalize (getInputTypeFields { v₂ with schema := s₃ } (str "A")).2 = x at this
      cases this with
      | @some m _ h =>
        have := h (str "b")
        cases hf : Validation.findArgument d.inputFields (str "b") with
        | none => rw [hf] at hin; cases hin.2
        | some y =>
          rw [hf] at this
          rw [hf] at hin
          generalize hx : get m (str "b") = x at this
          cases this with
          | @some x _ hy =>
            have e : y.type = .named (str "B") := by simpa using hin.2
            exact ⟨m, x, rfl, hx, e ▸ hy.type⟩

/-! ## Findings -/

/-- **Finding.** The comparison with the query type makes an entry for queries, with no type, if the schema has no query type: an
operation of this type is then not reported as unsupported any more (Validation.cpp:762-773), and its selection is checked against no
type (undefined behaviour, Validation.cpp:775, 1398). -/
theorem C62_finding_query {alloc : Schema → Addr} {v : Validator} {scope string : Addr} {t : BaseType} (hi : v.introspection = true)
    (ho : Ordered v.operationTypes) (hq : get v.operationTypes (str "query") = none) (hs : v.schema.store scope = some t)
    (hk : isScalarType t.kind = false) (hn : get v.typeFields t.name = none) (hl : v.schema.lookupType (str "String") = .ok string) :
    ∃ v' r, getScopedTypeFields alloc v scope = .ok (v', some r) ∧ get v'.operationTypes (str "query") = some none := by
  have e : isQueryType v scope = ({ v with operationTypes := (index nameCmp none v.operationTypes (str "query") id).1 }, false) := by
    unfold isQueryType
    rw [if_pos hi]
    dsimp only
    rw [index_old ho, hq]
    rfl
  unfold getScopedTypeFields
  simp only [hs, hn, hk, e, addTypename, wrapNonNull, hl, Bool.false_eq_true, if_false]
  refine ⟨_, _, rfl, ?_⟩
  rw [get_index ho, if_pos rfl, hq]; rfl

/-- A schema for mutations only: `AddType` of `String` and `M`, `AddMutationType`. -/
def mutations : List Op :=
  [.make 0 .scalar (str "String") [], .addType (str "String") 0, .make 1 .object (str "M") [], .addType (str "M") 1,
   .addMutationType 1]

/-- **Finding.** After any selection of a mutation, the validator of this schema has an entry for queries. -/
theorem C62_finding_mutations (alloc : Schema → Addr) : ∃ s v m, Built mutations s ∧ Reachable alloc s true (construct s true) ∧
    get (construct s true).operationTypes (str "query") = none ∧
    get (construct s true).operationTypes (str "mutation") = some (some m) ∧ s.lookupType (str "M") = .ok m ∧
    (∃ r, getScopedTypeFields alloc (construct s true) m = .ok (v, some r)) ∧ Reachable alloc s true v ∧
    get v.operationTypes (str "query") = some none := by
  obtain ⟨s, hb, hs, hm, hq, hsub⟩ : ∃ s, Built mutations s ∧ s.store 1 = some (.make .object (str "M") []) ∧
      s.mutation = some 1 ∧ s.query = none ∧ s.subscription = none := by
    have b := ((((Built.nil.snoc (op := .make 0 .scalar (str "String") []) ⟨rfl, rfl⟩).snoc
      (op := .addType (str "String") 0) (by simp [Op.Valid, Schema.apply])).snoc
      (op := .make 1 .object (str "M") []) ⟨rfl, rfl⟩).snoc
      (op := .addType (str "M") 1) (by simp [Op.Valid, Schema.apply])).snoc
      (op := .addMutationType 1) ⟨.make .object (str "M") [], rfl, by decide⟩
    exact ⟨_, b, rfl, rfl, rfl, rfl⟩
  have hl : ∀ n a, named mutations n = some a → s.lookupType n = .ok a := fun n a h => (lookup_iff hb n a).2 h
  obtain ⟨c1, c2, c3, c4⟩ := addTypeEntries_rest s.types
    { schema := s, introspection := true, operationTypes := addOperationType (addOperationType (addOperationType [] (str "mutation") s.mutation)
      (str "query") s.query) (str "subscription") s.subscription }
  have c1 : (construct s true).schema = s := c1
  have c2 : (construct s true).introspection = true := c2
  have c3 : (construct s true).operationTypes = assign none [] (str "mutation") (some 1) := by
    refine Eq.trans c3 ?_
    simp only [hm, hq, hsub, addOperationType]
  have c4 : (construct s true).typeFields = [] := c4
  have q : get (construct s true).operationTypes (str "query") = none := by
    rw [c3, get_assign ordered_nil, if_neg (by decide), get_nil]
  obtain ⟨v, r, hv, hn⟩ := C62_finding_query (alloc := alloc) (v := construct s true) (scope := 1) (t := .make .object (str "M") [])
    (string := 0) c2 (by rw [c3]; exact ordered_assign ordered_nil _ _ _) q (by rw [c1]; exact hs) rfl (by rw [c4, get_nil])
    (by rw [c1]; exact hl _ _ (by decide +kernel))
  have hM : s.lookupType (str "M") = .ok 1 := hl _ _ (by decide +kernel)
  exact ⟨s, v, 1, hb, .start, q, by rw [c3, get_assign ordered_nil, if_pos rfl], hM, ⟨r, hv⟩, .step .start (.fields (c1.symm ▸ hM) hv), hn⟩

/-- `n` lists in each other. -/
def nested (name : Str) : Nat → TypeRef
  | 0 => .named name
  | n + 1 => .list (nested name n)

theorem nested_injective (name : Str) {i j : Nat} (h : nested name i = nested name j) : i = j := by
  induction i generalizing j with
  | zero => cases j with
    | zero => rfl
    | succ j => cases h
  | succ i ih => cases j with
    | zero => cases h
    | succ j => rw [nested, nested, TypeRef.list.injEq] at h; rw [ih h]

/-- **Finding.** The types of variables in requests, valid or not, are kept in the schema as long as it lives: for every `n` there
is a request after which the schema has `n` type objects more, and so on without a bound. -/
theorem C62_finding_grows {alloc : List Op → Addr} (hf : FreshAddrs alloc) {l : Loader} (hd : DistinctNames l)
    (hq : ∃ o ∈ l.operationTypes, o.operation = str "query") {noIntrospection : Bool} {s : Schema}
    (hb : generatedSchema noIntrospection alloc l = .ok s) {alloc' : Schema → Addr} (hf' : Fresh alloc') {v : Validator}
    (hv : Reachable alloc' s (!noIntrospection) v) (n : Nat) :
    ∃ v', Step alloc' v v' ∧ ∃ object : Nat → Addr, (∀ i j, i ≤ n → j ≤ n → object i = object j → i = j) ∧
      ∀ i, i ≤ n → Denotes v'.schema (nested (str "Int") i) (object i) ∧ v'.schema.store (object i) ≠ none := by
  have g := Reachable.good (S := declared (!noIntrospection) l) hf' (generated_represents hf hd hq hb) hv
  have hint : (declared (!noIntrospection) l).find (str "Int") = some { kind := .scalar } := by
    have nodup : ((declared (!noIntrospection) l).types.map (·.1)).Nodup := g.rep.nodup
    rw [find_eq _ nodup]
    refine List.mem_append_left _ ?_
    simp only [typesOf, List.mem_append, List.mem_map]
    refine .inl (.inl (.inl (.inl (.inl ?_))))
    have : ∃ t ∈ Introspect.types.scalarTypes, t.type = str "Int" := by decide +kernel
    obtain ⟨t, ht, e⟩ := this
    exact ⟨t, ht, by rw [e]⟩
  have hsome : ∀ n, (Validation.variableType (declared (!noIntrospection) l) (nested (str "Int") n)).isSome := by
    intro n
    have hb : ∀ n, Validation.baseName (nested (str "Int") n) = str "Int" := fun n => by
      induction n with
      | zero => rfl
      | succ n ih => exact ih
    unfold Validation.variableType
    rw [hb, Validation.Schema.kind, hint]
    rfl
  obtain ⟨s', p, h1, h2⟩ := (answers hf' g).variableTypes (nested (str "Int") n)
  rw [hsome n] at h1
  have R : Reachable alloc' s (!noIntrospection) { v with schema := s' } := hv.step (.variableType h1)
  have g' := Reachable.good (S := declared (!noIntrospection) l) hf' (generated_represents hf hd hq hb) R
  obtain ⟨a, _, ha⟩ := h2 (hsome n)
  have all : ∀ k, ∀ a, Denotes s' (nested (str "Int") k) a → ∀ i, i ≤ k → ∃ b, Denotes s' (nested (str "Int") i) b := by
    intro k
    induction k with
    | zero => intro a ha i hi; obtain rfl : i = 0 := Nat.le_zero.1 hi; exact ⟨a, ha⟩
    | succ k ih =>
      intro a ha i hi
      by_cases e : i = k + 1
      · subst e; exact ⟨a, ha⟩
      · cases ha with
        | list ha' _ => exact ih _ ha' i (by omega)
  classical
  refine ⟨_, .variableType h1, fun i => if h : i ≤ n then Classical.choose (all n a ha i h) else 0, fun i j hi hj e => ?_, fun i hi => ?_⟩
  · simp only [hi, hj, dif_pos] at e
    have d1 := Classical.choose_spec (all n a ha i hi)
    have d2 := Classical.choose_spec (all n a ha j hj)
    exact nested_injective _ ((g'.rep.same d1 d2).1 e)
  · simp only [hi, dif_pos]
    have d := Classical.choose_spec (all n a ha i hi)
    exact ⟨d, g'.rep.alive d⟩

/-- **Finding.** A schema document may define the directive `skip` again, with other arguments: it is accepted and its schema is
built, and the conditions of C60 on the schema do not hold. The service still reads `if` as a boolean (C18). -/
theorem C62_finding_skip : ∃ l₀ l, visitDefinitions id {}
      [.object [] (str "Query") [] [{ name := str "a", type := .named (str "Int") }],
       .directive [] (str "skip") [{ name := str "if", type := .named (str "String") }] [str "FIELD"]] = .ok l₀ ∧
    validateSchema false l₀ = .ok l ∧ DistinctNames l ∧ Unchecked l ∧
    (declared true l).findDirective (str "skip") =
      some ⟨str "skip", [.field], [⟨str "if", .named (str "String"), []⟩]⟩ ∧
    ¬ Sound.Standard (declared true l) := by
  obtain ⟨l₀, l, h1, h2, h3⟩ := accepted (doc :=
      [.object [] (str "Query") [] [{ name := str "a", type := .named (str "Int") }],
       .directive [] (str "skip") [{ name := str "if", type := .named (str "String") }] [str "FIELD"]])
    (f := fun s => (decide (DistinctNames s), decide (Unchecked s), (declared true s).findDirective (str "skip")))
    (v := (true, true, some ⟨str "skip", [.field], [⟨str "if", .named (str "String"), []⟩]⟩)) (by computed)
  simp only [Prod.mk.injEq, decide_eq_true_eq] at h3
  obtain ⟨hd, hu, hs⟩ := h3
  refine ⟨l₀, l, h1, h2, hd, hu, hs, fun h => ?_⟩
  have := h.conditions _ _ (.inl rfl) hs
  simp at this

end Verif.View
