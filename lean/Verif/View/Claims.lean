import Verif.View.FromBuilt
import Verif.Validation.Props
import Verif.Sound.Spec

/-!
# C62: the validator sees the schema which is declared
-/
namespace Verif.View
open Verif.Value Verif.Errors Verif.SortedMap Verif.SortedMap.Spec Verif.TypeSystem Verif.TypeSystem.Spec Verif.Gen Verif.Modifiers
open Verif.Ast (TypeRef)

/-- What the loop over the types leaves alone. -/
theorem addTypeEntries_rest (es : List (Str × Addr)) (v : Validator) :
    (es.foldl addTypeEntry v).schema = v.schema ∧ (es.foldl addTypeEntry v).introspection = v.introspection ∧
      (es.foldl addTypeEntry v).operationTypes = v.operationTypes ∧ (es.foldl addTypeEntry v).typeFields = v.typeFields := by
  induction es generalizing v with
  | nil => exact ⟨rfl, rfl, rfl, rfl⟩
  | cons e es ih =>
    rw [List.foldl_cons]
    obtain ⟨h1, h2, h3, h4⟩ := ih (addTypeEntry v e)
    rw [h1, h2, h3, h4]
    unfold addTypeEntry
    split
    · exact ⟨rfl, rfl, rfl, rfl⟩
    · dsimp only
      split
      · exact ⟨rfl, rfl, rfl, rfl⟩
      · split
        · split <;> exact ⟨rfl, rfl, rfl, rfl⟩
        · split <;> exact ⟨rfl, rfl, rfl, rfl⟩

theorem construct_schema (s : Schema) (introspection : Bool) : (construct s introspection).schema = s :=
  (addTypeEntries_rest _ _).1

section
variable {S : Validation.Schema} {s : Schema} {l : Loader}

/-! ## The validator -/

theorem answers {alloc : Schema → Addr} (hf : Fresh alloc) {v : Validator} (h : Good S v) : Answers alloc v S where
  fields n scope hl := by
    obtain ⟨v', r, h1, _, _, h4, h5⟩ := fields_spec hf h hl
    exact ⟨v', r, h1, h4, h5⟩
  inputFields n := (inputFields_spec h n).2.2
  variableTypes τ := by
    obtain ⟨s', p, h1, _, h3, _⟩ := variableType_spec hf τ h
    exact ⟨s', p, h1, h3⟩
  same := h.rep.same
  stays := by
    intro v' τ a hs hd
    cases hs with
    | others hv => exact (later_wrap hv).denotes hd
    | fields hl hr =>
      obtain ⟨v'', r, h1, _, h3, _⟩ := fields_spec hf h hl
      rw [h1] at hr
      cases hr
      exact h3.denotes hd
    | inputFields =>
      rw [(inputFields_spec h _).2.1]
      exact hd
    | @variableType τ' s' i p hr =>
      obtain ⟨s'', p', h1, h2, _⟩ := variableType_spec hf τ' h
      rw [h1] at hr
      cases hr
      exact h2.denotes hd
  inner hd := unwraps_spec h.rep hd

theorem typesOf_without (l : Loader) : typesOf (withoutDescriptions l) = typesOf l := by
  simp only [typesOf, withoutDescriptions, List.map_map, Function.comp_def, inputValueOf, fieldOf, implementing, List.flatMap_map]
  rfl

theorem declared_without (introspection : Bool) (l : Loader) : declared introspection (withoutDescriptions l) = declared introspection l := by
  unfold declared
  rw [typesOf_without]
  simp only [rootOf, withoutDescriptions, List.map_append, List.map_map, Function.comp_def, directiveOf, inputValueOf]
  rfl

/-- The schema which is built has what is declared. -/
theorem generated_represents {alloc : List Op → Addr} (hf : FreshAddrs alloc) (hd : DistinctNames l)
    (hq : ∃ o ∈ l.operationTypes, o.operation = str "query") {noIntrospection : Bool}
    (hb : generatedSchema noIntrospection alloc l = .ok s) : Represents s (declared (!noIntrospection) l) := by
  have h := (C55_generated hf hd noIntrospection).2 s hb
  cases noIntrospection with
  | false => exact builtFrom_represents h hd _ hq
  | true =>
    rw [← declared_without]
    exact builtFrom_represents h ((distinct_without l).2 hd) _ hq

/-- **C62.** Whatever a validator of a schema which is built from loaded types has done before, its tables and the answers of
its calls are those of the schema which the types declare. -/
theorem C62_validator {alloc : List Op → Addr} (hf : FreshAddrs alloc) (hd : DistinctNames l)
    (hq : ∃ o ∈ l.operationTypes, o.operation = str "query") {noIntrospection : Bool}
    (hb : generatedSchema noIntrospection alloc l = .ok s) {alloc' : Schema → Addr} (hf' : Fresh alloc') {v : Validator}
    (hv : Reachable alloc' s (!noIntrospection) v) :
    Sees v (declared (!noIntrospection) l) ∧ Answers alloc' v (declared (!noIntrospection) l) :=
  have g := Reachable.good (S := declared (!noIntrospection) l) hf' (generated_represents hf hd hq hb) hv
  ⟨g.sees, answers hf' g⟩

/-! ## The schema -/

theorem wellFormed_bare (n : Str) (ms : List Mod) : Validation.Spec.WellFormed (typeOf n ms) ∧
    Validation.Spec.WellFormed (bare (typeOf n ms)) := by
  induction ms with
  | nil => exact ⟨trivial, trivial⟩
  | cons m ms ih =>
    cases m with
    | list => exact ⟨ih.1, ih.1⟩
    | nullable => exact ⟨ih.2, by rw [typeOf, bare_bare]; exact ih.2⟩

theorem Represents.known (h : Represents s S) {τ : TypeRef} {a : Addr} (hd : Denotes s τ a) :
    (S.find (Validation.baseName τ)).isSome := by
  induction hd with
  | named hl =>
    obtain ⟨d, _, hf, _⟩ := h.lookup hl
    rw [Validation.baseName, hf]; rfl
  | list _ _ ih => exact ih
  | nonNull _ _ ih => exact ih

theorem mem_types {introspection : Bool} {e : Str × Validation.TypeDef} (he : e ∈ (declared introspection l).types) :
    (∀ v ∈ e.2.inputFields, ∃ f, v = inputValueOf f) ∧ ∀ g ∈ e.2.fields, ∃ f, g = fieldOf f := by
  simp only [declared, typesOf, List.mem_append, List.mem_map] at he
  rcases he with (((((⟨t, _, rfl⟩ | ⟨t, _, rfl⟩) | ⟨t, _, rfl⟩) | ⟨t, _, rfl⟩) | ⟨t, _, rfl⟩) | ⟨t, _, rfl⟩) |
    (((((⟨t, _, rfl⟩ | ⟨t, _, rfl⟩) | ⟨t, _, rfl⟩) | ⟨t, _, rfl⟩) | ⟨t, _, rfl⟩) | ⟨t, _, rfl⟩) <;>
  · constructor
    · intro v hv
      first
        | (obtain ⟨f, _, rfl⟩ := List.mem_map.1 hv; exact ⟨f, rfl⟩)
        | cases hv
    · intro v hv
      first
        | (obtain ⟨f, _, rfl⟩ := List.mem_map.1 hv; exact ⟨f, rfl⟩)
        | cases hv

theorem represents_closed {introspection : Bool} (h : Represents s (declared introspection l)) :
    Validation.Spec.Schema.Closed (declared introspection l) := by
  have known : ∀ {f : InputField} {o : InputValue}, InputObject s (inputValueOf f) o →
      Validation.Spec.Schema.Known (declared introspection l) (inputValueOf f) :=
    fun ho => ⟨h.known ho.type, (wellFormed_bare _ _).1⟩
  refine ⟨?_, fun n t ht v hv => ?_, fun n t ht f hf v hv => ?_, fun d hd v hv => ?_, h.string⟩
  · cases hf : (declared introspection l).find [] with
    | none => rfl
    | some d =>
      obtain ⟨a, t, hl, _⟩ := h.find hf
      obtain ⟨ops, hb, ho⟩ := h.built
      obtain ⟨_, _, _, _, hne⟩ := Denotes.made hb ho hl
      exact absurd rfl hne
  · obtain ⟨a, b, _, _, hn⟩ := h.find ht
    obtain ⟨o, _, ho⟩ := forall₂_left hn.inputFields hv
    obtain ⟨f, rfl⟩ := (mem_types ((find_eq _ h.nodup n t).1 ht)).1 v hv
    exact known ho
  · obtain ⟨a, b, _, _, hn⟩ := h.find ht
    obtain ⟨o, _, ho⟩ := forall₂_left hn.fields hf
    obtain ⟨o', _, ho'⟩ := forall₂_left ho.args hv
    obtain ⟨f', rfl⟩ := (mem_types ((find_eq _ h.nodup n t).1 ht)).2 f hf
    obtain ⟨g, _, rfl⟩ := List.mem_map.1 hv
    exact known ho'
  · obtain ⟨o, _, ho⟩ := forall₂_left h.directives hd
    obtain ⟨o', _, ho'⟩ := forall₂_left ho.args hv
    obtain ⟨d', _, rfl⟩ := List.mem_map.1 hd
    obtain ⟨g, _, rfl⟩ := List.mem_map.1 hv
    exact known ho'

/-- The conditions on schemas of C60 and C61 hold of the declared schema, if the schema document does not define the directives
`skip` and `include` again. -/
theorem C62_standard (introspection : Bool) (hd : DistinctNames l)
    (hn : ∀ d ∈ l.directives, d.name ≠ str "skip" ∧ d.name ≠ str "include") : Sound.Standard (declared introspection l) where
  boolean := by
    have nodup : ((declared introspection l).types.map (·.1)).Nodup := by
      simp only [declared, List.map_append, typesOf_names]; exact hd.1
    have : (declared introspection l).find (str "Boolean") = some { kind := .scalar } := by
      rw [find_eq _ nodup]
      refine List.mem_append_left _ ?_
      simp only [typesOf, List.mem_append, List.mem_map]
      refine .inl (.inl (.inl (.inl (.inl ?_))))
      have : ∃ t ∈ Introspect.types.scalarTypes, t.type = str "Boolean" := by decide +kernel
      obtain ⟨t, ht, e⟩ := this
      exact ⟨t, ht, by rw [e]⟩
    rw [Validation.Schema.kind, this]; rfl
  conditions name d hname hfind := by
    have hne : l.directives.reverse.find? (fun d => d.name == name) = none := by
      rw [List.find?_eq_none]
      intro d' hd'
      obtain ⟨h1, h2⟩ := hn d' (List.mem_reverse.1 hd')
      rcases hname with rfl | rfl
      · simpa using h1
      · simpa using h2
    have e : (declared introspection l).findDirective name = (Introspect.types.directives.map directiveOf).reverse.find? fun d => d.name == name := by
      rw [Validation.Schema.findDirective]
      show List.find? _ ((Introspect.types.directives ++ l.directives).map directiveOf).reverse = _
      rw [List.map_append, List.reverse_append, List.find?_append]
      have : List.find? (fun d => d.name == name) (l.directives.map directiveOf).reverse = none := by
        rw [← List.map_reverse, List.find?_map]
        have : ((fun d : Validation.DirectiveDef => d.name == name) ∘ directiveOf) = fun d : DirectiveType => d.name == name := rfl
        rw [this, hne]; rfl
      rw [this, Option.none_or]
    rw [e] at hfind
    have check : ∀ d ∈ Introspect.types.directives, (d.name = str "skip" ∨ d.name = str "include") →
        (directiveOf d).arguments = [⟨str "if", .nonNull (.named (str "Boolean")), []⟩] := by
      intro d hd hn
      simp only [Introspect.types, List.mem_cons, List.not_mem_nil, or_false] at hd
      rcases hd with rfl | rfl | rfl
      · rfl
      · rfl
      · exfalso; revert hn; decide +kernel
    have hm := List.mem_of_find?_eq_some hfind
    have hs := List.find?_some hfind
    simp only [List.mem_reverse, List.mem_map] at hm
    obtain ⟨d', hd', rfl⟩ := hm
    simp only [beq_iff_eq] at hs
    exact check d' hd' (by rw [show d'.name = name from hs]; exact hname)

/-- A valid schema has a type for queries. -/
theorem accepted_query {atoi : Int → Int} {doc : List TypeDef} {s s' : Loader} (h : visitDefinitions atoi {} doc = .ok s)
    (hv : validateSchema false s = .ok s') : ∃ o ∈ s'.operationTypes, o.operation = str "query" := by
  have V := C54_result h hv
  have A := ((C54_accept h false).1 ⟨s', hv⟩).operations
  have O := V.operations
  unfold ValidOperations at A
  unfold FixedOperations at O
  simp only [Bool.false_eq_true, if_false, true_and] at A O
  by_cases hn : s.operationTypes = []
  · rw [if_pos hn] at A O
    refine ⟨⟨str "Query", str "query"⟩, (O.2 _ (by simp [defaultTypes])).2 ?_, rfl⟩
    exact A
  · rw [if_neg hn] at A O
    rw [O]
    exact A.2

/-- **C62.** From the document of a schema to the requests of its clients: if the document is accepted (C53, C54), has no name
twice, and mentions no unknown types where it is not checked, then the schema is built; every validator of it, whatever it has done
before, sees the schema which the document declares; and the requests which are accepted for this schema are the valid ones. -/
theorem C62_document {alloc : List Op → Addr} (hf : FreshAddrs alloc) {alloc' : Schema → Addr} (hf' : Fresh alloc') {atoi : Int → Int}
    {doc : List TypeDef} {l₀ l : Loader} (h : visitDefinitions atoi {} doc = .ok l₀) (hv : validateSchema false l₀ = .ok l)
    (hd : DistinctNames l) (hu : Unchecked l) (noIntrospection : Bool) :
    ∃ schema, generatedSchema noIntrospection alloc l = .ok schema ∧
      (∀ v, Reachable alloc' schema (!noIntrospection) v →
        Sees v (declared (!noIntrospection) l) ∧ Answers alloc' v (declared (!noIntrospection) l)) ∧
      ∀ (overflow : Int → Int) request, Validation.Spec.WellFormedDocument request →
        ((Validation.validate (declared (!noIntrospection) l) overflow request {}).1 = [] ↔
          Validation.Spec.Valid (declared (!noIntrospection) l) overflow request) := by
  have hq := accepted_query h hv
  have hk := (C55_build hf hd).1.1 ((C55_accepted hf h hv hd).2 hu)
  obtain ⟨schema, hs⟩ := (C55_generated hf hd noIntrospection).1.2 hk
  refine ⟨schema, hs, fun v hr => C62_validator hf hd hq hs hf' hr, fun ov request hw => ?_⟩
  exact Validation.C48_accepts_iff_valid (represents_closed (generated_represents hf hd hq hs)) hw

end

end Verif.View
