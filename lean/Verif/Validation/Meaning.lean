import Verif.Validation.Props

/-!
# What the lookups in the specification mean

The rules of `Spec.lean` look things up in the schema with functions of the model. Here these are characterised without
them, for schemas in which names are unique.
-/
namespace Verif.Validation.Spec
open Verif.Value Verif.Errors Verif.Ast Verif.Validation

variable {S : Schema}

/-- Nothing in the schema is defined twice. -/
structure Schema.UniqueNames (S : Schema) : Prop where
  types : (S.types.map (·.1)).Nodup
  fields : ∀ e ∈ S.types, (e.2.fields.map (·.name)).Nodup
  inputFields : ∀ e ∈ S.types, (e.2.inputFields.map (·.name)).Nodup
  arguments : ∀ e ∈ S.types, ∀ f ∈ e.2.fields, (f.arguments.map (·.name)).Nodup
  directives : (S.directives.map (·.name)).Nodup
  directiveArguments : ∀ d ∈ S.directives, (d.arguments.map (·.name)).Nodup

/-- An object of type `object` can be where one of the composite type `name` is expected. -/
inductive PossibleType (S : Schema) : (name object : Str) → Prop where
  | object {name t} (h : (name, t) ∈ S.types) (hk : t.kind = .object) : PossibleType S name name
  | interface {name t object} (h : (name, t) ∈ S.types) (hk : t.kind = .interface) (hm : object ∈ t.possibleTypes) :
      PossibleType S name object
  | union {name t object} (h : (name, t) ∈ S.types) (hk : t.kind = .union) (hm : object ∈ t.possibleTypes) :
      PossibleType S name object

theorem find_reverse_nodup {α : Type} {key : α → Str} {l : List α} (hn : (l.map key).Nodup) {name : Str} {a : α} :
    (l.reverse.find? fun e => key e == name) = some a ↔ a ∈ l ∧ key a = name := by
  constructor
  · intro h
    exact ⟨List.mem_reverse.mp (List.mem_of_find?_eq_some h), by simpa using List.find?_some h⟩
  · rintro ⟨hm, hk⟩
    cases h : l.reverse.find? fun e => key e == name with
    | none =>
      have := List.find?_eq_none.mp h a (List.mem_reverse.mpr hm)
      simp [hk] at this
    | some b =>
      have hb : b ∈ l := List.mem_reverse.mp (List.mem_of_find?_eq_some h)
      have hkb : key b = name := by simpa using List.find?_some h
      rw [List.inj_on_of_nodup_map hn hb hm (hkb.trans hk.symm)]

/-- The type of a name. -/
theorem C48_find_iff (h : Schema.UniqueNames S) {name : Str} {t : TypeDef} : S.find name = some t ↔ (name, t) ∈ S.types := by
  unfold Schema.find
  rw [Option.map_eq_some_iff]
  constructor
  · rintro ⟨e, he, rfl⟩
    obtain ⟨hm, hk⟩ := (find_reverse_nodup h.types).mp he
    rw [← hk]
    exact hm
  · intro hm
    exact ⟨_, (find_reverse_nodup (key := (·.1)) h.types).mpr ⟨hm, rfl⟩, rfl⟩

/-- Composite types. -/
theorem C48_isComposite_iff (h : Schema.UniqueNames S) {name : Str} :
    S.isComposite name = true ↔ ∃ t, (name, t) ∈ S.types ∧ (t.kind = .object ∨ t.kind = .interface ∨ t.kind = .union) := by
  unfold Schema.isComposite Schema.kind
  rw [Option.any_map]
  constructor
  · intro hc
    cases hf : S.find name with
    | none => rw [hf] at hc; cases hc
    | some t =>
      rw [hf] at hc
      refine ⟨t, (C48_find_iff h).mp hf, ?_⟩
      cases hk : t.kind <;> simp [hk, Kind.isComposite] at hc ⊢
  · rintro ⟨t, hm, hk⟩
    rw [(C48_find_iff h).mpr hm]
    rcases hk with hk | hk | hk <;> simp [hk, Kind.isComposite]

theorem matching_iff (h : Schema.UniqueNames S) {name object : Str} : object ∈ S.matching name ↔ PossibleType S name object := by
  unfold Schema.matching
  constructor
  · intro hm
    cases hf : S.find name with
    | none => rw [hf] at hm; cases hm
    | some t =>
      rw [hf] at hm
      have ht := (C48_find_iff h).mp hf
      cases hk : t.kind with
      | object =>
        simp only [hk, List.mem_singleton] at hm
        subst hm
        exact .object ht hk
      | interface => simp only [hk] at hm; exact .interface ht hk hm
      | union => simp only [hk] at hm; exact .union ht hk hm
      | scalar | enum | inputObject => simp [hk] at hm
  · intro hp
    cases hp with
    | object ht hk => rw [(C48_find_iff h).mpr ht]; simp [hk]
    | interface ht hk hm => rw [(C48_find_iff h).mpr ht]; simpa [hk] using hm
    | union ht hk hm => rw [(C48_find_iff h).mpr ht]; simpa [hk] using hm

/-- A fragment on a type can be spread on another one if they are the same or have a possible type in common. -/
theorem C48_overlap_iff (h : Schema.UniqueNames S) {scope name : Str} :
    S.overlap scope name = true ↔ name = scope ∨ ∃ object, PossibleType S scope object ∧ PossibleType S name object := by
  unfold Schema.overlap
  rw [Bool.or_eq_true, beq_iff_eq, List.any_eq_true]
  simp only [List.contains_iff_mem, matching_iff h]

/-- Arguments and input fields: the type, and whether there is a default (which is not null). -/
theorem C48_findArgument_iff {defs : List InputValue} (h : (defs.map (·.name)).Nodup) {name : Str} {a : Argument} :
    findArgument defs name = some a ↔ ∃ v ∈ defs, v.name = name ∧ a.type = v.type ∧
      (a.defaultValue = true ↔ v.default ≠ []) ∧ (a.nonNullDefaultValue = true ↔ v.default ≠ [] ∧ v.default ≠ str "null") := by
  unfold findArgument
  rw [Option.map_eq_some_iff]
  constructor
  · rintro ⟨v, hv, rfl⟩
    obtain ⟨hm, hk⟩ := (find_reverse_nodup h).mp hv
    exact ⟨v, hm, hk, rfl, by simp [InputValue.argument], by simp [InputValue.argument]⟩
  · rintro ⟨v, hm, hk, ht, hd, hn⟩
    refine ⟨v, (find_reverse_nodup h).mpr ⟨hm, hk⟩, ?_⟩
    obtain ⟨d, n, t⟩ := a
    simp only at ht hd hn
    unfold InputValue.argument
    simp only [Argument.mk.injEq]
    refine ⟨?_, ?_, ht.symm⟩
    · rw [Bool.eq_iff_iff, hd]; simp
    · rw [Bool.eq_iff_iff, hn]; simp

/-- Directives. -/
theorem C48_findDirective_iff (h : Schema.UniqueNames S) {name : Str} {d : DirectiveDef} :
    S.findDirective name = some d ↔ d ∈ S.directives ∧ d.name = name :=
  find_reverse_nodup h.directives

/-- The fields which can be selected on a type: those it has, `__typename` on all of them, and `__schema` and `__type` on
the query type if introspection is not disabled. -/
theorem C48_findField_iff (h : Schema.UniqueNames S) {type name : Str} {d : FieldDef}
    (hreserved : ∀ e ∈ S.types, ∀ f ∈ e.2.fields, f.name ≠ [] ∧ (S.find (baseName f.type)).isSome ∧
      f.name ≠ str "__typename" ∧ f.name ≠ str "__schema" ∧ f.name ≠ str "__type") :
    S.findField type name = some d ↔ ∃ t, (type, t) ∈ S.types ∧
      ((d ∈ t.fields ∧ d.name = name) ∨
        (name = str "__typename" ∧ d = ⟨name, .nonNull (.named (str "String")), []⟩) ∨
        (S.introspection = true ∧ type = S.query ∧ name = str "__schema" ∧ d = ⟨name, .nonNull (.named (str "__Schema")), []⟩) ∨
        (S.introspection = true ∧ type = S.query ∧ name = str "__type" ∧
          d = ⟨name, .named (str "__Type"), [⟨str "name", .nonNull (.named (str "String")), []⟩]⟩)) := by
  have hts : str "__typename" ≠ str "__schema" := by decide
  have htt : str "__typename" ≠ str "__type" := by decide
  have hst : str "__schema" ≠ str "__type" := by decide
  unfold Schema.findField
  cases hf : S.find type with
  | none =>
    constructor
    · nofun
    · rintro ⟨t, ht, _⟩
      rw [(C48_find_iff h).mpr ht] at hf
      cases hf
  | some t =>
    have ht := (C48_find_iff h).mp hf
    have huniq : ∀ t', (type, t') ∈ S.types → t' = t := by
      intro t' ht'
      have := (C48_find_iff h).mpr ht'
      rw [hf] at this
      exact (Option.some.inj this).symm
    have hown : ∀ n, (t.fields.reverse.find? fun f => f.name == n && !f.name.isEmpty && (S.valid f.type).isSome) = some d ↔
        d ∈ t.fields ∧ d.name = n := by
      intro n
      refine Iff.trans ?_ (find_reverse_nodup (key := fun f : FieldDef => f.name) (h.fields _ ht))
      have : ∀ l : List FieldDef, (∀ f ∈ l, f ∈ t.fields) →
          (l.find? fun f => f.name == n && !f.name.isEmpty && (S.valid f.type).isSome) = l.find? fun f => f.name == n := by
        intro l
        induction l with
        | nil => intro _; rfl
        | cons f fs ih =>
          intro hl
          have hr := hreserved _ ht f (hl f List.mem_cons_self)
          have hv := valid_isSome hr.2.1
          have he : f.name.isEmpty = false := by simpa using hr.1
          simp only [List.find?_cons, he, hv, Bool.not_false, Bool.and_true]
          rw [ih fun x hx => hl x (List.mem_cons_of_mem _ hx)]
      rw [this _ fun f hm => List.mem_reverse.mp hm]
    simp only
    have hnot : ∀ n, n = str "__typename" ∨ n = str "__schema" ∨ n = str "__type" → ¬ (d ∈ t.fields ∧ d.name = n) := by
      rintro n hn ⟨hm, rfl⟩
      have := hreserved _ ht d hm
      rcases hn with e | e | e
      · exact this.2.2.1 e
      · exact this.2.2.2.1 e
      · exact this.2.2.2.2 e
    have hex : ∀ P : TypeDef → Prop, (∃ t', (type, t') ∈ S.types ∧ P t') ↔ P t :=
      fun P => ⟨fun ⟨t', h1, h2⟩ => huniq t' h1 ▸ h2, fun h => ⟨t, ht, h⟩⟩
    rw [hex]
    by_cases h1 : name = str "__typename"
    · subst h1
      simp only [if_true, hnot _ (.inl rfl), false_or, true_and, hts, htt, false_and, and_false, or_false, Option.some.injEq,
        eq_comm]
    · rw [if_neg h1]
      by_cases h2 : name = str "__schema"
      · subst h2
        simp only [hnot _ (.inr (.inl rfl)), h1, false_or, false_and, hst, and_false, or_false, true_and, decide_true,
          Bool.true_and, Bool.and_eq_true, beq_iff_eq, decide_false, Bool.false_and, Bool.false_eq_true, if_false]
        by_cases hi : S.introspection = true ∧ type = S.query
        · rw [if_pos hi]
          simp only [hi, true_and, Option.some.injEq]
          exact eq_comm
        · rw [if_neg hi]
          rw [hown]
          simp only [hnot _ (.inr (.inl rfl)), false_iff]
          exact fun hc => hi ⟨hc.1, hc.2.1⟩
      · by_cases h3 : name = str "__type"
        · subst h3
          simp only [hnot _ (.inr (.inr rfl)), h1, h2, false_or, false_and, and_false, true_and, decide_true,
            Bool.true_and, Bool.and_eq_true, beq_iff_eq, decide_false, Bool.false_and, Bool.false_eq_true, if_false]
          by_cases hi : S.introspection = true ∧ type = S.query
          · rw [if_pos hi]
            simp only [hi, true_and, Option.some.injEq]
            exact eq_comm
          · rw [if_neg hi]
            rw [hown]
            simp only [hnot _ (.inr (.inr rfl)), false_iff]
            exact fun hc => hi ⟨hc.1, hc.2.1⟩
        · simp only [h1, h2, h3, decide_false, Bool.false_and, Bool.false_eq_true, if_false, false_and, and_false, or_false]
          exact hown name

/-- The variables which an operation declares. -/
theorem C48_findVariable_iff {ds : List VarDef} (h : (ds.map (·.name)).Nodup) {name : Str} {a : Argument} :
    findVariable (declared ds) name = some a ↔ ∃ d ∈ ds, d.name = name ∧ a.type = d.type ∧
      (a.defaultValue = true ↔ d.default ≠ none) ∧ (a.nonNullDefaultValue = true ↔ ∃ l, d.default = some l ∧ l ≠ .null) := by
  have hfun : ∀ d : VarDef, (d.default.any fun l => !l.isNull) = true ↔ ∃ l, d.default = some l ∧ l ≠ .null := by
    intro d
    cases d.default with
    | none => simp
    | some l => cases l <;> simp [Lit.isNull]
  unfold findVariable declared
  rw [Option.map_eq_some_iff]
  constructor
  · rintro ⟨e, he, rfl⟩
    have hm := List.mem_of_find?_eq_some he
    have hk : e.1 = name := by simpa using List.find?_some he
    obtain ⟨d, hd, rfl⟩ := List.mem_map.mp hm
    exact ⟨d, hd, hk, rfl, by simp [Option.isSome_iff_ne_none], hfun d⟩
  · rintro ⟨d, hd, hk, ht, h1, h2⟩
    refine ⟨(d.name, ⟨d.default.isSome, d.default.any fun l => !l.isNull, d.type⟩), ?_, ?_⟩
    · have := find_nodup (l := ds.map fun d => (d.name, (⟨d.default.isSome, d.default.any fun l => !l.isNull, d.type⟩ : Argument)))
        (by simpa [List.map_map, Function.comp_def] using h) (List.mem_map.mpr ⟨d, hd, rfl⟩)
      rw [hk] at this ⊢
      exact this
    · obtain ⟨b, n, t⟩ := a
      simp only at ht h1 h2
      simp only [Argument.mk.injEq]
      refine ⟨?_, ?_, ht.symm⟩
      · rw [Bool.eq_iff_iff, h1]; simp [Option.isSome_iff_ne_none]
      · rw [Bool.eq_iff_iff, h2]; exact hfun d

/-- The root types. -/
theorem C48_operationType_iff {type root : Str} :
    S.operationType type = some root ↔ (type = str "query" ∧ root = S.query) ∨ (type = str "mutation" ∧ S.mutation = some root) ∨
      (type = str "subscription" ∧ S.subscription = some root) := by
  have h1 : str "query" ≠ str "mutation" := by decide
  have h2 : str "query" ≠ str "subscription" := by decide
  have h3 : str "mutation" ≠ str "subscription" := by decide
  unfold Schema.operationType
  by_cases hq : type = str "query"
  · subst hq; simp [h1, h2, eq_comm]
  · by_cases hm : type = str "mutation"
    · subst hm; simp [h1.symm, h3]
    · by_cases hs : type = str "subscription"
      · subst hs; simp [h2.symm, h3.symm]
      · simp [hq, hm, hs]

/-- The locations of the directives of operations. -/
theorem C48_operationLocation :
    operationLocation (str "query") = .query ∧ operationLocation (str "mutation") = .mutation ∧
    operationLocation (str "subscription") = .subscription := by decide

end Verif.Validation.Spec
