import Verif.View.Steps

/-!
# The fields of a type
-/
namespace Verif.View
open Verif.Value Verif.Errors Verif.SortedMap Verif.SortedMap.Spec Verif.TypeSystem Verif.TypeSystem.Spec
open Verif.Ast (TypeRef)

section
variable {S : Validation.Schema} {v : Validator} {s : Schema}

theorem foldl_skip {α β : Type} (p : α → Bool) (f : β → α → β) (xs : List α) (b : β) :
    xs.foldl (fun b x => if p x then b else f b x) b = (xs.filter fun x => !p x).foldl f b := by
  induction xs generalizing b with
  | nil => rfl
  | cons x xs ih =>
    rw [List.foldl_cons, ih, List.filter_cons]
    cases p x <;> simp

theorem Represents.valid (h : Represents s S) {τ : TypeRef} {a : Addr} (hd : Denotes s τ a) : (S.valid τ).isSome := by
  cases hd with
  | named hl =>
    obtain ⟨d, t, hf, _⟩ := h.lookup hl
    simp [Validation.Schema.valid, hf]
  | list => rfl
  | nonNull => rfl

theorem foldl_congr' {α β : Type} {f g : β → α → β} {xs : List α} (h : ∀ b, ∀ x ∈ xs, f b x = g b x) (b : β) :
    xs.foldl f b = xs.foldl g b := by
  induction xs generalizing b with
  | nil => rfl
  | cons x xs ih => rw [List.foldl_cons, List.foldl_cons, h b x (by simp), ih fun b y hy => h b y (by simp [hy])]

/-- The fields of the type itself. -/
theorem ownFields_spec (h : Represents s S) {ds : List Validation.FieldDef} {os : List Field}
    (ho : List.Forall₂ (FieldObject s) ds os) :
    Ordered (ownFields s os) ∧ ∀ n, Option.Rel (FieldIs s) (get (ownFields s os) n)
      (ds.reverse.find? fun f => f.name == n && !f.name.isEmpty && (S.valid f.type).isSome) := by
  have e : ownFields s os = (os.filter fun f => !f.name.isEmpty).foldl (fun m f => assign {} m f.name
      { returnType := some f.type, arguments := getArguments s f.args }) [] := by
    rw [← foldl_skip]
    refine foldl_congr' (fun m f hf => ?_) []
    obtain ⟨d, _, hd⟩ := forall₂_right ho hf
    rw [h.lock hd.type]
  obtain ⟨h1, h2⟩ := get_assigns (V := TypeField) {} (fun f : Field => f.name)
    (fun f => { returnType := some f.type, arguments := getArguments s f.args }) (os.filter fun f => !f.name.isEmpty) ordered_nil
  rw [e]
  refine ⟨h1, fun n => ?_⟩
  rw [h2, get_nil, Option.or_none, ← List.filter_reverse, List.find?_filter]
  rw [← Option.map_id' (x := ds.reverse.find? _)]
  refine rel_map (R := fun o d => FieldObject s d o) (rel_flip (rel_find (List.rel_reverse ho) fun d o hd => ?_)) fun o d hd => ?_
  · rw [h.valid hd.type, Bool.and_true, hd.name, Bool.and_comm, Bool.decide_and, Bool.decide_eq_true, Bool.decide_eq_true]
  · exact ⟨⟨o.type, rfl, hd.type⟩, (h.arguments hd.args).2⟩

/-- The schema and the fields after each of the three parts. -/
structure FieldsOf (s₀ s : Schema) (m : SMap Str TypeField) (find : Str → Option Validation.FieldDef) : Prop where
  later : Later s₀ s
  ordered : Ordered m
  fields : ∀ n, Option.Rel (FieldIs s) (get m n) (find n)

theorem FieldsOf.add {s₀ s s' : Schema} {m : SMap Str TypeField} {find : Str → Option Validation.FieldDef} (h : FieldsOf s₀ s m find)
    (hl : Later s s') {f : Validation.FieldDef} {x : TypeField} (hx : FieldIs s' x f) (n : Str) :
    FieldsOf s₀ s' (assign {} m n x) fun k => if k = n then some f else find k := by
  refine ⟨h.later.trans hl, ordered_assign h.ordered _ _ _, fun k => ?_⟩
  rw [get_assign h.ordered]
  show Option.Rel _ _ (if k = n then some f else find k)
  split
  · exact .some hx
  · exact rel_imp (fun _ _ => hl.fieldIs) (h.fields k)

theorem noArguments (s : Schema) : ArgumentsAre s [] [] := fun n => by rw [get_nil]; exact .none

theorem addIntrospection_spec {alloc : Schema → Addr} (hf : Fresh alloc) (h : Represents s S) {m : SMap Str TypeField}
    {find : Str → Option Validation.FieldDef} (hm : FieldsOf s s m find) :
    ∃ s' m', addIntrospection alloc s m = .ok (s', m') ∧ FieldsOf s s' m' fun k =>
      if k = str "__type" then some ⟨k, .named (str "__Type"), [⟨str "name", .nonNull (.named (str "String")), []⟩]⟩
      else if k = str "__schema" then some ⟨k, .nonNull (.named (str "__Schema")), []⟩
      else find k := by
  obtain ⟨s₁, a, h1, h2, h3⟩ := wrapNonNull_spec hf h h.schemaType
  have r₁ := h2.represents h
  obtain ⟨d, hd⟩ := Option.isSome_iff_exists.1 h.typeType
  obtain ⟨b, _, hb, _⟩ := r₁.find hd
  obtain ⟨s₂, c, h4, h5, h6⟩ := wrapNonNull_spec hf r₁ h.string
  refine ⟨s₂, assign {} (assign {} m (str "__schema") { returnType := some a }) (str "__type")
    { returnType := some b, arguments := assign {} [] (str "name") { type := some c } },
    by simp only [addIntrospection, h1, hb, h4], ?_⟩
  have m₁ := hm.add h2 (x := { returnType := some a }) (f := ⟨str "__schema", .nonNull (.named (str "__Schema")), []⟩)
    ⟨⟨a, rfl, h3⟩, noArguments s₁⟩ (str "__schema")
  have m₂ := m₁.add h5 (x := { returnType := some b, arguments := assign {} [] (str "name") { type := some c } })
    (f := ⟨str "__type", .named (str "__Type"), [⟨str "name", .nonNull (.named (str "String")), []⟩]⟩)
    ⟨⟨b, rfl, h5.denotes (.named hb)⟩, fun n => ?_⟩ (str "__type")
  · refine ⟨m₂.later, m₂.ordered, fun k => ?_⟩
    have := m₂.fields k
    by_cases c1 : k = str "__type"
    · subst c1; simpa using this
    · by_cases c2 : k = str "__schema"
      · subst c2; simpa [c1] using this
      · simpa [c1, c2] using this
  · rw [get_assign ordered_nil, get_nil]
    by_cases hn : n = str "name"
    · subst hn
      simp only [if_true, Validation.findArgument, List.reverse_singleton, List.find?_cons, beq_self_eq_true, Option.map_some]
      exact .some ⟨by simp [Validation.InputValue.argument], by simp [Validation.InputValue.argument], ⟨c, rfl, h6⟩⟩
    · simp only [hn, if_false, Validation.findArgument, List.reverse_singleton, List.find?_cons, beq_eq_false_iff_ne.2 (Ne.symm hn),
        List.find?_nil, Option.map_none]
      exact .none

theorem addTypename_spec {alloc : Schema → Addr} (hf : Fresh alloc) {s₀ : Schema} (h : Represents s S) {m : SMap Str TypeField}
    {find : Str → Option Validation.FieldDef} (hm : FieldsOf s₀ s m find) :
    ∃ s' m', addTypename alloc s m = .ok (s', m') ∧ FieldsOf s₀ s' m' fun k =>
      if k = str "__typename" then some ⟨k, .nonNull (.named (str "String")), []⟩ else find k := by
  obtain ⟨s₁, a, h1, h2, h3⟩ := wrapNonNull_spec hf h h.string
  refine ⟨s₁, assign {} m (str "__typename") { returnType := some a }, by simp only [addTypename, h1], ?_⟩
  have m₁ := hm.add h2 (x := { returnType := some a }) (f := ⟨str "__typename", .nonNull (.named (str "String")), []⟩)
    ⟨⟨a, rfl, h3⟩, noArguments s₁⟩ (str "__typename")
  refine ⟨m₁.later, m₁.ordered, fun k => ?_⟩
  have := m₁.fields k
  by_cases c1 : k = str "__typename"
  · subst c1; simpa using this
  · simpa [c1] using this

/-- Looking for the query type changes nothing. -/
theorem isQueryType_spec (h : Good S v) {n : Str} {scope : Addr} (hl : v.schema.lookupType n = .ok scope) :
    Good S (isQueryType v scope).1 ∧ (isQueryType v scope).1.schema = v.schema ∧
      (isQueryType v scope).1.typeFields = v.typeFields ∧
      (isQueryType v scope).2 = (S.introspection && n == S.query) := by
  unfold isQueryType
  rw [h.introspection]
  cases hi : S.introspection with
  | false => exact ⟨h, rfl, rfl, rfl⟩
  | true =>
    simp only [if_true, Bool.true_and]
    have hq := h.sees.operationTypes (str "query")
    simp only [Validation.Schema.operationType, if_true] at hq
    generalize hx : get v.operationTypes (str "query") = x at hq
    cases hq with
    | some hr =>
    obtain ⟨q, rfl, hd⟩ := hr
    refine ⟨⟨h.rep, ⟨h.sees.types, fun o => ?_, h.sees.directives, h.sees.enumValues, h.sees.scalars, h.sees.overlap⟩,
      hi.symm, ordered_index h.operations _ _ _, h.fields, h.inputs, h.typeFields, h.inputTypeFields⟩, trivial, trivial, ?_⟩
    · have := h.sees.operationTypes o
      simp only [get_index h.operations]
      split
      · rename_i e; subst e; rw [hx] at this ⊢; exact this
      · exact this
    · rw [index_old h.operations, hx, Option.getD_some, Bool.eq_iff_iff, decide_eq_true_eq, beq_iff_eq, Option.some_inj,
        h.rep.same (.named hl) hd, Verif.Ast.TypeRef.named.injEq]

theorem composite_kind (k : Validation.Kind) : isScalarType (kindOf k) = !k.isComposite := by cases k <;> rfl

theorem fields_spec {alloc : Schema → Addr} (hf : Fresh alloc) (h : Good S v) {n : Str} {scope : Addr}
    (hl : v.schema.lookupType n = .ok scope) :
    ∃ v' r, getScopedTypeFields alloc v scope = .ok (v', r) ∧ Good S v' ∧ Later v.schema v'.schema ∧
      r.isSome = S.isComposite n ∧ ∀ m, r = some m → ∀ k, Option.Rel (FieldIs v'.schema) (get m k) (S.findField n k) := by
  obtain ⟨d, t, hd, ht, hn⟩ := h.rep.lookup hl
  unfold getScopedTypeFields
  simp only [ht, hn.name]
  cases hg : get v.typeFields n with
  | some m =>
    refine ⟨v, some m, rfl, h, Later.refl _, ?_, fun m' e => ?_⟩
    · rw [(h.typeFields n m hg).1]; rfl
    · cases e; exact (h.typeFields n m hg).2
  | none =>
    have hc : S.isComposite n = d.kind.isComposite := by
      rw [Validation.Schema.isComposite, Validation.Schema.kind, hd]; rfl
    simp only [hn.kind, composite_kind]
    cases hk : d.kind.isComposite with
    | false =>
      refine ⟨v, none, rfl, h, Later.refl _, ?_, by simp⟩
      rw [hc, hk]; rfl
    | true =>
      simp only [Bool.not_true, Bool.false_eq_true, if_false]
      obtain ⟨g, e1, e2, e3⟩ := isQueryType_spec h hl
      obtain ⟨o1, o2⟩ := ownFields_spec h.rep hn.fields
      have own : FieldsOf v.schema v.schema (ownFields v.schema t.fields) _ := ⟨Later.refl _, o1, o2⟩
      have step : ∃ s' m', (if (isQueryType v scope).2 = true then addIntrospection alloc (isQueryType v scope).1.schema
            (ownFields v.schema t.fields) else .ok ((isQueryType v scope).1.schema, ownFields v.schema t.fields)) = .ok (s', m') ∧
          FieldsOf v.schema s' m' fun k =>
            if S.introspection && n == S.query then
              if k = str "__type" then some ⟨k, .named (str "__Type"), [⟨str "name", .nonNull (.named (str "String")), []⟩]⟩
              else if k = str "__schema" then some ⟨k, .nonNull (.named (str "__Schema")), []⟩
              else d.fields.reverse.find? fun f => f.name == k && !f.name.isEmpty && (S.valid f.type).isSome
            else d.fields.reverse.find? fun f => f.name == k && !f.name.isEmpty && (S.valid f.type).isSome := by
        rw [e1, e3]
        cases S.introspection && n == S.query with
        | false => exact ⟨_, _, rfl, own⟩
        | true => exact addIntrospection_spec hf h.rep own
      obtain ⟨s₁, m₁, q1, q2⟩ := step
      obtain ⟨s₂, m₂, q3, q4⟩ := addTypename_spec hf (q2.later.represents h.rep) q2
      rw [q1]
      simp only [q3]
      have g' : Good S { (isQueryType v scope).1 with schema := s₂ } := g.later (by rw [e1]; exact q4.later)
      have hgs : get (isQueryType v scope).1.typeFields n = none := by rw [e2, hg]
      obtain ⟨w1, w2⟩ := emplace_new g.fields hgs m₂
      have key : ∀ k, Option.Rel (FieldIs s₂) (get m₂ k) (S.findField n k) := by
        intro k
        have := q4.fields k
        rw [Validation.Schema.findField, hd]
        simp only []
        by_cases c1 : k = str "__typename"
        · subst c1; simpa using this
        · have n1 : str "__schema" ≠ str "__type" := by decide +kernel
          cases hi : S.introspection && n == S.query with
          | false =>
            rw [Bool.and_assoc, Bool.and_assoc, hi]
            rw [if_neg c1, hi, if_neg (by simp)] at this
            simpa [c1] using this
          | true =>
            rw [Bool.and_assoc, Bool.and_assoc, hi]
            rw [if_neg c1, hi, if_pos rfl] at this
            by_cases c2 : k = str "__type"
            · subst c2
              simpa [c1, n1.symm] using this
            · by_cases c3 : k = str "__schema"
              · subst c3
                simpa [c1, c2] using this
              · simpa [c1, c2, c3] using this
      refine ⟨_, some m₂, rfl, ⟨g'.rep, ⟨g'.sees.types, g'.sees.operationTypes, g'.sees.directives, g'.sees.enumValues,
        g'.sees.scalars, g'.sees.overlap⟩, g'.introspection, g'.operations, w1, g'.inputs, fun k m hm => ?_, g'.inputTypeFields⟩,
        q4.later, ?_, fun m e => ?_⟩
      · simp only [w2] at hm
        split at hm
        · cases hm
          rename_i e
          rw [e]
          exact ⟨by rw [hc, hk], key⟩
        · exact g'.typeFields k m hm
      · rw [hc, hk]; rfl
      · cases e; exact key

/-- Every state of the validator is good. -/
theorem Reachable.good {alloc : Schema → Addr} (hf : Fresh alloc) (hr : Represents s S) (h : Reachable alloc s S.introspection v) :
    Good S v := by
  induction h with
  | start => exact .construct hr
  | step _ hs ih =>
    cases hs with
    | others hv => exact ih.later (later_wrap hv)
    | fields hl h =>
      obtain ⟨v', r, h1, h2, _⟩ := fields_spec hf ih hl
      rw [h1] at h
      cases h
      exact h2
    | inputFields => exact (inputFields_spec ih _).1
    | @variableType τ s' i p h =>
      obtain ⟨s'', p', h1, h2, _⟩ := variableType_spec hf τ ih
      rw [h1] at h
      cases h
      exact ih.later h2

end

end Verif.View
