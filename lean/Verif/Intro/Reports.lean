import Verif.Intro.Props

/-!
# The built schema reports the loaded types
-/
namespace Verif.Intro
open Verif.Value Verif.Resp Verif.Errors Verif.Exec Verif.Modifiers Verif.Gen
open Verif.TypeSystem (Schema Addr BaseType Denotes C37_lookup collect_eq)
open Verif.TypeSystem.Spec (nullIfEmpty)
open Verif.Ast (TypeRef)
open Spec (Entity)
open Verif.View (Later)

variable {s s' : Schema} {l : Loader}

theorem inputIs (hl : Later s s') {f : InputField} {v : TypeSystem.InputValue} (h : IsInputValue s f v) : InputIs s' f v :=
  ⟨h.name, h.description, h.default, hl.denotes h.object⟩

theorem inputsAre (hl : Later s s') {fs : List InputField} {vs : List TypeSystem.InputValue} (h : List.Forall₂ (IsInputValue s) fs vs) :
    List.Forall₂ (InputIs s') fs vs := h.imp fun _ _ => inputIs hl

theorem fieldsAre (hl : Later s s') {fs : List OutputField} {vs : List TypeSystem.Field} (h : List.Forall₂ (IsField s) fs vs) :
    List.Forall₂ (FieldIs s') fs vs :=
  h.imp fun _ _ h => ⟨h.name, h.description, h.deprecation, hl.denotes h.object, inputsAre hl h.args⟩

theorem namesDenote (hl : Later s s') {ns : List Str} {as : List Addr} (h : List.Forall₂ (fun n a => s.lookupType n = .ok a) ns as) :
    List.Forall₂ (Denotes s') (ns.map .named) as := by
  rw [List.forall₂_map_left_iff]
  exact h.imp fun _ _ h => .named ((hl.lookup _).trans h)

theorem forall₂_filter {α β : Type} {R : α → β → Prop} {p : α → Bool} {q : β → Bool} (hpq : ∀ a b, R a b → p a = q b)
    {as : List α} {bs : List β} (h : List.Forall₂ R as bs) : List.Forall₂ R (as.filter p) (bs.filter q) := by
  induction h with
  | nil => exact .nil
  | @cons a b as bs h1 _ ih =>
    rw [List.filter_cons, List.filter_cons, hpq _ _ h1]
    cases q b with
    | true => exact .cons h1 ih
    | false => exact ih

/-- The lists which depend on `includeDeprecated`. -/
theorem visible_rel {α β : Type} {R : α → β → Prop} {ra : α → Option Str} {rb : β → Option Str} (hr : ∀ a b, R a b → ra a = rb b)
    {as : List α} {bs : List β} (h : List.Forall₂ R as bs) (b : Option Bool) :
    List.Forall₂ R (if b = some true then as else as.filter fun a => (ra a).isNone)
      (TypeSystem.Introspection.collect (b.isSome && b.getD false) rb bs []) := by
  rw [collect_eq, List.nil_append]
  split
  · rename_i hb
    subst hb
    simpa using h
  · rename_i hb
    refine forall₂_filter (fun x y hxy => ?_) h
    have : (b.isSome && b.getD false) = false := by
      rcases b with _ | (_ | _) <;> first | rfl | exact absurd rfl hb
    rw [this, hr _ _ hxy]
    cases rb y <;> rfl

theorem hasType_about {n : Str} {k : Schema.Wrap.Kind} {desc : Str} {P : BaseType → Prop} (h : Gen.HasType s n k desc P) (hl : Later s s')
    {d : Spec.About} (hd : ∀ t, t.kind = k → TypeSystem.Introspection.getName t = some n →
      TypeSystem.Introspection.getDescription t = nullIfEmpty desc → n ≠ [] → t.name = n → P t → AboutIs s' d t) {a : Addr}
    (ha : s'.lookupType n = .ok a) : ∃ t, s'.store a = some t ∧ AboutIs s' d t := by
  obtain ⟨b, t, h1, h2, h3, h4, h5, h6⟩ := h
  rw [hl.lookup, h1] at ha
  cases ha
  have h4' := h4
  unfold TypeSystem.Introspection.getName TypeSystem.optional at h4'
  split at h4'
  · cases h4'
  · rename_i hne
    have e := Option.some.inj h4'
    exact ⟨t, hl.store _ _ h2, hd t h3 h4 h5 (fun e' => hne (by rw [e, e']; rfl)) e h6⟩

theorem hasTypes_about (h : Gen.HasTypes s l) (hl : Later s s') {n : Str} {d : Spec.Definition} (hd : (n, d) ∈ Spec.definitions l) {a : Addr}
    (ha : s'.lookupType n = .ok a) : ∃ t, s'.store a = some t ∧ AboutIs s' (d.about l) t := by
  simp only [Spec.definitions, List.mem_append, List.mem_map, Prod.mk.injEq] at hd
  rcases hd with ((((⟨t, ht, rfl, rfl⟩ | ⟨t, ht, rfl, rfl⟩) | ⟨t, ht, rfl, rfl⟩) | ⟨t, ht, rfl, rfl⟩) | ⟨t, ht, rfl, rfl⟩) | ⟨t, ht, rfl, rfl⟩
  · refine hasType_about (h.scalars t ht) hl (fun b hk hn hs hne hnm _ => ?_) ha
    cases b <;> simp only [BaseType.kind, reduceCtorEq] at hk
    · exact ⟨rfl, hn, hs, fun _ => .none, .none, .none, fun _ => .none, .none, .none⟩
    · exact absurd hnm.symm hne
  · refine hasType_about (h.enums t ht) hl (fun b hk hn hs hne hnm hp => ?_) ha
    cases b <;> simp only [BaseType.kind, reduceCtorEq] at hk
    · refine ⟨rfl, hn, hs, fun _ => .none, .none, .none, fun b => .some ?_, .none, .none⟩
      simp only [TypeSystem.Introspection.getEnumValues, BaseType.kind, BaseType.enumValues, Option.isSome_some, Option.getD_some,
        Bool.and_self, View.collect_all, Option.some_inj] at hp
      refine visible_rel (R := EnumIs) (fun x y h => by rw [h]) ?_ b
      simp only [BaseType.enumValues, hp]
      rw [List.forall₂_map_right_iff, List.forall₂_same]
      exact fun _ _ => rfl
    · exact absurd hnm.symm hne
  · refine hasType_about (h.inputs t ht) hl (fun b hk hn hs hne hnm ⟨fs, hp, hf⟩ => ?_) ha
    cases b <;> simp only [BaseType.kind, reduceCtorEq] at hk
    · simp only [TypeSystem.Introspection.getInputFields, BaseType.kind, BaseType.inputFields, Option.some_inj] at hp
      subst hp
      exact ⟨rfl, hn, hs, fun _ => .none, .none, .none, fun _ => .none, .some (inputsAre hl hf), .none⟩
    · exact absurd hnm.symm hne
  · refine hasType_about (h.unions t ht) hl (fun b hk hn hs hne hnm ⟨ps, hp, hf⟩ => ?_) ha
    cases b <;> simp only [BaseType.kind, reduceCtorEq] at hk
    · simp only [TypeSystem.Introspection.getPossibleTypes, BaseType.kind, BaseType.possibleTypes, Option.some_inj] at hp
      subst hp
      exact ⟨rfl, hn, hs, fun _ => .none, .none, .some (namesDenote hl hf), fun _ => .none, .none, .none⟩
    · exact absurd hnm.symm hne
  · refine hasType_about (h.interfaces t ht) hl (fun b hk hn hs hne hnm ⟨⟨fs, hp, hf⟩, ps, hq, hg⟩ => ?_) ha
    cases b <;> simp only [BaseType.kind, reduceCtorEq] at hk
    · simp only [TypeSystem.Introspection.getFields, BaseType.kind, BaseType.fields, Option.isSome_some, Option.getD_some, Bool.and_self,
        View.collect_all, Option.some_inj] at hp
      simp only [TypeSystem.Introspection.getPossibleTypes, BaseType.kind, BaseType.possibleTypes, Option.some_inj] at hq
      subst hp hq
      exact ⟨rfl, hn, hs, fun b => .some (visible_rel (fun _ _ h => h.deprecation.symm) (fieldsAre hl hf) b), .none,
        .some (namesDenote hl hg), fun _ => .none, .none, .none⟩
    · exact absurd hnm.symm hne
  · refine hasType_about (h.objects t ht) hl (fun b hk hn hs hne hnm ⟨⟨fs, hp, hf⟩, is, hq, hg⟩ => ?_) ha
    cases b <;> simp only [BaseType.kind, reduceCtorEq] at hk
    · simp only [TypeSystem.Introspection.getFields, BaseType.kind, BaseType.fields, Option.isSome_some, Option.getD_some, Bool.and_self,
        View.collect_all, Option.some_inj] at hp
      simp only [TypeSystem.Introspection.getInterfaces, BaseType.kind, BaseType.interfaces, Option.some_inj] at hq
      subst hp hq
      exact ⟨rfl, hn, hs, fun b => .some (visible_rel (fun _ _ h => h.deprecation.symm) (fieldsAre hl hf) b),
        .some (namesDenote hl hg), .none, fun _ => .none, .none, .none⟩
    · exact absurd hnm.symm hne

theorem definitions_names (l : Loader) : (Spec.definitions l).map (·.1) = Gen.typeNames l := by
  simp [Spec.definitions, Gen.typeNames, Function.comp_def]

theorem allDefinitions_names (l : Loader) : (Spec.allDefinitions l).map (·.1) = Gen.typeNames Introspect.types ++ Gen.typeNames l := by
  simp [Spec.allDefinitions, definitions_names]

theorem lookup_mem {α : Type} {xs : List (Str × α)} {n : Str} {a : α} (h : List.lookup n xs = some a) : (n, a) ∈ xs := by
  induction xs with
  | nil => cases h
  | cons x xs ih =>
    obtain ⟨k, v⟩ := x
    rw [List.lookup_cons] at h
    split at h
    · rename_i hk
      cases h
      rw [eq_of_beq hk]
      exact .head _
    · exact .tail _ (ih h)

theorem lookup_some {α : Type} {xs : List (Str × α)} {n : Str} (h : n ∈ xs.map (·.1)) : ∃ a, List.lookup n xs = some a := by
  induction xs with
  | nil => cases h
  | cons x xs ih =>
    obtain ⟨k, v⟩ := x
    rw [List.lookup_cons]
    split
    · exact ⟨_, rfl⟩
    · rename_i hk
      rcases List.mem_cons.1 h with h | h
      · rw [h] at hk; simp at hk
      · exact ih h

/-- Every state of the schema reports the loaded types. -/
theorem reports (h : BuiltFrom l s) (hd : DistinctNames l) (hq : ∃ o ∈ l.operationTypes, o.operation = str "query")
    (hl : Later s s') : Reports l s' := by
  have hrep := hl.represents (View.builtFrom_represents h hd true hq)
  have known : ∀ n, n ∈ (Spec.allDefinitions l).map (·.1) ↔ ∃ a, s'.lookupType n = .ok a := by
    intro n
    rw [allDefinitions_names]
    constructor
    · intro hn
      obtain ⟨a, _, ha⟩ := View.forall₂_left h.order hn
      exact ⟨a, (hl.lookup n).trans ha⟩
    · rintro ⟨a, ha⟩
      obtain ⟨d, t, hf, _⟩ := hrep.lookup ha
      have := (View.find_eq _ hrep.nodup n d).1 hf
      have := List.mem_map_of_mem (f := (·.1)) this
      rwa [show ((View.declared true l).types.map (·.1)) = Gen.typeNames Introspect.types ++ Gen.typeNames l by
        simp only [View.declared, List.map_append, View.typesOf_names]] at this
  have named : ∀ n a, s'.lookupType n = .ok a → ∃ t, s'.store a = some t ∧ AboutIs s' (Spec.about l (.named n)) t := by
    intro n a ha
    have hn := (known n).2 ⟨a, ha⟩
    simp only [Spec.about]
    cases h1 : List.lookup n (Spec.definitions Introspect.types) with
    | some d => exact hasTypes_about h.introspection hl (lookup_mem h1) ha
    | none =>
      have hn' : n ∈ (Spec.definitions l).map (·.1) := by
        rw [Spec.allDefinitions, List.map_append, List.mem_append] at hn
        refine hn.resolve_left fun hm => ?_
        obtain ⟨d, hd⟩ := lookup_some hm
        rw [hd] at h1; cases h1
      obtain ⟨d, h2⟩ := lookup_some hn'
      simp only [h2]
      exact hasTypes_about h.types hl (lookup_mem h2) ha
  have about : ∀ τ a, Denotes s' τ a → ∃ t, s'.store a = some t ∧ AboutIs s' (Spec.about l τ) t := by
    intro τ a hd
    induction hd with
    | named hl => exact named _ _ hl
    | @list τ a b hd hb ih =>
      obtain ⟨t, ht, _⟩ := ih
      refine ⟨_, hb, rfl, rfl, rfl, fun _ => .none, .none, .none, fun _ => .none, .none, ?_⟩
      simp only [TypeSystem.Introspection.getOfType, BaseType.kind, BaseType.ofType, Option.bind_some, ht, Option.isSome_some, if_true]
      exact .some hd
    | @nonNull τ a b hd hb ih =>
      obtain ⟨t, ht, _⟩ := ih
      refine ⟨_, hb, rfl, rfl, rfl, fun _ => .none, .none, .none, fun _ => .none, .none, ?_⟩
      simp only [TypeSystem.Introspection.getOfType, BaseType.kind, BaseType.ofType, Option.bind_some, ht, Option.isSome_some, if_true]
      exact .some hd
  refine ⟨fun n e he => ?_, known, about, ?_, ?_, ?_, hl.root (View.rootOf_rel h.mutation) |> fun x => ?_,
    hl.root (View.rootOf_rel h.subscription) |> fun x => ?_⟩
  · obtain ⟨ops, hb, _⟩ := hrep.built
    rw [(C37_lookup hb n).2] at he
    split at he
    · cases he
    · cases he
      rfl
  · have h1 := h.order
    rw [← allDefinitions_names, List.forall₂_map_left_iff] at h1
    rw [TypeSystem.Introspection.getTypes, hl.types]
    exact h1.imp fun _ _ h => (hl.lookup _).trans h
  · rw [TypeSystem.Introspection.getDirectives, hl.directives]
    exact h.directives.imp fun d v h => ⟨h.name, h.description, h.locations, inputsAre hl h.args⟩
  · have := hrep.query
    rw [TypeSystem.Introspection.getQueryType]
    revert this
    generalize s'.query = q
    intro hq'
    cases hq' with
    | some h => exact ⟨_, rfl, h⟩
  · rw [TypeSystem.Introspection.getMutationType, hl.mutation]; exact x
  · rw [TypeSystem.Introspection.getSubscriptionType, hl.subscription]; exact x

end Verif.Intro
