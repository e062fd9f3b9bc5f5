import Verif.View.Fields
import Verif.Gen.BuildClaims

/-!
# The schema which the generators build
-/
namespace Verif.View
open Verif.Value Verif.Errors Verif.SortedMap Verif.SortedMap.Spec Verif.TypeSystem Verif.TypeSystem.Spec Verif.Gen
open Verif.Ast (TypeRef)

section
variable {s : Schema} {l : Loader}

theorem input_object {f : InputField} {v : InputValue} (h : IsInputValue s f v) : InputObject s (inputValueOf f) v :=
  ⟨h.name, h.default, h.object⟩

theorem inputs_object {fs : List InputField} {vs : List InputValue} (h : List.Forall₂ (IsInputValue s) fs vs) :
    List.Forall₂ (InputObject s) (fs.map inputValueOf) vs := by
  rw [List.forall₂_map_left_iff]
  exact h.imp fun _ _ => input_object

theorem fields_object {fs : List OutputField} {vs : List Field} (h : List.Forall₂ (IsField s) fs vs) :
    List.Forall₂ (FieldObject s) (fs.map fieldOf) vs := by
  rw [List.forall₂_map_left_iff]
  exact h.imp fun _ _ h => ⟨h.name, h.object, inputs_object h.args⟩

theorem collect_all {α : Type} (reason : α → Option Str) (xs : List α) : Introspection.collect true reason xs [] = xs := by
  rw [collect_eq]; simp

theorem hasType_named {n : Str} {k : Kind} {desc : Str} {P : BaseType → Prop} (h : HasType s n k desc P) {d : Validation.TypeDef}
    (hd : ∀ t, t.kind = k → t.name = n ∧ n ≠ [] → P t → NamedType s n d t) {a : Addr} (hl : s.lookupType n = .ok a) :
    ∃ t, s.store a = some t ∧ NamedType s n d t := by
  obtain ⟨b, t, h1, h2, h3, h4, _, h5⟩ := h
  rw [hl] at h1
  cases h1
  refine ⟨t, h2, hd t h3 ?_ h5⟩
  unfold Introspection.getName TypeSystem.optional at h4
  split at h4
  · cases h4
  · rename_i hne
    have e := Option.some.inj h4
    refine ⟨e, fun e' => hne ?_⟩
    rw [e, e']; rfl

theorem hasTypes_named (h : HasTypes s l) {d : Str × Validation.TypeDef} (hd : d ∈ typesOf l) {a : Addr}
    (hl : s.lookupType d.1 = .ok a) : ∃ t, s.store a = some t ∧ NamedType s d.1 d.2 t := by
  simp only [typesOf, List.mem_append, List.mem_map] at hd
  rcases hd with ((((⟨t, ht, rfl⟩ | ⟨t, ht, rfl⟩) | ⟨t, ht, rfl⟩) | ⟨t, ht, rfl⟩) | ⟨t, ht, rfl⟩) | ⟨t, ht, rfl⟩
  · refine hasType_named (h.scalars t ht) (fun b hk hn _ => ?_) hl
    cases b <;> simp only [BaseType.kind, reduceCtorEq] at hk
    · exact ⟨rfl, hn.1, .nil, .nil, rfl, .nil⟩
    · exact absurd hn.1.symm hn.2
  · refine hasType_named (h.enums t ht) (fun b hk hn hp => ?_) hl
    cases b <;> simp only [BaseType.kind, reduceCtorEq] at hk
    · simp only [Introspection.getEnumValues, BaseType.kind, BaseType.enumValues, Option.isSome_some, Option.getD_some, Bool.and_self, collect_all] at hp
      refine ⟨rfl, hn.1, .nil, .nil, ?_, .nil⟩
      simp only [BaseType.enumValues, Option.some_inj] at hp ⊢
      rw [hp]; simp
    · exact absurd hn.1.symm hn.2
  · refine hasType_named (h.inputs t ht) (fun b hk hn ⟨fs, hp, hf⟩ => ?_) hl
    cases b <;> simp only [BaseType.kind, reduceCtorEq] at hk
    · simp only [Introspection.getInputFields, BaseType.kind, BaseType.inputFields, Option.some_inj] at hp
      subst hp
      exact ⟨rfl, hn.1, .nil, inputs_object hf, rfl, .nil⟩
    · exact absurd hn.1.symm hn.2
  · refine hasType_named (h.unions t ht) (fun b hk hn ⟨ps, hp, hf⟩ => ?_) hl
    cases b <;> simp only [BaseType.kind, reduceCtorEq] at hk
    · simp only [Introspection.getPossibleTypes, BaseType.kind, BaseType.possibleTypes, Option.some_inj] at hp
      subst hp
      exact ⟨rfl, hn.1, .nil, .nil, rfl, hf⟩
    · exact absurd hn.1.symm hn.2
  · refine hasType_named (h.interfaces t ht) (fun b hk hn ⟨⟨fs, hp, hf⟩, ps, hq, hg⟩ => ?_) hl
    cases b <;> simp only [BaseType.kind, reduceCtorEq] at hk
    · simp only [Introspection.getFields, BaseType.kind, BaseType.fields, Option.isSome_some, Option.getD_some, Bool.and_self, collect_all, Option.some_inj] at hp
      simp only [Introspection.getPossibleTypes, BaseType.kind, BaseType.possibleTypes, Option.some_inj] at hq
      subst hp hq
      exact ⟨rfl, hn.1, fields_object hf, .nil, rfl, hg⟩
    · exact absurd hn.1.symm hn.2
  · refine hasType_named (h.objects t ht) (fun b hk hn ⟨⟨fs, hp, hf⟩, _⟩ => ?_) hl
    cases b <;> simp only [BaseType.kind, reduceCtorEq] at hk
    · simp only [Introspection.getFields, BaseType.kind, BaseType.fields, Option.isSome_some, Option.getD_some, Bool.and_self, collect_all, Option.some_inj] at hp
      subst hp
      exact ⟨rfl, hn.1, fields_object hf, .nil, rfl, .nil⟩
    · exact absurd hn.1.symm hn.2

theorem typesOf_names (l : Loader) : (typesOf l).map (·.1) = typeNames l := by
  simp [typesOf, typeNames, Function.comp_def]

theorem location_iff : ∀ e ∈ locationNames, ∀ x, locationOf x = e.2 ↔ List.lookup e.1 locations = some x := by
  intro e he x
  simp only [locationNames, List.mem_cons, List.not_mem_nil, or_false] at he
  rcases he with rfl | rfl | rfl | rfl | rfl | rfl | rfl | rfl | rfl | rfl | rfl | rfl | rfl | rfl | rfl | rfl | rfl | rfl <;>
    cases x <;> decide +kernel

theorem locations_iff {ns : List Str} {ls : List DirectiveLocation} (h : List.Forall₂ (fun n l => (n, l) ∈ locationNames) ns ls)
    (x : Validation.Location) : locationOf x ∈ ls ↔ x ∈ ns.filterMap fun n => List.lookup n locations := by
  induction h with
  | nil => simp
  | @cons n l ns ls h1 _ ih =>
    have := location_iff _ h1 x
    simp only [] at this
    rw [List.mem_cons, this, ih, List.filterMap_cons]
    cases List.lookup n locations with
    | none => simp
    | some y => simp [eq_comm (a := x)]

theorem rootOf_rel {operation : Str} {a : Option Addr} (h : IsRoot s l operation a) :
    Option.Rel (fun n a => s.lookupType n = .ok a) (rootOf l operation) a := by
  cases a with
  | none =>
    have h : ∀ o ∈ l.operationTypes, o.operation ≠ operation := h
    have e : rootOf l operation = none := by
      rw [rootOf, Option.map_eq_none_iff, List.find?_eq_none]
      intro o ho
      simpa using h o (List.mem_reverse.1 ho)
    rw [e]; exact .none
  | some a =>
    obtain ⟨pre, o, post, e, h1, h2, h3⟩ := h
    have e : rootOf l operation = some o.type := by
      rw [rootOf, e, List.reverse_append, List.reverse_cons, List.append_assoc, List.find?_append]
      have : post.reverse.find? (fun o => o.operation == operation) = none := by
        rw [List.find?_eq_none]
        intro o ho
        simpa using h2 o (List.mem_reverse.1 ho)
      rw [this, Option.none_or, List.singleton_append, List.find?_cons, h1, beq_self_eq_true]
      rfl
    rw [e]; exact .some h3

theorem find_of_name {S : Validation.Schema} {n : Str} (h : n ∈ S.types.map (·.1)) : (S.find n).isSome := by
  obtain ⟨e, he, rfl⟩ := List.mem_map.1 h
  rw [Validation.Schema.find, Option.isSome_map, List.find?_isSome]
  exact ⟨e, List.mem_reverse.2 he, by simp⟩

/-- The built schema has what the loaded types declare. -/
theorem builtFrom_represents (h : BuiltFrom l s) (hd : DistinctNames l) (introspection : Bool)
    (hq : ∃ o ∈ l.operationTypes, o.operation = str "query") : Represents s (declared introspection l) := by
  obtain ⟨ops, hb, ho⟩ := h.built
  have names : (declared introspection l).types.map (·.1) = typeNames Introspect.types ++ typeNames l := by
    simp only [declared, List.map_append, typesOf_names]
  have known : ∀ n ∈ typeNames Introspect.types, ((declared introspection l).find n).isSome := by
    intro n hn
    exact find_of_name (by rw [names]; exact List.mem_append_left _ hn)
  refine ⟨h.built, ?_, by rw [names]; exact hd.1, ?_, ?_, rootOf_rel h.mutation, rootOf_rel h.subscription, known _ (by decide +kernel),
    known _ (by decide +kernel), known _ (by decide +kernel)⟩
  · have h1 := h.order
    rw [← names, Introspection.getTypes, List.forall₂_map_left_iff, List.forall₂_map_right_iff] at h1
    rw [List.forall₂_iff_get] at h1 ⊢
    refine ⟨h1.1, fun i hi hi' => ?_⟩
    have hl := h1.2 i hi hi'
    have hm : (s.types.get ⟨i, hi'⟩) ∈ s.types := List.get_mem _ _
    have hm' : ((declared introspection l).types.get ⟨i, hi⟩) ∈ (declared introspection l).types := List.get_mem _ _
    generalize s.types.get ⟨i, hi'⟩ = e at hl hm
    generalize (declared introspection l).types.get ⟨i, hi⟩ = d at hl hm'
    refine ⟨?_, hl, ?_⟩
    · rw [(C37_lookup hb []).1] at hm
      obtain ⟨_, k, desc, hk⟩ := ho.2 e.1 e.2 hm
      obtain ⟨t, ht, _, hn, _⟩ := hb.made _ _ _ _ hk
      obtain ⟨t', ht', _, hn', _⟩ := Denotes.made hb ho hl
      rw [ht] at ht'
      cases ht'
      rw [← hn, hn']
    · rcases List.mem_append.1 hm' with hm' | hm'
      · exact hasTypes_named h.introspection hm' hl
      · exact hasTypes_named h.types hm' hl
  · show List.Forall₂ _ ((Introspect.types.directives ++ l.directives).map directiveOf) _
    rw [List.forall₂_map_left_iff]
    exact h.directives.imp fun d v hd => ⟨hd.name, locations_iff hd.locations, inputs_object hd.args⟩
  · have h1 := rootOf_rel h.query
    obtain ⟨o, ho, e⟩ := hq
    have h2 : rootOf l (str "query") = some ((rootOf l (str "query")).getD []) := by
      have : (rootOf l (str "query")).isSome := by
        rw [rootOf, Option.isSome_map, List.find?_isSome]
        exact ⟨o, List.mem_reverse.2 ho, by simp [e]⟩
      obtain ⟨x, hx⟩ := Option.isSome_iff_exists.1 this
      rw [hx]; rfl
    rw [h2] at h1
    exact h1

end

end Verif.View
