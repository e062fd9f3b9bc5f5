import Verif.Intro.ServesAll

/-!
# The service with introspection implements the schema with introspection
-/
namespace Verif.Intro
open Verif.Value Verif.Resp Verif.Errors Verif.Exec Verif.Gen
open Verif.Ast (TypeRef)
open Verif.Validation.Spec (Inhabits)
open Verif.Sound (StaticType ValueOf Throws Serves ArgumentsInhabit)
open Verif.View (declared)
open Spec (Entity)

variable {E O : Type} {l : Loader} {P : Str → Prop} {typeOf : O → Str} {s : TypeSystem.Schema}

/-- The service of the specification, where directives only have known locations. -/
def safe (l : Loader) (isQuery : O → Bool) (I : Impl E O) : Impl E (Entity O) where
  typeNames := (Spec.service l isQuery I).typeNames
  resolver
    | .directive d => fun name => List.lookup name (Spec.directiveFields (knownLocations d))
    | e => (Spec.service l isQuery I).resolver e
  beginSet := (Spec.service l isQuery I).beginSet
  endSet := (Spec.service l isQuery I).endSet

theorem known_location : ∀ e ∈ locationNames, e.1 ∈ (introType (str "__DirectiveLocation")).enumValues := by decide +kernel

theorem knownLocations_eq {d : DirectiveType} {v : TypeSystem.Directive} (h : DirectiveIs s d v) : knownLocations d = d := by
  have : d.locations.filter (fun n => n ∈ (introType (str "__DirectiveLocation")).enumValues) = d.locations := by
    rw [List.filter_eq_self]
    intro n hn
    obtain ⟨x, _, hx⟩ := View.forall₂_left h.locations hn
    simpa using known_location _ hx
  simp only [knownLocations, this]

theorem similar_safe (hr : Reports l s) (isQuery : O → Bool) (I : Impl E O) :
    Similar (Is s) (withIntrospection s isQuery I) (safe l isQuery I) := by
  have h := similar hr isQuery I
  refine ⟨h.typeNames, fun {o o'} ho name => ?_, h.beginSet, h.endSet⟩
  have := h.resolver ho name
  cases ho with
  | directive hd =>
    simp only [safe, knownLocations_eq hd]
    exact this
  | _ => exact this

/-! ## The user's objects -/

/-- The messages of the service, and those for names which are not known. -/
def OrNotFound (P : Str → Prop) (m : Str) : Prop := P m ∨ ∃ n, m = Spec.notFound n

theorem throws_or {x : Exn} (h : Throws P x) : Throws (OrNotFound P) x := by
  cases x with
  | schema es => exact ⟨h.1, fun e he => .inl (h.2 e he)⟩
  | other what => exact fun n => ⟨.inl (h n).1, .inl (h n).2⟩

theorem user_ok {def_ : Validation.FieldDef} {r : Resolver E O} (hs : StaticType (declared false l) def_.type r.type)
    (h : ∀ params, ArgumentsInhabit (declared false l) def_.arguments params.arguments →
      (∀ x, (r.access params).result = .error x → Throws P x) ∧
      (∀ x, (r.access params).result = .ok (.value x) → ValueOf (declared false l) typeOf def_.type x) ∧
      (∀ later x, (r.access params).result = .ok (.future later (.ok x)) → ValueOf (declared false l) typeOf def_.type x) ∧
      (∀ later x, (r.access params).result = .ok (.future later (.error x)) → Throws P x)) :
    Ok l (entityType typeOf) (OrNotFound P) def_ (Spec.userField r) := by
  refine ⟨static_declared hs, fun params ha => ?_⟩
  obtain ⟨h1, h2, h3, h4⟩ := h params (arguments_declared ha)
  simp only [Spec.userField]
  generalize r.access params = run at h1 h2 h3 h4
  obtain ⟨t, res⟩ := run
  rcases res with e | (x | ⟨later, (e | x)⟩)
  · exact ⟨fun y hy => by cases hy; exact throws_or (h1 _ rfl), nofun, nofun, nofun⟩
  · exact ⟨nofun, fun y hy => by cases hy; exact value_declared (h2 _ rfl), nofun, nofun⟩
  · exact ⟨nofun, nofun, nofun, fun later y hy => by cases hy; exact throws_or (h4 _ _ rfl)⟩
  · exact ⟨nofun, nofun, fun later y hy => by cases hy; exact value_declared (h3 _ _ rfl), nofun⟩

theorem inhabits_string (hd : DistinctNames l) {v : Resp} (h : Inhabits (declared true l) false v (.nonNull (.named (str "String")))) :
    ∃ x j, v = .string x j := by
  have hk := find_intro hd true (n := str "String") (by decide +kernel)
  have hs : (introType (str "String")).kind = .scalar := by decide +kernel
  generalize ht : TypeRef.nonNull (.named (str "String")) = t at h
  have nn : ∀ {name}, Validation.Spec.nullable t = .named name → name = str "String" := by
    intro name e; subst ht; simp only [Validation.Spec.nullable] at e; cases e; rfl
  cases h with
  | null h => subst ht; exact absurd (h ⟨_, rfl⟩) (by simp)
  | scalar hn ht' hdef hk h => exact h.2.2.1 (nn ht')
  | enum ht' hdef hk' h => rw [nn ht', hk] at hdef; cases hdef; rw [hs] at hk'; cases hk'
  | jsonEnum ht' hdef hk' h => exact ⟨_, _, rfl⟩
  | list ht' h => subst ht; simp [Validation.Spec.nullable] at ht'
  | object ht' hdef hk' => rw [nn ht', hk] at hdef; cases hdef; rw [hs] at hk'; cases hk'

theorem typeField_ok (hd : DistinctNames l) :
    Ok (E := E) l (entityType typeOf) (OrNotFound P)
      ⟨str "__type", .named (str "__Type"), [⟨str "name", .nonNull (.named (str "String")), []⟩]⟩ (Spec.typeField l) := by
  refine ⟨.nullable nofun (static_object hd (by decide +kernel) (by decide +kernel) _), fun params ha => ?_⟩
  have hmem := ha.2 (str "name") _ rfl ⟨_, rfl⟩ rfl
  have hf : ∃ v, params.arguments.find (str "name") = some v ∧ (str "name", v) ∈ params.arguments := by
    obtain ⟨m, hm, hn⟩ := List.mem_map.1 hmem
    cases hq : params.arguments.find? (fun e => e.1 == str "name") with
    | none => exact absurd (by simpa using hn) (List.find?_eq_none.1 hq m hm)
    | some e =>
      have h1 := List.mem_of_find?_eq_some hq
      have h2 := List.find?_some hq
      simp only [beq_iff_eq] at h2
      exact ⟨e.2, by simp [Members.find, hq], by rw [← h2]; exact h1⟩
  obtain ⟨v, hv, hin⟩ := hf
  obtain ⟨a, ha1, ha2⟩ := ha.1 _ hin
  have : a = Validation.InputValue.argument ⟨str "name", .nonNull (.named (str "String")), []⟩ := by
    have e : Validation.findArgument [⟨str "name", .nonNull (.named (str "String")), []⟩] (str "name") =
      some (Validation.InputValue.argument ⟨str "name", .nonNull (.named (str "String")), []⟩) := rfl
    rw [e] at ha1; cases ha1; rfl
  subst this
  obtain ⟨x, j, rfl⟩ := inhabits_string hd ha2
  simp only [Spec.typeField, hv]
  split
  · exact ⟨nofun, fun y hy => by
      cases hy
      exact .present nofun (value_entity hd (by decide +kernel) (by decide +kernel) rfl), nofun, nofun⟩
  · refine ⟨fun y hy => ?_, nofun, nofun, nofun⟩
    cases hy
    exact ⟨by simp, fun e he => .inr ⟨x, by simp only [List.mem_singleton] at he; rw [he]⟩⟩

/-- `__schema` and `__type` are only fields of the type of queries. -/
theorem findField_user {type name : Str} {def_ : Validation.FieldDef} (h : (declared true l).findField type name = some def_) :
    (type = (declared true l).query ∧ name = str "__schema" ∧ def_ = ⟨str "__schema", .nonNull (.named (str "__Schema")), []⟩) ∨
    (type = (declared true l).query ∧ name = str "__type" ∧
      def_ = ⟨str "__type", .named (str "__Type"), [⟨str "name", .nonNull (.named (str "String")), []⟩]⟩) ∨
    ((type = (declared true l).query → name ≠ str "__schema" ∧ name ≠ str "__type") ∧
      (declared false l).findField type name = some def_) := by
  unfold Validation.Schema.findField at h ⊢
  have e1 : (declared false l).find type = (declared true l).find type := rfl
  have e2 : (declared true l).introspection = true := rfl
  have e3 : (declared false l).introspection = false := rfl
  have e4 : (declared false l).valid = (declared true l).valid := rfl
  rw [e1, e3, e4]
  rw [e2] at h
  cases hf : (declared true l).find type with
  | none => rw [hf] at h; cases h
  | some t =>
    rw [hf] at h
    simp only [Bool.and_true, Bool.and_false, Bool.false_and, Bool.false_eq_true, if_false] at h ⊢
    have n1 : str "__typename" ≠ str "__schema" := by decide +kernel
    have n2 : str "__typename" ≠ str "__type" := by decide +kernel
    have n3 : str "__type" ≠ str "__schema" := by decide +kernel
    by_cases c1 : name = str "__typename"
    · subst c1
      exact .inr (.inr ⟨fun _ => ⟨n1, n2⟩, h⟩)
    · rw [if_neg c1] at h
      rw [if_neg c1]
      by_cases cq : type = (declared true l).query
      · subst cq
        by_cases c2 : name = str "__schema"
        · subst c2
          simp only [decide_true, beq_self_eq_true, Bool.and_self, if_true, Option.some.injEq] at h
          exact .inl ⟨rfl, rfl, h.symm⟩
        · by_cases c3 : name = str "__type"
          · subst c3
            simp only [n3, decide_false, decide_true, beq_self_eq_true, Bool.and_self, Bool.false_and, Bool.false_eq_true, if_false,
              if_true, Option.some.injEq] at h
            exact .inr (.inl ⟨rfl, rfl, h.symm⟩)
          · simp only [c2, c3, decide_false, Bool.false_and, Bool.false_eq_true, if_false] at h
            exact .inr (.inr ⟨fun _ => ⟨c2, c3⟩, h⟩)
      · rw [beq_eq_false_iff_ne.2 cq] at h
        simp only [Bool.and_false, Bool.false_eq_true, if_false] at h
        exact .inr (.inr ⟨fun e => absurd e cq, h⟩)

/-! ## All objects -/

theorem typename_ok (hd : DistinctNames l) {n : Str} {r : Resolver E (Entity O)} (hr : r = Spec.constant .leaf (Spec.string n)) :
    Ok (E := E) l (entityType typeOf) P ⟨str "__typename", .nonNull (.named (str "String")), []⟩ r := by
  subst hr
  exact ok_string hd n

theorem entity_ok (hd : DistinctNames l) (hq : (declared true l).query ∉ Gen.typeNames Introspect.types) {n : String}
    (hn : str n ∈ Gen.typeNames Introspect.types) {table : List (Str × Resolver E (Entity O))}
    (htn : List.lookup (str "__typename") table = some (Spec.constant .leaf (Spec.string (str n))))
    (h : ∀ def_ ∈ (introType (str n)).fields, ∃ r, List.lookup def_.name table = some r ∧ Ok (E := E) l (entityType typeOf) P def_ r)
    {name : Str} {def_ : Validation.FieldDef} (hf : (declared true l).findField (str n) name = some def_) :
    ∃ r, List.lookup name table = some r ∧ Ok (E := E) l (entityType typeOf) P def_ r := by
  rcases field_intro hd hn (fun e => hq (e ▸ hn)) hf with ⟨rfl, rfl⟩ | ⟨h1, rfl⟩
  · exact ⟨_, htn, typename_ok hd rfl⟩
  · exact h def_ h1

/-- The service with introspection implements the schema with introspection. -/
theorem serves (hd : DistinctNames l) (hq : (declared true l).query ∉ Gen.typeNames Introspect.types) {isQuery : O → Bool}
    {I : Impl E O} (hI : Serves (declared false l) I typeOf P) (hi : ∀ o, isQuery o = true ↔ typeOf o = (declared true l).query) :
    Serves (declared true l) (safe l isQuery I) (entityType typeOf) (OrNotFound P) where
  names o name h := by
    cases o with
    | user o => exact hI.names o name h
    | _ =>
      simp only [safe, Spec.service, List.mem_singleton] at h
      subst h
      rw [matching_intro hd true (by decide +kernel) (by decide +kernel)]
      exact List.mem_singleton.2 rfl
  begins o params x h := by
    cases o with
    | user o => exact throws_or (hI.begins o params x h)
    | _ => cases h
  ends o params x h := by
    cases o with
    | user o => exact throws_or (hI.ends o params x h)
    | _ => cases h
  fields o name def_ h := by
    cases o with
    | schema => exact entity_ok hd hq (by decide +kernel) rfl (fun def_ => schema_ok hd) h
    | type τ => exact entity_ok hd hq (by decide +kernel) rfl (fun def_ => type_ok hd τ) h
    | field f => exact entity_ok hd hq (by decide +kernel) rfl (fun def_ => field_ok hd f) h
    | inputValue f => exact entity_ok hd hq (by decide +kernel) rfl (fun def_ => inputValue_ok hd f) h
    | enumValue f => exact entity_ok hd hq (by decide +kernel) rfl (fun def_ => enumValue_ok hd f) h
    | directive f => exact entity_ok hd hq (by decide +kernel) rfl (fun def_ => directive_ok hd f) h
    | user o =>
      simp only [safe, Spec.service]
      rcases findField_user h with ⟨h1, rfl, rfl⟩ | ⟨h1, rfl, rfl⟩ | ⟨h1, h2⟩
      · rw [if_pos ((hi o).2 h1)]
        exact ⟨_, rfl, ok_constant (static_object hd (by decide +kernel) (by decide +kernel) _)
          (value_entity hd (by decide +kernel) (by decide +kernel) rfl)⟩
      · rw [if_pos ((hi o).2 h1)]
        exact ⟨_, rfl, typeField_ok hd⟩
      · obtain ⟨r, hr, hs, hu⟩ := hI.fields o name def_ h2
        have hl : (if isQuery o = true then List.lookup name (Spec.queryFields (E := E) (O := O) l) else none) = none := by
          split
          · rename_i hqo
            obtain ⟨c1, c2⟩ := h1 ((hi o).1 hqo)
            simp only [Spec.queryFields, List.lookup_cons, beq_eq_false_iff_ne.2 c1, beq_eq_false_iff_ne.2 c2, List.lookup_nil]
          · rfl
        rw [hl, hr]
        exact ⟨_, rfl, user_ok hs hu⟩

end Verif.Intro
