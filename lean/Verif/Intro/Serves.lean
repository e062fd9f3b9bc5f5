import Verif.Intro.Reports
import Verif.Sound.Claims

/-!
# The service with introspection implements the schema with introspection
-/
namespace Verif.Intro
open Verif.Value Verif.Resp Verif.Errors Verif.Exec Verif.Gen
open Verif.Ast (TypeRef)
open Verif.Validation.Spec (Inhabits)
open Verif.Gen.Client (LeafHolds LeafTypeOf NoDuplicates)
open Verif.Sound (StaticType ValueOf Throws Serves ArgumentsInhabit)
open Verif.View (declared)
open Spec (Entity)

variable {E O : Type} {l : Loader} {P : Str → Prop}

/-! ## With and without introspection -/

theorem inhabits_declared {d : Bool} {v : Resp} {τ : TypeRef} (h : Inhabits (declared true l) d v τ) : Inhabits (declared false l) d v τ := by
  induction h with
  | null h => exact .null h
  | scalar hn ht hd hk h => exact .scalar hn ht hd hk h
  | enum ht hd hk h => exact .enum ht hd hk h
  | jsonEnum ht hd hk h => exact .jsonEnum ht hd hk h
  | list ht _ ih => exact .list ht ih
  | object ht hd hk h1 _ h3 ih => exact .object ht hd hk h1 ih h3

theorem arguments_declared {defs : List Validation.InputValue} {ms : Members} (h : ArgumentsInhabit (declared true l) defs ms) :
    ArgumentsInhabit (declared false l) defs ms :=
  ⟨fun m hm => by obtain ⟨a, h1, h2⟩ := h.1 m hm; exact ⟨a, h1, inhabits_declared h2⟩, h.2⟩

theorem static_declared {τ : TypeRef} {t : OutType} (h : StaticType (declared false l) τ t) : StaticType (declared true l) τ t := by
  induction h with
  | leaf hc => exact .leaf hc
  | enum hk => exact .enum hk
  | object hc => exact .object hc
  | list _ ih => exact .list ih
  | nullable hn _ ih => exact .nullable hn ih

theorem leafType_declared {n : Str} {k : Gen.Client.LeafType} (h : LeafTypeOf (declared false l) n k) : LeafTypeOf (declared true l) n k := by
  cases h with
  | enum h => exact .enum h
  | builtin h ht => exact .builtin h ht
  | custom h ht => exact .custom h ht

theorem leaf_declared {n : Str} {v : Resp} {d : Gen.Client.Data} (h : LeafHolds (declared false l) n v d) :
    LeafHolds (declared true l) n v d := by
  cases h with
  | int h => exact .int (leafType_declared h)
  | float h => exact .float (leafType_declared h)
  | integral h => exact .integral (leafType_declared h)
  | string h => exact .string (leafType_declared h)
  | boolean h => exact .boolean (leafType_declared h)
  | id h hb => exact .id (leafType_declared h) hb
  | enum h hv ht hi => exact .enum (leafType_declared h) hv ht hi
  | custom h => exact .custom (leafType_declared h)

/-- The types of the objects. -/
def entityType (typeOf : O → Str) : Entity O → Str
  | .user o => typeOf o
  | .schema => str "__Schema"
  | .type _ => str "__Type"
  | .field _ => str "__Field"
  | .inputValue _ => str "__InputValue"
  | .enumValue _ => str "__EnumValue"
  | .directive _ => str "__Directive"

theorem values_map (xs : List (Out O)) : Spec.values xs = xs.map Spec.value := by
  induction xs with
  | nil => simp [Spec.values]
  | cons x xs ih => simp [Spec.values, ih]

theorem value_declared {typeOf : O → Str} {τ : TypeRef} {x : Out O} (h : ValueOf (declared false l) typeOf τ x) :
    ValueOf (declared true l) (entityType typeOf) τ (Spec.value x) := by
  induction h with
  | leaf hc hv hd h => rw [Spec.value]; exact .leaf hc hv hd (leaf_declared h)
  | @object n o hc h => rw [Spec.value]; exact .object (o := Entity.user o) hc h
  | list h ih =>
    rw [Spec.value, values_map]
    refine .list fun y hy => ?_
    obtain ⟨x, hx, rfl⟩ := List.mem_map.1 hy
    exact ih x hx
  | absent hn => rw [Spec.value]; exact .absent hn
  | present hn _ ih => rw [Spec.value]; exact .present hn ih

/-! ## The introspection types -/

/-- A type which every schema has. -/
def introType (n : Str) : Validation.TypeDef := (List.lookup n (View.typesOf Introspect.types)).getD { kind := .scalar }

theorem find_intro (hd : DistinctNames l) (b : Bool) {n : Str} (hn : n ∈ Gen.typeNames Introspect.types) :
    (declared b l).find n = some (introType n) := by
  rw [← View.typesOf_names] at hn
  obtain ⟨d, h⟩ := lookup_some hn
  have e : introType n = d := by rw [introType, h]; rfl
  rw [e, View.find_eq]
  · exact List.mem_append_left _ (lookup_mem h)
  · simp only [declared, List.map_append, View.typesOf_names]
    exact hd.1

theorem kind_intro (hd : DistinctNames l) (b : Bool) {n : Str} (hn : n ∈ Gen.typeNames Introspect.types) :
    (declared b l).kind n = some (introType n).kind := by
  rw [Validation.Schema.kind, find_intro hd b hn]; rfl

theorem composite_intro (hd : DistinctNames l) (b : Bool) {n : Str} (hn : n ∈ Gen.typeNames Introspect.types) :
    (declared b l).isComposite n = (introType n).kind.isComposite := by
  rw [Validation.Schema.isComposite, kind_intro hd b hn]; rfl

theorem matching_intro (hd : DistinctNames l) (b : Bool) {n : Str} (hn : n ∈ Gen.typeNames Introspect.types)
    (hk : (introType n).kind = .object) : (declared b l).matching n = [n] := by
  rw [Validation.Schema.matching, find_intro hd b hn]
  simp only [hk]

/-- What a resolver has to do. -/
def Ok (l : Loader) (typeOf : O → Str) (P : Str → Prop) (def_ : Validation.FieldDef) (r : Resolver E O) : Prop :=
  StaticType (declared true l) def_.type r.type ∧
    ∀ params, ArgumentsInhabit (declared true l) def_.arguments params.arguments →
      (∀ x, (r.access params).result = .error x → Throws P x) ∧
      (∀ x, (r.access params).result = .ok (.value x) → ValueOf (declared true l) typeOf def_.type x) ∧
      (∀ later x, (r.access params).result = .ok (.future later (.ok x)) → ValueOf (declared true l) typeOf def_.type x) ∧
      (∀ later x, (r.access params).result = .ok (.future later (.error x)) → Throws P x)

theorem ok_now {typeOf : O → Str} {def_ : Validation.FieldDef} {t : OutType} {x : FieldParams → Out O}
    (ht : StaticType (declared true l) def_.type t) (hx : ∀ params, ValueOf (declared true l) typeOf def_.type (x params)) :
    Ok (E := E) l typeOf P def_ ⟨t, fun params => .pure (.value (x params))⟩ :=
  ⟨ht, fun params _ => ⟨nofun, fun y hy => by cases hy; exact hx params, nofun, nofun⟩⟩

theorem ok_constant {typeOf : O → Str} {def_ : Validation.FieldDef} {t : OutType} {x : Out O}
    (ht : StaticType (declared true l) def_.type t) (hx : ValueOf (declared true l) typeOf def_.type x) :
    Ok (E := E) l typeOf P def_ (Spec.constant t x) := ok_now ht fun _ => hx

section
variable {T : O → Str}

theorem value_maybe {α : Type} {τ : TypeRef} (hn : ∀ σ, τ ≠ .nonNull σ) {f : α → Out O}
    (h : ∀ a, ValueOf (declared true l) T (.nonNull τ) (f a)) (x : Option α) : ValueOf (declared true l) T τ (Spec.maybe f x) := by
  cases x with
  | none => exact .absent hn
  | some a => exact .present hn (h a)

theorem value_many {α : Type} {τ : TypeRef} {f : α → Out O} {as : List α} (h : ∀ a ∈ as, ValueOf (declared true l) T τ (f a)) :
    ValueOf (declared true l) T (.nonNull (.list τ)) (Spec.many f as) := by
  refine .list fun y hy => ?_
  obtain ⟨x, hx, rfl⟩ := List.mem_map.1 hy
  exact h x hx

theorem value_string (hd : DistinctNames l) (x : Str) : ValueOf (declared true l) T (.nonNull (.named (str "String"))) (Spec.string x) := by
  refine .leaf (d := .string x) ?_ nofun (.other nofun nofun) (.string (.builtin ?_ (by simp [Gen.Client.builtinTypes])))
  · rw [composite_intro hd _ (by decide +kernel)]; decide +kernel
  · rw [kind_intro hd _ (by decide +kernel)]; decide +kernel

theorem value_boolean (hd : DistinctNames l) (x : Bool) :
    ValueOf (declared true l) T (.nonNull (.named (str "Boolean"))) (.leaf (.boolean x)) := by
  refine .leaf (d := .boolean x) ?_ nofun (.other nofun nofun) (.boolean (.builtin ?_ (by simp [Gen.Client.builtinTypes])))
  · rw [composite_intro hd _ (by decide +kernel)]; decide +kernel
  · rw [kind_intro hd _ (by decide +kernel)]; decide +kernel

theorem value_symbol (hd : DistinctNames l) {n : Str} (hn : n ∈ Gen.typeNames Introspect.types) (hk : (introType n).kind = .enum) {x : Str}
    (hx : x ∈ (introType n).enumValues) : ValueOf (declared true l) T (.nonNull (.named n)) (Spec.symbol x) := by
  obtain ⟨i, hi⟩ := List.getElem?_of_mem hx
  refine .leaf (d := .enum i) ?_ nofun (.other nofun nofun) (.enum (t := introType n) (.enum ?_) (.inr rfl) ?_ hi)
  · rw [composite_intro hd _ hn, hk]; rfl
  · rw [kind_intro hd _ hn, hk]
  · rw [← View.find_eq _ (by simp only [declared, List.map_append, View.typesOf_names]; exact hd.1)]
    exact find_intro hd true hn

theorem static_leaf (hd : DistinctNames l) {n : Str} (hn : n ∈ Gen.typeNames Introspect.types) (hk : (introType n).kind.isComposite = false) :
    StaticType (declared true l) (.nonNull (.named n)) .leaf := .leaf (by rw [composite_intro hd _ hn, hk])

theorem static_enum (hd : DistinctNames l) {n : Str} (hn : n ∈ Gen.typeNames Introspect.types) (hk : (introType n).kind = .enum) :
    StaticType (declared true l) (.nonNull (.named n)) .enum := .enum (by rw [kind_intro hd _ hn, hk])

theorem static_object (hd : DistinctNames l) {n : Str} (hn : n ∈ Gen.typeNames Introspect.types) (hk : (introType n).kind.isComposite = true)
    (direct : Bool) : StaticType (declared true l) (.nonNull (.named n)) (.object direct) := .object (by rw [composite_intro hd _ hn, hk])

end

theorem value_entity {typeOf : O → Str} (hd : DistinctNames l) {n : Str} (hn : n ∈ Gen.typeNames Introspect.types)
    (hk : (introType n).kind = .object) {e : Entity O} (he : entityType typeOf e = n) :
    ValueOf (declared true l) (entityType typeOf) (.nonNull (.named n)) (Spec.entity e) := by
  refine .object ?_ ?_
  · rw [composite_intro hd _ hn, hk]; rfl
  · rw [matching_intro hd _ hn hk, he]; simp

/-- A field of an introspection type is one of its fields, or `__typename`. -/
theorem field_intro (hd : DistinctNames l) {type : Str} (ht : type ∈ Gen.typeNames Introspect.types)
    (hq : type ≠ (declared true l).query) {name : Str} {def_ : Validation.FieldDef}
    (h : (declared true l).findField type name = some def_) :
    (name = str "__typename" ∧ def_ = ⟨str "__typename", .nonNull (.named (str "String")), []⟩) ∨
    (def_ ∈ (introType type).fields ∧ def_.name = name) := by
  unfold Validation.Schema.findField at h
  rw [find_intro hd true ht] at h
  simp only at h
  split at h
  · rename_i e
    cases h
    exact .inl ⟨e, by rw [e]⟩
  · rw [beq_eq_false_iff_ne.2 hq] at h
    simp only [Bool.and_false, Bool.false_eq_true, if_false] at h
    have h1 := List.mem_of_find?_eq_some h
    have h2 := List.find?_some h
    simp only [Bool.and_eq_true, beq_iff_eq] at h2
    exact .inr ⟨List.mem_reverse.1 h1, h2.1.1⟩

end Verif.Intro
