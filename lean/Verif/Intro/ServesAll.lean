import Verif.Intro.Serves

/-!
# Every object of introspection has the fields of its type
-/
namespace Verif.Intro
open Verif.Value Verif.Resp Verif.Errors Verif.Exec Verif.Gen
open Verif.Ast (TypeRef)
open Verif.Sound (StaticType ValueOf Throws Serves ArgumentsInhabit)
open Verif.View (declared)
open Spec (Entity)

variable {E O : Type} {l : Loader} {P : Str → Prop} {typeOf : O → Str}

/-! ## The fields of the types -/

abbrev required (n : String) : TypeRef := .nonNull (.named (str n))
abbrev nullableList (n : String) : TypeRef := .list (required n)
abbrev requiredList (n : String) : TypeRef := .nonNull (.list (required n))
abbrev optional (n : String) : TypeRef := .named (str n)
def deprecatedArgument : Validation.InputValue := ⟨str "includeDeprecated", .named (str "Boolean"), str "false"⟩

theorem fields_schema : (introType (str "__Schema")).fields =
    [⟨str "types", requiredList "__Type", []⟩, ⟨str "queryType", required "__Type", []⟩, ⟨str "mutationType", optional "__Type", []⟩,
     ⟨str "subscriptionType", optional "__Type", []⟩, ⟨str "directives", requiredList "__Directive", []⟩] := by rfl

theorem fields_type : (introType (str "__Type")).fields =
    [⟨str "kind", required "__TypeKind", []⟩, ⟨str "name", optional "String", []⟩, ⟨str "description", optional "String", []⟩,
     ⟨str "fields", nullableList "__Field", [deprecatedArgument]⟩, ⟨str "interfaces", nullableList "__Type", []⟩,
     ⟨str "possibleTypes", nullableList "__Type", []⟩, ⟨str "enumValues", nullableList "__EnumValue", [deprecatedArgument]⟩,
     ⟨str "inputFields", nullableList "__InputValue", []⟩, ⟨str "ofType", optional "__Type", []⟩] := by rfl

theorem fields_field : (introType (str "__Field")).fields =
    [⟨str "name", required "String", []⟩, ⟨str "description", optional "String", []⟩, ⟨str "args", requiredList "__InputValue", []⟩,
     ⟨str "type", required "__Type", []⟩, ⟨str "isDeprecated", required "Boolean", []⟩,
     ⟨str "deprecationReason", optional "String", []⟩] := by rfl

theorem fields_inputValue : (introType (str "__InputValue")).fields =
    [⟨str "name", required "String", []⟩, ⟨str "description", optional "String", []⟩, ⟨str "type", required "__Type", []⟩,
     ⟨str "defaultValue", optional "String", []⟩] := by rfl

theorem fields_enumValue : (introType (str "__EnumValue")).fields =
    [⟨str "name", required "String", []⟩, ⟨str "description", optional "String", []⟩, ⟨str "isDeprecated", required "Boolean", []⟩,
     ⟨str "deprecationReason", optional "String", []⟩] := by rfl

theorem fields_directive : (introType (str "__Directive")).fields =
    [⟨str "name", required "String", []⟩, ⟨str "description", optional "String", []⟩,
     ⟨str "locations", requiredList "__DirectiveLocation", []⟩, ⟨str "args", requiredList "__InputValue", []⟩] := by rfl

/-! ## The kinds of fields -/

section
variable {name : Str} {args : List Validation.InputValue}

theorem ok_string (hd : DistinctNames l) (x : Str) :
    Ok (E := E) l (entityType typeOf) P ⟨name, required "String", args⟩ (Spec.constant .leaf (Spec.string x)) :=
  ok_constant (static_leaf hd (by decide +kernel) (by decide +kernel)) (value_string hd x)

theorem ok_boolean (hd : DistinctNames l) (x : Bool) :
    Ok (E := E) l (entityType typeOf) P ⟨name, required "Boolean", args⟩ (Spec.constant .leaf (.leaf (.boolean x))) :=
  ok_constant (static_leaf hd (by decide +kernel) (by decide +kernel)) (value_boolean hd x)

theorem ok_maybe (hd : DistinctNames l) (x : Option Str) :
    Ok (E := E) l (entityType typeOf) P ⟨name, optional "String", args⟩ (Spec.constant (.nullable .leaf) (Spec.maybe Spec.string x)) :=
  ok_constant (.nullable (fun _ h => by cases h) (static_leaf hd (by decide +kernel) (by decide +kernel)))
    (value_maybe (fun _ h => by cases h) (value_string hd) x)

variable {n : String}

theorem ok_entity (hd : DistinctNames l) (hn : str n ∈ Gen.typeNames Introspect.types) (hk : (introType (str n)).kind = .object)
    {e : Entity O} (he : entityType typeOf e = str n) :
    Ok (E := E) l (entityType typeOf) P ⟨name, required n, args⟩ (Spec.constant (.object false) (Spec.entity e)) :=
  ok_constant (static_object hd hn (by rw [hk]; rfl) _) (value_entity hd hn hk he)

theorem ok_maybeEntity {α : Type} (hd : DistinctNames l) (hn : str n ∈ Gen.typeNames Introspect.types)
    (hk : (introType (str n)).kind = .object) {f : α → Entity O} (he : ∀ a, entityType typeOf (f a) = str n) (x : Option α) :
    Ok (E := E) l (entityType typeOf) P ⟨name, optional n, args⟩
      (Spec.constant (.nullable (.object false)) (Spec.maybe (fun a => Spec.entity (f a)) x)) :=
  ok_constant (.nullable (fun _ h => by cases h) (static_object hd hn (by rw [hk]; rfl) _))
    (value_maybe (fun _ h => by cases h) (fun a => value_entity hd hn hk (he a)) x)

theorem ok_many {α : Type} (hd : DistinctNames l) (hn : str n ∈ Gen.typeNames Introspect.types)
    (hk : (introType (str n)).kind = .object) {f : α → Entity O} (he : ∀ a, entityType typeOf (f a) = str n) (xs : List α) :
    Ok (E := E) l (entityType typeOf) P ⟨name, requiredList n, args⟩
      (Spec.constant (.list (.object false)) (Spec.many (fun a => Spec.entity (f a)) xs)) :=
  ok_constant (.list (static_object hd hn (by rw [hk]; rfl) _))
    (value_many fun a _ => value_entity hd hn hk (he a))

theorem ok_maybeMany {α : Type} (hd : DistinctNames l) (hn : str n ∈ Gen.typeNames Introspect.types)
    (hk : (introType (str n)).kind = .object) {f : α → Entity O} (he : ∀ a, entityType typeOf (f a) = str n) (xs : Option (List α)) :
    Ok (E := E) l (entityType typeOf) P ⟨name, nullableList n, args⟩
      (Spec.constant (.nullable (.list (.object false))) (Spec.maybe (Spec.many fun a => Spec.entity (f a)) xs)) :=
  ok_constant (.nullable (fun _ h => by cases h) (.list (static_object hd hn (by rw [hk]; rfl) _)))
    (value_maybe (fun _ h => by cases h) (fun as => value_many fun a _ => value_entity hd hn hk (he a)) xs)

theorem ok_filtered {α : Type} (hd : DistinctNames l) (hn : str n ∈ Gen.typeNames Introspect.types)
    (hk : (introType (str n)).kind = .object) {f : α → Entity O} (he : ∀ a, entityType typeOf (f a) = str n)
    (reason : α → Option Str) (xs : Option (List α)) :
    Ok (E := E) l (entityType typeOf) P ⟨name, nullableList n, args⟩ (Spec.filtered reason f xs) :=
  ok_now (.nullable (fun _ h => by cases h) (.list (static_object hd hn (by rw [hk]; rfl) _)))
    fun _ => value_maybe (fun _ h => by cases h) (fun as => value_many fun a _ => value_entity hd hn hk (he a)) _

end

/-! ## The objects -/

theorem kind_known (l : Loader) (τ : TypeRef) : (Spec.about l τ).kind ∈ (introType (str "__TypeKind")).enumValues := by
  have hk : ∀ (l' : Loader) (d : Spec.Definition), (d.about l').kind ∈ (introType (str "__TypeKind")).enumValues := by
    intro l' d
    cases d <;> simp only [Spec.Definition.about] <;> decide +kernel
  cases τ with
  | named n =>
    simp only [Spec.about]
    split
    · exact hk _ _
    · split
      · exact hk _ _
      · decide +kernel
  | list τ => simp only [Spec.about]; decide +kernel
  | nonNull τ => simp only [Spec.about]; decide +kernel

theorem schema_ok (hd : DistinctNames l) {def_ : Validation.FieldDef} (h : def_ ∈ (introType (str "__Schema")).fields) :
    ∃ r, List.lookup def_.name (Spec.schemaFields l) = some r ∧ Ok (E := E) l (entityType typeOf) P def_ r := by
  rw [fields_schema] at h
  simp only [List.mem_cons, List.not_mem_nil, or_false] at h
  rcases h with rfl | rfl | rfl | rfl | rfl
  · exact ⟨_, rfl, ok_many hd (by decide +kernel) (by decide +kernel) (fun _ => rfl) _⟩
  · exact ⟨_, rfl, ok_entity hd (by decide +kernel) (by decide +kernel) rfl⟩
  · exact ⟨_, rfl, ok_maybeEntity hd (by decide +kernel) (by decide +kernel) (fun _ => rfl) _⟩
  · exact ⟨_, rfl, ok_maybeEntity hd (by decide +kernel) (by decide +kernel) (fun _ => rfl) _⟩
  · exact ⟨_, rfl, ok_many hd (by decide +kernel) (by decide +kernel) (fun _ => rfl) _⟩

theorem type_ok (hd : DistinctNames l) (τ : TypeRef) {def_ : Validation.FieldDef} (h : def_ ∈ (introType (str "__Type")).fields) :
    ∃ r, List.lookup def_.name (Spec.typeFields (Spec.about l τ)) = some r ∧ Ok (E := E) l (entityType typeOf) P def_ r := by
  have hk := kind_known l τ
  generalize Spec.about l τ = a at hk ⊢
  rw [fields_type] at h
  simp only [List.mem_cons, List.not_mem_nil, or_false] at h
  rcases h with rfl | rfl | rfl | rfl | rfl | rfl | rfl | rfl | rfl
  · exact ⟨_, rfl, ok_constant (static_enum hd (by decide +kernel) (by decide +kernel))
      (value_symbol hd (by decide +kernel) (by decide +kernel) hk)⟩
  · exact ⟨_, rfl, ok_maybe hd _⟩
  · exact ⟨_, rfl, ok_maybe hd _⟩
  · exact ⟨_, rfl, ok_filtered hd (by decide +kernel) (by decide +kernel) (fun _ => rfl) _ _⟩
  · exact ⟨_, rfl, ok_maybeMany hd (by decide +kernel) (by decide +kernel) (fun _ => rfl) _⟩
  · exact ⟨_, rfl, ok_maybeMany hd (by decide +kernel) (by decide +kernel) (fun _ => rfl) _⟩
  · exact ⟨_, rfl, ok_filtered hd (by decide +kernel) (by decide +kernel) (fun _ => rfl) _ _⟩
  · exact ⟨_, rfl, ok_maybeMany hd (by decide +kernel) (by decide +kernel) (fun _ => rfl) _⟩
  · exact ⟨_, rfl, ok_maybeEntity hd (by decide +kernel) (by decide +kernel) (fun _ => rfl) _⟩

theorem field_ok (hd : DistinctNames l) (f : OutputField) {def_ : Validation.FieldDef} (h : def_ ∈ (introType (str "__Field")).fields) :
    ∃ r, List.lookup def_.name (Spec.fieldFields f) = some r ∧ Ok (E := E) l (entityType typeOf) P def_ r := by
  rw [fields_field] at h
  simp only [List.mem_cons, List.not_mem_nil, or_false] at h
  rcases h with rfl | rfl | rfl | rfl | rfl | rfl
  · exact ⟨_, rfl, ok_string hd _⟩
  · exact ⟨_, rfl, ok_maybe hd _⟩
  · exact ⟨_, rfl, ok_many hd (by decide +kernel) (by decide +kernel) (fun _ => rfl) _⟩
  · exact ⟨_, rfl, ok_entity hd (by decide +kernel) (by decide +kernel) rfl⟩
  · exact ⟨_, rfl, ok_boolean hd _⟩
  · exact ⟨_, rfl, ok_maybe hd _⟩

theorem inputValue_ok (hd : DistinctNames l) (f : InputField) {def_ : Validation.FieldDef} (h : def_ ∈ (introType (str "__InputValue")).fields) :
    ∃ r, List.lookup def_.name (Spec.inputValueFields f) = some r ∧ Ok (E := E) l (entityType typeOf) P def_ r := by
  rw [fields_inputValue] at h
  simp only [List.mem_cons, List.not_mem_nil, or_false] at h
  rcases h with rfl | rfl | rfl | rfl
  · exact ⟨_, rfl, ok_string hd _⟩
  · exact ⟨_, rfl, ok_maybe hd _⟩
  · exact ⟨_, rfl, ok_entity hd (by decide +kernel) (by decide +kernel) rfl⟩
  · exact ⟨_, rfl, ok_maybe hd _⟩

theorem enumValue_ok (hd : DistinctNames l) (v : EnumValueType) {def_ : Validation.FieldDef} (h : def_ ∈ (introType (str "__EnumValue")).fields) :
    ∃ r, List.lookup def_.name (Spec.enumValueFields v) = some r ∧ Ok (E := E) l (entityType typeOf) P def_ r := by
  rw [fields_enumValue] at h
  simp only [List.mem_cons, List.not_mem_nil, or_false] at h
  rcases h with rfl | rfl | rfl | rfl
  · exact ⟨_, rfl, ok_string hd _⟩
  · exact ⟨_, rfl, ok_maybe hd _⟩
  · exact ⟨_, rfl, ok_boolean hd _⟩
  · exact ⟨_, rfl, ok_maybe hd _⟩

/-- The locations which are known. -/
def knownLocations (d : DirectiveType) : DirectiveType :=
  { d with locations := d.locations.filter fun n => n ∈ (introType (str "__DirectiveLocation")).enumValues }

theorem directive_ok (hd : DistinctNames l) (d : DirectiveType) {def_ : Validation.FieldDef} (h : def_ ∈ (introType (str "__Directive")).fields) :
    ∃ r, List.lookup def_.name (Spec.directiveFields (knownLocations d)) = some r ∧ Ok (E := E) l (entityType typeOf) P def_ r := by
  rw [fields_directive] at h
  simp only [List.mem_cons, List.not_mem_nil, or_false] at h
  rcases h with rfl | rfl | rfl | rfl
  · exact ⟨_, rfl, ok_string hd _⟩
  · exact ⟨_, rfl, ok_maybe hd _⟩
  · refine ⟨_, rfl, ok_constant (.list (static_enum hd (by decide +kernel) (by decide +kernel))) (value_many fun n hn => ?_)⟩
    refine value_symbol hd (by decide +kernel) (by decide +kernel) ?_
    simpa using (List.mem_filter.1 hn).2
  · exact ⟨_, rfl, ok_many hd (by decide +kernel) (by decide +kernel) (fun _ => rfl) _⟩

end Verif.Intro
