import Verif.View.Tables
import Mathlib.Data.List.Forall2

/-!
# Schema objects which represent a schema
-/
namespace Verif.View
open Verif.Value Verif.SortedMap Verif.TypeSystem Verif.TypeSystem.Spec
open Verif.Ast (TypeRef)

/-- An argument or input field of the schema object. -/
structure InputObject (s : Schema) (d : Validation.InputValue) (o : InputValue) : Prop where
  name : o.name = d.name
  default : o.defaultValue = d.default
  type : Denotes s d.type o.type

structure FieldObject (s : Schema) (d : Validation.FieldDef) (o : Field) : Prop where
  name : o.name = d.name
  type : Denotes s d.type o.type
  args : List.Forall₂ (InputObject s) d.arguments o.args

structure NamedType (s : Schema) (n : Str) (d : Validation.TypeDef) (t : BaseType) : Prop where
  kind : t.kind = kindOf d.kind
  name : t.name = n
  fields : List.Forall₂ (FieldObject s) d.fields t.fields
  inputFields : List.Forall₂ (InputObject s) d.inputFields t.inputFields
  enumValues : t.enumValues.map (·.name) = d.enumValues
  possibleTypes : List.Forall₂ (fun n a => s.lookupType n = .ok a) d.possibleTypes t.possibleTypes

/-- An entry of the table of types. -/
structure TypeEntry (s : Schema) (d : Str × Validation.TypeDef) (e : Str × Addr) : Prop where
  name : e.1 = d.1
  lookup : s.lookupType d.1 = .ok e.2
  type : ∃ t, s.store e.2 = some t ∧ NamedType s d.1 d.2 t

structure DirectiveObject (s : Schema) (d : Validation.DirectiveDef) (o : TypeSystem.Directive) : Prop where
  name : o.name = d.name
  locations : ∀ l, locationOf l ∈ o.locations ↔ l ∈ d.locations
  args : List.Forall₂ (InputObject s) d.arguments o.args

/-- The schema object has what the schema has. -/
structure Represents (s : Schema) (S : Validation.Schema) : Prop where
  built : ∃ ops, Built ops s ∧ OwnNames ops
  types : List.Forall₂ (TypeEntry s) S.types s.types
  nodup : (S.types.map (·.1)).Nodup
  directives : List.Forall₂ (DirectiveObject s) S.directives s.directives
  query : Option.Rel (fun n a => s.lookupType n = .ok a) (some S.query) s.query
  mutation : Option.Rel (fun n a => s.lookupType n = .ok a) S.mutation s.mutation
  subscription : Option.Rel (fun n a => s.lookupType n = .ok a) S.subscription s.subscription
  string : (S.find (str "String")).isSome
  schemaType : (S.find (str "__Schema")).isSome
  typeType : (S.find (str "__Type")).isSome

/-! ## Wrapping types changes nothing -/

/-- `s'` is `s` with more wrappers. -/
structure Later (s s' : Schema) : Prop where
  types : s'.types = s.types
  directives : s'.directives = s.directives
  query : s'.query = s.query
  mutation : s'.mutation = s.mutation
  subscription : s'.subscription = s.subscription
  lookup : ∀ n, s'.lookupType n = s.lookupType n
  store : ∀ a t, s.store a = some t → s'.store a = some t
  built : ∀ ops, Built ops s → OwnNames ops → ∃ ops', Built ops' s' ∧ OwnNames ops'

theorem Later.refl (s : Schema) : Later s s := ⟨rfl, rfl, rfl, rfl, rfl, fun _ => rfl, fun _ _ h => h, fun ops h1 h2 => ⟨ops, h1, h2⟩⟩

theorem Later.trans {s s' s'' : Schema} (h : Later s s') (h' : Later s' s'') : Later s s'' where
  types := h'.types.trans h.types
  directives := h'.directives.trans h.directives
  query := h'.query.trans h.query
  mutation := h'.mutation.trans h.mutation
  subscription := h'.subscription.trans h.subscription
  lookup n := (h'.lookup n).trans (h.lookup n)
  store a t ht := h'.store a t (h.store a t ht)
  built ops h1 h2 := by
    obtain ⟨ops', h3, h4⟩ := h.built ops h1 h2
    exact h'.built ops' h3 h4

theorem wrapType_parts (s : Schema) (k : Kind) (a f : Addr) :
    let s' := (s.wrapType k a f).1
    s'.types = s.types ∧ s'.typeMap = s.typeMap ∧ s'.directives = s.directives ∧ s'.query = s.query ∧
      s'.mutation = s.mutation ∧ s'.subscription = s.subscription ∧
      ∀ b, b ≠ f → s'.store b = s.store b := by
  simp only [Schema.wrapType]
  split
  · exact ⟨rfl, rfl, rfl, rfl, rfl, rfl, fun _ _ => rfl⟩
  · split
    · exact ⟨rfl, rfl, rfl, rfl, rfl, rfl, fun b hb => by simp [Function.update_of_ne hb]⟩
    · exact ⟨rfl, rfl, rfl, rfl, rfl, rfl, fun b hb => by simp [Function.update_of_ne hb]⟩

theorem later_wrap {s : Schema} {k : Kind} {a f : Addr} (hv : (Op.wrap f k a).Valid s) :
    Later s (s.wrapType k a f).1 := by
  obtain ⟨h1, h2, h3, h4, h5, h6, h7⟩ := wrapType_parts s k a f
  refine ⟨h1, h3, h4, h5, h6, fun n => ?_, fun b t ht => ?_, fun ops hb ho => ?_⟩
  · simp only [Schema.lookupType, h1, h2]
  · rw [h7 b (fun e => ?_)]
    · exact ht
    · subst e; rw [hv.1] at ht; cases ht
  · refine ⟨ops ++ [.wrap f k a], hb.snoc hv, ?_⟩
    have : added (ops ++ [.wrap f k a]) = added ops := by rw [added_append]; simp [added]
    refine ⟨by rw [this]; exact ho.1, fun n b hm => ?_⟩
    rw [this] at hm
    obtain ⟨hne, k', d, hk⟩ := ho.2 n b hm
    exact ⟨hne, k', d, List.mem_append_left _ hk⟩

theorem Later.denotes {s s' : Schema} (h : Later s s') {τ : TypeRef} {a : Addr} (hd : Denotes s τ a) : Denotes s' τ a := by
  induction hd with
  | named hl => exact .named ((h.lookup _).trans hl)
  | list _ hb ih => exact .list ih (h.store _ _ hb)
  | nonNull _ hb ih => exact .nonNull ih (h.store _ _ hb)

theorem Later.refers {s s' : Schema} (h : Later s s') {τ : TypeRef} {p : ValidateType} (hd : Refers s p τ) : Refers s' p τ := by
  obtain ⟨a, h1, h2⟩ := hd
  exact ⟨a, h1, h.denotes h2⟩

theorem Later.input {s s' : Schema} (h : Later s s') {d : Validation.InputValue} {o : InputValue} (hd : InputObject s d o) :
    InputObject s' d o := ⟨hd.name, hd.default, h.denotes hd.type⟩

theorem Later.field {s s' : Schema} (h : Later s s') {d : Validation.FieldDef} {o : Field} (hd : FieldObject s d o) :
    FieldObject s' d o := ⟨hd.name, h.denotes hd.type, hd.args.imp fun _ _ => h.input⟩

theorem Later.entry {s s' : Schema} (h : Later s s') {d : Str × Validation.TypeDef} {e : Str × Addr} (hd : TypeEntry s d e) :
    TypeEntry s' d e := by
  obtain ⟨t, ht, h1⟩ := hd.type
  exact ⟨hd.name, (h.lookup _).trans hd.lookup, t, h.store _ _ ht, h1.kind, h1.name, h1.fields.imp fun _ _ => h.field,
    h1.inputFields.imp fun _ _ => h.input, h1.enumValues, h1.possibleTypes.imp fun _ _ hl => (h.lookup _).trans hl⟩

theorem Later.root {s s' : Schema} (h : Later s s') {n : Option Str} {a : Option Addr}
    (hr : Option.Rel (fun n a => s.lookupType n = .ok a) n a) : Option.Rel (fun n a => s'.lookupType n = .ok a) n a := by
  cases hr with
  | none => exact .none
  | some hr => exact .some ((h.lookup _).trans hr)

theorem Later.represents {s s' : Schema} (h : Later s s') {S : Validation.Schema} (hr : Represents s S) : Represents s' S where
  built := by
    obtain ⟨ops, h1, h2⟩ := hr.built
    exact h.built ops h1 h2
  types := by rw [h.types]; exact hr.types.imp fun _ _ => h.entry
  nodup := hr.nodup
  directives := by
    rw [h.directives]
    exact hr.directives.imp fun _ _ hd => ⟨hd.name, hd.locations, hd.args.imp fun _ _ => h.input⟩
  query := by rw [h.query]; exact h.root hr.query
  mutation := by rw [h.mutation]; exact h.root hr.mutation
  subscription := by rw [h.subscription]; exact h.root hr.subscription
  string := hr.string
  schemaType := hr.schemaType
  typeType := hr.typeType

theorem Later.argument {s s' : Schema} (h : Later s s') {x : Argument} {a : Validation.Argument} (hd : ArgumentIs s x a) :
    ArgumentIs s' x a := ⟨hd.defaultValue, hd.nonNullDefaultValue, h.refers hd.type⟩

theorem rel_imp {α β : Type} {R R' : α → β → Prop} (hR : ∀ a b, R a b → R' a b) {x : Option α} {y : Option β}
    (h : Option.Rel R x y) : Option.Rel R' x y := by
  cases h with
  | none => exact .none
  | some h => exact .some (hR _ _ h)

theorem Later.arguments {s s' : Schema} (h : Later s s') {m : SMap Str Argument} {args : List Validation.InputValue}
    (hd : ArgumentsAre s m args) : ArgumentsAre s' m args := fun n => rel_imp (fun _ _ => h.argument) (hd n)

theorem Later.fieldIs {s s' : Schema} (h : Later s s') {x : TypeField} {f : Validation.FieldDef} (hd : FieldIs s x f) :
    FieldIs s' x f := ⟨h.refers hd.type, h.arguments hd.arguments⟩

theorem Later.directiveIs {s s' : Schema} (h : Later s s') {x : DirectiveEntry} {f : Validation.DirectiveDef}
    (hd : DirectiveIs s x f) : DirectiveIs s' x f := ⟨hd.locations, h.arguments hd.arguments⟩

/-! ## Types of a schema object -/

section
variable {s : Schema} {S : Validation.Schema}

theorem find_eq (S : Validation.Schema) (hn : (S.types.map (·.1)).Nodup) (n : Str) (d : Validation.TypeDef) :
    S.find n = some d ↔ (n, d) ∈ S.types := by
  unfold Validation.Schema.find
  constructor
  · intro h
    obtain ⟨e, he, rfl⟩ := Option.map_eq_some_iff.1 h
    have h1 := List.find?_some he
    have h2 := List.mem_of_find?_eq_some he
    simp only [beq_iff_eq] at h1
    subst h1
    simpa using h2
  · intro h
    cases hf : S.types.reverse.find? fun e => e.1 == n with
    | none =>
      have := List.find?_eq_none.1 hf (n, d) (by simpa using h)
      simp at this
    | some e =>
      have h1 := List.find?_some hf
      have h2 := List.mem_of_find?_eq_some hf
      simp only [beq_iff_eq] at h1
      subst h1
      simp only [List.mem_reverse] at h2
      have := List.inj_on_of_nodup_map hn h2 h rfl
      rw [this]; rfl

theorem forall₂_left {α β : Type} {R : α → β → Prop} {xs : List α} {ys : List β} (h : List.Forall₂ R xs ys) {x : α}
    (hx : x ∈ xs) : ∃ y ∈ ys, R x y := by
  induction h with
  | nil => cases hx
  | cons h1 _ ih =>
    rcases List.mem_cons.1 hx with rfl | hx
    · exact ⟨_, List.mem_cons_self, h1⟩
    · obtain ⟨y, hy, hr⟩ := ih hx
      exact ⟨y, List.mem_cons_of_mem _ hy, hr⟩

theorem forall₂_right {α β : Type} {R : α → β → Prop} {xs : List α} {ys : List β} (h : List.Forall₂ R xs ys) {y : β}
    (hy : y ∈ ys) : ∃ x ∈ xs, R x y := by
  obtain ⟨x, hx, h⟩ := forall₂_left h.flip hy
  exact ⟨x, hx, h⟩

/-- The types of the schema are those which can be looked up. -/
theorem Represents.find {n : Str} {d : Validation.TypeDef} (h : Represents s S) (hd : S.find n = some d) :
    ∃ a t, s.lookupType n = .ok a ∧ s.store a = some t ∧ NamedType s n d t := by
  obtain ⟨e, _, he⟩ := forall₂_left h.types ((find_eq S h.nodup n d).1 hd)
  obtain ⟨t, ht, hn⟩ := he.type
  exact ⟨e.2, t, he.lookup, ht, hn⟩

theorem Represents.lookup (h : Represents s S) {n : Str} {a : Addr} (hl : s.lookupType n = .ok a) :
    ∃ d t, S.find n = some d ∧ s.store a = some t ∧ NamedType s n d t := by
  obtain ⟨ops, hb, ho⟩ := h.built
  have hm := named_mem ((lookup_iff hb n a).1 hl)
  rw [← (C37_lookup hb n).1] at hm
  obtain ⟨d, hd, he⟩ := forall₂_right h.types hm
  obtain ⟨d1, d2⟩ := d
  obtain ⟨t, ht, hn⟩ := he.type
  have : n = d1 := he.name
  subst this
  exact ⟨d2, t, (find_eq S h.nodup _ _).2 hd, ht, hn⟩

theorem Represents.alive (h : Represents s S) {τ : TypeRef} {a : Addr} (hd : Denotes s τ a) : s.store a ≠ none := by
  obtain ⟨ops, hb, ho⟩ := h.built
  exact hd.alive hb ho

theorem Represents.lock (h : Represents s S) {τ : TypeRef} {a : Addr} (hd : Denotes s τ a) : lock s a = some a := by
  have := h.alive hd
  unfold View.lock
  cases hs : s.store a with
  | none => exact absurd hs this
  | some _ => rfl

/-- Two references are to the same object exactly if they are the same. -/
theorem Represents.same (h : Represents s S) {τ τ' : TypeRef} {a a' : Addr} (hd : Denotes s τ a) (hd' : Denotes s τ' a') :
    a = a' ↔ τ = τ' := by
  obtain ⟨ops, hb, ho⟩ := h.built
  constructor
  · rintro rfl
    exact (hd.reads hb ho).unique (hd'.reads hb ho)
  · rintro rfl
    exact hd.unique hb hd'

end

end Verif.View
