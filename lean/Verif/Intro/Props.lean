import Verif.Intro.Spec
import Verif.Intro.Model
import Verif.Intro.Simulation
import Verif.View.FromBuilt
import Verif.Gen.InputProps

/-!
# The objects of introspection are those of the specification
-/
namespace Verif.Intro
open Verif.Value Verif.Resp Verif.Errors Verif.Exec Verif.Modifiers Verif.Gen
open Verif.TypeSystem (Schema Addr BaseType Denotes)
open Verif.TypeSystem.Spec (nullIfEmpty)
open Verif.Ast (TypeRef)
open Spec (Entity)

variable {E O : Type} {s : Schema} {l : Loader}

/-! ## Which objects are which -/

structure InputIs (s : Schema) (f : InputField) (v : TypeSystem.InputValue) : Prop where
  name : v.name = f.name
  description : v.description = f.description
  default : v.defaultValue = f.defaultValueString
  object : Denotes s (typeOf f.type f.modifiers) v.type

structure FieldIs (s : Schema) (f : OutputField) (v : TypeSystem.Field) : Prop where
  name : v.name = f.name
  description : v.description = f.description
  deprecation : v.deprecationReason = f.deprecationReason
  object : Denotes s (typeOf f.type f.modifiers) v.type
  args : List.Forall₂ (InputIs s) f.arguments v.args

def EnumIs (f : EnumValueType) (v : TypeSystem.EnumValue) : Prop := v = ⟨f.value, f.description, f.deprecationReason⟩

structure DirectiveIs (s : Schema) (d : DirectiveType) (v : TypeSystem.Directive) : Prop where
  name : v.name = d.name
  description : v.description = d.description
  locations : List.Forall₂ (fun n l => (n, l) ∈ locationNames) d.locations v.locations
  args : List.Forall₂ (InputIs s) d.arguments v.args

/-- The object of the program is the one of the specification. -/
inductive Is (s : Schema) : Obj O → Entity O → Prop where
  | user {o} : Is s (.user o) (.user o)
  | schema : Is s .schema .schema
  | type {a τ} (h : Denotes s τ a) : Is s (.type a) (.type τ)
  | field {f v} (h : FieldIs s f v) : Is s (.field v) (.field f)
  | inputValue {f v} (h : InputIs s f v) : Is s (.inputValue v) (.inputValue f)
  | enumValue {f v} (h : EnumIs f v) : Is s (.enumValue v) (.enumValue f)
  | directive {d v} (h : DirectiveIs s d v) : Is s (.directive v) (.directive d)

/-- What a type is. -/
structure AboutIs (s : Schema) (a : Spec.About) (t : BaseType) : Prop where
  kind : kindName t.kind = a.kind
  name : TypeSystem.Introspection.getName t = a.name
  description : TypeSystem.Introspection.getDescription t = a.description
  fields : ∀ b, Option.Rel (List.Forall₂ (FieldIs s)) (a.fields.map fun fs => if b = some true then fs else fs.filter (·.deprecationReason.isNone))
    (TypeSystem.Introspection.getFields t b)
  interfaces : Option.Rel (List.Forall₂ (Denotes s)) a.interfaces (TypeSystem.Introspection.getInterfaces t)
  possibleTypes : Option.Rel (List.Forall₂ (Denotes s)) a.possibleTypes (TypeSystem.Introspection.getPossibleTypes t)
  enumValues : ∀ b, Option.Rel (List.Forall₂ EnumIs) (a.enumValues.map fun fs => if b = some true then fs else fs.filter (·.deprecationReason.isNone))
    (TypeSystem.Introspection.getEnumValues t b)
  inputFields : Option.Rel (List.Forall₂ (InputIs s)) a.inputFields (TypeSystem.Introspection.getInputFields t)
  ofType : Option.Rel (Denotes s) a.ofType (TypeSystem.Introspection.getOfType s t)

/-- The schema is the one of the loaded types. -/
structure Reports (l : Loader) (s : Schema) : Prop where
  notFound : ∀ n e, s.lookupType n = .error e → e = .message (Spec.notFound n)
  known : ∀ n, n ∈ (Spec.allDefinitions l).map (·.1) ↔ ∃ a, s.lookupType n = .ok a
  about : ∀ τ a, Denotes s τ a → ∃ t, s.store a = some t ∧ AboutIs s (Spec.about l τ) t
  types : List.Forall₂ (fun d a => s.lookupType d.1 = .ok a) (Spec.allDefinitions l) (TypeSystem.Introspection.getTypes s)
  directives : List.Forall₂ (DirectiveIs s) (Introspect.types.directives ++ l.directives) (TypeSystem.Introspection.getDirectives s)
  query : ∃ a, TypeSystem.Introspection.getQueryType s = some a ∧ s.lookupType ((View.rootOf l (str "query")).getD []) = .ok a
  mutation : Option.Rel (fun n a => s.lookupType n = .ok a) (View.rootOf l (str "mutation")) (TypeSystem.Introspection.getMutationType s)
  subscription : Option.Rel (fun n a => s.lookupType n = .ok a) (View.rootOf l (str "subscription"))
    (TypeSystem.Introspection.getSubscriptionType s)

/-! ## Results -/

theorem includeDeprecated_spec (args : Members) : ∃ b, includeDeprecated args = .ok b ∧
    (b = some true ↔ args.find (str "includeDeprecated") = some (.boolean true)) := by
  unfold includeDeprecated Gen.Service.getArgument
  simp only [includeDeprecatedField, Gen.Service.require, Gen.Service.lookup, Gen.Service.at_]
  cases hf : args.find (str "includeDeprecated") with
  | none => exact ⟨none, by simp [Gen.Service.Res.of, Gen.Service.Res.bind], by simp⟩
  | some v =>
    cases v with
    | boolean b => exact ⟨some b, rfl, by simp⟩
    | null => exact ⟨none, rfl, by simp⟩
    | _ => exact ⟨some false, rfl, by simp⟩

theorem visible_spec {α : Type} (reason : α → Option Str) (args : Members) (as : List α) {b : Option Bool}
    (hb : b = some true ↔ args.find (str "includeDeprecated") = some (.boolean true)) :
    Spec.visible reason args as = if b = some true then as else as.filter fun a => (reason a).isNone := by
  unfold Spec.visible
  split
  · rename_i h; rw [if_pos (hb.2 h)]
  · rename_i h; rw [if_neg fun e => h (hb.1 e)]

theorem rel_string (x : Str) : OutRel (Is (O := O) s) (text x) (Spec.string x) := .leaf

theorem rel_maybeText (x : Option Str) : OutRel (Is (O := O) s) (maybeText x) (Spec.maybe Spec.string x) := by
  cases x with
  | none => exact .absent
  | some x => exact .present .leaf

theorem rel_objects {α β : Type} {R : β → α → Prop} {f : α → Obj O} {g : β → Entity O} (h : ∀ a b, R b a → Is s (f a) (g b))
    {as : List α} {bs : List β} (hl : List.Forall₂ R bs as) :
    OutRel (Is s) (objects (as.map f)) (Spec.many (fun b => Spec.entity (g b)) bs) := by
  refine .list ?_
  induction hl with
  | nil => exact .nil
  | cons h1 _ ih => exact .cons (.object (h _ _ h1)) ih

theorem rel_maybeObjects {α β : Type} {R : β → α → Prop} {f : α → Obj O} {g : β → Entity O} (h : ∀ a b, R b a → Is s (f a) (g b))
    {as : Option (List α)} {bs : Option (List β)} (hl : Option.Rel (List.Forall₂ R) bs as) :
    OutRel (Is s) (maybeObjects (as.map (·.map f))) (Spec.maybe (Spec.many fun b => Spec.entity (g b)) bs) := by
  cases hl with
  | none => exact .absent
  | some hl => exact .present (rel_objects h hl)

theorem rel_maybeObject {α β : Type} {R : β → α → Prop} {f : α → Obj O} {g : β → Entity O} (h : ∀ a b, R b a → Is s (f a) (g b))
    {a : Option α} {b : Option β} (hl : Option.Rel R b a) :
    OutRel (Is s) (maybeObject (a.map f)) (Spec.maybe (fun b => Spec.entity (g b)) b) := by
  cases hl with
  | none => exact .absent
  | some hl => exact .present (.object (h _ _ hl))

theorem rel_constant {t : OutType} {x : Out (Obj O)} {y : Out (Entity O)} (h : OutRel (Is s) x y) :
    ResolverRel (E := E) (Is s) (plain t x) (Spec.constant t y) := ⟨rfl, fun _ => ⟨rfl, .ok (.value h)⟩⟩

theorem rel_filtered {α β : Type} {R : β → α → Prop} {f : α → Obj O} {g : β → Entity O} (h : ∀ a b, R b a → Is s (f a) (g b))
    {reason : β → Option Str} {as : Option Bool → Option (List α)} {bs : Option (List β)}
    (hl : ∀ b, Option.Rel (List.Forall₂ R) (bs.map fun fs => if b = some true then fs else fs.filter fun x => (reason x).isNone) (as b)) :
    ResolverRel (E := E) (Is s) (withDeprecated (.nullable (.list (.object false))) fun b => maybeObjects ((as b).map (·.map f)))
      (Spec.filtered reason g bs) := by
  refine ⟨rfl, fun params => ?_⟩
  obtain ⟨b, h1, h2⟩ := includeDeprecated_spec params.arguments
  have e : Spec.visible reason params.arguments = fun fs => if b = some true then fs else fs.filter fun x => (reason x).isNone :=
    funext fun fs => visible_spec reason _ fs h2
  simp only [withDeprecated, Spec.filtered, h1, e]
  exact ⟨rfl, .ok (.value (rel_maybeObjects h (hl b)))⟩

/-- Tables with the same keys. -/
theorem lookup_rel {α β : Type} {R : α → β → Prop} {xs : List (Str × α)} {ys : List (Str × β)}
    (h : List.Forall₂ (fun x y => x.1 = y.1 ∧ R x.2 y.2) xs ys) (n : Str) : Option.Rel R (List.lookup n xs) (List.lookup n ys) := by
  induction h with
  | nil => exact .none
  | @cons x y xs ys h1 _ ih =>
    obtain ⟨a, x⟩ := x
    obtain ⟨b, y⟩ := y
    obtain ⟨rfl, h1⟩ := h1
    simp only [List.lookup_cons]
    cases n == a with
    | true => exact .some h1
    | false => exact ih

theorem optional_eq (x : Str) : TypeSystem.optional x = nullIfEmpty x := by
  cases x <;> rfl

theorem Denotes.alive {τ : TypeRef} {a : Addr} (hr : Reports l s) (h : Denotes s τ a) : (s.store a).isSome := by
  obtain ⟨t, ht, _⟩ := hr.about τ a h
  rw [ht]; rfl

theorem locationName_eq : ∀ e ∈ locationNames, locationName e.2 = e.1 := by decide +kernel

/-! ## The tables -/

theorem schema_rel (hr : Reports l s) :
    List.Forall₂ (fun x y => x.1 = y.1 ∧ ResolverRel (E := E) (Is (O := O) s) x.2 y.2) (schemaResolvers s) (Spec.schemaFields l) := by
  unfold schemaResolvers Spec.schemaFields
  refine .cons ⟨rfl, rel_constant (rel_objects (fun a b h => .type (.named h)) hr.types)⟩ <|
    .cons ⟨rfl, rel_constant ?_⟩ <| .cons ⟨rfl, rel_constant (rel_string _)⟩ <|
    .cons ⟨rfl, rel_constant (rel_objects (fun a b h => .directive h) hr.directives)⟩ <|
    .cons ⟨rfl, rel_constant (rel_maybeObject (fun a b h => .type (.named h)) hr.mutation)⟩ <|
    .cons ⟨rfl, rel_constant (rel_maybeObject (fun a b h => .type (.named h)) hr.subscription)⟩ .nil
  obtain ⟨a, h1, h2⟩ := hr.query
  rw [h1]
  exact .object (.type (.named h2))

theorem type_rel {a : Spec.About} {t : BaseType} (h : AboutIs s a t) :
    List.Forall₂ (fun x y => x.1 = y.1 ∧ ResolverRel (E := E) (Is (O := O) s) x.2 y.2) (typeResolvers s t) (Spec.typeFields a) := by
  unfold typeResolvers Spec.typeFields
  refine .cons ⟨rfl, rel_constant ?_⟩ <| .cons ⟨rfl, rel_constant ?_⟩ <|
    .cons ⟨rfl, rel_filtered (fun _ _ h => .field h) h.fields⟩ <|
    .cons ⟨rfl, rel_constant (rel_maybeObject (fun a b h => .type h) h.ofType)⟩ <| .cons ⟨rfl, rel_constant (rel_string _)⟩ <|
    .cons ⟨rfl, rel_filtered (fun _ _ h => .enumValue h) h.enumValues⟩ <|
    .cons ⟨rfl, rel_constant (rel_maybeObjects (fun a b h => .type h) h.interfaces)⟩ <| .cons ⟨rfl, rel_constant ?_⟩ <|
    .cons ⟨rfl, rel_constant (rel_maybeObjects (fun a b h => .inputValue h) h.inputFields)⟩ <|
    .cons ⟨rfl, rel_constant (rel_maybeObjects (fun a b h => .type h) h.possibleTypes)⟩ .nil
  · rw [← h.kind]; exact .leaf
  · rw [← h.name]; exact rel_maybeText _
  · rw [← h.description]; exact rel_maybeText _

theorem rel_type (hr : Reports l s) {τ : TypeRef} {a : Addr} (h : Denotes s τ a) :
    OutRel (Is (O := O) s) (.object (typePointer (if (s.store a).isSome then some a else none))) (Spec.entity (.type τ)) := by
  rw [if_pos (Denotes.alive hr h)]
  exact .object (.type h)

theorem field_rel (hr : Reports l s) {f : OutputField} {v : TypeSystem.Field} (h : FieldIs s f v) :
    List.Forall₂ (fun x y => x.1 = y.1 ∧ ResolverRel (E := E) (Is (O := O) s) x.2 y.2) (fieldResolvers s v) (Spec.fieldFields f) := by
  unfold fieldResolvers Spec.fieldFields
  refine .cons ⟨rfl, rel_constant (rel_objects (fun _ _ h => .inputValue h) h.args)⟩ <| .cons ⟨rfl, rel_constant ?_⟩ <|
    .cons ⟨rfl, rel_constant (rel_type hr h.object)⟩ <| .cons ⟨rfl, rel_constant (rel_string _)⟩ <| .cons ⟨rfl, rel_constant ?_⟩ <|
    .cons ⟨rfl, rel_constant ?_⟩ <| .cons ⟨rfl, rel_constant ?_⟩ .nil
  · rw [← h.name]; exact rel_string _
  · rw [← h.description, ← optional_eq]; exact rel_maybeText _
  · rw [← h.deprecation]; exact .leaf
  · rw [← h.deprecation]
    unfold TypeSystem.Introspection.fieldDeprecationReason
    cases v.deprecationReason <;> exact rel_maybeText _

theorem input_rel (hr : Reports l s) {f : InputField} {v : TypeSystem.InputValue} (h : InputIs s f v) :
    List.Forall₂ (fun x y => x.1 = y.1 ∧ ResolverRel (E := E) (Is (O := O) s) x.2 y.2) (inputValueResolvers s v) (Spec.inputValueFields f) := by
  unfold inputValueResolvers Spec.inputValueFields
  refine .cons ⟨rfl, rel_constant ?_⟩ <|
    .cons ⟨rfl, rel_constant (rel_type hr h.object)⟩ <| .cons ⟨rfl, rel_constant (rel_string _)⟩ <| .cons ⟨rfl, rel_constant ?_⟩ <|
    .cons ⟨rfl, rel_constant ?_⟩ .nil
  · rw [← h.name]; exact rel_string _
  · rw [← h.description, ← optional_eq]; exact rel_maybeText _
  · rw [← h.default, ← optional_eq]; exact rel_maybeText _

theorem enum_rel {f : EnumValueType} {v : TypeSystem.EnumValue} (h : EnumIs f v) :
    List.Forall₂ (fun x y => x.1 = y.1 ∧ ResolverRel (E := E) (Is (O := O) s) x.2 y.2) (enumValueResolvers v) (Spec.enumValueFields f) := by
  cases h
  unfold enumValueResolvers Spec.enumValueFields
  refine .cons ⟨rfl, rel_constant (rel_string _)⟩ <| .cons ⟨rfl, rel_constant (rel_string _)⟩ <| .cons ⟨rfl, rel_constant ?_⟩ <|
    .cons ⟨rfl, rel_constant .leaf⟩ <| .cons ⟨rfl, rel_constant ?_⟩ .nil
  · rw [← optional_eq]; exact rel_maybeText _
  · unfold TypeSystem.Introspection.enumDeprecationReason
    cases f.deprecationReason <;> exact rel_maybeText _

theorem directive_rel {d : DirectiveType} {v : TypeSystem.Directive} (h : DirectiveIs s d v) :
    List.Forall₂ (fun x y => x.1 = y.1 ∧ ResolverRel (E := E) (Is (O := O) s) x.2 y.2) (directiveResolvers v) (Spec.directiveFields d) := by
  unfold directiveResolvers Spec.directiveFields
  refine .cons ⟨rfl, rel_constant (rel_objects (fun _ _ h => .inputValue h) h.args)⟩ <| .cons ⟨rfl, rel_constant ?_⟩ <|
    .cons ⟨rfl, rel_constant (.list ?_)⟩ <| .cons ⟨rfl, rel_constant (rel_string _)⟩ <| .cons ⟨rfl, rel_constant ?_⟩ .nil
  · rw [← h.name]; exact rel_string _
  · have := h.locations
    generalize v.locations = vs at this
    generalize d.locations = ns at this
    induction this with
    | nil => exact .nil
    | cons h1 _ ih =>
      refine .cons ?_ ih
      have e := locationName_eq _ h1
      simp only at e
      simp only [e]
      exact .leaf
  · rw [← h.description, ← optional_eq]; exact rel_maybeText _

mutual
theorem rel_value : (x : Out O) → OutRel (Is s) (userOut x) (Spec.value x)
  | .leaf _ => by simp only [userOut, Spec.value]; exact .leaf
  | .object none => by simp only [userOut, Spec.value]; exact .null
  | .object (some _) => by simp only [userOut, Spec.value]; exact .object .user
  | .absent => by simp only [userOut, Spec.value]; exact .absent
  | .present x => by simp only [userOut, Spec.value]; exact .present (rel_value x)
  | .list xs => by simp only [userOut, Spec.value]; exact .list (rel_values xs)
theorem rel_values : (xs : List (Out O)) → List.Forall₂ (OutRel (Is s)) (userOuts xs) (Spec.values xs)
  | [] => by simp only [userOuts, Spec.values]; exact .nil
  | x :: xs => by simp only [userOuts, Spec.values]; exact .cons (rel_value x) (rel_values xs)
end

theorem user_rel (r : Resolver E O) : ResolverRel (Is s) (userResolver r) (Spec.userField r) := by
  refine ⟨rfl, fun params => ?_⟩
  simp only [userResolver, Spec.userField]
  cases h : r.access params with
  | mk t x =>
    rcases x with e | (x | ⟨later, (e | x)⟩)
    · exact ⟨rfl, .error⟩
    · exact ⟨rfl, .ok (.value (rel_value x))⟩
    · exact ⟨rfl, .ok (.future .error)⟩
    · exact ⟨rfl, .ok (.future (.ok (rel_value x)))⟩

theorem typeField_rel (hr : Reports l s) : ResolverRel (E := E) (Is (O := O) s) (resolveType s) (Spec.typeField l) := by
  refine ⟨rfl, fun params => ?_⟩
  simp only [resolveType, Spec.typeField, requireLeaf, Modifiers.index]
  cases hf : params.arguments.find (str "name") with
  | none => exact ⟨rfl, .error⟩
  | some v =>
    cases v with
    | string n j =>
      have e0 : ∀ f : Str → Run E (FieldResult E (Obj O)), (Run.lift (.ok n)).bind f = f n := fun f => Run.pure_bind n f
      simp only [convertString, e0]
      cases hl : s.lookupType n with
      | ok a =>
        rw [if_pos ((hr.known n).2 ⟨a, hl⟩)]
        exact ⟨rfl, .ok (.value (.present (.object (.type (.named hl)))))⟩
      | error e =>
        rw [if_neg fun h => by obtain ⟨a, ha⟩ := (hr.known n).1 h; rw [hl] at ha; cases ha]
        rw [hr.notFound n e hl]
        exact ⟨rfl, .error⟩
    | _ => exact ⟨rfl, .error⟩

/-- The service of the program does the same as the one of the specification. -/
theorem similar (hr : Reports l s) (isQuery : O → Bool) (I : Impl E O) :
    Similar (Is s) (withIntrospection s isQuery I) (Spec.service l isQuery I) where
  typeNames h := by cases h <;> rfl
  beginSet h := by cases h <;> rfl
  endSet h := by cases h <;> rfl
  resolver h name := by
    cases h with
    | schema => exact lookup_rel (schema_rel hr) name
    | type h =>
      obtain ⟨t, ht, ha⟩ := hr.about _ _ h
      simp only [withIntrospection, resolvers, ht]
      exact lookup_rel (type_rel ha) name
    | field h => exact lookup_rel (field_rel hr h) name
    | inputValue h => exact lookup_rel (input_rel hr h) name
    | enumValue h => exact lookup_rel (enum_rel h) name
    | directive h => exact lookup_rel (directive_rel h) name
    | @user o =>
      simp only [withIntrospection, resolvers, Spec.service]
      have hu : Option.Rel (ResolverRel (Is s)) ((I.resolver o name).map userResolver) ((I.resolver o name).map Spec.userField) := by
        cases I.resolver o name with
        | none => exact .none
        | some r => exact .some (user_rel r)
      cases isQuery o with
      | false => simpa using hu
      | true =>
        simp only [Bool.true_and, beq_iff_eq, if_true, Spec.queryFields, List.lookup_cons, List.lookup_nil]
        by_cases h1 : name = str "__schema"
        · subst h1
          exact .some (rel_constant (.object .schema))
        · by_cases h2 : name = str "__type"
          · subst h2
            exact .some (typeField_rel hr)
          · rw [if_neg h1, if_neg h2, beq_eq_false_iff_ne.2 h1, beq_eq_false_iff_ne.2 h2]
            exact hu

end Verif.Intro
