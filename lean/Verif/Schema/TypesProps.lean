import Verif.Schema.TypesLemmas
import Verif.Schema.WrapProps
import Verif.Ast.Basic

/-!
# C37, C38, C49: lookup, introspection and the identity of types
-/
namespace Verif.TypeSystem
open Verif.Value Verif.Errors Verif.SortedMap Verif.SortedMap.Spec Verif.TypeSystem.Spec Verif.Ast

/-! ## C37 -/

/-- **C37.** However a schema was built, `LookupType` gives the type which was added last under this name; if there is
none, it throws an error which says so. `types` lists all the types which were added, in order. -/
theorem C37_lookup {ops : List Op} {s : Schema} (h : Built ops s) (name : Str) :
    s.types = added ops ∧
    s.lookupType name = (match named ops name with
      | some a => .ok a
      | none => .error (.schema [{
          message := if name = [] then str "Type not found" else str "Type not found name: " ++ name }])) := by
  obtain ⟨h1, h2, h3⟩ := h.table
  refine ⟨h1, ?_⟩
  have hf := find_abs nameCmp_strictWeak h2 name
  unfold Schema.lookupType
  rcases h3 name with ⟨ha, hn⟩ | ⟨i, a, ha, ht, hn⟩
  · rw [ha] at hf
    rw [hn]
    cases hfind : find nameCmp s.typeMap name with
    | some e => rw [hfind] at hf; cases hf
    | none =>
      cases name with
      | nil => rfl
      | cons c cs => simp [Exn.message, str]
  · rw [ha] at hf
    rw [hn]
    cases hfind : find nameCmp s.typeMap name with
    | none => rw [hfind] at hf; cases hf
    | some e =>
      rw [hfind] at hf
      simp only [Option.map_some, Option.some.injEq] at hf
      simp [hf, ht]

/-! ## C38 -/

theorem collect_eq {α : Type} (deprecated : Bool) (reason : α → Option Str) (xs result : List α) :
    Introspection.collect deprecated reason xs result =
      result ++ xs.filter fun x => deprecated || !(reason x).isSome := by
  induction xs generalizing result with
  | nil => simp [Introspection.collect]
  | cons x xs ih =>
    simp only [Introspection.collect, ih]
    split
    · rename_i h; rw [List.filter_cons, if_pos h, List.append_assoc]; rfl
    · rename_i h; rw [List.filter_cons, if_neg h]

theorem collect_visible {α : Type} (inc : Option Bool) (reason : α → Option Str) (xs : List α) :
    Introspection.collect (inc.isSome && inc.getD false) reason xs [] = visible reason inc xs := by
  rw [collect_eq]
  unfold visible
  split
  · rename_i h; subst h; simp
  · rename_i h
    have : (inc.isSome && inc.getD false) = false := by
      cases inc with
      | none => rfl
      | some b => cases b <;> simp_all
    simp [this]

/-- **C38.** Introspection of a type which was made with a kind, name and description, in a schema built in any way:
kind, name and description are these (null for an empty name or description); `fields` of an object or interface are the
fields it was last given, in this order, without the deprecated ones unless `includeDeprecated` is true; likewise
`enumValues` of an enum; `interfaces` of an object, `inputFields` of an input object and `possibleTypes` of a union are
the ones it was last given; `possibleTypes` of an interface are the objects which were given it, in order; and everything
which does not apply to the kind is null. -/
theorem C38_introspection {ops : List Op} {s : Schema} (h : Built ops s) {a : Addr} {k : Kind} {n d : Str}
    (hm : .make a k n d ∈ ops) (inc : Option Bool) :
    ∃ t, s.store a = some t ∧
      Introspection.getKind t = k ∧
      Introspection.getName t = nullIfEmpty n ∧
      Introspection.getDescription t = nullIfEmpty d ∧
      Introspection.getFields t inc =
        (if k = .object ∨ k = .interface then some (visible (·.deprecationReason) inc (Spec.fields ops a)) else none) ∧
      Introspection.getEnumValues t inc =
        (if k = .enum then some (visible (·.deprecationReason) inc (Spec.enumValues ops a)) else none) ∧
      Introspection.getInterfaces t = (if k = .object then some (Spec.interfaces ops a) else none) ∧
      Introspection.getPossibleTypes t =
        (if k = .interface then some (implementers ops a) else if k = .union then some (unionTypes ops a) else none) ∧
      Introspection.getInputFields t = (if k = .inputObject then some (Spec.inputFields ops a) else none) ∧
      Introspection.getOfType s t = none := by
  obtain ⟨t, ht, hk, hn, hd⟩ := h.made a k n d hm
  have A := h.agrees.1 a t ht
  have named : k ≠ .list ∧ k ≠ .nonNull := by
    clear A inc
    induction h generalizing t with
    | nil => cases hm
    | @snoc ops s op hb hv ih =>
      rw [List.mem_append] at hm
      rcases hm with hm | hm
      · obtain ⟨t', ht', e1, e2, e3⟩ := hb.made a k n d hm
        exact ih hm t' ht' e1 e2 e3
      · simp at hm; subst hm
        have := hv.2
        constructor <;> (rintro rfl; simp [isNamed] at this)
  refine ⟨t, ht, hk, ?_, ?_, ?_, ?_, ?_, ?_, ?_, ?_⟩
  · simp only [Introspection.getName, hn]; cases n <;> rfl
  · simp only [Introspection.getDescription, hd]; cases d <;> rfl
  · simp only [Introspection.getFields, hk, collect_visible, A.fields]; cases k <;> simp
  · simp only [Introspection.getEnumValues, hk, collect_visible, A.enumValues]; cases k <;> simp
  · simp only [Introspection.getInterfaces, hk, A.interfaces]; cases k <;> simp
  · subst hk
    simp only [Introspection.getPossibleTypes]
    cases hc : t.kind <;> simp
    · exact A.interfacePossible hc
    · exact A.unionPossible hc
  · simp only [Introspection.getInputFields, hk, A.inputFields]; cases k <;> simp
  · simp only [Introspection.getOfType, hk]; obtain ⟨h1, h2⟩ := named; cases k <;> simp_all

/-- **C38.** What the members of a type introspect as. -/
theorem C38_members (s : Schema) (f : Field) (i : InputValue) (v : EnumValue) (hf : s.store f.type ≠ none)
    (hi : s.store i.type ≠ none) :
    Introspection.fieldName f = f.name ∧ Introspection.fieldDescription f = nullIfEmpty f.description ∧
    Introspection.fieldArgs f = f.args ∧ Introspection.fieldType s f = some f.type ∧
    (Introspection.fieldIsDeprecated f = true ↔ f.deprecationReason ≠ none) ∧
    Introspection.fieldDeprecationReason f = f.deprecationReason ∧
    Introspection.inputName i = i.name ∧ Introspection.inputDescription i = nullIfEmpty i.description ∧
    Introspection.inputType s i = some i.type ∧ Introspection.inputDefaultValue i = nullIfEmpty i.defaultValue ∧
    Introspection.enumName v = v.name ∧ Introspection.enumDescription v = nullIfEmpty v.description ∧
    (Introspection.enumIsDeprecated v = true ↔ v.deprecationReason ≠ none) ∧
    Introspection.enumDeprecationReason v = v.deprecationReason := by
  have opt : ∀ s : Str, optional s = nullIfEmpty s := by intro s; cases s <;> rfl
  have some' : ∀ a, s.store a ≠ none → (s.store a).isSome = true := by
    intro a; cases s.store a <;> simp
  refine ⟨rfl, opt _, rfl, ?_, ?_, ?_, rfl, opt _, ?_, opt _, rfl, opt _, ?_, ?_⟩
  · simp [Introspection.fieldType, some' _ hf]
  · simp only [Introspection.fieldIsDeprecated]; cases f.deprecationReason <;> simp
  · simp only [Introspection.fieldDeprecationReason]; cases f.deprecationReason <;> rfl
  · simp [Introspection.inputType, some' _ hi]
  · simp only [Introspection.enumIsDeprecated]; cases v.deprecationReason <;> simp
  · simp only [Introspection.enumDeprecationReason]; cases v.deprecationReason <;> rfl

/-- **C38.** What `__schema` gives: all the types in the order in which they were added, the root types last set, and the
directives in order. -/
theorem C38_schema {ops : List Op} {s : Schema} (h : Built ops s) :
    Introspection.getTypes s = (added ops).map (·.2) ∧
    Introspection.getQueryType s = last (fun | .addQueryType a => some a | _ => none) ops ∧
    Introspection.getMutationType s = last (fun | .addMutationType a => some a | _ => none) ops ∧
    Introspection.getSubscriptionType s = last (fun | .addSubscriptionType a => some a | _ => none) ops ∧
    Introspection.getDirectives s = ops.filterMap (fun | .addDirective d => some d | _ => none) := by
  refine ⟨by rw [Introspection.getTypes, h.table.1], ?_⟩
  simp only [Introspection.getQueryType, Introspection.getMutationType, Introspection.getSubscriptionType,
    Introspection.getDirectives]
  induction h with
  | nil => exact ⟨rfl, rfl, rfl, rfl⟩
  | @snoc ops s op hb hv ih =>
    obtain ⟨i1, i2, i3, i4⟩ := ih
    simp only [last_snoc, List.filterMap_append, ← i1, ← i2, ← i3, ← i4]
    cases op with
    | addInterfaces a is => simp [Schema.apply, addInterfaces_eq]
    | wrap a k o =>
      simp only [Schema.apply, Schema.wrapType]
      split
      · simp
      · split <;> simp
    | _ => simp [Schema.apply, Schema.modify, Schema.addType]

end Verif.TypeSystem
