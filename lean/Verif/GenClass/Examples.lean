import Verif.GenClass.Claims
import Verif.GenTypes.Examples
import Verif.GenObject.Examples

/-!
# C76: an example, and schemas which do not work
-/
namespace Verif.GenClass
open Verif.Value Verif.Resp Verif.Text
open Verif.GenText (cpp)
open Verif.GenTypes (demo argumentType)
open Verif.GenCode (FieldsOk TypeKnown fieldsB_ok print read nsPath DefaultOk)
open Verif.GenObject (writtenB_ok no_fields capital)
open Verif.Gen (InputField InterfaceType ObjectType OutputField)
open Verif.Gen.Service (Types)
open Verif.Cpp (Path path word)
open Verif.Cpp.Code (CType ClassHeader ReadsClasses)
open Verif.Modifiers (Mod)

instance decidableAlternating : (ms : List Mod) → Decidable (Alternating ms)
  | [] => isTrue trivial
  | .list :: ms => decidableAlternating ms
  | [.nullable] => isTrue trivial
  | .nullable :: .list :: ms => decidableAlternating (.list :: ms)
  | .nullable :: .nullable :: _ => isFalse id

/-! ## An example -/

def ownerArguments : List InputField :=
  [{ type := str "Filter", name := str "which", fieldType := .input, modifiers := [.nullable] },
   { type := str "Size", name := str "sizes", fieldType := .enum, modifiers := [.list] }]

/-- `interface Node { id: ID!, owner(which: Filter, sizes: [Size!]!): [Item] }` -/
def node : InterfaceType where
  type := str "Node"
  fields :=
    [{ type := str "ID", name := str "id", interfaceField := true },
     { type := str "Item", name := str "owner", arguments := ownerArguments, fieldType := .object, modifiers := [.nullable, .list, .nullable],
       interfaceField := true }]

/-- `interface Named { name: String }` -/
def named' : InterfaceType where
  type := str "Named"
  fields := [{ type := str "String", name := str "name", modifiers := [.nullable], interfaceField := true }]

/-- `type Item implements Node & Named { ..., size: Size, next: Named! }` -/
def item : ObjectType where
  type := str "Item"
  interfaces := [str "Node", str "Named"]
  fields :=
    [{ type := str "ID", name := str "id", inheritedField := true },
     { type := str "Item", name := str "owner", arguments := ownerArguments, fieldType := .object, modifiers := [.nullable, .list, .nullable],
       inheritedField := true },
     { type := str "String", name := str "name", modifiers := [.nullable], inheritedField := true },
     { type := str "Size", name := str "size", fieldType := .enum, modifiers := [.nullable] },
     { type := str "Named", name := str "next", fieldType := .interface }]

/-- `type Query { find(which: Filter, sizes: [Size!]!): Item! }` -/
def query : ObjectType where
  type := str "Query"
  fields := [{ type := str "Item", name := str "find", arguments := ownerArguments, fieldType := .object }]

theorem owner_ok : FieldsOk print read ownerArguments := by
  refine fieldsB_ok (by decide +kernel) fun f hf => ?_
  simp only [ownerArguments, List.mem_cons, List.not_mem_nil, or_false] at hf
  rcases hf with rfl | rfl <;> simp [DefaultOk]

/-- `Known`, for fields with these arguments. -/
theorem known_of {T : Types} {os : List ObjectType} {f : OutputField} (h1 : (f.fieldType = .enum → f.type ∈ T.enums.map (·.type)))
    (h2 : f.fieldType = .object → f.type ∈ os.map (·.type)) (h3 : f.arguments = [] ∨ f.arguments = ownerArguments ∧
      str "Filter" ∈ T.inputs.map (·.type) ∧ str "Size" ∈ T.enums.map (·.type)) (h4 : Alternating f.modifiers) : Known T os f where
  enum := fun h => by simpa using h1 h
  object := fun h => by simpa using h2 h
  arguments := by
    rcases h3 with e | ⟨e, k1, k2⟩ <;> rw [e]
    · simp
    · intro a ha
      simp only [ownerArguments, List.mem_cons, List.not_mem_nil, or_false] at ha
      rcases ha with rfl | rfl
      · simpa [TypeKnown] using k1
      · simpa [TypeKnown] using k2
  modifiers := h4

theorem same_refl (as : List InputField) : List.Forall₂ SameArgument as as := by
  induction as with
  | nil => exact .nil
  | cons a as ih => exact .cons ⟨rfl, rfl, rfl⟩ ih

theorem demo_written : ClassesWritten print read [node, named'] [item, query] where
  interfaces := by
    intro i hi
    simp only [List.mem_cons, List.not_mem_nil, or_false] at hi
    rcases hi with rfl | rfl
    · refine writtenB_ok (by decide +kernel) fun f hf => ?_
      simp only [node, List.mem_cons, List.not_mem_nil, or_false] at hf
      rcases hf with rfl | rfl
      · exact no_fields
      · exact owner_ok
    · refine writtenB_ok (by decide +kernel) fun f hf => ?_
      simp only [named', List.mem_cons, List.not_mem_nil, or_false] at hf
      rw [hf]; exact no_fields
  objects := by
    intro t ht
    simp only [List.mem_cons, List.not_mem_nil, or_false] at ht
    rcases ht with rfl | rfl
    · refine writtenB_ok (by decide +kernel) fun f hf => ?_
      simp only [item, List.mem_cons, List.not_mem_nil, or_false] at hf
      rcases hf with rfl | rfl | rfl | rfl | rfl
      · exact no_fields
      · exact owner_ok
      · exact no_fields
      · exact no_fields
      · exact no_fields
    · refine writtenB_ok (by decide +kernel) fun f hf => ?_
      simp only [query, List.mem_cons, List.not_mem_nil, or_false] at hf
      rw [hf]; exact owner_ok
  implements := by decide +kernel

theorem demo_ok : ClassesOk print read demo [node, named'] [item, query] where
  toClassesWritten := demo_written
  names := by decide +kernel
  notObject := by decide +kernel
  notMember := by decide +kernel
  distinct := by decide +kernel
  distinctI := by decide +kernel
  known := by
    intro t ht f hf
    simp only [List.mem_cons, List.not_mem_nil, or_false] at ht
    rcases ht with rfl | rfl
    · simp only [item, List.mem_cons, List.not_mem_nil, or_false] at hf
      rcases hf with rfl | rfl | rfl | rfl | rfl <;>
        exact known_of (by decide +kernel) (by decide +kernel) (by first | exact .inl rfl | exact .inr ⟨rfl, by decide +kernel, by decide +kernel⟩)
          (by decide)
    · simp only [query, List.mem_cons, List.not_mem_nil, or_false] at hf
      rw [hf]
      exact known_of (by decide +kernel) (by decide +kernel) (.inr ⟨rfl, by decide +kernel, by decide +kernel⟩) (by decide)
  knownI := by
    intro t ht f hf
    simp only [List.mem_cons, List.not_mem_nil, or_false] at ht
    rcases ht with rfl | rfl
    · simp only [node, List.mem_cons, List.not_mem_nil, or_false] at hf
      rcases hf with rfl | rfl <;>
        exact known_of (by decide +kernel) (by decide +kernel) (by first | exact .inl rfl | exact .inr ⟨rfl, by decide +kernel, by decide +kernel⟩)
          (by decide)
    · simp only [named', List.mem_cons, List.not_mem_nil, or_false] at hf
      rw [hf]
      exact known_of (by decide +kernel) (by decide +kernel) (.inl rfl) (by decide)
  mark := by decide +kernel
  markI := by decide +kernel
  inherited := by decide +kernel
  same := by
    intro t ht i hi hm g hg
    simp only [List.mem_cons, List.not_mem_nil, or_false] at ht hi
    rcases ht with rfl | rfl
    · rcases hi with rfl | rfl
      · simp only [node, List.mem_cons, List.not_mem_nil, or_false] at hg
        rcases hg with rfl | rfl
        · exact ⟨_, List.mem_cons_self, rfl, rfl, rfl, rfl, rfl, same_refl _⟩
        · exact ⟨_, List.mem_cons_of_mem _ List.mem_cons_self, rfl, rfl, rfl, rfl, rfl, same_refl _⟩
      · simp only [named', List.mem_cons, List.not_mem_nil, or_false] at hg
        rw [hg]
        exact ⟨_, List.mem_cons_of_mem _ (List.mem_cons_of_mem _ List.mem_cons_self), rfl, rfl, rfl, rfl, rfl, same_refl _⟩
    · exact absurd hm (by simp [query])
  fields := by decide +kernel

theorem demo_apart : Apart [node, named'] item ∧ Apart [node, named'] query := by
  unfold Apart; decide +kernel

/-- The text of the function of the field `owner` in the interface, and in the class with stubs. -/
theorem demo_text :
    (node.fields.map (accessorText false))[1]? = some (str "\tvirtual service::FieldResult<std::optional<std::vector<std::shared_ptr<object::Item>>>> getOwner(service::FieldParams&& params, std::optional<Filter>&& whichArg, std::vector<Size>&& sizesArg) const = 0;\n") ∧
    (item.fields.map (accessorText false))[1]? = some (str "\tvirtual service::FieldResult<std::optional<std::vector<std::shared_ptr<Item>>>> getOwner(service::FieldParams&& params, std::optional<Filter>&& whichArg, std::vector<Size>&& sizesArg) const override;\n") := by
  decide +kernel

/-- The field `owner` of an `Item`: the function is that of the interface. -/
theorem demo_call : ∃ hs c s, ReadsClasses (headerText true (some (str "Query")) [node, named'] [item, query]) hs ∧
    class? hs (str "Item") = some c ∧ callee nsPath hs c (str "getOwner") = some s ∧
    s.result = .optional (.vector (.shared (.name ⟨nsPath.head, nsPath.tail ++ [str "object", str "Item"]⟩))) ∧
    s.params = [.optional (.name ⟨nsPath.head, nsPath.tail ++ [str "Filter"]⟩), .vector (.name ⟨nsPath.head, nsPath.tail ++ [str "Size"]⟩)] :=
  ⟨_, _, _, reads_classes _ _ demo_written, class_eq (t := item) (by decide +kernel) (by simp),
    callee_eq demo_ok (t := item) (by simp) (fun _ => demo_apart.1) (List.mem_cons_of_mem _ List.mem_cons_self),
    by decide +kernel, by decide +kernel⟩

/-! ## Schemas which do not work -/

/-- Everything of `print` and `read` that these schemas need: no arguments. -/
theorem plain_written {is : List InterfaceType} {os : List ObjectType}
    (h1 : is.all (fun i => GenObject.writtenB { type := i.type, fields := i.fields } && i.fields.all fun f => f.arguments.isEmpty) = true)
    (h2 : os.all (fun t => GenObject.writtenB t && t.fields.all fun f => f.arguments.isEmpty) = true)
    (h3 : ∀ t ∈ os, ∀ n ∈ t.interfaces, ∃ i ∈ is, i.type = n) : ClassesWritten print read is os where
  interfaces := fun i hi => by
    have := List.all_eq_true.1 h1 i hi
    rw [Bool.and_eq_true, List.all_eq_true] at this
    exact writtenB_ok this.1 fun f hf => by rw [List.isEmpty_iff.1 (this.2 f hf)]; exact no_fields
  objects := fun t ht => by
    have := List.all_eq_true.1 h2 t ht
    rw [Bool.and_eq_true, List.all_eq_true] at this
    exact writtenB_ok this.1 fun f hf => by rw [List.isEmpty_iff.1 (this.2 f hf)]; exact no_fields
  implements := h3

def other : InterfaceType := { type := str "Other", fields := [{ type := str "ID", name := str "id", interfaceField := true }] }
def first : InterfaceType := { type := str "First", fields := [{ type := str "ID", name := str "id", interfaceField := true }] }

def both : ObjectType where
  type := str "Both"
  interfaces := [str "First", str "Other"]
  fields := [{ type := str "ID", name := str "id", inheritedField := true }]

theorem both_ok : ClassesOk print read ⟨[], []⟩ [first, other] [both] where
  toClassesWritten := plain_written (by decide +kernel) (by decide +kernel) (by decide +kernel)
  names := by decide +kernel
  notObject := by decide +kernel
  notMember := by decide +kernel
  distinct := by decide +kernel
  distinctI := by decide +kernel
  known := by
    intro t ht f hf
    simp only [List.mem_cons, List.not_mem_nil, or_false] at ht
    rw [ht] at hf
    simp only [both, List.mem_cons, List.not_mem_nil, or_false] at hf
    rw [hf]
    exact known_of (by decide +kernel) (by decide +kernel) (.inl rfl) (by decide)
  knownI := by
    intro t ht f hf
    simp only [List.mem_cons, List.not_mem_nil, or_false] at ht
    rcases ht with rfl | rfl <;> simp only [first, other, List.mem_cons, List.not_mem_nil, or_false] at hf <;> rw [hf] <;>
      exact known_of (by decide +kernel) (by decide +kernel) (.inl rfl) (by decide)
  mark := by decide +kernel
  markI := by decide +kernel
  inherited := by decide +kernel
  same := by
    intro t ht i hi hm g hg
    simp only [List.mem_cons, List.not_mem_nil, or_false] at ht hi
    rw [ht]
    rcases hi with rfl | rfl <;> simp only [first, other, List.mem_cons, List.not_mem_nil, or_false] at hg <;> rw [hg] <;>
      exact ⟨_, List.mem_cons_self, rfl, rfl, rfl, rfl, rfl, same_refl _⟩
  fields := by decide +kernel

/-- `interface First { id: ID! } interface Other { id: ID! } type Both implements First & Other { id: ID! }`, without stubs: the call of
`getId` in the source is ambiguous. With stubs it is not. -/
theorem C76_common_field : ClassesOk print read ⟨[], []⟩ [first, other] [both] ∧
    (∃ hs c, ReadsClasses (headerText true none [first, other] [both]) hs ∧ class? hs (str "Both") = some c ∧
      callee nsPath hs c (str "getId") = none) ∧
    ∃ hs c s, ReadsClasses (headerText false none [first, other] [both]) hs ∧ class? hs (str "Both") = some c ∧
      callee nsPath hs c (str "getId") = some s :=
  ⟨both_ok,
   ⟨_, _, reads_classes _ _ both_ok.toClassesWritten, class_eq (t := both) (by decide +kernel) (by simp), by decide +kernel⟩,
   ⟨_, _, _, reads_classes _ _ both_ok.toClassesWritten, class_eq (t := both) (by decide +kernel) (by simp),
    callee_eq both_ok (t := both) (by simp) (by simp) List.mem_cons_self⟩⟩

/-- `type Mutation implements First { id: ID! }`: the functions of a type for mutations are called `applyX`, those of its interface
`getX`. -/
def mutation : ObjectType where
  type := str "Mutation"
  interfaces := [str "First"]
  fields := [{ type := str "ID", name := str "id", inheritedField := true, accessor := str "apply" }]

/-- With stubs, `applyId` has an `override` which overrides nothing. Without stubs, there is no function `applyId` to call. -/
theorem C76_mutation_interface :
    (∃ hs c, ReadsClasses (headerText false none [first] [mutation]) hs ∧ class? hs (str "Mutation") = some c ∧ ¬ OverridesOk nsPath hs c) ∧
    ∃ hs c, ReadsClasses (headerText true none [first] [mutation]) hs ∧ class? hs (str "Mutation") = some c ∧
      callee nsPath hs c (str "applyId") = none := by
  have hw : ClassesWritten print read [first] [mutation] := plain_written (by decide +kernel) (by decide +kernel) (by decide +kernel)
  refine ⟨⟨_, _, reads_classes _ _ hw, class_eq (t := mutation) (by decide +kernel) (by simp), fun h => ?_⟩,
    ⟨_, _, reads_classes _ _ hw, class_eq (t := mutation) (by decide +kernel) (by simp), by decide +kernel⟩⟩
  have hm : (Cpp.Code.Ending.override, some (⟨str "applyId", .name (path "response" ["IdType"]), []⟩ : Signature)) ∈
      own nsPath (headerD false none [first] [mutation]) (classD false (decide (none = some mutation.type)) mutation) := by decide +kernel
  obtain ⟨s, hs, ho, -⟩ := h _ hm
  obtain ⟨b, hb, r, hr, hov⟩ := ho rfl
  have e : fromBases nsPath (headerD false none [first] [mutation]) (classD false (decide (none = some mutation.type)) mutation) =
      [(.pure, some ⟨str "getId", .name (path "response" ["IdType"]), []⟩)] := by decide +kernel
  rw [e, List.mem_singleton] at hb
  rw [hb] at hr
  cases hr
  cases hs
  exact absurd hov.1 (by decide)

/-- `interface Linked { next: First! } type Chain implements Linked { next: Chain! }`, which GraphQL allows if `Chain` implements
`First`. -/
def linked : InterfaceType :=
  { type := str "Linked", fields := [{ type := str "First", name := str "next", fieldType := .interface, interfaceField := true }] }

def chain : ObjectType where
  type := str "Chain"
  interfaces := [str "Linked"]
  fields := [{ type := str "Chain", name := str "next", fieldType := .object, inheritedField := true }]

/-- With stubs, the function overrides one with another type of results. Without stubs, the result of the function which is called is
not what `ModifiedResult<Chain>` takes. -/
theorem C76_covariant :
    (∃ hs c, ReadsClasses (headerText false none [linked] [chain]) hs ∧ class? hs (str "Chain") = some c ∧ ¬ OverridesOk nsPath hs c) ∧
    ∃ hs c u s, ReadsClasses (headerText true none [linked] [chain]) hs ∧ class? hs (str "Chain") = some c ∧
      inClass nsPath hs c (word (str "Chain")) = some u ∧ callee nsPath hs c (str "getNext") = some s ∧
      s.result ≠ resultType (isObject nsPath hs u) u [] := by
  have hw : ClassesWritten print read [linked] [chain] := plain_written (by decide +kernel) (by decide +kernel) (by decide +kernel)
  refine ⟨⟨_, _, reads_classes _ _ hw, class_eq (t := chain) (by decide +kernel) (by simp), fun h => ?_⟩,
    ⟨_, _, ⟨nsPath.head, nsPath.tail ++ [str "object", str "Chain"]⟩,
      ⟨str "getNext", .shared (.name (path "service" ["Object"])), []⟩,
      reads_classes _ _ hw, class_eq (t := chain) (by decide +kernel) (by simp), by decide +kernel, by decide +kernel, by decide +kernel⟩⟩
  have hm : (Cpp.Code.Ending.override, some (⟨str "getNext", .shared (.name ⟨nsPath.head, nsPath.tail ++ [str "object", str "Chain"]⟩), []⟩ :
      Signature)) ∈ own nsPath (headerD false none [linked] [chain]) (classD false (decide (none = some chain.type)) chain) := by decide +kernel
  have hb : (Cpp.Code.Ending.pure, some (⟨str "getNext", .shared (.name (path "service" ["Object"])), []⟩ : Signature)) ∈
      fromBases nsPath (headerD false none [linked] [chain]) (classD false (decide (none = some chain.type)) chain) := by decide +kernel
  obtain ⟨s, hs, -, ho⟩ := h _ hm
  cases hs
  have := ho _ hb _ rfl ⟨rfl, rfl⟩
  exact absurd this (by decide +kernel)

/-- `type Object { id: ID! } type Box { object: Object! }`: in the class `Box`, `Object` is the base class. -/
def object : ObjectType := { type := str "Object", fields := [{ type := str "ID", name := str "id" }] }
def box : ObjectType := { type := str "Box", fields := [{ type := str "Object", name := str "object", fieldType := .object }] }

theorem C76_object_name : ∃ hs c s, ReadsClasses (headerText true none [] [object, box]) hs ∧ class? hs (str "Box") = some c ∧
    str "Object" ∈ objects hs ∧ callee nsPath hs c (str "getObject") = some s ∧ s.result = .shared (.name (path "service" ["Object"])) := by
  have hw : ClassesWritten print read [] [object, box] := plain_written (by decide +kernel) (by decide +kernel) (by decide +kernel)
  exact ⟨_, _, ⟨str "getObject", .shared (.name (path "service" ["Object"])), []⟩, reads_classes _ _ hw,
    class_eq (t := box) (by decide +kernel) (by simp), by decide +kernel, by decide +kernel, rfl⟩

end Verif.GenClass
