import Verif.GenClass.Read

/-!
# The meaning of the declarations of classes
-/
namespace Verif.GenClass
open Verif.Value Verif.Resp Verif.Text Verif.GenText Verif.GenTypes
open Verif.GenCode (FieldsOk TypeKnown builtinPath valueT typePath accessPath)
open Verif.GenObject (WrittenOk capital resolver resultPath)
open Verif.Gen (InputField InterfaceType ObjectType OutputField)
open Verif.Gen.Service (Types)
open Verif.Cpp (Path path word)
open Verif.Cpp.Code (CType Member Accessor Ending ClassDecl ClassHeader)
open Verif.Modifiers (Mod)

variable {print : Double → Str} {read : Str → Double} {T : Types} {is : List InterfaceType} {os : List ObjectType} {ns : Path}
  {abstract : Bool} {query : Option Str} {t : ObjectType}

/-! ## Declarations -/

theorem findSome_key {α β : Type} {l : List α} {key : α → Str} {f : α → ClassHeader} {v : α → β} {pick : ClassHeader → Str → Option β}
    (hp : ∀ a n, pick (f a) n = if key a = n then some (v a) else none) (hn : (l.map key).Nodup) {a : α} (ha : a ∈ l) :
    (l.map f).findSome? (fun d => pick d (key a)) = some (v a) := by
  induction l with
  | nil => cases ha
  | cons b l ih =>
    rw [List.map_cons, List.nodup_cons] at hn
    rw [List.map_cons, List.findSome?_cons, hp]
    rcases List.mem_cons.1 ha with rfl | ha
    · simp
    · have : key b ≠ key a := fun e => hn.1 (e ▸ List.mem_map_of_mem ha)
      rw [if_neg this]
      exact ih hn.2 ha

def pickClass (d : ClassHeader) (n : Str) : Option ClassDecl :=
  match d with
  | .object c => if c.name = n then some c else none
  | _ => none

def pickInterface (d : ClassHeader) (n : Str) : Option (List Accessor) :=
  match d with
  | .interface m accessors => if m = n then some accessors else none
  | _ => none

theorem findSome_none {α β : Type} {l : List α} {f : α → Option β} (h : ∀ a ∈ l, f a = none) : l.findSome? f = none :=
  List.findSome?_eq_none_iff.2 h

theorem class_eq (hn : (os.map fun t => cpp t.type).Nodup) (ht : t ∈ os) :
    class? (headerD abstract query is os) (cpp t.type) = some (classD abstract (query = some t.type) t) := by
  change List.findSome? (fun d => pickClass d (cpp t.type)) _ = _
  rw [headerD, List.findSome?_append, List.findSome?_append, List.findSome?_append]
  have h1 : (os.map fun t => ClassHeader.forwardClass (cpp t.type)).findSome? (fun d => pickClass d (cpp t.type)) = none :=
    findSome_none fun a ha => by obtain ⟨x, -, rfl⟩ := List.mem_map.1 ha; rfl
  have h2 : (if is.length > 1 then is.map (fun t => ClassHeader.forwardStruct (cpp t.type)) else []).findSome?
      (fun d => pickClass d (cpp t.type)) = none :=
    findSome_none fun a ha => by
      split at ha
      · obtain ⟨x, -, rfl⟩ := List.mem_map.1 ha; rfl
      · cases ha
  have h3 : (is.map (interfaceD abstract)).findSome? (fun d => pickClass d (cpp t.type)) = none :=
    findSome_none fun a ha => by obtain ⟨x, -, rfl⟩ := List.mem_map.1 ha; rfl
  rw [h1, h2, h3]
  exact findSome_key (key := fun t : ObjectType => cpp t.type) (v := fun t => classD abstract (query = some t.type) t) (pick := pickClass)
    (fun a n => rfl) hn ht

theorem interface_eq (hn : (is.map fun i => cpp i.type).Nodup) {i : InterfaceType} (hi : i ∈ is) :
    interface? (headerD abstract query is os) (cpp i.type) = some (i.fields.map (accessorD abstract)) := by
  change List.findSome? (fun d => pickInterface d (cpp i.type)) _ = _
  rw [headerD, List.append_assoc, List.append_assoc, List.findSome?_append, List.findSome?_append, List.findSome?_append]
  have h1 : (os.map fun t => ClassHeader.forwardClass (cpp t.type)).findSome? (fun d => pickInterface d (cpp i.type)) = none :=
    findSome_none fun a ha => by obtain ⟨x, -, rfl⟩ := List.mem_map.1 ha; rfl
  have h2 : (if is.length > 1 then is.map (fun t => ClassHeader.forwardStruct (cpp t.type)) else []).findSome?
      (fun d => pickInterface d (cpp i.type)) = none :=
    findSome_none fun a ha => by
      split at ha
      · obtain ⟨x, -, rfl⟩ := List.mem_map.1 ha; rfl
      · cases ha
  rw [h1, h2]
  have := findSome_key (key := fun i : InterfaceType => cpp i.type) (f := interfaceD abstract)
    (v := fun i => i.fields.map (accessorD abstract)) (pick := pickInterface) (fun a n => rfl) hn hi
  rw [this]
  rfl

theorem objects_eq : objects (headerD abstract query is os) = os.map fun t => cpp t.type := by
  unfold objects headerD
  rw [List.filterMap_append, List.filterMap_append, List.filterMap_append]
  have h1 : ∀ (g : ClassHeader → Option Str), (∀ d, (∀ c, d ≠ .object c) → g d = none) → ∀ l : List ClassHeader, (∀ d ∈ l, ∀ c, d ≠ .object c) →
      l.filterMap g = [] := by
    intro g hg l hl
    rw [List.filterMap_eq_nil_iff]
    exact fun d hd => hg d (hl d hd)
  have hg : ∀ d : ClassHeader, (∀ c, d ≠ .object c) → objectName d = none := by
    intro d hd
    cases d with
    | object c => exact absurd rfl (hd c)
    | _ => rfl
  rw [h1 _ hg, h1 _ hg, h1 _ hg]
  · simp only [List.nil_append, List.filterMap_map]
    exact congrFun (List.filterMap_eq_map (f := fun t : ObjectType => cpp t.type)) os
  · intro d hd c e; obtain ⟨x, -, rfl⟩ := List.mem_map.1 hd; cases e
  · intro d hd c e
    split at hd
    · obtain ⟨x, -, rfl⟩ := List.mem_map.1 hd; cases e
    · cases hd
  · intro d hd c e; obtain ⟨x, -, rfl⟩ := List.mem_map.1 hd; cases e

/-! ## Types -/

theorem mean_out {m : Path → Option Path} {u v : Path} (h : m u = some v) (b : Bool) (ms : List Mod) :
    CType.mean m (outType b u ms) = some (outType b v ms) := by
  induction ms with
  | nil => cases b <;> simp [outType, CType.mean, h]
  | cons a ms ih =>
    cases a with
    | nullable =>
      unfold outType
      by_cases hc : b = true ∧ ms = []
      · rw [if_pos hc, if_pos hc]; simp [CType.mean, h]
      · rw [if_neg hc, if_neg hc]; simp [CType.mean, ih]
    | list => simp [outType, CType.mean, ih]

theorem mean_argument {m : Path → Option Path} {u v : Path} (h : m u = some v) (ms : List Mod) :
    CType.mean m (argumentType u ms) = some (argumentType v ms) := by
  induction ms with
  | nil => simp [argumentType, CType.mean, h]
  | cons a ms ih => cases a <;> simp [argumentType, CType.mean, ih]

theorem result_out {b : Bool} {u : Path} {ms : List Mod} (h : Alternating ms) : resultType b u ms = outType b u ms := by
  induction ms with
  | nil => rfl
  | cons a ms ih =>
    cases a with
    | list => simp only [resultType, outType, ih h]
    | nullable =>
      cases ms with
      | nil => cases b <;> simp [resultType, outType]
      | cons c ms =>
        cases c with
        | nullable => exact absurd h id
        | list =>
          have := ih h
          rw [resultType.eq_2, outType.eq_2]
          simp only [this]
          simp [outType]

/-! ## Names -/

theorem mem_typeNames {T : Types} {os : List ObjectType} :
    (∀ e ∈ T.enums, cpp e.type ∈ typeNames T os) ∧ (∀ i ∈ T.inputs, cpp i.type ∈ typeNames T os) ∧
      ∀ t ∈ os, cpp t.type ∈ typeNames T os := by
  refine ⟨fun e he => ?_, fun e he => ?_, fun e he => ?_⟩ <;> unfold typeNames <;> refine List.mem_map_of_mem (f := cpp) ?_ <;>
    simp only [List.mem_append, List.mem_map]
  · exact .inl (.inl ⟨e, he, rfl⟩)
  · exact .inl (.inr ⟨e, he, rfl⟩)
  · exact .inr ⟨e, he, rfl⟩

variable (h : ClassesOk print read T is os)
include h

theorem names_objects : (os.map fun t => cpp t.type).Nodup := by
  have := (List.nodup_append.1 h.names).1
  unfold typeNames at this
  rw [List.map_append, List.map_map] at this
  exact (List.nodup_append.1 this).2.1

theorem names_interfaces : (is.map fun i => cpp i.type).Nodup := (List.nodup_append.1 h.names).2.1

theorem enum_not_object {e} (he : e ∈ T.enums) : cpp e.type ∉ os.map fun t => cpp t.type := by
  intro hm
  have := (List.nodup_append.1 h.names).1
  unfold typeNames at this
  rw [List.map_append] at this
  refine (List.nodup_append.1 this).2.2 (cpp e.type) ?_ (cpp e.type) (by simpa [List.map_map] using hm) rfl
  exact List.mem_map_of_mem (List.mem_append_left _ (List.mem_map_of_mem he))

theorem input_not_object {e} (he : e ∈ T.inputs) : cpp e.type ∉ os.map fun t => cpp t.type := by
  intro hm
  have := (List.nodup_append.1 h.names).1
  unfold typeNames at this
  rw [List.map_append] at this
  refine (List.nodup_append.1 this).2.2 (cpp e.type) ?_ (cpp e.type) (by simpa [List.map_map] using hm) rfl
  exact List.mem_map_of_mem (List.mem_append_right _ (List.mem_map_of_mem he))

theorem not_base {n : Str} (hn : n ∈ typeNames T os) (ht : t ∈ os) : n ∉ t.interfaces.map cpp := by
  intro hm
  obtain ⟨x, hx, rfl⟩ := List.mem_map.1 hm
  obtain ⟨i, hi, rfl⟩ := h.implements t ht x hx
  exact (List.nodup_append.1 h.names).2.2 _ hn _ (List.mem_map_of_mem hi) rfl

/-- The interfaces of an object. -/
def basesOf (is : List InterfaceType) (t : ObjectType) : List InterfaceType := t.interfaces.flatMap fun n => is.filter fun i => i.type = n

omit h in
theorem mem_bases {i : InterfaceType} : i ∈ basesOf is t ↔ i ∈ is ∧ i.type ∈ t.interfaces := by
  simp [basesOf, and_comm]

theorem filter_one {n : Str} {i : InterfaceType} (hi : i ∈ is) (e : i.type = n) : is.filter (fun i => i.type = n) = [i] := by
  have hn : (is.map (·.type)).Nodup := by
    have := names_interfaces h
    have e : (is.map fun i => cpp i.type) = (is.map (·.type)).map cpp := by rw [List.map_map]; rfl
    rw [e] at this
    exact List.Nodup.of_map _ this
  clear h
  induction is with
  | nil => cases hi
  | cons j js ih =>
    rw [List.map_cons, List.nodup_cons] at hn
    rcases List.mem_cons.1 hi with rfl | hi
    · rw [List.filter_cons_of_pos (by simpa using e)]
      rw [List.filter_eq_nil_iff.2]
      intro j hj hk
      exact hn.1 (e.trans (of_decide_eq_true hk).symm ▸ List.mem_map_of_mem hj)
    · rw [List.filter_cons_of_neg]
      · exact ih hi hn.2
      · simp only [decide_eq_true_eq]
        intro hk
        exact hn.1 (hk.trans e.symm ▸ List.mem_map_of_mem hi)

/-- What holds for the list of the interfaces. -/
theorem bases_flatMap {β : Type} {g : Str → List β} {k : InterfaceType → List β} (ht : t ∈ os) (hg : ∀ i ∈ is, g (cpp i.type) = k i) :
    (t.interfaces.map cpp).flatMap g = (basesOf is t).flatMap k := by
  have := h.implements t ht
  unfold basesOf
  rw [List.flatMap_map, List.flatMap_assoc]
  refine List.flatMap_congr fun n hn => ?_
  obtain ⟨i, hi, e⟩ := this n hn
  rw [filter_one h hi e]
  simp [← e, hg i hi]

theorem inherited_eq {introspection : Bool} (ht : t ∈ os) :
    inherited (headerD abstract query is os) (classD abstract introspection t) =
      (basesOf is t).flatMap fun i => i.fields.map (accessorD abstract) := by
  unfold inherited
  exact bases_flatMap h ht fun i hi => by rw [interface_eq (names_interfaces h) hi]; rfl

theorem class_member {introspection : Bool} (ht : t ∈ os) {n : Str} (hn : n ∈ typeNames T os) :
    n ∉ (classD abstract introspection t).accessors.map (·.name) ++ (classD abstract introspection t).resolvers ++ [str "_schema"] := by
  obtain ⟨h1, h2, h3⟩ := h.notMember n hn
  intro hm
  simp only [List.mem_append] at hm
  rcases hm with (hm | hm) | hm
  · obtain ⟨a, ha, e⟩ := List.mem_map.1 hm
    obtain ⟨f, hf, rfl⟩ := List.mem_map.1 ha
    exact (h2 t ht f (List.mem_of_mem_filter hf)).1 e.symm
  · simp only [classD, if_neg (h.fields t ht), List.mem_append, List.mem_map] at hm
    rcases hm with (⟨f, hf, e⟩ | hm) | hm
    · exact (h2 t ht f hf).2 e.symm
    · simp only [List.mem_singleton] at hm
      exact h1 (by simp [hm])
    · split at hm
      · simp only [List.mem_cons, List.not_mem_nil, or_false] at hm
        exact h1 (by rcases hm with hm | hm <;> simp [hm])
      · cases hm
  · simp only [List.mem_singleton] at hm
    exact h1 (by simp [hm])

theorem class_name {introspection : Bool} (ht : t ∈ os) {n : Str} (hn : n ∈ typeNames T os)
    (ho : n ∉ os.map fun t => cpp t.type) :
    inClass ns (headerD abstract query is os) (classD abstract introspection t) (word n) = some ⟨ns.head, ns.tail ++ [n]⟩ := by
  obtain ⟨h1, h2, h3⟩ := h.notMember n hn
  unfold inClass
  rw [if_pos (show (word n).tail = [] from rfl), if_neg, if_neg, if_neg, if_neg, if_neg]
  · simp only [inNamespaces, word, objects_eq]
    rw [if_neg ho]
  · exact not_base h hn ht
  · intro e
    exact h.notObject ((show n = str "Object" from e) ▸ hn)
  · rw [inherited_eq h ht]
    intro hm
    rcases List.mem_append.1 hm with hm | hm
    · exact h1 (List.mem_append_left _ hm)
    · obtain ⟨a, ha, e⟩ := List.mem_map.1 hm
      obtain ⟨i, hi, ha⟩ := List.mem_flatMap.1 ha
      obtain ⟨f, hf, rfl⟩ := List.mem_map.1 ha
      exact h3 i (mem_bases.1 hi).1 f hf e.symm
  · intro e
    exact ho ((show n = cpp t.type from e) ▸ List.mem_map_of_mem ht)
  · exact class_member h ht hn

theorem class_object {introspection : Bool} (ht : t ∈ os) {o : ObjectType} (ho : o ∈ os) :
    inClass ns (headerD abstract query is os) (classD abstract introspection t) (word (cpp o.type)) =
      some ⟨ns.head, ns.tail ++ [str "object", cpp o.type]⟩ := by
  have hn := (mem_typeNames (T := T)).2.2 o ho
  obtain ⟨h1, h2, h3⟩ := h.notMember _ hn
  unfold inClass
  rw [if_pos (show (word (cpp o.type)).tail = [] from rfl), if_neg (show (word (cpp o.type)).head ∉ _ from class_member h ht hn)]
  by_cases he : (word (cpp o.type)).head = (classD abstract introspection t).name
  · rw [if_pos he]; rfl
  · rw [if_neg he, if_neg, if_neg, if_neg]
    · simp only [inNamespaces, word, objects_eq]
      rw [if_pos (List.mem_map_of_mem (f := fun t : ObjectType => cpp t.type) ho)]
    · exact not_base h hn ht
    · intro e
      exact h.notObject ((show cpp o.type = str "Object" from e) ▸ hn)
    · rw [inherited_eq h ht]
      intro hm
      rcases List.mem_append.1 hm with hm | hm
      · exact h1 (List.mem_append_left _ hm)
      · obtain ⟨a, ha, e⟩ := List.mem_map.1 hm
        obtain ⟨i, hi, ha⟩ := List.mem_flatMap.1 ha
        obtain ⟨f, hf, rfl⟩ := List.mem_map.1 ha
        exact h3 i (mem_bases.1 hi).1 f hf e.symm

theorem interface_name {i : InterfaceType} (hi : i ∈ is) {n : Str} (hn : n ∈ typeNames T os) :
    inInterface ns (i.fields.map (accessorD abstract)) (word n) = some ⟨ns.head, ns.tail ++ [n]⟩ := by
  unfold inInterface
  rw [if_neg]
  · simp [inNamespaces, word]
  · rintro ⟨-, hm⟩
    obtain ⟨a, ha, e⟩ := List.mem_map.1 hm
    obtain ⟨f, hf, rfl⟩ := List.mem_map.1 ha
    exact (h.notMember n hn).2.2 i hi f hf e.symm

omit h in
/-- A name of two words which is not in `object`. -/
theorem class_known {hs : List ClassHeader} {c : ClassDecl} {a : Str} {b : Str} (ha : a ≠ str "object") :
    inClass ns hs c ⟨a, [b]⟩ = some ⟨a, [b]⟩ := by
  unfold inClass
  rw [if_neg (by simp)]
  simp [inNamespaces, ha]

omit h in
theorem interface_known {as : List Accessor} {a : Str} {b : Str} (ha : a ≠ str "object") :
    inInterface ns as ⟨a, [b]⟩ = some ⟨a, [b]⟩ := by
  unfold inInterface
  rw [if_neg (by simp)]
  simp [inNamespaces, ha]

omit h in
theorem builtin_form (s : Str) : ∃ b, builtinPath s = ⟨str "response", [b]⟩ := by
  unfold builtinPath
  split
  · exact ⟨_, rfl⟩
  · split
    · exact ⟨_, rfl⟩
    · split
      · exact ⟨_, rfl⟩
      · split
        · exact ⟨_, rfl⟩
        · exact ⟨_, rfl⟩

omit h in
theorem path_form (a b : String) : path a [b] = ⟨str a, [str b]⟩ := rfl

/-- The names of types in a class. -/
theorem class_argument {introspection : Bool} (ht : t ∈ os) {a : InputField} (hk : TypeKnown T a) :
    inClass ns (headerD abstract query is os) (classD abstract introspection t) (leafPath a) = some (accessPath ns a) := by
  unfold TypeKnown at hk
  unfold leafPath accessPath
  cases hf : a.fieldType with
  | builtin =>
    obtain ⟨b, e⟩ := builtin_form a.type
    simp only [e]
    exact class_known (by decide)
  | scalar => exact class_known (by decide)
  | enum =>
    rw [hf] at hk
    obtain ⟨e, he, e1⟩ := hk
    simp only [← e1]
    exact class_name h ht (mem_typeNames.1 e he) (enum_not_object h he)
  | input =>
    rw [hf] at hk
    obtain ⟨e, he, e1⟩ := hk
    simp only [← e1]
    exact class_name h ht (mem_typeNames.2.1 e he) (input_not_object h he)

theorem interface_argument {i : InterfaceType} (hi : i ∈ is) {a : InputField} (hk : TypeKnown T a) :
    inInterface ns (i.fields.map (accessorD abstract)) (leafPath a) = some (accessPath ns a) := by
  unfold TypeKnown at hk
  unfold leafPath accessPath
  cases hf : a.fieldType with
  | builtin =>
    obtain ⟨b, e⟩ := builtin_form a.type
    simp only [e]
    exact interface_known (by decide)
  | scalar => exact interface_known (by decide)
  | enum =>
    rw [hf] at hk
    obtain ⟨e, he, e1⟩ := hk
    simp only [← e1]
    exact interface_name h hi (mem_typeNames.1 e he)
  | input =>
    rw [hf] at hk
    obtain ⟨e, he, e1⟩ := hk
    simp only [← e1]
    exact interface_name h hi (mem_typeNames.2.1 e he)

theorem class_result {introspection : Bool} (ht : t ∈ os) {f : OutputField} (hk : Known T os f) :
    inClass ns (headerD abstract query is os) (classD abstract introspection t) (resultPath f) = some (fieldPath ns f) := by
  unfold resultPath fieldPath
  cases hf : f.fieldType with
  | builtin =>
    obtain ⟨b, e⟩ := builtin_form f.type
    simp only [e]
    exact class_known (by decide)
  | scalar => exact class_known (by decide)
  | enum =>
    obtain ⟨e, he, e1⟩ := hk.enum hf
    simp only [← e1]
    exact class_name h ht (mem_typeNames.1 e he) (enum_not_object h he)
  | object =>
    obtain ⟨e, he, e1⟩ := hk.object hf
    simp only [← e1]
    exact class_object h ht he
  | union => exact class_known (by decide)
  | interface => exact class_known (by decide)

omit h in
theorem out_result {f : OutputField} (hf : f.interfaceField = false) : outPath f = resultPath f := by
  unfold outPath resultPath
  rw [hf]
  cases f.fieldType <;> rfl

theorem interface_result {i : InterfaceType} (hi : i ∈ is) {f : OutputField} (hk : Known T os f) (hm : f.interfaceField = true) :
    inInterface ns (i.fields.map (accessorD abstract)) (outPath f) = some (fieldPath ns f) := by
  unfold outPath fieldPath
  cases hf : f.fieldType with
  | builtin =>
    obtain ⟨b, e⟩ := builtin_form f.type
    simp only [e]
    exact interface_known (by decide)
  | scalar => exact interface_known (by decide)
  | enum =>
    obtain ⟨e, he, e1⟩ := hk.enum hf
    simp only [← e1]
    exact interface_name h hi (mem_typeNames.1 e he)
  | object =>
    simp only [hm, if_true]
    unfold inInterface
    rw [if_neg (by simp)]
    simp [inNamespaces]
  | union => exact interface_known (by decide)
  | interface => exact interface_known (by decide)

/-! ## Functions -/

omit h in
theorem signature_eq {m : Path → Option Path} {f : OutputField} (hr : m (outPath f) = some (fieldPath ns f)) (hk : Alternating f.modifiers)
    (ha : ∀ a ∈ f.arguments, m (leafPath a) = some (accessPath ns a)) :
    signature m (accessorD abstract f) = some (fieldSignature ns f) := by
  unfold signature
  simp only [accessorD]
  rw [mean_out hr, Option.bind_some]
  have : (f.arguments.map paramD).mapM (fun x => CType.mean m x.type) =
      some (f.arguments.map fun a => argumentType (accessPath ns a) a.modifiers) := by
    generalize f.arguments = as at ha
    induction as with
    | nil => rfl
    | cons a as ih =>
      rw [List.map_cons, List.mapM_cons, ih fun x hx => ha x (List.mem_cons_of_mem _ hx)]
      simp only [paramD, mean_argument (ha a List.mem_cons_self) a.modifiers]
      rfl
  rw [this]
  simp [fieldSignature, result_out hk]

theorem own_eq {introspection : Bool} (ht : t ∈ os) :
    own ns (headerD abstract query is os) (classD abstract introspection t) =
      (declared abstract t).map fun f => (ending abstract f, some (fieldSignature ns f)) := by
  unfold own declaredIn
  change ((declared abstract t).map (accessorD abstract)).map _ = _
  rw [List.map_map]
  refine List.map_congr_left fun f hf => ?_
  have hf := List.mem_of_mem_filter hf
  have hk := h.known t ht f hf
  simp only [Function.comp]
  rw [signature_eq (ns := ns) (by rw [out_result (h.mark t ht f hf)]; exact class_result h ht hk) hk.modifiers
    fun a ha => class_argument h ht (hk.arguments a ha)]
  rfl

/-- The fields of the interfaces of an object. -/
def baseFields (is : List InterfaceType) (t : ObjectType) : List OutputField := (basesOf is t).flatMap (·.fields)

theorem fromBases_eq {introspection : Bool} (ht : t ∈ os) :
    fromBases ns (headerD abstract query is os) (classD abstract introspection t) =
      (baseFields is t).map fun f => (.pure, some (fieldSignature ns f)) := by
  unfold fromBases baseFields
  rw [List.map_flatMap]
  refine bases_flatMap h ht fun i hi => ?_
  rw [interface_eq (names_interfaces h) hi]
  simp only [Option.getD_some, declaredIn, List.map_map]
  refine List.map_congr_left fun f hf => ?_
  have hk := h.knownI i hi f hf
  simp only [Function.comp]
  rw [signature_eq (ns := ns) (interface_result h hi hk (h.markI i hi f hf)) hk.modifiers fun a ha => interface_argument h hi (hk.arguments a ha)]
  simp [accessorD, ending, h.markI i hi f hf]

end Verif.GenClass
