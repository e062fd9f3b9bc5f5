import Verif.GenClass.Mean
import Verif.GenObject.Claims

/-!
# C76: the classes of the header
-/
namespace Verif.GenClass
open Verif.Value Verif.Resp Verif.Text Verif.GenText Verif.GenTypes
open Verif.GenCode (builtinPath valueT typePath accessPath numberE)
open Verif.GenObject (WrittenOk capital resolver resultPath objectText)
open Verif.Gen (InputField InterfaceType ObjectType OutputField)
open Verif.Gen.Service (Types)
open Verif.Cpp (Path path word)
open Verif.Cpp.Code (CType Member Accessor Ending ClassDecl ClassHeader ReadsClasses ReadsClass Constructor Method Entry)
open Verif.Modifiers (Mod)

variable {print : Double → Str} {read : Str → Double} {T : Types} {is : List InterfaceType} {os : List ObjectType} {ns : Path}
  {abstract : Bool} {query : Option Str} {t : ObjectType} {hs : List ClassHeader} {c : ClassDecl}

/-- The text is C++ which can be read in just one way. -/
theorem C76_code (abstract : Bool) (query : Option Str) (h : ClassesWritten print read is os) :
    ∃! hs, ReadsClasses (headerText abstract query is os) hs :=
  ⟨_, reads_classes abstract query h, fun _ k => k.unique (reads_classes abstract query h)⟩

/-! ## Order -/

theorem before_mem {α : Type} {l r pre post : List α} {x : α} (hx : x ∉ l) (e : l ++ r = pre ++ x :: post) : ∀ y ∈ l, y ∈ pre := by
  rcases List.append_eq_append_iff.1 e with ⟨m, rfl, -⟩ | ⟨m, e1, e2⟩
  · exact fun y hy => List.mem_append_left _ hy
  · cases m with
    | nil =>
      rw [List.append_nil] at e1
      exact fun y hy => e1 ▸ hy
    | cons z m =>
      rw [List.cons_append, List.cons.injEq] at e2
      exact absurd (e1 ▸ e2.1 ▸ by simp) hx

/-- The interfaces and objects of the header are those of the schema; a class comes after its interfaces, and all of them come after
the declarations of the names of the classes of objects. -/
theorem C76_order (h : ClassesWritten print read is os) (hh : ReadsClasses (headerText abstract query is os) hs) :
    (∀ n, (∃ as, ClassHeader.interface n as ∈ hs) ↔ ∃ i ∈ is, cpp i.type = n) ∧
    (∀ n, (∃ c, ClassHeader.object c ∈ hs ∧ c.name = n) ↔ ∃ t ∈ os, cpp t.type = n) ∧
    (∀ pre c post, hs = pre ++ .object c :: post → ∀ b ∈ c.bases, ∃ as, ClassHeader.interface b as ∈ pre) ∧
    (∀ pre d post, hs = pre ++ d :: post → ((∃ n as, d = .interface n as) ∨ ∃ c, d = .object c) →
      ∀ t ∈ os, ClassHeader.forwardClass (cpp t.type) ∈ pre) := by
  rw [hh.unique (reads_classes abstract query h)]
  have hobj : ∀ {c : ClassDecl}, ClassHeader.object c ∈ headerD abstract query is os →
      ∃ t ∈ os, c = classD abstract (query = some t.type) t := by
    intro c hc
    unfold headerD at hc
    simp only [List.mem_append, List.mem_map] at hc
    rcases hc with ((⟨x, -, e⟩ | hc) | ⟨x, -, e⟩) | ⟨x, hx, e⟩
    · cases e
    · split at hc
      · obtain ⟨x, -, e⟩ := List.mem_map.1 hc; cases e
      · cases hc
    · cases e
    · exact ⟨x, hx, by injection e with e; exact e.symm⟩
  refine ⟨fun n => ⟨?_, ?_⟩, fun n => ⟨?_, ?_⟩, ?_, ?_⟩
  · rintro ⟨as, ha⟩
    unfold headerD at ha
    simp only [List.mem_append, List.mem_map] at ha
    rcases ha with ((⟨x, -, e⟩ | hc) | ⟨x, hx, e⟩) | ⟨x, hx, e⟩
    · cases e
    · split at hc
      · obtain ⟨x, -, e⟩ := List.mem_map.1 hc; cases e
      · cases hc
    · exact ⟨x, hx, by injection e⟩
    · cases e
  · rintro ⟨i, hi, rfl⟩
    exact ⟨_, List.mem_append_left _ (List.mem_append_right _ (List.mem_map_of_mem (f := interfaceD abstract) hi))⟩
  · rintro ⟨c, hc, rfl⟩
    obtain ⟨t, ht, rfl⟩ := hobj hc
    exact ⟨t, ht, rfl⟩
  · rintro ⟨t, ht, rfl⟩
    exact ⟨_, List.mem_append_right _ (List.mem_map_of_mem (f := fun t => ClassHeader.object (classD abstract (query = some t.type) t)) ht), rfl⟩
  · intro pre c post e b hb
    obtain ⟨t, ht, rfl⟩ := hobj (c := c) (e ▸ by simp)
    obtain ⟨n, hn, rfl⟩ := List.mem_map.1 hb
    obtain ⟨i, hi, rfl⟩ := h.implements t ht n hn
    refine ⟨_, before_mem (x := ClassHeader.object (classD abstract (query = some t.type) t)) ?_ e _
      (List.mem_append_right _ (List.mem_map_of_mem (f := interfaceD abstract) hi))⟩
    intro hm
    simp only [List.mem_append, List.mem_map] at hm
    rcases hm with (⟨x, -, e⟩ | hc) | ⟨x, -, e⟩
    · cases e
    · split at hc
      · obtain ⟨x, -, e⟩ := List.mem_map.1 hc; cases e
      · cases hc
    · cases e
  · intro pre d post e hd t ht
    unfold headerD at e
    rw [List.append_assoc, List.append_assoc] at e
    refine before_mem (x := d) ?_ e _ (List.mem_map_of_mem (f := fun t : ObjectType => ClassHeader.forwardClass (cpp t.type)) ht)
    intro hm
    obtain ⟨x, -, rfl⟩ := List.mem_map.1 hm
    rcases hd with ⟨n, as, e⟩ | ⟨c, e⟩ <;> cases e

/-! ## Resolvers -/

/-- The class declares just the methods which the source defines (`Verif.GenObject`), and those which its table of fields calls; it
has the member which the constructor fills. -/
theorem C76_resolvers {nst : Str} (hn : IsNamespace nst ns) (h : ClassesOk print read T is os)
    (hh : ReadsClasses (headerText abstract query is os) hs) (ht : t ∈ os) {k : Constructor} {ms : List Method}
    (hk : ReadsClass (objectText print nst (query = some t.type) t) k ms) :
    ∃ c, class? hs (cpp t.type) = some c ∧ k.c = c.name ∧ (∀ m ∈ ms, m.c = c.name) ∧
      c.resolvers = ms.map (·.f) ++ (if query = some t.type then [str "resolve_schema", str "resolve_type"] else []) ∧
      (∀ e ∈ k.entries, e.method ∈ c.resolvers) ∧ c.schema = k.schema := by
  rw [hh.unique (reads_classes abstract query h.toClassesWritten)]
  obtain ⟨rfl, rfl⟩ := hk.unique (GenObject.reads_object hn (h.objects t ht))
  have hf := h.fields t ht
  have hr : (classD abstract (query = some t.type) t).resolvers = (GenObject.methods (numberE print) ns t).map (·.f) ++
      (if query = some t.type then [str "resolve_schema", str "resolve_type"] else []) := by
    simp only [classD, if_neg hf, GenObject.methods, List.map_append, List.map_map, List.map_cons, List.map_nil, List.append_assoc,
      decide_eq_true_eq]
    rfl
  refine ⟨_, class_eq (names_objects h) ht, rfl, ?_, hr, ?_, ?_⟩
  · intro m hm
    unfold GenObject.methods at hm
    rcases List.mem_append.1 hm with hm | hm
    · obtain ⟨f, -, rfl⟩ := List.mem_map.1 hm; rfl
    · rw [List.mem_singleton] at hm; rw [hm]; rfl
  · intro e he
    obtain ⟨x, hx, rfl⟩ := List.mem_map.1 (show e ∈ (GenObject.resolvers Entry.mk resolver (decide (query = some t.type)) t.fields).map (·.2) from he)
    simp only [classD, if_neg hf, List.mem_append, List.mem_map]
    by_cases hq : query = some t.type
    · rw [if_pos (by simpa using hq)]
      rcases GenObject.resolvers_mem hx with ⟨f, hf, rfl⟩ | rfl | rfl | rfl
      · exact .inl (.inl ⟨f, hf, rfl⟩)
      · exact .inl (.inr (by simp))
      · exact .inr (by simp)
      · exact .inr (by simp)
    · have hx' : x ∈ GenObject.assign (str "__typename") (Entry.mk (str "__typename") (str "resolve_typename"))
          (t.fields.foldl (fun m f => GenObject.insert f.name (Entry.mk f.name (resolver f)) m) []) := by
        simpa [GenObject.resolvers, hq] using hx
      rcases GenObject.assign_mem hx' with rfl | hx'
      · exact .inl (.inr (by simp))
      · rcases GenObject.fold_mem hx' with hx' | ⟨f, hf, rfl⟩
        · cases hx'
        · exact .inl (.inl ⟨f, hf, rfl⟩)
  · simp [classD, hf, GenObject.constructorK]

/-- An object without fields: the source defines a method, and its table calls it, which the class does not declare. -/
theorem C76_empty_object {nst : Str} (hn : IsNamespace nst ns) (h : ClassesWritten print read is os) (hnd : (os.map fun t => cpp t.type).Nodup)
    (hh : ReadsClasses (headerText abstract query is os) hs) (ht : t ∈ os) (hf : t.fields = []) {k : Constructor} {ms : List Method}
    (hk : ReadsClass (objectText print nst (query = some t.type) t) k ms) :
    ∃ c m, class? hs (cpp t.type) = some c ∧ m ∈ ms ∧ m.c = c.name ∧ m.f ∉ c.resolvers := by
  rw [hh.unique (reads_classes abstract query h)]
  obtain ⟨rfl, rfl⟩ := hk.unique (GenObject.reads_object hn (h.objects t ht))
  refine ⟨_, GenObject.typenameM t, class_eq hnd ht, by simp [GenObject.methods], rfl, ?_⟩
  simp [classD, hf]

/-! ## Calls -/

theorem filter_single {α β : Type} {l : List α} {key : α → β} (hn : (l.map key).Nodup) {p : α → Bool} {a : α} (ha : a ∈ l) (hp : p a = true)
    (hk : ∀ b ∈ l, p b = true → key b = key a) : l.filter p = [a] := by
  induction l with
  | nil => cases ha
  | cons b l ih =>
    rw [List.map_cons, List.nodup_cons] at hn
    rcases List.mem_cons.1 ha with rfl | ha
    · rw [List.filter_cons_of_pos hp, List.filter_eq_nil_iff.2]
      intro c hc hpc
      exact hn.1 (hk c (List.mem_cons_of_mem _ hc) hpc ▸ List.mem_map_of_mem hc)
    · rw [List.filter_cons_of_neg, ih hn.2 ha fun c hc => hk c (List.mem_cons_of_mem _ hc)]
      intro hpb
      exact hn.1 (hk b List.mem_cons_self hpb ▸ List.mem_map_of_mem ha)

theorem accessorName_inj {f g : OutputField} (hf : f.accessor = str "get" ∨ f.accessor = str "apply")
    (hg : g.accessor = str "get" ∨ g.accessor = str "apply") (e : accessorName f = accessorName g) : capital f = capital g := by
  unfold accessorName at e
  rcases hf with hf | hf <;> rcases hg with hg | hg <;> rw [hf, hg] at e
  · exact List.append_cancel_left e
  · exact absurd (List.cons.inj e).1 (by decide)
  · exact absurd (List.cons.inj e).1 (by decide)
  · exact List.append_cancel_left e

theorem accessorName_first {f : OutputField} (hf : f.accessor = str "get" ∨ f.accessor = str "apply") :
    ∃ r, accessorName f = Cpp.chr 'g' :: r ∨ accessorName f = Cpp.chr 'a' :: r := by
  unfold accessorName
  rcases hf with hf | hf <;> rw [hf]
  · exact ⟨_, .inl rfl⟩
  · exact ⟨_, .inr rfl⟩

theorem Same.capital {f g : OutputField} (h : Same f g) : GenObject.capital f = GenObject.capital g := by
  unfold GenObject.capital
  rw [h.name]

theorem Same.signature {f g : OutputField} (h : Same f g) : fieldSignature ns f = fieldSignature ns g := by
  have ha : ∀ {as bs : List InputField}, List.Forall₂ SameArgument as bs →
      (as.map fun a => argumentType (accessPath ns a) a.modifiers) = bs.map fun a => argumentType (accessPath ns a) a.modifiers := by
    intro as bs hab
    induction hab with
    | nil => rfl
    | cons hx _ ih =>
      rw [List.map_cons, List.map_cons, ih]
      obtain ⟨h1, h2, h3⟩ := hx
      simp only [accessPath, h1, h2, h3]
  unfold fieldSignature
  rw [ha h.arguments]
  simp only [accessorName, composite, fieldPath, h.capital, h.accessor, h.type, h.fieldType, h.modifiers]

section
variable (h : ClassesOk print read T is os)
include h

theorem accessor_ok (ht : t ∈ os) : ∀ f ∈ t.fields, f.accessor = str "get" ∨ f.accessor = str "apply" := (h.objects t ht).accessor

theorem base_same (ht : t ∈ os) {g : OutputField} (hg : g ∈ baseFields is t) : ∃ f ∈ t.fields, Same f g := by
  obtain ⟨i, hi, hg⟩ := List.mem_flatMap.1 hg
  obtain ⟨hi, hm⟩ := mem_bases.1 hi
  exact h.same t ht i hi hm g hg

theorem base_accessor {g : OutputField} (hg : g ∈ baseFields is t) : g.accessor = str "get" ∨ g.accessor = str "apply" := by
  obtain ⟨i, hi, hg⟩ := List.mem_flatMap.1 hg
  exact (h.interfaces i (mem_bases.1 hi).1).accessor g hg

theorem field_eq (ht : t ∈ os) {f g : OutputField} (hf : f ∈ t.fields) (hg : g ∈ t.fields) (e : capital f = capital g) : f = g :=
  List.inj_on_of_nodup_map (h.distinct t ht) hf hg e

/-- A field is inherited just if it is a field of an interface. -/
theorem inherited_iff (ht : t ∈ os) {f : OutputField} (hf : f ∈ t.fields) : f.inheritedField = true ↔ ∃ g ∈ baseFields is t, Same f g := by
  rw [h.inherited t ht f hf]
  constructor
  · rintro ⟨i, hi, hm, g, hg, e⟩
    have hb : g ∈ baseFields is t := List.mem_flatMap.2 ⟨i, mem_bases.2 ⟨hi, hm⟩, hg⟩
    obtain ⟨f', hf', hs⟩ := base_same h ht hb
    have : f' = f := field_eq h ht hf' hf (by unfold GenObject.capital; rw [hs.name, e])
    exact ⟨g, hb, this ▸ hs⟩
  · rintro ⟨g, hg, hs⟩
    obtain ⟨i, hi, hg⟩ := List.mem_flatMap.1 hg
    obtain ⟨hi, hm⟩ := mem_bases.1 hi
    exact ⟨i, hi, hm, g, hg, hs.name.symm⟩

/-- A field of an interface, which has the name of a field of the object, is this field. -/
theorem base_field (ht : t ∈ os) {f g : OutputField} (hf : f ∈ t.fields) (hg : g ∈ baseFields is t) (e : accessorName f = accessorName g) :
    Same f g := by
  obtain ⟨f', hf', hs⟩ := base_same h ht hg
  have h1 := accessorName_inj (accessor_ok h ht f hf) (base_accessor h hg) e
  have : f' = f := field_eq h ht hf' hf (hs.capital.trans h1.symm)
  exact this ▸ hs

omit h in
theorem apart_eq : Apart is t ↔ ((baseFields is t).map capital).Nodup := by
  unfold Apart baseFields basesOf
  rw [List.flatMap_assoc, List.map_flatMap]
  exact Iff.of_eq (congrArg _ (List.flatMap_congr fun n _ => by rw [List.map_flatMap]))

theorem callee_eq (ht : t ∈ os) (ha : abstract = true → Apart is t) {f : OutputField} (hf : f ∈ t.fields) :
    callee ns (headerD abstract query is os) (classD abstract (query = some t.type) t) (accessorName f) = some (fieldSignature ns f) := by
  obtain ⟨r, hr⟩ := accessorName_first (accessor_ok h ht f hf)
  unfold callee
  rw [if_neg, own_eq h ht, List.filter_map]
  · have hnm : ∀ g : OutputField, (named (accessorName f) ∘ fun f => (ending abstract f, some (fieldSignature ns f))) g = true →
        accessorName g = accessorName f := fun g hg => of_decide_eq_true hg
    by_cases hd : f ∈ declared abstract t
    · have hnd : ((declared abstract t).map capital).Nodup := (List.filter_sublist.map _).nodup (h.distinct t ht)
      rw [filter_single hnd hd (by simp [named, fieldSignature])]
      · rfl
      · intro g hg hp
        exact accessorName_inj (accessor_ok h ht g (List.mem_of_mem_filter hg)) (accessor_ok h ht f hf) (hnm g hp)
    · have hi : f.inheritedField = true ∧ abstract = true := by
        simpa [declared, hf] using hd
      have hnil : (declared abstract t).filter (named (accessorName f) ∘ fun f => (ending abstract f, some (fieldSignature ns f))) = [] := by
        rw [List.filter_eq_nil_iff]
        intro g hg hp
        have hg' := List.mem_of_mem_filter hg
        exact hd (field_eq h ht hg' hf (accessorName_inj (accessor_ok h ht g hg') (accessor_ok h ht f hf) (hnm g hp)) ▸ hg)
      rw [hnil]
      simp only [List.map_nil]
      rw [if_neg, fromBases_eq h ht, List.filter_map]
      · obtain ⟨g, hg, hs⟩ := (inherited_iff h ht hf).1 hi.1
        rw [filter_single (apart_eq.1 (ha hi.2)) hg]
        · simp [hs.signature]
        · simp only [named, Function.comp, decide_eq_true_eq]
          rw [← hs.signature (ns := ns)]
          rfl
        · intro b hb hp
          exact accessorName_inj (base_accessor h hb) (base_accessor h hg) ((of_decide_eq_true hp).trans (by
            simp only [accessorName, hs.capital, hs.accessor]))
      · have : ∀ x ∈ objectMembers, ∀ r, x ≠ Cpp.chr 'g' :: r ∧ x ≠ Cpp.chr 'a' :: r := by
          have k : ∀ x ∈ objectMembers, x.head? ≠ some (Cpp.chr 'g') ∧ x.head? ≠ some (Cpp.chr 'a') := by decide
          exact fun x hx r => ⟨fun e => (k x hx).1 (by rw [e]; rfl), fun e => (k x hx).2 (by rw [e]; rfl)⟩
        intro hm
        rcases hr with hr | hr
        · exact (this _ hm r).1 hr
        · exact (this _ hm r).2 hr
  · intro hm
    have : ∃ s, accessorName f = Cpp.chr 'r' :: s := by
      simp only [classD, if_neg (h.fields t ht), List.mem_append, List.mem_map] at hm
      rcases hm with (⟨g, -, e⟩ | hm) | hm
      · exact ⟨_, e.symm⟩
      · exact ⟨_, List.mem_singleton.1 hm⟩
      · split at hm
        · rcases List.mem_cons.1 hm with e | hm
          · exact ⟨_, e⟩
          · exact ⟨_, List.mem_singleton.1 hm⟩
        · cases hm
    obtain ⟨s, hs⟩ := this
    rcases hr with hr | hr <;> rw [hr] at hs <;> exact absurd (List.cons.inj hs).1 (by decide)

theorem isObject_eq {f : OutputField} (hk : Known T os f) : isObject ns (headerD abstract query is os) (fieldPath ns f) = composite f := by
  have hlen : ∀ (a b : Str) (o : Str), (⟨a, [b]⟩ : Path) ≠ ⟨ns.head, ns.tail ++ [str "object", o]⟩ := by
    intro a b o e
    have := congrArg (fun p : Path => p.tail.length) e
    simp at this
  have hno : ∀ a b : Str, a ≠ str "service" → isObject ns (headerD abstract query is os) ⟨a, [b]⟩ = false := by
    intro a b hab
    simp only [isObject, Bool.or_eq_false_iff, decide_eq_false_iff_not, List.any_eq_false, decide_eq_true_eq]
    exact ⟨fun e => hab (congrArg Path.head e), fun o _ => hlen a b o⟩
  have hso : isObject ns (headerD abstract query is os) (path "service" ["Object"]) = true := by simp [isObject]
  unfold fieldPath composite
  cases hf : f.fieldType with
  | builtin =>
    obtain ⟨b, e⟩ := builtin_form f.type
    simp only [e]
    exact hno _ _ (by decide)
  | scalar => exact hno _ _ (by decide)
  | union => exact hso
  | interface => exact hso
  | object =>
    obtain ⟨o, ho, e⟩ := hk.object hf
    simp only [isObject, objects_eq, Bool.or_eq_true, List.any_eq_true, decide_eq_true_eq, ← e]
    exact .inr ⟨_, List.mem_map_of_mem (f := fun t : ObjectType => cpp t.type) ho, rfl⟩
  | enum =>
    obtain ⟨e, he, e1⟩ := hk.enum hf
    simp only [isObject, Bool.or_eq_false_iff, decide_eq_false_iff_not, List.any_eq_false, decide_eq_true_eq, ← e1, typePath]
    constructor
    · intro e2
      have h1 := congrArg (fun p : Path => p.tail.getLast?) e2
      simp only [List.getLast?_append, List.getLast?_singleton, Option.some_or, path] at h1
      have h2 : cpp e.type = str "Object" := by injection h1
      exact h.notObject (h2 ▸ mem_typeNames.1 e he)
    · intro o _ e2
      have := congrArg (fun p : Path => p.tail.length) e2
      simp at this

end

/-- A resolver of the source calls `getX(...)` or `applyX(...)` and gives its result to `ModifiedResult<U>::convert<Ms...>`
(`Verif.GenObject`). There is just one function which it can mean, be it of the class or of an interface; its result is of the type
which `ModifiedResult<U>` takes for the modifiers of the field, and its parameters are of the types which `ModifiedArgument` gives for
the arguments. Without stubs, this needs that the interfaces of the object have no fields in common. -/
theorem C76_calls (h : ClassesOk print read T is os) (hh : ReadsClasses (headerText abstract query is os) hs) (ht : t ∈ os)
    (ha : abstract = true → Apart is t) {f : OutputField} (hf : f ∈ t.fields) :
    ∃ c u s, class? hs (cpp t.type) = some c ∧ inClass ns hs c (resultPath f) = some u ∧
      callee ns hs c (f.accessor ++ capital f) = some s ∧ s.name = f.accessor ++ capital f ∧
      s.result = resultType (isObject ns hs u) u f.modifiers ∧
      s.params = f.arguments.map fun a => argumentType (accessPath ns a) a.modifiers := by
  rw [hh.unique (reads_classes abstract query h.toClassesWritten)]
  have hk := h.known t ht f hf
  refine ⟨_, _, _, class_eq (names_objects h) ht, class_result h ht hk, callee_eq h ht ha hf, rfl, ?_, rfl⟩
  rw [isObject_eq h hk]
  rfl

/-! ## What a user defines -/

/-- Without stubs, a class which is derived from the one of an object must define a function for each field, with the types of the
field; and nothing else. -/
theorem C76_abstract (h : ClassesOk print read T is os) (hh : ReadsClasses (headerText true query is os) hs) (ht : t ∈ os)
    (ha : Apart is t) : ∃ c, class? hs (cpp t.type) = some c ∧
      (undefinedFunctions ns hs c).Perm (t.fields.map (fieldSignature ns)) := by
  rw [hh.unique (reads_classes true query h.toClassesWritten)]
  refine ⟨_, class_eq (names_objects h) ht, ?_⟩
  unfold undefinedFunctions
  dsimp only
  rw [own_eq h ht, fromBases_eq h ht, List.filterMap_map, List.filterMap_map]
  have h1 : (declared true t).filterMap ((fun d : Ending × Option Signature => if d.1 = .pure then d.2 else none) ∘
      fun f => (ending true f, some (fieldSignature ns f))) = (declared true t).map (fieldSignature ns) := by
    rw [← List.filterMap_eq_map]
    refine List.filterMap_congr fun f hf => ?_
    simp [ending]
  have h2 : ∀ p : OutputField → Bool, (∀ g ∈ baseFields is t, p g = true) →
      (baseFields is t).filterMap (fun g => (some (fieldSignature ns g)).filter fun _ => p g) = (baseFields is t).map (fieldSignature ns) := by
    intro p hp
    rw [← List.filterMap_eq_map]
    refine List.filterMap_congr fun g hg => ?_
    simp [hp g hg]
  have h3 := h2 (fun g => !(((declared true t).map fun f => (ending true f, some (fieldSignature ns f))).any fun o =>
      match o.2 with | some o => decide (overrides o (fieldSignature ns g)) | none => false)) (by
    intro g hg
    rw [Bool.not_eq_true', List.any_eq_false]
    intro o ho hov
    obtain ⟨f, hf, rfl⟩ := List.mem_map.1 ho
    have hf' := List.mem_of_mem_filter hf
    have hs := base_field h ht hf' hg (of_decide_eq_true hov).1
    have := (inherited_iff h ht hf').2 ⟨g, hg, hs⟩
    simp [declared, this] at hf)
  rw [h1]
  have h4 : ((declared true t).map (fieldSignature ns) ++ (baseFields is t).map (fieldSignature ns)).Perm
      (t.fields.map (fieldSignature ns)) := by
    have hp : (t.fields.filter (fun f => !(f.inheritedField && true)) ++ t.fields.filter (fun f => !!(f.inheritedField && true))).Perm t.fields :=
      List.filter_append_perm _ _
    refine List.Perm.trans ?_ (hp.map _)
    rw [List.map_append]
    refine List.Perm.append (.refl _) ?_
    have hinj : ∀ {l : List OutputField}, (l.map capital).Nodup → (∀ f ∈ l, f.accessor = str "get" ∨ f.accessor = str "apply") →
        (l.map (fieldSignature ns)).Nodup := by
      intro l hl hacc
      refine List.Nodup.map_on (fun x hx y hy e => ?_) (List.Nodup.of_map _ hl)
      exact List.inj_on_of_nodup_map hl hx hy (accessorName_inj (hacc x hx) (hacc y hy) (congrArg Signature.name e))
    refine (List.perm_ext_iff_of_nodup (hinj (apart_eq.1 ha) fun g hg => base_accessor h hg)
      (hinj ((List.filter_sublist.map _).nodup (h.distinct t ht)) fun f hf => accessor_ok h ht f (List.mem_of_mem_filter hf))).2 fun s => ?_
    constructor
    · intro hs
      obtain ⟨g, hg, rfl⟩ := List.mem_map.1 hs
      obtain ⟨f, hf, hfg⟩ := base_same h ht hg
      rw [← hfg.signature]
      refine List.mem_map_of_mem (List.mem_filter.2 ⟨hf, ?_⟩)
      simpa using (inherited_iff h ht hf).2 ⟨g, hg, hfg⟩
    · intro hs
      obtain ⟨f, hf, rfl⟩ := List.mem_map.1 hs
      obtain ⟨hf, hi⟩ := List.mem_filter.1 hf
      obtain ⟨g, hg, hfg⟩ := (inherited_iff h ht hf).1 (by simpa using hi)
      rw [hfg.signature]
      exact List.mem_map_of_mem hg
  refine List.Perm.trans (.of_eq (congrArg _ ?_)) h4
  rw [← h3]
  rfl

/-- With stubs, nothing is left to define. -/
theorem C76_stubs (h : ClassesOk print read T is os) (hh : ReadsClasses (headerText false query is os) hs) (ht : t ∈ os) :
    ∃ c, class? hs (cpp t.type) = some c ∧ undefinedFunctions ns hs c = [] ∧
      (own ns hs c).map (·.2) = t.fields.map fun f => some (fieldSignature ns f) := by
  rw [hh.unique (reads_classes false query h.toClassesWritten)]
  refine ⟨_, class_eq (names_objects h) ht, ?_, ?_⟩
  · unfold undefinedFunctions
    dsimp only
    rw [own_eq h ht, fromBases_eq h ht, List.append_eq_nil_iff, List.filterMap_eq_nil_iff, List.filterMap_eq_nil_iff]
    constructor
    · intro d hd
      obtain ⟨f, hf, rfl⟩ := List.mem_map.1 hd
      have := h.mark t ht f (List.mem_of_mem_filter hf)
      simp only [ending, this, Bool.or_self, Bool.false_eq_true, if_false]
      cases f.inheritedField <;> rfl
    · intro d hd
      obtain ⟨g, hg, rfl⟩ := List.mem_map.1 hd
      obtain ⟨f, hf, hfg⟩ := base_same h ht hg
      simp only [if_true]
      rw [Option.filter_some, if_neg]
      rw [Bool.not_eq_true, Bool.not_eq_false', List.any_eq_true]
      refine ⟨_, List.mem_map_of_mem (f := fun f => (ending false f, some (fieldSignature ns f))) (a := f) (by simp [declared, hf]), ?_⟩
      simp only [decide_eq_true_eq, hfg.signature (ns := ns)]
      exact ⟨rfl, rfl⟩
  · rw [own_eq h ht, List.map_map]
    have : declared false t = t.fields := by simp [declared]
    rw [this]
    rfl

/-- What is declared with `override` is a function of an interface, and what is a function of an interface has the same type of
results. -/
theorem C76_overrides (h : ClassesOk print read T is os) (hh : ReadsClasses (headerText abstract query is os) hs) (ht : t ∈ os) :
    ∃ c, class? hs (cpp t.type) = some c ∧ OverridesOk ns hs c := by
  rw [hh.unique (reads_classes abstract query h.toClassesWritten)]
  refine ⟨_, class_eq (names_objects h) ht, ?_⟩
  intro d hd
  rw [own_eq h ht] at hd
  obtain ⟨f, hf, rfl⟩ := List.mem_map.1 hd
  have hf := List.mem_of_mem_filter hf
  refine ⟨_, rfl, fun ho => ?_, fun b hb r hr hov => ?_⟩
  · have hi : f.inheritedField = true := by
      simp only [ending] at ho
      split at ho
      · cases ho
      · split at ho
        · assumption
        · cases ho
    obtain ⟨g, hg, hfg⟩ := (inherited_iff h ht hf).1 hi
    rw [fromBases_eq h ht]
    exact ⟨_, List.mem_map_of_mem hg, _, rfl, by rw [hfg.signature]; exact ⟨rfl, rfl⟩⟩
  · rw [fromBases_eq h ht] at hb
    obtain ⟨g, hg, rfl⟩ := List.mem_map.1 hb
    cases hr
    rw [(base_field h ht hf hg hov.1).signature]

end Verif.GenClass
