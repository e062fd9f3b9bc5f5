import Verif.Gen.BuildProps
import Verif.Gen.ValidateClaims

/-!
# The schemas of accepted documents
-/
namespace Verif.Gen
open Verif.Value Verif.Resp Verif.Ast Verif.Modifiers Verif.TypeSystem
open Verif.Schema.Wrap (Kind Addr)

theorem name_of_kind {atoi : Int → Int} {doc : List TypeDef} {s : Loader} (h : visitDefinitions atoi {} doc = .ok s)
    {n : Str} {k : SchemaType} (hn : s.schemaTypes n = some k) : n ∈ typeNames s := by
  obtain ⟨pre, d, post, he, hd, _⟩ := (C53_kinds h n k).1 hn
  have hm := mem_definitions he hd
  have L := C53_load h
  simp only [typeNames, List.mem_append, List.mem_map]
  cases k with
  | scalar =>
    obtain ⟨u, hu, hi⟩ := forall₂_mem_left L.scalars _ hm
    have := hi.defines
    rw [hd] at this; cases this
    exact .inl (.inl (.inl (.inl (.inl ⟨u, hu, rfl⟩))))
  | enum =>
    obtain ⟨u, hu, hi⟩ := forall₂_mem_left L.enums _ hm
    obtain ⟨_, ⟨hw, _⟩, _⟩ := hi.parts
    rw [hd] at hw; cases hw
    exact .inl (.inl (.inl (.inl (.inr ⟨u, hu, rfl⟩))))
  | input =>
    obtain ⟨u, hu, hi⟩ := forall₂_mem_left L.inputs _ hm
    obtain ⟨_, ⟨hw, _⟩, _⟩ := hi.parts
    rw [hd] at hw; cases hw
    exact .inl (.inl (.inl (.inr ⟨u, hu, rfl⟩)))
  | union =>
    obtain ⟨u, hu, hi⟩ := forall₂_mem_left L.unions _ hm
    obtain ⟨_, ⟨hw, _⟩, _⟩ := hi.parts
    rw [hd] at hw; cases hw
    exact .inl (.inl (.inr ⟨u, hu, rfl⟩))
  | interface =>
    obtain ⟨u, hu, hi⟩ := forall₂_mem_left L.interfaces _ hm
    obtain ⟨_, ⟨hw, _⟩, _⟩ := hi.parts
    rw [hd] at hw; cases hw
    exact .inl (.inr ⟨u, hu, rfl⟩)
  | object =>
    obtain ⟨u, hu, hi⟩ := forall₂_mem_left L.objects _ hm
    obtain ⟨_, ⟨hw, _⟩, _⟩ := hi.parts
    rw [hd] at hw; cases hw
    exact .inr ⟨u, hu, rfl⟩

theorem forall₂_types {α β : Type} {R : α → β → Prop} {f : α → Str} {g : β → Str} {xs : List α} {ys : List β}
    (h : List.Forall₂ R xs ys) (hr : ∀ x y, R x y → g y = f x) : ys.map g = xs.map f := by
  induction h with
  | nil => rfl
  | cons h1 _ ih => simp [hr _ _ h1, ih]

/-- The names stay the same. -/
theorem Validated.names {intro : Bool} {s s' : Loader} (h : Validated intro s s') :
    s'.inputTypes.map (·.type) ⊆ s.inputTypes.map (·.type) ∧ s.inputTypes.map (·.type) ⊆ s'.inputTypes.map (·.type) ∧
    s'.interfaceTypes.map (·.type) = s.interfaceTypes.map (·.type) ∧
    s'.objectTypes.map (·.type) = s.objectTypes.map (·.type) := by
  obtain ⟨l, hp, hl⟩ := h.inputs
  have e := forall₂_types (f := (·.type)) (g := (·.type)) hl fun _ _ h => h.1
  rw [e]
  refine ⟨(hp.map _).subset, (hp.map _).symm.subset, ?_, ?_⟩
  · exact forall₂_types h.interfaces fun _ _ h => h.1
  · exact forall₂_types h.objects fun _ _ h => h.1

theorem Validated.typeNames {intro : Bool} {s s' : Loader} (h : Validated intro s s') {n : Str} (hn : n ∈ typeNames s) :
    n ∈ Gen.typeNames s' := by
  obtain ⟨_, n2, n3, n4⟩ := h.names
  obtain ⟨_, r1, r2, r3, _⟩ := h.rest
  unfold Gen.typeNames at *
  rw [r1, r2, r3, n3, n4]
  simp only [List.mem_append] at hn ⊢
  rcases hn with (((hn | hn) | hn) | hn) | hn
  · exact .inl (.inl (.inl (.inl hn)))
  · exact .inl (.inl (.inl (.inr (n2 hn))))
  · exact .inl (.inl (.inr hn))
  · exact .inl (.inr hn)
  · exact .inr hn

/-- What is still to be known about the schema after its validation: the types of the arguments of fields of a built-in type,
and the arguments and locations of directives (the grammar lets only the known locations pass, Grammar.h:933-954). -/
structure Unchecked (s : Loader) : Prop where
  arguments : ∀ f ∈ outputPlaces s, f.type ∈ builtinTypes → ∀ a ∈ f.arguments,
    a.type ∈ typeNames Introspect.types ++ typeNames s
  directives : ∀ d ∈ s.directives, ∀ a ∈ d.arguments, a.type ∈ typeNames Introspect.types ++ typeNames s
  locations : ∀ d ∈ s.directives, ∀ n ∈ d.locations, n ∈ locationNames.map (·.1)

/-- **C55.** `clientgen` can build the schema of a document which is accepted (C53, C54) and has no name twice exactly if the
types exist which the validation does not look at. -/
theorem C55_accepted {alloc : List Op → Addr} (hf : FreshAddrs alloc) {atoi : Int → Int} {doc : List TypeDef} {s s' : Loader}
    (h : visitDefinitions atoi {} doc = .ok s) {intro : Bool} (hv : validateSchema intro s = .ok s') (hd : DistinctNames s') :
    (∃ schema, buildSchema alloc s' = .ok schema) ↔ Unchecked s' := by
  rw [(C55_build hf hd).1]
  constructor
  · rintro ⟨h1, h2, h3, h4, h5, h6⟩
    simp only [inputPlaces, List.mem_append, List.mem_flatMap] at h1
    refine ⟨?_, fun d hd a ha => by simpa using h1 a (.inr ⟨d, hd, ha⟩), h5⟩
    intro f hf _ a ha
    simp only [outputPlaces, List.mem_append] at hf
    rcases hf with hf | hf
    · simpa using h1 a (.inl (.inl (.inr ⟨f, by simpa using hf, ha⟩)))
    · simpa using h1 a (.inl (.inr ⟨f, by simpa using hf, ha⟩))
  · intro hu
    have V := C54_result h hv
    have S := (C54_accept h intro).1 ⟨s', hv⟩
    obtain ⟨_, _, n3, n4⟩ := V.names
    have builtin : ∀ n ∈ builtinTypes, n ∈ typeNames Introspect.types := by decide +kernel
    have input : ∀ {n k}, InputKind s n k → n ∈ typeNames Introspect.types ++ typeNames s' := by
      intro n k hk
      rw [List.mem_append]
      cases hk with
      | builtin hb => exact .inl (builtin _ hb)
      | scalar _ hs | enum _ hs | input _ hs => exact .inr (V.typeNames (name_of_kind h hs))
    have output : ∀ {n k}, OutputKind s n k → n ∈ typeNames Introspect.types ++ typeNames s' := by
      intro n k hk
      rw [List.mem_append]
      cases hk with
      | builtin hb => exact .inl (builtin _ hb)
      | scalar _ hs | enum _ hs | union _ hs | interface _ hs | object _ hs => exact .inr (V.typeNames (name_of_kind h hs))
    have args : ∀ {f f' : OutputField}, f' ∈ outputPlaces s' → f'.type = f.type → FixedArguments s f f' →
        ∀ a ∈ f'.arguments, a.type ∈ typeNames Introspect.types ++ typeNames s' := by
      intro f f' hf' e hfix a ha
      unfold FixedArguments at hfix
      split at hfix
      · rename_i hb
        exact hu.arguments f' hf' (e ▸ hb) a ha
      · obtain ⟨b, _, hb⟩ := forall₂_right hfix ha
        rw [show a.type = b.type by rw [hb.2]]
        exact input hb.1
    have inter : ∀ t' ∈ s'.interfaceTypes, FieldsKnown (typeNames Introspect.types ++ typeNames s') t'.fields := by
      intro t' ht' f' hf'
      obtain ⟨t, ht, _, _, hfs⟩ := forall₂_right V.interfaces ht'
      obtain ⟨f, _, hff⟩ := forall₂_right hfs hf'
      have e : f'.type = f.type := by rw [hff.rest]
      exact ⟨args (by simp only [outputPlaces, List.mem_append, List.mem_flatMap]; exact .inl ⟨t', ht', hf'⟩) e hff.arguments,
        e ▸ output hff.kind⟩
    have obj : ∀ t' ∈ s'.objectTypes, FieldsKnown (typeNames Introspect.types ++ typeNames s') t'.fields := by
      intro t' ht' f' hf'
      obtain ⟨t, ht, _, _, _, hfs⟩ := forall₂_right V.objects ht'
      obtain ⟨f, _, hff⟩ := forall₂_right hfs hf'
      have e : f'.type = f.type := by rw [hff.rest]
      exact ⟨args (by simp only [outputPlaces, List.mem_append, List.mem_flatMap]; exact .inr ⟨t', ht', hf'⟩) e hff.arguments,
        e ▸ output hff.kind⟩
    rw [known_iff]
    refine ⟨?_, ?_, inter, ?_, fun d hd => ⟨hu.locations d hd, hu.directives d hd⟩, ?_⟩
    · intro t' ht' f' hf'
      obtain ⟨l, _, hl⟩ := V.inputs
      obtain ⟨t, _, _, _, hfs⟩ := forall₂_right hl ht'
      obtain ⟨f, _, hff⟩ := forall₂_right hfs hf'
      rw [show f'.type = f.type by rw [hff.2]]
      exact input hff.1
    · intro t ht n hn
      rw [V.rest.2.2.2.1] at ht
      obtain ⟨u, hu, rfl⟩ := S.members t ht n hn
      refine List.mem_append_right _ (V.typeNames ?_)
      simp only [typeNames, List.mem_append]
      exact .inr (List.mem_map_of_mem hu)
    · intro t' ht'
      refine ⟨?_, obj t' ht'⟩
      obtain ⟨t, ht, _, _, e, _⟩ := forall₂_right V.objects ht'
      intro n hn
      rw [e] at hn
      obtain ⟨u, hu, rfl⟩ := S.implemented t ht n hn
      rw [n3]
      exact List.mem_map_of_mem hu
    · intro o ho _
      rw [n4]
      have hop := V.operations
      unfold FixedOperations at hop
      split at hop
      · have hm := hop.1.subset ho
        obtain ⟨t, ht, e⟩ := (hop.2 o hm).1 ho
        exact e ▸ List.mem_map_of_mem ht
      · rename_i hc
        rw [hop] at ho
        have := S.operations
        unfold ValidOperations at this
        split at this
        · rw [this] at ho; cases ho
        split at this
        · rename_i e; rw [e] at ho; cases ho
        · obtain ⟨t, ht, e⟩ := this.1 o ho
          exact e ▸ List.mem_map_of_mem ht

/-! ## The written schema -/

theorem typeNames_without (l : Loader) : typeNames (withoutDescriptions l) = typeNames l := by
  simp [typeNames, withoutDescriptions, Function.comp_def]

theorem distinct_without (l : Loader) : DistinctNames (withoutDescriptions l) ↔ DistinctNames l := by
  rw [DistinctNames, DistinctNames, typeNames_without]

theorem known_without (ns : List Str) (l : Loader) : Known ns (withoutDescriptions l) ↔ Known ns l := by
  rw [known_iff, known_iff]
  simp only [withoutDescriptions, FieldsKnown, List.forall_mem_map, List.map_map, Function.comp_def]

/-- **C55.** The same for the schema which the code written by `schemagen` builds; without introspection it has no
descriptions. -/
theorem C55_generated {alloc : List Op → Addr} (hf : FreshAddrs alloc) {l : Loader} (hd : DistinctNames l) (noIntrospection : Bool) :
    ((∃ s, generatedSchema noIntrospection alloc l = .ok s) ↔ Known (typeNames Introspect.types ++ typeNames l) l) ∧
    ∀ s, generatedSchema noIntrospection alloc l = .ok s →
      BuiltFrom (if noIntrospection then withoutDescriptions l else l) s := by
  unfold generatedSchema
  cases noIntrospection with
  | false => exact C55_build hf hd
  | true =>
    have h := C55_build hf ((distinct_without l).2 hd)
    rw [typeNames_without, known_without] at h
    exact h

/-! ## Examples -/

/-- The example of C54 with the argument type `t` of `d`. -/
def exampleWith (t : Str) : List TypeDef :=
  [.interface [] (str "I") [{ name := str "a", type := .named (str "Int") }],
   .input [] (str "A") [{ name := str "b", type := .named (str "B") }],
   .input [] (str "B") [{ name := str "c", type := .named (str "Int") }],
   .union [] (str "U") [str "Query", str "M"],
   .object [] (str "Query") [str "I"]
    [{ name := str "a", type := .nonNull (.list (.named (str "Int"))) },
     { name := str "u", type := .named (str "U"), arguments := [{ name := str "x", type := .named (str "A") }] }],
   .object [] (str "M") []
    [{ name := str "d", type := .named (str "Int"), arguments := [{ name := str "y", type := .named t }] }],
   .schema [(str "query", str "Query"), (str "mutation", str "M")]]

instance (l : Loader) : Decidable (DistinctNames l) := by unfold DistinctNames; infer_instance

theorem unchecked_iff (s : Loader) : Unchecked s ↔
    (∀ f ∈ outputPlaces s, f.type ∈ builtinTypes → ∀ a ∈ f.arguments, a.type ∈ typeNames Introspect.types ++ typeNames s) ∧
    (∀ d ∈ s.directives, ∀ a ∈ d.arguments, a.type ∈ typeNames Introspect.types ++ typeNames s) ∧
    ∀ d ∈ s.directives, ∀ n ∈ d.locations, n ∈ locationNames.map (·.1) :=
  ⟨fun h => ⟨h.1, h.2, h.3⟩, fun h => ⟨h.1, h.2.1, h.2.2⟩⟩

instance (s : Loader) : Decidable (Unchecked s) := decidable_of_iff _ (unchecked_iff s).symm

/-- A document whose schema is built: the hypotheses of C55 hold, and the types are in order. -/
theorem example_build : ∃ alloc s s' schema, FreshAddrs alloc ∧ visitDefinitions id {} (exampleWith (str "A")) = .ok s ∧
    validateSchema false s = .ok s' ∧ DistinctNames s' ∧ Unchecked s' ∧ buildSchema alloc s' = .ok schema ∧
    typeNames s' = ["B", "A", "U", "I", "Query", "M"].map str ∧ BuiltFrom s' schema := by
  obtain ⟨alloc, hf⟩ := freshAddrs_exists
  obtain ⟨s, s', h1, h2, h3⟩ := accepted (doc := exampleWith (str "A"))
    (f := fun s => (decide (DistinctNames s), decide (Unchecked s), typeNames s))
    (v := (true, true, ["B", "A", "U", "I", "Query", "M"].map str)) (by decide +kernel)
  simp only [Prod.mk.injEq, decide_eq_true_eq] at h3
  obtain ⟨hd, hu, hn⟩ := h3
  obtain ⟨schema, hs⟩ := (C55_accepted hf h1 h2 hd).2 hu
  exact ⟨alloc, s, s', schema, hf, h1, h2, hd, hu, hs, hn, (C55_build hf hd).2 _ hs⟩

/-- **Finding.** A schema can be accepted and not be built: an unknown type of an argument of a field of a built-in type is
not noticed before the schema is built, where it is an exception in a `noexcept` function. -/
theorem C55_finding_unbuilt : ∃ s s', visitDefinitions id {} (exampleWith (str "Nowhere")) = .ok s ∧
    validateSchema false s = .ok s' ∧ DistinctNames s' ∧
    ∀ alloc, FreshAddrs alloc → ∀ schema, buildSchema alloc s' ≠ .ok schema := by
  obtain ⟨s, s', h1, h2, h3⟩ := accepted (doc := exampleWith (str "Nowhere"))
    (f := fun s => (decide (DistinctNames s), decide (Unchecked s))) (v := (true, false)) (by decide +kernel)
  simp only [Prod.mk.injEq, decide_eq_true_eq, decide_eq_false_iff_not] at h3
  exact ⟨s, s', h1, h2, h3.1, fun alloc hf schema hs => h3.2 ((C55_accepted hf h1 h2 h3.1).1 ⟨schema, hs⟩)⟩

/-- **Finding.** The arguments of a directive are not checked either: `directive @d(x: Nowhere) on FIELD` is accepted and ends
`clientgen`. -/
theorem C55_finding_directive : ∃ s s', visitDefinitions id {}
      [.object [] (str "Query") [] [{ name := str "a", type := .named (str "Int") }],
       .directive [] (str "d") [{ name := str "x", type := .named (str "Nowhere") }] [str "FIELD"]] = .ok s ∧
    validateSchema false s = .ok s' ∧ DistinctNames s' ∧
    ∀ alloc, FreshAddrs alloc → ∀ schema, buildSchema alloc s' ≠ .ok schema := by
  obtain ⟨s, s', h1, h2, h3⟩ := accepted (doc :=
      [.object [] (str "Query") [] [{ name := str "a", type := .named (str "Int") }],
       .directive [] (str "d") [{ name := str "x", type := .named (str "Nowhere") }] [str "FIELD"]])
    (f := fun s => (decide (DistinctNames s), decide (Unchecked s))) (v := (true, false)) (by decide +kernel)
  simp only [Prod.mk.injEq, decide_eq_true_eq, decide_eq_false_iff_not] at h3
  exact ⟨s, s', h1, h2, h3.1, fun alloc hf schema hs => h3.2 ((C55_accepted hf h1 h2 h3.1).1 ⟨schema, hs⟩)⟩

end Verif.Gen
