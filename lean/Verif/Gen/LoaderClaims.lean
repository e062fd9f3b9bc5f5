import Verif.Gen.LoaderResult

/-!
# Loading a schema document: claims and examples (C53)
-/
namespace Verif.Gen
open Verif.Value Verif.Resp Verif.Ast Verif.Modifiers

theorem definitions_defines {k : SchemaType} {doc : List TypeDef} {d : TypeDef × List TypeDef}
    (h : d ∈ definitions k doc) : ∃ n, d.1.defines = some (k, n) := by
  induction doc with
  | nil => cases h
  | cons e doc ih =>
    unfold definitions at h
    split at h
    · rename_i he
      rcases List.mem_cons.1 h with rfl | h
      · obtain ⟨⟨k', n⟩, hx, rfl⟩ := Option.map_eq_some_iff.1 he
        exact ⟨n, hx⟩
      · exact ih h
    · exact ih h

/-- From the collected parts to the definitions of the document. -/
theorem KindOk.toSpec {T : Type} {P : Item → T → Prop} {Q : TypeDef × List TypeDef → T → Prop} {k : SchemaType}
    {doc : List TypeDef} {names : Str → Option Nat} {types : List T} (h : KindOk P k doc names types)
    (hpq : ∀ d n t, d.1.defines = some (k, n) → P ⟨n, d.1.description, d.1 :: extensions k n d.2⟩ t → Q d t) :
    List.Forall₂ Q (definitions k doc) types := by
  have ht := h.types
  rw [Reg.run_items_init, List.forall₂_map_left_iff] at ht
  have key : ∀ (ds : List (TypeDef × List TypeDef)) (ts : List T), (∀ d ∈ ds, ∃ n, d.1.defines = some (k, n)) →
      List.Forall₂ (fun d => P (itemOf k d)) ds ts → List.Forall₂ Q ds ts := by
    intro ds ts hd hf
    induction hf with
    | nil => exact .nil
    | @cons d t ds ts hp _ ih =>
      refine .cons ?_ (ih fun d' hd' => hd d' (by simp [hd']))
      obtain ⟨n, hn⟩ := hd d (by simp)
      refine hpq d n t hn ?_
      simpa only [itemOf, hn] using hp
  exact key _ _ (fun d hd => definitions_defines hd) ht

/-- What the loader keeps of a document. -/
structure LoadedAs (atoi : Int → Int) (doc : List TypeDef) (s : Loader) : Prop where
  scalars : List.Forall₂ IsScalar (definitions .scalar doc) s.scalarTypes
  enums : List.Forall₂ IsEnum (definitions .enum doc) s.enumTypes
  inputs : List.Forall₂ (IsInput atoi) (definitions .input doc) s.inputTypes
  unions : List.Forall₂ IsUnion (definitions .union doc) s.unionTypes
  interfaces : List.Forall₂ (IsInterface atoi) (definitions .interface doc) s.interfaceTypes
  objects : List.Forall₂ (IsObject atoi) (definitions .object doc) s.objectTypes
  directives : List.Forall₂ (IsDirective atoi) (doc.filter (·.isDirective)) s.directives
  operations : s.operationTypes = (doc.flatMap (·.operations)).map fun o => { type := o.2, operation := o.1 }

theorem Loaded.toSpec {atoi : Int → Int} {doc : List TypeDef} {s : Loader} (h : Loaded atoi doc s) :
    LoadedAs atoi doc s where
  scalars := h.scalars.toSpec fun d n t hd ht => ⟨by rw [hd, ht.type], ht.description⟩
  enums := h.enums.toSpec fun d n t hd ht => ⟨⟨_, ⟨by rw [hd, ht.type], by rw [ht.type]⟩, ht.values⟩, ht.description⟩
  inputs := h.inputs.toSpec fun d n t hd ht =>
    ⟨⟨_, ⟨by rw [hd, ht.type], by rw [ht.type]⟩, ht.fields⟩, ht.description, ht.dependencies⟩
  unions := h.unions.toSpec fun d n t hd ht => ⟨⟨_, ⟨by rw [hd, ht.type], by rw [ht.type]⟩, ht.options⟩, ht.description⟩
  interfaces := h.interfaces.toSpec fun d n t hd ht =>
    ⟨⟨_, ⟨by rw [hd, ht.type], by rw [ht.type]⟩, ht.fields⟩, ht.description⟩
  objects := h.objects.toSpec fun d n t hd ht =>
    ⟨⟨_, ⟨by rw [hd, ht.type], by rw [ht.type]⟩, ht.interfaces, ht.fields⟩, ht.description, ht.unions⟩
  directives := h.directives
  operations := h.operationTypes

/-- **C53.** The loaded types are the definitions of the document in their order, each with the extensions of its name
between it and the next definition of that name. -/
theorem C53_load {atoi : Int → Int} {doc : List TypeDef} {s : Loader} (h : visitDefinitions atoi {} doc = .ok s) :
    LoadedAs atoi doc s := by
  rcases visitDefinitions_cases doc (loaded_init atoi) with ⟨s', h1, h2, _⟩ | ⟨e, _, _, _, h1, _⟩
  · rw [h] at h1
    cases h1
    exact h2.toSpec
  · rw [h] at h1
    cases h1

/-- **C53.** A document is rejected if and only if it has a problem, and the first one is reported. -/
theorem C53_problems (atoi : Int → Int) (doc : List TypeDef) :
    ((∃ e, visitDefinitions atoi {} doc = .error e) ↔ ∃ pre d post e, doc = pre ++ d :: post ∧ Problem pre d e) ∧
    ∀ e, visitDefinitions atoi {} doc = .error e → ∃ pre d post, doc = pre ++ d :: post ∧ Problem pre d e ∧
      ∀ pre' d' post' e', pre = pre' ++ d' :: post' → ¬ Problem pre' d' e' := by
  rcases visitDefinitions_cases doc (loaded_init atoi) with ⟨s', h1, _, h3⟩ | ⟨e, as, d, bs, h1, h2, h3, h4⟩
  · rw [h1]
    simp only [reduceCtorEq, exists_false, false_iff, false_implies, implies_true, and_true]
    rintro ⟨pre, d, post, e, he, hp⟩
    exact h3 pre d post e he (by simpa using hp)
  · rw [h1]
    have h3' : Problem as d e := by simpa using h3
    refine ⟨⟨fun _ => ⟨as, d, bs, e, h2, h3'⟩, fun _ => ⟨e, rfl⟩⟩, ?_⟩
    intro e' he'
    cases he'
    exact ⟨as, d, bs, h2, h3', fun pre' d' post' e' hp => by simpa using h4 pre' d' post' e' hp⟩

theorem lastKind_iff {doc : List TypeDef} {n : Str} {k : SchemaType} :
    lastKind doc n = some k ↔ ∃ pre d post, doc = pre ++ d :: post ∧ d.defines = some (k, n) ∧
      ∀ e ∈ post, ∀ k', e.defines ≠ some (k', n) := by
  induction doc using List.reverseRecOn with
  | nil => simp [lastKind]
  | append_singleton doc d ih =>
    rw [lastKind_concat]
    have keep : (∀ k', d.defines ≠ some (k', n)) → (lastKind doc n = some k ↔
        ∃ pre d' post, doc ++ [d] = pre ++ d' :: post ∧ d'.defines = some (k, n) ∧
          ∀ e ∈ post, ∀ k', e.defines ≠ some (k', n)) := by
      intro hd
      rw [ih]
      constructor
      · rintro ⟨pre, d', post, rfl, h1, h2⟩
        refine ⟨pre, d', post ++ [d], by simp, h1, ?_⟩
        intro e he
        rcases List.mem_append.1 he with he | he
        · exact h2 e he
        · rw [List.mem_singleton.1 he]; exact hd
      · rintro ⟨pre, d', post, he, h1, h2⟩
        rcases List.eq_nil_or_concat post with rfl | ⟨post, d'', rfl⟩
        · have := List.append_inj' he rfl
          simp only [List.cons.injEq, and_true] at this
          obtain ⟨_, rfl⟩ := this
          exact (hd k h1).elim
        · rw [List.concat_eq_append, ← List.cons_append, ← List.append_assoc] at he
          have := List.append_inj' he rfl
          refine ⟨pre, d', post, this.1, h1, ?_⟩
          intro e he'
          exact h2 e (by simp [he'])
    split
    · rename_i k' m hd
      split
      · rename_i hnm
        subst hnm
        constructor
        · intro h
          cases h
          exact ⟨doc, d, [], rfl, hd, by simp⟩
        · rintro ⟨pre, d', post, he, h1, h2⟩
          rcases List.eq_nil_or_concat post with rfl | ⟨post, d'', rfl⟩
          · have := List.append_inj' he rfl
            simp only [List.cons.injEq, and_true] at this
            obtain ⟨_, rfl⟩ := this
            rw [hd] at h1
            cases h1
            rfl
          · rw [List.concat_eq_append, ← List.cons_append, ← List.append_assoc] at he
            have := List.append_inj' he rfl
            simp only [List.cons.injEq, and_true] at this
            obtain ⟨_, rfl⟩ := this
            exact (h2 d (by simp) k' hd).elim
      · rename_i hnm
        exact keep fun k'' h => by rw [hd] at h; cases h; exact hnm rfl
    · rename_i hd
      exact keep fun k'' h => by rw [hd] at h; cases h

/-- **C53.** `getSchemaType` gives the kind of the last definition of the name; it throws for names without one. -/
theorem C53_kinds {atoi : Int → Int} {doc : List TypeDef} {s : Loader} (h : visitDefinitions atoi {} doc = .ok s)
    (n : Str) (k : SchemaType) :
    s.schemaTypes n = some k ↔ ∃ pre d post, doc = pre ++ d :: post ∧ d.defines = some (k, n) ∧
      ∀ e ∈ post, ∀ k', e.defines ≠ some (k', n) := by
  rcases visitDefinitions_cases doc (loaded_init atoi) with ⟨s', h1, h2, _⟩ | ⟨e, _, _, _, h1, _⟩
  · rw [h] at h1
    cases h1
    rw [h2.schemaTypes n]
    exact lastKind_iff
  · rw [h] at h1
    cases h1

/-- The index of a name: the last type with it. -/
def LastIndex (names : List Str) (n : Str) (i : Option Nat) : Prop :=
  match i with
  | some i => names[i]? = some n ∧ ∀ j, i < j → names[j]? ≠ some n
  | none => n ∉ names

theorem KindOk.lastIndex {T : Type} {P : Item → T → Prop} {k : SchemaType} {doc : List TypeDef}
    {names : Str → Option Nat} {types : List T} (h : KindOk P k doc names types) {type : T → Str}
    (hp : ∀ x t, P x t → type t = x.name) (n : Str) : LastIndex (types.map type) n (names n) := by
  have hr := Reg.ok_run (k := k) doc Reg.ok_init
  have hmap : types.map type = (Reg.run k {} doc).items.map (·.name) := by
    have ht := h.types
    clear hr h
    revert ht
    generalize (Reg.run k {} doc).items = items
    intro ht
    induction ht with
    | nil => rfl
    | cons hxt _ ih => simp [hp _ _ hxt, ih]
  rw [hmap, h.names]
  unfold LastIndex
  split
  · rename_i i hi
    obtain ⟨t, ht, hn⟩ := hr.bound hi
    refine ⟨by simp [ht, hn], ?_⟩
    intro j hj hc
    rw [List.getElem?_map] at hc
    obtain ⟨u, hu, hun⟩ := Option.map_eq_some_iff.1 hc
    exact hr.last hi j u hj hu hun
  · rename_i hn
    intro hc
    obtain ⟨t, ht, rfl⟩ := List.mem_map.1 hc
    obtain ⟨j, hj⟩ := List.mem_iff_getElem?.1 ht
    obtain ⟨i, hi⟩ := hr.known hj
    rw [hn] at hi
    cases hi

/-- **C53.** The index of each name is that of the last type of the kind with this name. -/
theorem C53_indices {atoi : Int → Int} {doc : List TypeDef} {s : Loader} (h : visitDefinitions atoi {} doc = .ok s)
    (n : Str) :
    LastIndex (s.scalarTypes.map (·.type)) n (s.scalarNames n) ∧ LastIndex (s.enumTypes.map (·.type)) n (s.enumNames n) ∧
    LastIndex (s.inputTypes.map (·.type)) n (s.inputNames n) ∧ LastIndex (s.unionTypes.map (·.type)) n (s.unionNames n) ∧
    LastIndex (s.interfaceTypes.map (·.type)) n (s.interfaceNames n) ∧
    LastIndex (s.objectTypes.map (·.type)) n (s.objectNames n) := by
  rcases visitDefinitions_cases doc (loaded_init atoi) with ⟨s', h1, h2, _⟩ | ⟨e, _, _, _, h1, _⟩
  · rw [h] at h1
    cases h1
    exact ⟨h2.scalars.lastIndex (fun _ _ h => h.type) n, h2.enums.lastIndex (fun _ _ h => h.type) n,
      h2.inputs.lastIndex (fun _ _ h => h.type) n, h2.unions.lastIndex (fun _ _ h => h.type) n,
      h2.interfaces.lastIndex (fun _ _ h => h.type) n, h2.objects.lastIndex (fun _ _ h => h.type) n⟩
  · rw [h] at h1
    cases h1

/-! ## Examples -/

/-- `enum E { A @deprecated B @deprecated(reason: "r") }`, `extend type Q { a: Int @deprecated }`, `type Q { b: E! }`,
`extend type Q { c(x: Int! = 3): [Q] @deprecated }`. -/
def exampleDoc : List TypeDef :=
  [.enum [] (str "E")
    [{ value := str "A", directives := [{ name := str "deprecated" }] },
     { value := str "B", directives := [{ name := str "deprecated",
                                          arguments := some [(str "reason", .string (str "r"))] }] }],
   .objectExtension (str "Q") []
    [{ name := str "a", type := .named (str "Int"), directives := [{ name := str "deprecated" }] }],
   .object [] (str "Q") [] [{ name := str "b", type := .nonNull (.named (str "E")) }],
   .objectExtension (str "Q") []
    [{ name := str "c", type := .list (.named (str "Q")), directives := [{ name := str "deprecated" }],
       arguments := [{ name := str "x", type := .nonNull (.named (str "Int")),
                       default := some { value := .int 3, text := str "3" } }] }]]

/-- The example is loaded: the first extension is lost, the second one is not. -/
theorem example_load : ∃ s, visitDefinitions id {} exampleDoc = .ok s ∧
    s.objectTypes.map (fun t => (t.type, t.fields.map fun f => (f.name, f.deprecationReason))) =
      [(str "Q", [(str "b", none), (str "c", some [])])] := by
  refine ⟨_, rfl, ?_⟩
  decide +kernel

/-- **Finding.** `@deprecated` without a reason marks a field as deprecated, but not an enum value. -/
theorem C53_finding_enum_deprecation : ∃ s, visitDefinitions id {} exampleDoc = .ok s ∧
    s.enumTypes.map (fun t => t.values.map fun v => (v.value, v.deprecationReason)) =
      [[(str "A", none), (str "B", some (str "r"))]] := by
  refine ⟨_, rfl, ?_⟩
  decide +kernel

/-- **Finding.** An extension in front of the definition has no effect, not even an error. -/
theorem C53_finding_early_extension (atoi : Int → Int) (n : Str) (is : List Str) (fs : List FieldDef)
    (doc : List TypeDef) : visitDefinitions atoi {} (.objectExtension n is fs :: doc) = visitDefinitions atoi {} doc := by
  simp [visitDefinitions, visitDefinition, visitObjectExtension]

/-- **Finding.** No document with the extension of a scalar is accepted. -/
theorem C53_finding_scalar_extension (atoi : Int → Int) (pre post : List TypeDef) (n : Str) :
    ∃ e, visitDefinitions atoi {} (pre ++ .scalarExtension n :: post) = .error e :=
  (C53_problems atoi _).1.2 ⟨pre, _, post, _, rfl, .scalarExtension⟩

/-- **Finding.** A variable is accepted as a default value, and means null. -/
theorem C53_finding_variable (atoi : Int → Int) (p : Verif.Errors.Loc) (v n : Str) :
    getInputField atoi { name := n, type := .named (str "Int"), default := some { value := .variable p v, text := v } } =
      .ok { name := n, type := str "Int", modifiers := [.nullable], defaultValueString := v } := by
  rw [getInputField_ok]
  · rfl
  · rintro ⟨_, τ, _, _, _, h⟩
    cases h

end Verif.Gen
