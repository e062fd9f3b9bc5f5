import Verif.Gen.ValidateStages

/-!
# Which schemas are accepted, and what becomes of them: claims and examples (C54)
-/
namespace Verif.Gen
open Verif.Value Verif.Resp Verif.Ast Verif.Modifiers

/-! ## Interfaces -/

theorem outputField_explains {intro : Bool} {s : Loader} {f : OutputField} {ifs : Option (List Str)} {acc : Option Str}
    {e : LoadError} (hp : OutputPlace s f) (ha : ∀ a ∈ checkedArguments f, InputPlace s a)
    (h : fixupOutputField s ifs acc f = .error e) : Explains intro s e := by
  obtain ⟨hb, ⟨rfl, hs⟩ | ⟨rfl, hs⟩ | ⟨a, ham, h⟩⟩ := fixupOutputField_error h
  · exact .unknownFieldType hp hb hs
  · exact .invalidFieldType hp hb hs
  · exact inputField_explains (ha a (by rw [checkedArguments, if_neg hb]; exact ham)) h

/-- An interface with its fields fixed. -/
def FixedInterface (s : Loader) (t t' : InterfaceType) : Prop :=
  t'.type = t.type ∧ t'.description = t.description ∧ List.Forall₂ (FixedInterfaceField s) t.fields t'.fields

theorem fixedInterfaceField {s : Loader} {f f' : OutputField} (hf : Raw f) (h : fixupOutputField s none none f = .ok f') :
    FixedInterfaceField s f f' := by
  obtain ⟨k, args, h1, h2, rfl⟩ := (fixupOutputField_ok hf).1 h
  exact ⟨h1, h2, rfl⟩

theorem interfaces_cases {intro : Bool} {s : Loader} (hs : Fresh s) :
    (∃ ts, mapExcept (fixupInterfaceType s) s.interfaceTypes = .ok ts ∧
      (∀ t ∈ s.interfaceTypes, ∀ f ∈ t.fields, ValidField s f) ∧
      List.Forall₂ (FixedInterface s) s.interfaceTypes ts) ∨
    ∃ e, mapExcept (fixupInterfaceType s) s.interfaceTypes = .error e ∧ Explains intro s e := by
  cases h : mapExcept (fixupInterfaceType s) s.interfaceTypes with
  | error e =>
    refine .inr ⟨e, rfl, ?_⟩
    obtain ⟨t, ht, h⟩ := mapExcept_error h
    unfold fixupInterfaceType at h
    split at h
    · rename_i e' he
      cases h
      obtain ⟨f, hf, h⟩ := mapExcept_error he
      exact outputField_explains (.inl ⟨t, ht, hf⟩) (fun a ha => .inr (.inl ⟨t, ht, f, hf, ha⟩)) h
    · cases h
  | ok ts =>
    refine .inl ⟨ts, rfl, ?_⟩
    rw [mapExcept_ok] at h
    have key : ∀ t t', t ∈ s.interfaceTypes → fixupInterfaceType s t = .ok t' →
        (∀ f ∈ t.fields, ValidField s f) ∧ FixedInterface s t t' := by
      intro t t' ht h
      unfold fixupInterfaceType at h
      split at h
      · cases h
      · rename_i fs hfs
        cases h
        rw [mapExcept_ok] at hfs
        refine ⟨fun f hf => ?_, rfl, rfl, forall₂_imp hfs fun f f' hf h => fixedInterfaceField (hs.interfaces t ht f hf) h⟩
        obtain ⟨f', _, h⟩ := forall₂_mem_left hfs f hf
        exact (fixupOutputField_valid (hs.interfaces t ht f hf)).1 ⟨f', h⟩
    refine ⟨fun t ht => ?_, forall₂_imp h fun t t' ht h => (key t t' ht h).2⟩
    obtain ⟨t', _, h⟩ := forall₂_mem_left h t ht
    exact (key t t' ht h).1

/-! ## Objects -/

/-- The part of the result which the objects depend on. -/
structure Stage (s s₂ : Loader) : Prop where
  objectTypes : s₂.objectTypes = s.objectTypes
  schemaTypes : s₂.schemaTypes = s.schemaTypes
  interfaceNames : s₂.interfaceNames = s.interfaceNames
  objectNames : s₂.objectNames = s.objectNames
  unionTypes : s₂.unionTypes = s.unionTypes
  interfaces : List.Forall₂ (FixedInterface s) s.interfaceTypes s₂.interfaceTypes

theorem fixupInputField_congr {s s₂ : Loader} (h : s₂.schemaTypes = s.schemaTypes) :
    fixupInputField s₂ = fixupInputField s := by
  funext f
  simp only [fixupInputField, h]

theorem fixupOutputField_congr {s s₂ : Loader} (h : s₂.schemaTypes = s.schemaTypes) :
    fixupOutputField s₂ = fixupOutputField s := by
  funext ifs acc f
  simp only [fixupOutputField, h, fixupInputField_congr h]

theorem forall₂_getElem? {α β : Type} {R : α → β → Prop} {as : List α} {bs : List β} (h : List.Forall₂ R as bs) (i : Nat) :
    (as[i]? = none ∧ bs[i]? = none) ∨ ∃ a b, as[i]? = some a ∧ bs[i]? = some b ∧ R a b := by
  induction h generalizing i with
  | nil => simp
  | cons hab _ ih =>
    cases i with
    | zero => exact .inr ⟨_, _, rfl, rfl, hab⟩
    | succ i => simpa using ih i

theorem split_at {α : Type} {l : List α} {i : Nat} {a : α} (h : l[i]? = some a) :
    l = l.take i ++ a :: l.drop (i + 1) := by
  obtain ⟨hi, rfl⟩ := List.getElem?_eq_some_iff.1 h
  rw [List.getElem_cons_drop, List.take_append_drop]

theorem LastIndex.split {T : Type} {type : T → Str} {l : List T} {n : Str} {i : Nat}
    (h : LastIndex (l.map type) n (some i)) :
    ∃ u, l[i]? = some u ∧ type u = n ∧ ∀ v ∈ l.drop (i + 1), type v ≠ n := by
  obtain ⟨h1, h2⟩ := h
  rw [List.getElem?_map] at h1
  obtain ⟨u, hu, hn⟩ := Option.map_eq_some_iff.1 h1
  refine ⟨u, hu, hn, fun v hv hvn => ?_⟩
  obtain ⟨j, hj⟩ := List.mem_iff_getElem?.1 hv
  rw [List.getElem?_drop] at hj
  exact h2 (i + 1 + j) (by omega) (by rw [List.getElem?_map, hj]; simp [hvn])

/-- The index of a type without a later one of its name. -/
theorem LastIndex.eq {T : Type} {type : T → Str} {pre post : List T} {t : T} {i : Option Nat}
    (h : LastIndex ((pre ++ t :: post).map type) (type t) i) (hp : ∀ u ∈ post, type u ≠ type t) :
    i = some pre.length := by
  have hget : ((pre ++ t :: post).map type)[pre.length]? = some (type t) := by simp
  cases i with
  | none => exact (h (List.mem_of_getElem? hget)).elim
  | some i =>
    rcases Nat.lt_trichotomy i pre.length with hlt | heq | hgt
    · exact (h.2 _ hlt hget).elim
    · rw [heq]
    · obtain ⟨h1, _⟩ := h
      exfalso
      rw [List.getElem?_map, List.getElem?_append_right (by omega)] at h1
      obtain ⟨u, hu, hn⟩ := Option.map_eq_some_iff.1 h1
      have hpos : i - pre.length = (i - pre.length - 1) + 1 := by omega
      rw [hpos, List.getElem?_cons_succ] at hu
      exact hp u (List.mem_of_getElem? hu) hn

theorem fixedInterface_names {s : Loader} {t t' : InterfaceType} (h : FixedInterface s t t') (name : Str) :
    (∃ g ∈ t'.fields, g.name = name) ↔ ∃ g ∈ t.fields, g.name = name := by
  obtain ⟨_, _, h⟩ := h
  have eq : ∀ {f f'}, FixedInterfaceField s f f' → f'.name = f.name := fun h => by rw [h.rest]
  constructor
  · rintro ⟨g', hg', rfl⟩
    obtain ⟨g, hg, h'⟩ := forall₂_mem_right h g' hg'
    exact ⟨g, hg, (eq h').symm⟩
  · rintro ⟨g, hg, rfl⟩
    obtain ⟨g', hg', h'⟩ := forall₂_mem_left h g hg
    exact ⟨g', hg', eq h'⟩

theorem interfaceFields_iff {s s₂ : Loader} (hs : Fresh s) (h2 : Stage s s₂) (t : ObjectType) (name : Str) :
    name ∈ interfaceFields s₂ t ↔ Inherited s t name := by
  unfold interfaceFields Inherited
  rw [List.mem_flatMap]
  refine exists_congr fun n => and_congr_right fun _ => ?_
  rw [h2.interfaceNames]
  have hl := hs.interfaceNames n
  cases hi : s.interfaceNames n with
  | none =>
    simp only [List.not_mem_nil, false_iff]
    rintro ⟨u, pre, post, he, rfl, _⟩
    exact hs.interface_none.1 hi ⟨u, by rw [he]; simp, rfl⟩
  | some i =>
    rw [hi] at hl
    obtain ⟨u, hu, hn, hlast⟩ := hl.split
    rcases forall₂_getElem? h2.interfaces i with ⟨h, _⟩ | ⟨v, u', hv, hu', hf⟩
    · rw [hu] at h; cases h
    · rw [hu] at hv
      cases hv
      simp only [hu', List.mem_map]
      rw [fixedInterface_names hf name]
      constructor
      · rintro ⟨g, hg, rfl⟩
        exact ⟨u, _, _, split_at hu, hn, hlast, g, hg, rfl⟩
      · rintro ⟨v, pre, post, he, hvn, hp, g, hg, rfl⟩
        have hl' : LastIndex ((pre ++ v :: post).map (·.type)) v.type (some i) := by rw [← he, hvn]; exact hl
        have := LastIndex.eq hl' (by rw [hvn]; exact hp)
        cases this
        rw [he] at hu
        simp only [List.getElem?_append_right (Nat.le_refl _), Nat.sub_self, List.getElem?_cons_zero, Option.some.injEq] at hu
        subst hu
        exact ⟨g, hg, rfl⟩

theorem mutationType_iff {s : Loader} {n : Str} :
    (IsMutation s.operationTypes n → mutationType s = n) ∧
    (¬ IsMutation s.operationTypes n → n ≠ [] → mutationType s ≠ n) := by
  unfold mutationType
  cases h : s.operationTypes.find? (fun o => o.operation == str "mutation") with
  | none =>
    rw [List.find?_eq_none] at h
    refine ⟨?_, fun _ hn => Ne.symm hn⟩
    rintro ⟨pre, o, post, he, ho, _⟩
    exact (h o (by rw [he]; simp) (by simp [ho])).elim
  | some o =>
    obtain ⟨ho, pre, post, he, hpre⟩ := List.find?_eq_some_iff_append.1 h
    simp only
    constructor
    · rintro ⟨pre', o', post', he', ho', rfl, hpre'⟩
      have h' : s.operationTypes.find? (fun o => o.operation == str "mutation") = some o' :=
        List.find?_eq_some_iff_append.2 ⟨by simpa using ho', pre', post', he', fun a ha => by simpa using hpre' a ha⟩
      rw [h] at h'
      cases h'
      rfl
    · intro hm _ hn
      exact hm ⟨pre, o, post, he, by simpa using ho, hn, fun a ha => by simpa using hpre a ha⟩

/-- An object with its fields fixed. -/
def FixedObject (s s₂ : Loader) (t t' : ObjectType) : Prop :=
  t'.type = t.type ∧ t'.description = t.description ∧ t'.interfaces = t.interfaces ∧ t'.unions = t.unions ∧
    List.Forall₂ (FixedObjectField s s₂ t) t.fields t'.fields

theorem fixedObjectField {s s₂ : Loader} (hs : Fresh s) (h2 : Stage s s₂) {t : ObjectType} {f f' : OutputField}
    (hf : Raw f)
    (h : fixupOutputField s (some (interfaceFields s₂ t)) (if mutationType s₂ = t.type then some (str "apply") else none) f
      = .ok f') : FixedObjectField s s₂ t f f' := by
  obtain ⟨k, args, h1, h3, rfl⟩ := (fixupOutputField_ok hf).1 h
  have hi := interfaceFields_iff hs h2 t f.name
  obtain ⟨hm1, hm2⟩ := mutationType_iff (s := s₂) (n := t.type)
  split
  · rename_i hm
    refine ⟨h1, h3, ?_, ⟨fun _ => rfl, fun h hn => (hm2 h hn hm).elim⟩, rfl⟩
    simp [markField, hi]
  · rename_i hm
    refine ⟨h1, h3, ?_, ⟨fun h => (hm (hm1 h)).elim, fun _ _ => rfl⟩, rfl⟩
    simp [markField, hi]

theorem objects_cases {intro : Bool} {s s₂ : Loader} (hs : Fresh s) (h2 : Stage s s₂) :
    (∃ ts, mapExcept (fixupObjectType s₂) s₂.objectTypes = .ok ts ∧
      (∀ t ∈ s.objectTypes, ∀ f ∈ t.fields, ValidField s f) ∧
      List.Forall₂ (FixedObject s s₂) s.objectTypes ts) ∨
    ∃ e, mapExcept (fixupObjectType s₂) s₂.objectTypes = .error e ∧ Explains intro s e := by
  rw [h2.objectTypes]
  cases h : mapExcept (fixupObjectType s₂) s.objectTypes with
  | error e =>
    refine .inr ⟨e, rfl, ?_⟩
    obtain ⟨t, ht, h⟩ := mapExcept_error h
    unfold fixupObjectType at h
    split at h
    · rename_i e' he
      cases h
      obtain ⟨f, hf, h⟩ := mapExcept_error he
      rw [fixupOutputField_congr h2.schemaTypes] at h
      exact outputField_explains (.inr ⟨t, ht, hf⟩) (fun a ha => .inr (.inr ⟨t, ht, f, hf, ha⟩)) h
    · cases h
  | ok ts =>
    refine .inl ⟨ts, rfl, ?_⟩
    rw [mapExcept_ok] at h
    have key : ∀ t t', t ∈ s.objectTypes → fixupObjectType s₂ t = .ok t' →
        (∀ f ∈ t.fields, ValidField s f) ∧ FixedObject s s₂ t t' := by
      intro t t' ht h
      unfold fixupObjectType at h
      split at h
      · cases h
      · rename_i fs hfs
        cases h
        rw [mapExcept_ok, fixupOutputField_congr h2.schemaTypes] at hfs
        refine ⟨fun f hf => ?_, rfl, rfl, rfl, rfl,
          forall₂_imp hfs fun f f' hf h => fixedObjectField hs h2 ((hs.objects t ht).2 f hf) h⟩
        obtain ⟨f', _, h⟩ := forall₂_mem_left hfs f hf
        exact (fixupOutputField_valid ((hs.objects t ht).2 f hf)).1 ⟨f', h⟩
    refine ⟨fun t ht => ?_, forall₂_imp h fun t t' ht h => (key t t' ht h).2⟩
    obtain ⟨t', _, h⟩ := forall₂_mem_left h t ht
    exact (key t t' ht h).1

theorem unknownInterface_cases {s : Loader} (ts : List ObjectType) :
    (unknownInterface s ts = none ∧ ∀ t ∈ ts, ∀ n ∈ t.interfaces, s.interfaceNames n ≠ none) ∨
    ∃ t ∈ ts, ∃ n ∈ t.interfaces, unknownInterface s ts = some (.unknownInterface n t.type) ∧ s.interfaceNames n = none := by
  induction ts with
  | nil => exact .inl ⟨rfl, by simp⟩
  | cons t ts ih =>
    unfold unknownInterface
    cases h : t.interfaces.find? (fun n => (s.interfaceNames n).isNone) with
    | some n =>
      exact .inr ⟨t, by simp, n, List.mem_of_find?_eq_some h, rfl, by simpa using List.find?_some h⟩
    | none =>
      rw [List.find?_eq_none] at h
      rcases ih with ⟨h1, h2⟩ | ⟨t', h1, n, h2, h3, h4⟩
      · refine .inl ⟨h1, fun u hu => ?_⟩
        rcases List.mem_cons.1 hu with rfl | hu
        · intro n hn he
          exact h n hn (by simp [he])
        · exact h2 u hu
      · exact .inr ⟨t', by simp [h1], n, h2, h3, h4⟩

/-! ## Unions -/

/-- The unions which are added to the object at the index. -/
def addedAt (s : Loader) (us : List UnionType) (i : Nat) : List Str :=
  us.flatMap fun u => (u.options.filter fun o => decide (s.objectNames o = some i)).map fun _ => u.type

theorem addUnionOptions_cases {s : Loader} {u : Str} (ns : List Str) (objects : List ObjectType) :
    (∃ r : List ObjectType, addUnionOptions s u ns objects = .ok r ∧ (∀ n ∈ ns, s.objectNames n ≠ none) ∧
      ∀ i : Nat, r[i]? = objects[i]?.map fun t =>
        { t with unions := t.unions ++ (ns.filter fun o => decide (s.objectNames o = some i)).map fun _ => u }) ∨
    ∃ n ∈ ns, addUnionOptions s u ns objects = .error (.unknownOption n u) ∧ s.objectNames n = none := by
  induction ns generalizing objects with
  | nil =>
    refine .inl ⟨objects, rfl, by simp, fun i => ?_⟩
    cases objects[i]? <;> simp
  | cons n ns ih =>
    unfold addUnionOptions
    cases hn : s.objectNames n with
    | none => exact .inr ⟨n, by simp, rfl, hn⟩
    | some j =>
      simp only
      rcases ih (objects.modify j fun t => { t with unions := t.unions ++ [u] }) with ⟨r, h1, h2, h3⟩ | ⟨m, h1, h2, h3⟩
      · refine .inl ⟨r, h1, ?_, fun i => ?_⟩
        · intro m hm
          rcases List.mem_cons.1 hm with rfl | hm
          · rw [hn]; simp
          · exact h2 m hm
        · rw [h3, List.getElem?_modify]
          by_cases hij : j = i
          · subst hij
            simp only [hn, if_true]
            cases objects[j]? <;> simp [hn]
          · simp only [hn, hij, if_false]
            cases objects[i]? <;> simp [hn, hij]
      · exact .inr ⟨m, by simp [h1], h2, h3⟩

theorem addUnions_cases {s : Loader} (us : List UnionType) (objects : List ObjectType) :
    (∃ r : List ObjectType, addUnions s us objects = .ok r ∧
      (∀ u ∈ us, ∀ n ∈ u.options, s.objectNames n ≠ none) ∧
      ∀ i : Nat, r[i]? = objects[i]?.map fun t => { t with unions := t.unions ++ addedAt s us i }) ∨
    ∃ u ∈ us, ∃ n ∈ u.options, addUnions s us objects = .error (.unknownOption n u.type) ∧ s.objectNames n = none := by
  induction us generalizing objects with
  | nil =>
    refine .inl ⟨objects, rfl, by simp, fun i => ?_⟩
    cases objects[i]? <;> simp [addedAt]
  | cons u us ih =>
    unfold addUnions
    rcases addUnionOptions_cases (s := s) (u := u.type) u.options objects with ⟨r, h1, h2, h3⟩ | ⟨n, h1, h2, h3⟩
    · rw [h1]
      simp only
      rcases ih r with ⟨r', h1', h2', h3'⟩ | ⟨v, h1', n, h2', h3', h4'⟩
      · refine .inl ⟨r', h1', ?_, fun i => ?_⟩
        · intro v hv
          rcases List.mem_cons.1 hv with rfl | hv
          · exact h2
          · exact h2' v hv
        · rw [h3', h3]
          cases objects[i]? <;> simp [addedAt]
      · exact .inr ⟨v, by simp [h1'], n, h2', h3', h4'⟩
    · rw [h2]
      exact .inr ⟨u, by simp, n, h1, rfl, h3⟩

/-! ## The whole check -/

theorem defaultOperations_spec {s : Loader} (hs : Fresh s) :
    (defaultOperations s).Sublist defaultTypes ∧
      ∀ o ∈ defaultTypes, o ∈ defaultOperations s ↔ ∃ t ∈ s.objectTypes, t.type = o.type := by
  have eq : defaultOperations s = defaultTypes.filter fun o => (s.objectNames o.type).isSome := by
    have : ∀ l : List (Str × Str), l.filterMap (fun o => if (s.objectNames o.1).isSome then
        some ({ type := o.1, operation := o.2 } : OperationType) else none) =
        (l.map fun o => ({ type := o.1, operation := o.2 } : OperationType)).filter
          fun o => (s.objectNames o.type).isSome := by
      intro l
      induction l with
      | nil => rfl
      | cons o l ih =>
        simp only [List.filterMap_cons, List.map_cons, List.filter_cons]
        split <;> simp_all
    exact this _
  rw [eq]
  refine ⟨List.filter_sublist, fun o ho => ?_⟩
  rw [List.mem_filter, ← hs.object_isSome]
  simp [ho]

theorem validate_cases {intro : Bool} {s : Loader} (hs : Fresh s) :
    (∃ s', validateSchema intro s = .ok s' ∧ ValidSchema intro s ∧ Validated intro s s') ∨
    ∃ e, validateSchema intro s = .error e ∧ Explains intro s e := by
  unfold validateSchema
  by_cases hb : builtinTypes.any (fun n => (s.schemaTypes n).isSome) = true
  · rw [if_pos hb]
    refine .inr ⟨.builtinOverridden, rfl, ?_⟩
    obtain ⟨n, hn, h⟩ := List.any_eq_true.1 hb
    exact .builtinOverridden hn (Option.isSome_iff_ne_none.1 h)
  rw [if_neg hb]
  have hb' : ∀ n ∈ builtinTypes, s.schemaTypes n = none := by
    intro n hn
    by_contra hc
    exact hb (List.any_eq_true.2 ⟨n, hn, Option.isSome_iff_ne_none.2 hc⟩)
  simp only [bind, Except.bind, pure, Except.pure]
  cases hi : mapExcept (fixupInputType s) s.inputTypes with
  | error e => exact .inr ⟨e, rfl, inputs_error hi⟩
  | ok inputs =>
  rw [inputs_ok hs] at hi
  have hdeps : ∀ t ∈ inputs, t.dependencies = [] := by
    intro t ht
    obtain ⟨t₀, ht₀, h⟩ := forall₂_mem_right hi t ht
    rw [h.2.2.1, (hs.inputs t₀ ht₀).1]
  simp only
  cases hr : reorderInputTypes inputs with
  | error e =>
    refine .inr ⟨e, rfl, ?_⟩
    obtain ⟨t, ht, rfl⟩ := orderLoop_cycle hr
    obtain ⟨t', ht', rfl⟩ := List.mem_map.1 ht
    obtain ⟨t₀, ht₀, h⟩ := forall₂_mem_right hi t' ht'
    have hname : (addDependencies t').type = t₀.type := h.1
    rw [hname]
    refine .cycle ht₀ ?_
    rw [← fixed_order hi, ← reorder_ok_iff hdeps, hr]
    simp
  | ok sorted =>
  have horder := (fixed_order hi).1 ((reorder_ok_iff hdeps).1 ⟨sorted, hr⟩)
  obtain ⟨hperm, hord⟩ := C42_order hdeps hr
  simp only
  rcases interfaces_cases (intro := intro) hs with ⟨interfaces, h3, hvi, hfi⟩ | ⟨e, h3, he⟩
  case inr => rw [h3]; exact .inr ⟨e, rfl, he⟩
  rw [h3]
  simp only
  rcases operations_cases (intro := intro) hs with ⟨operations, h4, hvo, hops⟩ | ⟨e, h4, he⟩
  case inr => rw [h4]; exact .inr ⟨e, rfl, he⟩
  rw [h4]
  simp only
  have h2 : Stage s { s with inputTypes := sorted, interfaceTypes := interfaces, operationTypes := operations } :=
    ⟨rfl, rfl, rfl, rfl, rfl, hfi⟩
  rcases objects_cases (intro := intro) hs h2 with ⟨objects, h5, hvb, hfo⟩ | ⟨e, h5, he⟩
  case inr =>
    have h5' : mapExcept (fixupObjectType { s with
      inputTypes := sorted, interfaceTypes := interfaces, operationTypes := operations }) s.objectTypes = .error e := h5
    rw [h5']
    exact .inr ⟨e, rfl, he⟩
  have h5' : mapExcept (fixupObjectType { s with
    inputTypes := sorted, interfaceTypes := interfaces, operationTypes := operations }) s.objectTypes = .ok objects := h5
  rw [h5']
  simp only
  rcases unknownInterface_cases (s := { s with
      inputTypes := sorted, interfaceTypes := interfaces, operationTypes := operations }) objects with
    ⟨h6, hin⟩ | ⟨t, ht, n, hn, h6, hnone⟩
  case inr =>
    rw [h6]
    refine .inr ⟨_, rfl, ?_⟩
    obtain ⟨t₀, ht₀, h⟩ := forall₂_mem_right hfo t ht
    rw [h.1]
    exact .unknownInterface ht₀ (by rw [← h.2.2.1]; exact hn) (hs.interface_none.1 hnone)
  rw [h6]
  simp only
  rcases addUnions_cases (s := { s with
      inputTypes := sorted, interfaceTypes := interfaces, operationTypes := operations }) s.unionTypes objects with
    ⟨result, h7, hun, hget⟩ | ⟨u, hu, n, hn, h7, hnone⟩
  case inr =>
    rw [h7]
    exact .inr ⟨_, rfl, .unknownOption hu hn (hs.object_none.1 hnone)⟩
  rw [h7]
  refine .inl ⟨_, rfl, ?_, ?_⟩
  · refine ⟨hb', ?_, horder, hvi, hvo, hvb, ?_, ?_⟩
    · intro t ht f hf
      obtain ⟨t', _, h⟩ := forall₂_mem_left hi t ht
      obtain ⟨f', _, h'⟩ := forall₂_mem_left h.2.2.2 f hf
      exact ⟨_, h'.1⟩
    · intro t ht n hn
      obtain ⟨t', ht', h⟩ := forall₂_mem_left hfo t ht
      have := hin t' ht' n (by rw [h.2.2.1]; exact hn)
      by_contra hc
      exact this (hs.interface_none.2 hc)
    · intro u hu n hn
      by_contra hc
      exact hun u hu n hn (hs.object_none.2 hc)
  · have hlen : ∀ i, (s.objectTypes[i]? = none ∧ result[i]? = none) ∨ ∃ t t', s.objectTypes[i]? = some t ∧
        result[i]? = some { t' with unions := t'.unions ++ addedAt s s.unionTypes i } ∧
        FixedObject s { s with inputTypes := sorted, interfaceTypes := interfaces, operationTypes := operations } t t' := by
      intro i
      rcases forall₂_getElem? hfo i with ⟨h1, h2⟩ | ⟨t, t', h1, h2, h3⟩
      · exact .inl ⟨h1, by rw [hget, h2]; rfl⟩
      · exact .inr ⟨t, t', h1, by rw [hget, h2]; rfl, h3⟩
    refine ⟨?_, hord, hfi, ?_, ?_, ?_, rfl, rfl, rfl, rfl, rfl⟩
    · obtain ⟨h1, _⟩ := orderLoop_ok hr (before := []) (by simp) (by intro pre x post h; simp at h)
      obtain ⟨l, hl1, hl2⟩ := List.perm_comp_forall₂ h1 (r := fun (a : InputType) (t : InputType) =>
          a.type = t.type ∧ a.description = t.description ∧ List.Forall₂ (FixedInput s) t.fields a.fields)
        (v := s.inputTypes) (by
          rw [List.forall₂_map_left_iff]
          exact (forall₂_imp hi fun t t' _ h => (⟨h.1, h.2.1, h.2.2.2⟩ :
            (addDependencies t').type = t.type ∧ (addDependencies t').description = t.description ∧
              List.Forall₂ (FixedInput s) t.fields (addDependencies t').fields)).flip)
      exact ⟨l, hl2, hl1.flip⟩
    · unfold FixedOperations
      split
      · rename_i hc
        rw [if_pos hc] at hops
        simp only [hops]
        exact defaultOperations_spec hs
      · rename_i hc
        rw [if_neg hc] at hops
        exact hops
    · rw [List.forall₂_iff_get]
      have hl : s.objectTypes.length = result.length := by
        have h1 : ∀ i, s.objectTypes.length ≤ i ↔ result.length ≤ i := by
          intro i
          rw [← List.getElem?_eq_none_iff, ← List.getElem?_eq_none_iff]
          rcases hlen i with ⟨h1, h2⟩ | ⟨t, t', h1, h2, _⟩
          · simp [h1, h2]
          · simp [h1, h2]
        have := h1 s.objectTypes.length
        have := h1 result.length
        omega
      refine ⟨hl, fun i h1 h2 => ?_⟩
      rcases hlen i with ⟨h3, _⟩ | ⟨t, t', h3, h4, h5⟩
      · rw [List.getElem?_eq_none_iff] at h3; omega
      · obtain ⟨_, rfl⟩ := List.getElem?_eq_some_iff.1 h3
        obtain ⟨_, h4⟩ := List.getElem?_eq_some_iff.1 h4
        have e4 : (({ s with
            inputTypes := sorted, interfaceTypes := interfaces, operationTypes := operations,
            objectTypes := result } : Loader).objectTypes.get ⟨i, h2⟩) =
            { t' with unions := t'.unions ++ addedAt s s.unionTypes i } := h4
        rw [e4]
        refine ⟨h5.1, h5.2.1, h5.2.2.1, forall₂_imp h5.2.2.2.2 fun f f' _ h => ?_⟩
        exact ⟨h.kind, h.arguments, h.inherited, h.accessor, h.rest⟩
    · intro pre t' post he hp
      have he' : result = pre ++ t' :: post := he
      have hmap : result.map (·.type) = s.objectTypes.map (·.type) := by
        apply List.ext_getElem?
        intro i
        rw [List.getElem?_map, List.getElem?_map]
        rcases hlen i with ⟨h1, h2⟩ | ⟨t, t', h1, h2, h3⟩
        · rw [h1, h2]
        · rw [h1, h2]; simp [h3.1]
      have hidx : ∀ n, s.objectNames n = some pre.length ↔ n = t'.type := by
        intro n
        constructor
        · intro hn
          have := hs.objectNames n
          rw [hn, ← hmap, he'] at this
          have h1 := this.1
          simp at h1
          exact h1.symm
        · rintro rfl
          have := hs.objectNames t'.type
          rw [← hmap, he'] at this
          exact LastIndex.eq this hp
      rcases hlen pre.length with ⟨_, h2⟩ | ⟨t, t'', h1, h2, h3⟩
      · rw [he'] at h2; simp at h2
      · rw [he'] at h2
        simp only [List.getElem?_append_right (Nat.le_refl _), Nat.sub_self, List.getElem?_cons_zero,
          Option.some.injEq] at h2
        have hempty : t.unions = [] := (hs.objects t (List.mem_of_getElem? h1)).1
        have hu : t'.unions = addedAt s s.unionTypes pre.length := by
          rw [h2]
          simp [h3.2.2.2.1, hempty]
        rw [hu]
        unfold addedAt unionsOf
        congr 1
        funext u
        congr 1
        congr 1
        funext o
        simp [hidx]

/-- The errors are about schemas which are not valid. -/
theorem explains_invalid {intro : Bool} {s : Loader} {e : LoadError} (h : Explains intro s e) : ¬ ValidSchema intro s := by
  have input : ∀ {f}, InputPlace s f → ValidSchema intro s → ∃ k, InputKind s f.type k := by
    rintro f (⟨t, ht, hf⟩ | ⟨t, ht, g, hg, hf⟩ | ⟨t, ht, g, hg, hf⟩) hv
    · exact hv.inputs t ht f hf
    · exact (hv.interfaces t ht g hg).2 f hf
    · exact (hv.objects t ht g hg).2 f hf
  have output : ∀ {f}, OutputPlace s f → ValidSchema intro s → ∃ k, OutputKind s f.type k := by
    rintro f (⟨t, ht, hf⟩ | ⟨t, ht, hf⟩) hv
    · exact (hv.interfaces t ht f hf).1
    · exact (hv.objects t ht f hf).1
  intro hv
  cases h with
  | builtinOverridden hn h => exact h (hv.builtin _ hn)
  | unknownArgumentType hp hb h => obtain ⟨k, hk⟩ := input hp hv; cases hk <;> simp_all
  | invalidArgumentType hp hb h hm => obtain ⟨k, hk⟩ := input hp hv; cases hk <;> grind
  | unknownFieldType hp hb h => obtain ⟨k, hk⟩ := output hp hv; cases hk <;> simp_all
  | invalidFieldType hp hb h => obtain ⟨k, hk⟩ := output hp hv; cases hk <;> simp_all
  | cycle _ h => exact h hv.order
  | introspectionOperations hi h =>
    have := hv.operations
    rw [ValidOperations, if_pos hi] at this
    exact h this
  | queryMissing hi he h =>
    have := hv.operations
    rw [ValidOperations, if_neg (by simp [hi]), if_pos he] at this
    exact h this
  | queryUndefined hi he h =>
    have := hv.operations
    rw [ValidOperations, if_neg (by simp [hi]), if_neg he] at this
    obtain ⟨_, o, ho, hq⟩ := this
    exact h o ho hq
  | unknownOperationType hi ho h =>
    have := hv.operations
    rw [ValidOperations, if_neg (by simp [hi]), if_neg (by intro hc; rw [hc] at ho; cases ho)] at this
    exact h (this.1 _ ho)
  | unknownInterface ht hn h => exact h (hv.implemented _ ht _ hn)
  | unknownOption hu hn h => exact h (hv.members _ hu _ hn)

/-- **C54.** A schema is accepted if and only if it is valid. -/
theorem C54_accept {atoi : Int → Int} {doc : List TypeDef} {s : Loader} (h : visitDefinitions atoi {} doc = .ok s)
    (intro : Bool) : (∃ s', validateSchema intro s = .ok s') ↔ ValidSchema intro s := by
  rcases validate_cases (intro := intro) (fresh_of_load h) with ⟨s', h1, h2, _⟩ | ⟨e, h1, h2⟩
  · exact ⟨fun _ => h2, fun _ => ⟨s', h1⟩⟩
  · rw [h1]
    simp [explains_invalid h2]

/-- **C54.** The error names a type, and it has the problem which is reported. -/
theorem C54_errors {atoi : Int → Int} {doc : List TypeDef} {s : Loader} (h : visitDefinitions atoi {} doc = .ok s)
    {intro : Bool} {e : LoadError} (he : validateSchema intro s = .error e) : Explains intro s e := by
  rcases validate_cases (intro := intro) (fresh_of_load h) with ⟨s', h1, _⟩ | ⟨e', h1, h2⟩
  · rw [h1] at he; cases he
  · rw [h1] at he; cases he; exact h2

/-- **C54.** The types of an accepted schema are those of the document, with the kinds of the fields and arguments, the
unions of each object and the fields which come from interfaces filled in. -/
theorem C54_result {atoi : Int → Int} {doc : List TypeDef} {s s' : Loader} (h : visitDefinitions atoi {} doc = .ok s)
    {intro : Bool} (hv : validateSchema intro s = .ok s') : Validated intro s s' := by
  rcases validate_cases (intro := intro) (fresh_of_load h) with ⟨s₂, h1, _, h2⟩ | ⟨e', h1, h2⟩
  · rw [h1] at hv; cases hv; exact h2
  · rw [h1] at hv; cases hv

/-! ## Cycles -/

theorem mem_definitions {k : SchemaType} {doc pre post : List TypeDef} {d : TypeDef} {n : Str}
    (h : doc = pre ++ d :: post) (hd : d.defines = some (k, n)) : (d, post) ∈ definitions k doc := by
  subst h
  induction pre with
  | nil =>
    rw [List.nil_append, definitions, if_pos (by rw [hd]; rfl)]
    simp
  | cons e pre ih =>
    rw [List.cons_append, definitions]
    split
    · exact List.mem_cons_of_mem _ ih
    · exact ih

/-- A name which means an input type is the name of an input type. -/
theorem input_of_kind {atoi : Int → Int} {doc : List TypeDef} {s : Loader} (h : visitDefinitions atoi {} doc = .ok s)
    {n : Str} (hn : s.schemaTypes n = some .input) : ∃ u ∈ s.inputTypes, u.type = n := by
  obtain ⟨pre, d, post, he, hd, _⟩ := (C53_kinds h n .input).1 hn
  obtain ⟨u, hu, hi⟩ := forall₂_mem_left (C53_load h).inputs _ (mem_definitions he hd)
  obtain ⟨_, ⟨hw, _⟩, _⟩ := hi.parts
  rw [hd] at hw
  cases hw
  exact ⟨u, hu, rfl⟩

open Relation in
/-- **C54.** If no name is used for two input types and the types of their fields are valid, the input types can be put in
order exactly if none of them contains itself, by its fields or by the fields of its fields and so on. -/
theorem C54_cycle {atoi : Int → Int} {doc : List TypeDef} {s : Loader} (h : visitDefinitions atoi {} doc = .ok s)
    (hn : (s.inputTypes.map (·.type)).Nodup) (hv : ∀ t ∈ s.inputTypes, ∀ f ∈ t.fields, ∃ k, InputKind s f.type k) :
    (∃ l, l.Perm s.inputTypes ∧ Ordered (·.type) (NeedsInput s) l) ↔
      ¬ ∃ t, TransGen (fun t u => t ∈ s.inputTypes ∧ u ∈ s.inputTypes ∧ NeedsInput s t u.type) t t := by
  have hs := fresh_of_load h
  have hex : ∃ ts, mapExcept (fixupInputType s) s.inputTypes = .ok ts := by
    cases he : mapExcept (fixupInputType s) s.inputTypes with
    | ok ts => exact ⟨ts, rfl⟩
    | error e =>
      obtain ⟨t, ht, he⟩ := mapExcept_error he
      unfold fixupInputType at he
      split at he
      · rename_i e' he'
        cases he
        obtain ⟨f, hf, he⟩ := mapExcept_error he'
        obtain ⟨k, hk⟩ := hv t ht f hf
        rw [(fixupInputField_ok ((hs.inputs t ht).2 f hf)).2 (fixedInput_iff.2 ⟨k, hk, rfl⟩)] at he
        cases he
      · cases he
  obtain ⟨ts, hts⟩ := hex
  rw [inputs_ok hs] at hts
  have hdeps : ∀ t ∈ ts, t.dependencies = [] := by
    intro t ht
    obtain ⟨t₀, ht₀, h⟩ := forall₂_mem_right hts t ht
    rw [h.2.2.1, (hs.inputs t₀ ht₀).1]
  have hmap : ts.map (·.type) = s.inputTypes.map (·.type) := by
    clear hdeps hv hn
    revert hts
    generalize s.inputTypes = l
    intro hts
    induction hts with
    | nil => rfl
    | cons hab _ ih => simp [hab.1, ih]
  have hn' : (ts.map (·.type)).Nodup := by rw [hmap]; exact hn
  have hclosed : ∀ t ∈ ts, ∀ n, t.needs n → ∃ u ∈ ts, u.type = n := by
    intro t ht n hneeds
    obtain ⟨t₀, ht₀, hf⟩ := forall₂_mem_right hts t ht
    obtain ⟨_, _, _, _, hk⟩ := (needs_fixed hf n).1 hneeds
    obtain ⟨u, hu, rfl⟩ := input_of_kind h hk
    obtain ⟨u', hu', hf'⟩ := forall₂_mem_left hts u hu
    exact ⟨u', hu', hf'.1⟩
  rw [← fixed_order hts, ← reorder_ok_iff hdeps]
  have hc := (C42_cycle hdeps hn' hclosed).1
  have hcycle : (∃ t, TransGen (Uses ts) t t) ↔
      ∃ t, TransGen (fun t u => t ∈ s.inputTypes ∧ u ∈ s.inputTypes ∧ NeedsInput s t u.type) t t := by
    constructor
    · rintro ⟨t, ht⟩
      have htm : t ∈ ts := by
        cases (TransGen.head'_iff.1 ht) with
        | intro _ h => exact h.1.1
      obtain ⟨t₀, ht₀, hf⟩ := forall₂_mem_right hts t htm
      obtain ⟨y, hy, hc⟩ := transGen_lift (S := fun t u => t ∈ s.inputTypes ∧ u ∈ s.inputTypes ∧ NeedsInput s t u.type)
        (fun t t₀ => t₀ ∈ s.inputTypes ∧ FixedInputType s t₀ t) (x' := t₀) (by
          rintro x y x' ⟨hx, hxf⟩ ⟨_, hy, f, hf, hk, hft⟩
          obtain ⟨y', hy', hyf⟩ := forall₂_mem_right hts y hy
          refine ⟨y', ⟨hy', hyf⟩, hx, hy', (needs_fixed hxf _).1 ⟨f, hf, hk, ?_⟩⟩
          rw [hft, hyf.1]) ⟨ht₀, hf⟩ ht
      have : y = t₀ := unique_of_nodup hn hy.1 ht₀ (by rw [← hy.2.1, hf.1])
      exact ⟨t₀, by rwa [this] at hc⟩
    · rintro ⟨t, ht⟩
      have htm : t ∈ s.inputTypes := by
        cases (TransGen.head'_iff.1 ht) with
        | intro _ h => exact h.1.1
      obtain ⟨t', ht', hf⟩ := forall₂_mem_left hts t htm
      obtain ⟨y, hy, hc⟩ := transGen_lift (S := Uses ts) (fun t t' => t' ∈ ts ∧ FixedInputType s t t') (x' := t') (by
          rintro x y x' ⟨hx, hxf⟩ ⟨_, hy, hneeds⟩
          obtain ⟨y', hy', hyf⟩ := forall₂_mem_left hts y hy
          obtain ⟨f, hf, hk, hft⟩ := (needs_fixed hxf _).2 hneeds
          refine ⟨y', ⟨hy', hyf⟩, hx, hy', f, hf, hk, ?_⟩
          rw [hft, hyf.1]) ⟨ht', hf⟩ ht
      have : y = t' := unique_of_nodup hn' hy.1 ht' (by rw [hy.2.1, hf.1])
      exact ⟨t', by rwa [this] at hc⟩
  rw [← hcycle, ← hc]
  cases reorderInputTypes ts <;> simp

/-! ## Examples -/

/-- `interface I { a: Int }`, `input A { b: B }`, `input B { c: Int }`, `union U = Query | M`,
`type Query implements I { a: Int, u(x: A): U }`, `type M { d(y: Nowhere): Int }`, `schema { query: Query mutation: M }`. -/
def exampleSchema : List TypeDef :=
  [.interface [] (str "I") [{ name := str "a", type := .named (str "Int") }],
   .input [] (str "A") [{ name := str "b", type := .named (str "B") }],
   .input [] (str "B") [{ name := str "c", type := .named (str "Int") }],
   .union [] (str "U") [str "Query", str "M"],
   .object [] (str "Query") [str "I"]
    [{ name := str "a", type := .named (str "Int") },
     { name := str "u", type := .named (str "U"), arguments := [{ name := str "x", type := .named (str "A") }] }],
   .object [] (str "M") []
    [{ name := str "d", type := .named (str "Int"), arguments := [{ name := str "y", type := .named (str "Nowhere") }] }],
   .schema [(str "query", str "Query"), (str "mutation", str "M")]]

/-- An accepted schema about which something holds. -/
theorem accepted {doc : List TypeDef} {α : Type} {f : Loader → α} {v : α}
    (h : (loadSchema id false doc).toOption.map f = some v) :
    ∃ s s', visitDefinitions id {} doc = .ok s ∧ validateSchema false s = .ok s' ∧ f s' = v := by
  unfold loadSchema at h
  cases h1 : visitDefinitions id {} doc with
  | error e => rw [h1] at h; cases h
  | ok s =>
    rw [h1] at h
    simp only at h
    cases h2 : validateSchema false s with
    | error e => rw [h2] at h; cases h
    | ok s' =>
      rw [h2] at h
      exact ⟨s, s', rfl, h2, Option.some.inj h⟩

/-- The example is accepted; `B` comes before `A`, and both objects know their union. -/
theorem example_validate : ∃ s s', visitDefinitions id {} exampleSchema = .ok s ∧ validateSchema false s = .ok s' ∧
    (s'.inputTypes.map (·.type), s'.objectTypes.map (·.unions)) = ([str "B", str "A"], [[str "U"], [str "U"]]) :=
  accepted (by decide +kernel)

/-- The interface field of the example is marked, and the fields of the mutation are applied. -/
theorem example_validate_fields : ∃ s s', visitDefinitions id {} exampleSchema = .ok s ∧ validateSchema false s = .ok s' ∧
    (s'.objectTypes.flatMap (·.fields)).map (fun f => (f.name, f.fieldType, f.inheritedField, f.accessor)) =
      [(str "a", .builtin, true, str "get"), (str "u", .union, false, str "get"), (str "d", .builtin, false, str "apply")] :=
  accepted (by decide +kernel)

/-- **Finding.** The arguments of a field of a built-in type are not checked: `d(y: Nowhere): Int` is accepted although there
is no type `Nowhere`. -/
theorem C54_finding_arguments : ∃ s s', visitDefinitions id {} exampleSchema = .ok s ∧ validateSchema false s = .ok s' ∧
    ((s'.objectTypes.flatMap (·.fields)).flatMap fun f => f.arguments.map (·.type), s'.schemaTypes (str "Nowhere")) =
      ([str "A", str "Nowhere"], none) :=
  accepted (by decide +kernel)

/-- **Finding.** The order of the input types changes, the indices do not: that of `A` is now that of `B`. -/
theorem C54_finding_indices : ∃ s s', visitDefinitions id {} exampleSchema = .ok s ∧ validateSchema false s = .ok s' ∧
    (s'.inputNames (str "A"), s'.inputTypes[0]?.map (·.type)) = (some 0, some (str "B")) :=
  accepted (by decide +kernel)

/-- **Finding.** A name can be defined twice: `type Query { a: Int }` and `type Query { b: Int }` are both kept. -/
theorem C54_finding_duplicate : ∃ s s', visitDefinitions id {}
      [.object [] (str "Query") [] [{ name := str "a", type := .named (str "Int") }],
       .object [] (str "Query") [] [{ name := str "b", type := .named (str "Int") }]] = .ok s ∧
    validateSchema false s = .ok s' ∧ s'.objectTypes.map (·.type) = [str "Query", str "Query"] :=
  accepted (by decide +kernel)

end Verif.Gen
