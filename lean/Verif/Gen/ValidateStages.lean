import Verif.Gen.ValidateProps
import Verif.Gen.OrderProps

/-!
# Checking a loaded schema, step by step
-/
namespace Verif.Gen
open Verif.Value Verif.Resp Verif.Ast Verif.Modifiers

/-- What is known about a loader before the check. -/
structure Fresh (s : Loader) : Prop where
  inputs : ∀ t ∈ s.inputTypes, t.dependencies = [] ∧ ∀ f ∈ t.fields, f.fieldType = .builtin
  interfaces : ∀ t ∈ s.interfaceTypes, ∀ f ∈ t.fields, Raw f
  objects : ∀ t ∈ s.objectTypes, t.unions = [] ∧ ∀ f ∈ t.fields, Raw f
  interfaceNames : ∀ n, LastIndex (s.interfaceTypes.map (·.type)) n (s.interfaceNames n)
  objectNames : ∀ n, LastIndex (s.objectTypes.map (·.type)) n (s.objectNames n)

theorem forall₂_mem_right {α β : Type} {R : α → β → Prop} {as : List α} {bs : List β} (h : List.Forall₂ R as bs) :
    ∀ b ∈ bs, ∃ a ∈ as, R a b := by
  induction h with
  | nil => simp
  | cons hab _ ih =>
    intro b hb
    rcases List.mem_cons.1 hb with rfl | hb
    · exact ⟨_, by simp, hab⟩
    · obtain ⟨a, ha, hr⟩ := ih b hb
      exact ⟨a, by simp [ha], hr⟩

theorem raw_of_isOutputField {atoi : Int → Int} {d : FieldDef} {f : OutputField} (h : IsOutputField atoi d f) : Raw f := by
  refine ⟨h.fieldType, fun a ha => ?_⟩
  obtain ⟨_, _, h'⟩ := forall₂_mem_right h.arguments a ha
  exact h'.fieldType

theorem fresh_of_load {atoi : Int → Int} {doc : List TypeDef} {s : Loader} (h : visitDefinitions atoi {} doc = .ok s) :
    Fresh s where
  inputs := by
    intro t ht
    obtain ⟨_, _, hi⟩ := forall₂_mem_right (C53_load h).inputs t ht
    refine ⟨hi.dependencies, fun f hf => ?_⟩
    obtain ⟨_, _, hp⟩ := hi.parts
    obtain ⟨_, _, hd⟩ := forall₂_mem_right hp f hf
    exact hd.fieldType
  interfaces := by
    intro t ht f hf
    obtain ⟨_, _, hi⟩ := forall₂_mem_right (C53_load h).interfaces t ht
    obtain ⟨_, _, hp⟩ := hi.parts
    obtain ⟨_, _, hd⟩ := forall₂_mem_right hp f hf
    exact raw_of_isOutputField hd
  objects := by
    intro t ht
    obtain ⟨_, _, hi⟩ := forall₂_mem_right (C53_load h).objects t ht
    refine ⟨hi.unions, fun f hf => ?_⟩
    obtain ⟨_, _, _, hp⟩ := hi.parts
    obtain ⟨_, _, hd⟩ := forall₂_mem_right hp f hf
    exact raw_of_isOutputField hd
  interfaceNames n := (C53_indices h n).2.2.2.2.1
  objectNames n := (C53_indices h n).2.2.2.2.2

theorem LastIndex.isNone_iff {names : List Str} {n : Str} {i : Option Nat} (h : LastIndex names n i) :
    i = none ↔ n ∉ names := by
  cases i with
  | none => simpa [LastIndex] using h
  | some i =>
    simp only [reduceCtorEq, false_iff, not_not]
    exact List.mem_of_getElem? h.1

theorem Fresh.interface_none {s : Loader} (h : Fresh s) {n : Str} :
    s.interfaceNames n = none ↔ ¬ ∃ u ∈ s.interfaceTypes, u.type = n := by
  rw [(h.interfaceNames n).isNone_iff]
  simp

theorem Fresh.object_none {s : Loader} (h : Fresh s) {n : Str} :
    s.objectNames n = none ↔ ¬ ∃ t ∈ s.objectTypes, t.type = n := by
  rw [(h.objectNames n).isNone_iff]
  simp

theorem Fresh.object_isSome {s : Loader} (h : Fresh s) {n : Str} :
    (s.objectNames n).isSome = true ↔ ∃ t ∈ s.objectTypes, t.type = n := by
  rw [Option.isSome_iff_ne_none, ne_eq, h.object_none, not_not]

/-! ## Input types -/

/-- An input type with its fields fixed. -/
def FixedInputType (s : Loader) (t t' : InputType) : Prop :=
  t'.type = t.type ∧ t'.description = t.description ∧ t'.dependencies = t.dependencies ∧
    List.Forall₂ (FixedInput s) t.fields t'.fields

theorem fixupInputType_ok {s : Loader} {t t' : InputType} (ht : ∀ f ∈ t.fields, f.fieldType = .builtin) :
    fixupInputType s t = .ok t' ↔ FixedInputType s t t' := by
  unfold fixupInputType FixedInputType
  cases h : mapExcept (fixupInputField s) t.fields with
  | error e =>
    simp only [reduceCtorEq, false_iff]
    rintro ⟨_, _, _, h'⟩
    rw [(fixArguments ht).2 h'] at h
    cases h
  | ok fs =>
    simp only [Except.ok.injEq]
    constructor
    · rintro rfl
      exact ⟨rfl, rfl, rfl, (fixArguments ht).1 h⟩
    · rintro ⟨h1, h2, h3, h4⟩
      rw [(fixArguments ht).2 h4] at h
      cases h
      cases t'
      simp_all

/-- The first error of an input field. -/
theorem inputField_explains {intro : Bool} {s : Loader} {f : InputField} {e : LoadError} (hp : InputPlace s f)
    (h : fixupInputField s f = .error e) : Explains intro s e := by
  obtain ⟨hb, ⟨rfl, hs⟩ | ⟨k, rfl, hs, hk⟩⟩ := fixupInputField_error h
  · exact .unknownArgumentType hp hb hs
  · exact .invalidArgumentType hp hb hs hk

theorem inputs_error {intro : Bool} {s : Loader} {e : LoadError}
    (h : mapExcept (fixupInputType s) s.inputTypes = .error e) : Explains intro s e := by
  obtain ⟨t, ht, h⟩ := mapExcept_error h
  unfold fixupInputType at h
  split at h
  · rename_i e' he
    cases h
    obtain ⟨f, hf, h⟩ := mapExcept_error he
    exact inputField_explains (.inl ⟨t, ht, hf⟩) h
  · cases h

theorem inputs_ok {s : Loader} (hs : Fresh s) {ts : List InputType} :
    mapExcept (fixupInputType s) s.inputTypes = .ok ts ↔ List.Forall₂ (FixedInputType s) s.inputTypes ts := by
  rw [mapExcept_ok]
  constructor
  · exact fun h => forall₂_imp h fun a b ha hab => (fixupInputType_ok (hs.inputs a ha).2).1 hab
  · exact fun h => forall₂_imp h fun a b ha hab => (fixupInputType_ok (hs.inputs a ha).2).2 hab

theorem inputKind_unique {s : Loader} {n : Str} {k k' : InputFieldType} (h : InputKind s n k) (h' : InputKind s n k') :
    k = k' := by
  cases h <;> cases h' <;> simp_all

theorem needs_fixed {s : Loader} {t t' : InputType} (h : FixedInputType s t t') (n : Str) :
    t'.needs n ↔ NeedsInput s t n := by
  obtain ⟨_, _, _, h⟩ := h
  constructor
  · rintro ⟨f', hf', hk, rfl⟩
    obtain ⟨f, hf, h1, h2⟩ := forall₂_mem_right h f' hf'
    have ht : f'.type = f.type := by rw [h2]
    rw [hk] at h1
    rw [ht]
    cases h1
    exact ⟨f, hf, rfl, by assumption, by assumption⟩
  · rintro ⟨f, hf, rfl, h1, h2⟩
    obtain ⟨f', hf', h3, h4⟩ := forall₂_mem_left h f hf
    have ht : f'.type = f.type := by rw [h4]
    exact ⟨f', hf', inputKind_unique h3 (.input h1 h2), ht⟩

theorem forall₂_split {α β : Type} {R : α → β → Prop} {pre post : List β} {l : List α}
    (h : List.Forall₂ R l (pre ++ post)) : ∃ as bs, l = as ++ bs ∧ List.Forall₂ R as pre ∧ List.Forall₂ R bs post := by
  induction pre generalizing l with
  | nil => exact ⟨[], l, rfl, .nil, h⟩
  | cons b pre ih =>
    cases h with
    | cons hab h =>
      obtain ⟨as, bs, rfl, h1, h2⟩ := ih h
      exact ⟨_ :: as, bs, rfl, .cons hab h1, h2⟩

/-- Lists which go together are ordered in the same way. -/
theorem ordered_forall₂ {α β : Type} {name : α → Str} {name' : β → Str} {needs : α → Str → Prop}
    {needs' : β → Str → Prop} {l : List α} {l' : List β}
    (h : List.Forall₂ (fun x x' => name' x' = name x ∧ ∀ n, needs' x' n ↔ needs x n) l l') (ho : Ordered name needs l) :
    Ordered name' needs' l' := by
  intro pre x' post he n hn
  subst he
  obtain ⟨pre', rest, rfl, h1, h2⟩ := forall₂_split h
  cases h2 with
  | cons hx h2 =>
    obtain ⟨y, hy, rfl⟩ := ho _ _ _ rfl n ((hx.2 n).1 hn)
    obtain ⟨y', hy', h3⟩ := forall₂_mem_left h1 y hy
    exact ⟨y', hy', h3.1⟩

theorem orderLoop_complete {l rest : List InputType} {handled : List Str}
    (ho : Ordered (·.type) (fun (x : InputType) n => n ∈ x.dependencies) l) (hs : ∀ t ∈ rest, t ∈ l)
    (hh : ∀ t ∈ l, t ∈ rest ∨ t.type ∈ handled) : ∃ r, orderLoop handled rest = .ok r := by
  classical
  induction hn : rest.length using Nat.strongRecOn generalizing rest handled with
  | _ n ih =>
    subst hn
    cases rest with
    | nil => exact ⟨[], by unfold orderLoop; rfl⟩
    | cons first others =>
      unfold orderLoop
      split
      · rename_i he
        exfalso
        cases hf : l.find? (fun t => decide (t ∈ first :: others)) with
        | none =>
          rw [List.find?_eq_none] at hf
          have := hf first (hs first (by simp))
          simp at this
        | some x =>
          obtain ⟨hx, pre, post, rfl, hpre⟩ := List.find?_eq_some_iff_append.1 hf
          have hx' : x ∈ first :: others := by simpa using hx
          have : x ∈ (first :: others).filter fun e => ready handled e.dependencies := by
            rw [List.mem_filter]
            refine ⟨hx', ?_⟩
            rw [ready_iff]
            intro d hd
            obtain ⟨y, hy, rfl⟩ := ho _ _ _ rfl d hd
            rcases hh y (by simp [hy]) with h | h
            · have := hpre y hy
              simp only [Bool.not_eq_true', decide_eq_false_iff_not] at this
              exact (this h).elim
            · exact h
          rw [he] at this
          cases this
      · rename_i he
        have hlen := List.length_eq_length_filter_add (l := first :: others) fun e => ready handled e.dependencies
        have hpos := List.length_pos_iff.2 he
        simp only
        have hsub : ∀ t ∈ (first :: others).filter (fun e => !ready handled e.dependencies), t ∈ l :=
          fun t ht => hs t (List.mem_filter.1 ht).1
        have next : ∀ handled', (∀ t ∈ l, t ∈ (first :: others).filter (fun e => !ready handled e.dependencies) ∨
            t.type ∈ handled') →
            ∃ r, orderLoop handled' ((first :: others).filter fun e => !ready handled e.dependencies) = .ok r :=
          fun handled' h => ih _ (by omega) hsub h rfl
        have done : ∃ r, orderLoop
            (if ((first :: others).filter fun e => !ready handled e.dependencies).isEmpty then handled
              else handled ++ ((first :: others).filter fun e => ready handled e.dependencies).map (·.type))
            ((first :: others).filter fun e => !ready handled e.dependencies) = .ok r := by
          split
          · rename_i hb
            rw [List.isEmpty_iff.1 hb]
            exact ⟨[], by unfold orderLoop; rfl⟩
          · apply next
            intro t ht
            rcases hh t ht with h | h
            · cases hr : ready handled t.dependencies with
              | true =>
                refine .inr (List.mem_append_right _ (List.mem_map.2 ⟨t, List.mem_filter.2 ⟨h, hr⟩, rfl⟩))
              | false => exact .inl (List.mem_filter.2 ⟨h, by rw [hr]; rfl⟩)
            · exact .inr (List.mem_append_left _ h)
        obtain ⟨r, hr⟩ := done
        rw [hr]
        exact ⟨_, rfl⟩

/-- The only error is about a cycle, and it names one of the types. -/
theorem orderLoop_cycle {rest : List InputType} {handled : List Str} {e : LoadError}
    (h : orderLoop handled rest = .error e) : ∃ t ∈ rest, e = .cycle t.type := by
  induction hn : rest.length using Nat.strongRecOn generalizing rest handled with
  | _ n ih =>
    subst hn
    cases rest with
    | nil => unfold orderLoop at h; cases h
    | cons first others =>
      unfold orderLoop at h
      split at h
      · cases h
        exact ⟨first, by simp, rfl⟩
      · rename_i he
        have hlen := List.length_eq_length_filter_add (l := first :: others) fun e => ready handled e.dependencies
        have hpos := List.length_pos_iff.2 he
        simp only at h
        split at h
        · rename_i e' he'
          cases h
          obtain ⟨t, ht, rfl⟩ := ih _ (by omega) he' rfl
          exact ⟨t, (List.mem_filter.1 ht).1, rfl⟩
        · cases h

theorem reorder_ok_iff {types : List InputType} (hd : ∀ t ∈ types, t.dependencies = []) :
    (∃ r, reorderInputTypes types = .ok r) ↔ ∃ l, l.Perm types ∧ Ordered (·.type) (·.needs) l := by
  constructor
  · rintro ⟨r, h⟩
    obtain ⟨h1, h2⟩ := orderLoop_ok h (before := []) (by simp) (by intro pre x post h; simp at h)
    rw [List.nil_append] at h2
    obtain ⟨l, hl1, hl2⟩ := List.perm_comp_forall₂ h1 (v := types) (r := fun a b => a = addDependencies b ∧ b ∈ types)
      (by
        rw [List.forall₂_map_left_iff, List.forall₂_same]
        exact fun t ht => ⟨rfl, ht⟩)
    refine ⟨l, hl2, ordered_forall₂ (forall₂_imp hl1 fun a b _ hab => ⟨?_, ?_⟩) h2⟩
    · rw [hab.1]; rfl
    · intro n
      rw [hab.1, (addDependencies_spec b).2 n, hd b hab.2]
      simp
  · rintro ⟨l, h1, h2⟩
    refine orderLoop_complete (l := l.map addDependencies) ?_ ?_ ?_
    · refine ordered_forall₂ (l := l) ?_ h2
      rw [List.forall₂_map_right_iff, List.forall₂_same]
      intro t ht
      refine ⟨rfl, fun n => ?_⟩
      rw [(addDependencies_spec t).2 n, hd t (h1.mem_iff.1 ht)]
      simp
    · intro t ht
      exact ((h1.map addDependencies).mem_iff).2 ht
    · intro t ht
      exact .inl (((h1.map addDependencies).mem_iff).1 ht)

theorem fixed_order {s : Loader} {ts : List InputType} (h : List.Forall₂ (FixedInputType s) s.inputTypes ts) :
    (∃ l, l.Perm ts ∧ Ordered (·.type) (·.needs) l) ↔
      ∃ l, l.Perm s.inputTypes ∧ Ordered (·.type) (NeedsInput s) l := by
  constructor
  · rintro ⟨l, h1, h2⟩
    obtain ⟨l', h3, h4⟩ := List.perm_comp_forall₂ h1 h.flip
    exact ⟨l', h4, ordered_forall₂ (forall₂_imp h3 fun a b _ hab => ⟨hab.1.symm, fun n => (needs_fixed hab n).symm⟩) h2⟩
  · rintro ⟨l, h1, h2⟩
    obtain ⟨l', h3, h4⟩ := List.perm_comp_forall₂ h1 h
    exact ⟨l', h4, ordered_forall₂ (forall₂_imp h3 fun a b _ hab => ⟨hab.1, needs_fixed hab⟩) h2⟩

/-! ## Operation types -/

theorem checkOperations_cases {s : Loader} (hs : Fresh s) (os : List OperationType) :
    (checkOperations s os = .ok () ∧ ∀ o ∈ os, ∃ t ∈ s.objectTypes, t.type = o.type) ∨
    ∃ o ∈ os, checkOperations s os = .error (.unknownOperationType o.type o.operation) ∧
      ¬ ∃ t ∈ s.objectTypes, t.type = o.type := by
  induction os with
  | nil => exact .inl ⟨rfl, by simp⟩
  | cons o os ih =>
    unfold checkOperations
    cases ho : s.objectNames o.type with
    | none => exact .inr ⟨o, by simp, rfl, hs.object_none.1 ho⟩
    | some i =>
      have ho' : ∃ t ∈ s.objectTypes, t.type = o.type := hs.object_isSome.1 (by rw [ho]; rfl)
      rcases ih with ⟨h1, h2⟩ | ⟨o', h1, h2, h3⟩
      · refine .inl ⟨h1, fun x hx => ?_⟩
        rcases List.mem_cons.1 hx with rfl | hx
        · exact ho'
        · exact h2 x hx
      · exact .inr ⟨o', by simp [h1], h2, h3⟩

theorem operations_cases {intro : Bool} {s : Loader} (hs : Fresh s) :
    (∃ os, operationTypes intro s = .ok os ∧ ValidOperations intro s ∧
      os = if intro = false ∧ s.operationTypes = [] then defaultOperations s else s.operationTypes) ∨
    ∃ e, operationTypes intro s = .error e ∧ Explains intro s e := by
  unfold operationTypes ValidOperations
  cases intro with
  | true =>
    cases ho : s.operationTypes with
    | nil => exact .inl ⟨[], by simp, by simp, by simp⟩
    | cons o os =>
      refine .inr ⟨.introspectionOperations, by simp, .introspectionOperations rfl (by rw [ho]; simp)⟩
  | false =>
    cases ho : s.operationTypes with
    | nil =>
      simp only [Bool.not_false, if_true, List.isEmpty_nil, Bool.false_eq_true, if_false, and_self]
      split
      · rename_i hq
        exact .inl ⟨_, rfl, hs.object_isSome.1 hq, rfl⟩
      · rename_i hq
        exact .inr ⟨_, rfl, .queryMissing rfl ho fun h => hq (hs.object_isSome.2 h)⟩
    | cons o os =>
      rw [← ho]
      have hne : s.operationTypes ≠ [] := by rw [ho]; simp
      have hem : s.operationTypes.isEmpty = false := by rw [ho]; rfl
      simp only [Bool.not_false, if_true, hem, Bool.false_eq_true, if_false, hne, and_false]
      rcases checkOperations_cases hs s.operationTypes with ⟨h1, h2⟩ | ⟨o', h1, h2, h3⟩
      · rw [h1]
        simp only
        split
        · rename_i ha
          obtain ⟨o', ho', he⟩ := List.any_eq_true.1 ha
          exact .inl ⟨_, rfl, ⟨h2, o', ho', by simpa using he⟩, rfl⟩
        · rename_i ha
          refine .inr ⟨_, rfl, .queryUndefined rfl hne ?_⟩
          intro o' ho' he
          exact ha (List.any_eq_true.2 ⟨o', ho', by simpa using he⟩)
      · rw [h2]
        exact .inr ⟨_, rfl, .unknownOperationType rfl h1 h3⟩

end Verif.Gen
