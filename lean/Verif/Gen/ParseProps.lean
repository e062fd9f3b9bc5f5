import Verif.Gen.ParseSpec
import Verif.Gen.ResponseProps
import Verif.Modifiers.Props
import Mathlib.Data.List.Forall2

/-!
# Lemmas about the functions which read a response
-/
namespace Verif.Gen.Client
open Verif.Value Verif.Resp Verif.Errors Verif.Ast Verif.Modifiers
open Verif.Validation (Schema baseName)
open Verif.Validation.Spec.Schema (UniqueNames)

variable {S : Schema}

/-! ## Leaves -/

/-- The kind of leaf, as a function. -/
def leafKind (S : Schema) (type : Str) : LeafType :=
  if S.kind type = some .enum then .enum
  else if type = str "Int" then .int
  else if type = str "Float" then .float
  else if type = str "String" then .string
  else if type = str "Boolean" then .boolean
  else if type = str "ID" then .id
  else .custom

theorem leafTypeOf_iff {type : Str} {t : LeafType} : LeafTypeOf S type t ↔ leafKind S type = t := by
  have d1 : str "Int" ≠ str "Float" := by decide +kernel
  have d2 : str "Int" ≠ str "String" := by decide +kernel
  have d3 : str "Int" ≠ str "Boolean" := by decide +kernel
  have d4 : str "Int" ≠ str "ID" := by decide +kernel
  have d5 : str "Float" ≠ str "String" := by decide +kernel
  have d6 : str "Float" ≠ str "Boolean" := by decide +kernel
  have d7 : str "Float" ≠ str "ID" := by decide +kernel
  have d8 : str "String" ≠ str "Boolean" := by decide +kernel
  have d9 : str "String" ≠ str "ID" := by decide +kernel
  have d10 : str "Boolean" ≠ str "ID" := by decide +kernel
  constructor
  · intro h
    cases h with
    | enum h => simp [leafKind, h]
    | builtin h ht =>
      simp only [builtinTypes, List.mem_cons, Prod.mk.injEq, List.not_mem_nil, or_false] at ht
      rcases ht with ⟨rfl, rfl⟩ | ⟨rfl, rfl⟩ | ⟨rfl, rfl⟩ | ⟨rfl, rfl⟩ | ⟨rfl, rfl⟩ <;>
        simp [leafKind, h, d1.symm, d2.symm, d3.symm, d4.symm, d5.symm, d6.symm, d7.symm, d8.symm, d9.symm, d10.symm]
    | custom h ht =>
      simp only [builtinTypes, List.mem_cons, Prod.mk.injEq, List.not_mem_nil, or_false, not_or, not_and] at ht
      have e1 : type ≠ str "Int" := fun e => (ht .int).1 e rfl
      have e2 : type ≠ str "Float" := fun e => (ht .float).2.1 e rfl
      have e3 : type ≠ str "String" := fun e => (ht .string).2.2.1 e rfl
      have e4 : type ≠ str "Boolean" := fun e => (ht .boolean).2.2.2.1 e rfl
      have e5 : type ≠ str "ID" := fun e => (ht .id).2.2.2.2 e rfl
      simp [leafKind, h, e1, e2, e3, e4, e5]
  · rintro rfl
    unfold leafKind
    split
    · rename_i h; exact .enum h
    · rename_i h
      split
      · rename_i h1; exact .builtin h (by simp [builtinTypes, h1])
      split
      · rename_i h1; exact .builtin h (by simp [builtinTypes, h1])
      split
      · rename_i h1; exact .builtin h (by simp [builtinTypes, h1])
      split
      · rename_i h1; exact .builtin h (by simp [builtinTypes, h1])
      split
      · rename_i h1; exact .builtin h (by simp [builtinTypes, h1])
      · rename_i h1 h2 h3 h4 h5
        exact .custom h (by intro t; simp [builtinTypes, h1, h2, h3, h4, h5])

theorem wrap_ok {α : Type} {f : α → Data} {r : Except Exn α} {d : Data} : wrap f r = .ok d ↔ ∃ a, r = .ok a ∧ d = f a := by
  cases r <;> simp [wrap, eq_comm]

theorem enumNames_eq (hu : UniqueNames S) (he : EnumsSafe S) {type : Str} {t : Validation.TypeDef} (ht : (type, t) ∈ S.types) :
    enumNames S type = t.enumValues := by
  have hf : S.find type = some t := (Validation.Spec.C48_find_iff hu).mpr ht
  have := (he _ ht).2
  unfold enumNames
  rw [hf]
  simp only [Option.map_some, Option.getD_some]
  exact (List.map_congr_left this).trans (List.map_id'' (fun _ => rfl) _)

theorem parseEnum_iff (hu : UniqueNames S) (he : EnumsSafe S) {type : Str} (hk : S.kind type = some .enum) {v : Resp}
    {d : Data} : parseEnum S type v = .ok d ↔ LeafHolds S type v d := by
  obtain ⟨t, ht⟩ : ∃ t, (type, t) ∈ S.types := by
    unfold Validation.Schema.kind at hk
    cases h : S.find type with
    | none => rw [h] at hk; simp at hk
    | some t => exact ⟨t, (Validation.Spec.C48_find_iff hu).mp h⟩
  have hn := (he _ ht).1
  have hl : LeafTypeOf S type .enum := .enum hk
  have hfind : ∀ {s : Str} {i : Nat}, (enumNames S type).findIdx? (· == s) = some i ↔ t.enumValues[i]? = some s := by
    intro s i
    rw [enumNames_eq hu he ht, List.findIdx?_eq_some_iff_getElem]
    constructor
    · rintro ⟨h, h1, _⟩
      rw [List.getElem?_eq_getElem h]
      simpa using h1
    · intro h
      obtain ⟨h1, h2⟩ := List.getElem?_eq_some_iff.mp h
      refine ⟨h1, by simp [h2], fun j hj => ?_⟩
      simp only [beq_iff_eq, ← h2]
      intro hc
      have := (List.Nodup.getElem_inj_iff hn (hi := by show j < t.enumValues.length; omega) (hj := h1)).mp hc
      omega
  constructor
  · intro h
    unfold parseEnum at h
    split at h
    · rename_i s
      dsimp only at h
      split at h
      · rename_i i hi
        cases h
        exact .enum hl (.inl rfl) ht (hfind.mp hi)
      · cases h
    · rename_i s
      dsimp only at h
      split at h
      · rename_i i hi
        cases h
        exact .enum hl (.inr rfl) ht (hfind.mp hi)
      · cases h
    · cases h
  · intro h
    cases h with
    | enum _ hv ht' hi =>
      have := Validation.Spec.C48_find_iff hu |>.mpr ht'
      rw [(Validation.Spec.C48_find_iff hu).mpr ht] at this
      cases this
      rcases hv with rfl | rfl
      · simp [parseEnum, hfind.mpr hi]
      · simp [parseEnum, hfind.mpr hi]
    | int h' => rw [leafTypeOf_iff] at h' hl; rw [hl] at h'; cases h'
    | float h' => rw [leafTypeOf_iff] at h' hl; rw [hl] at h'; cases h'
    | integral h' => rw [leafTypeOf_iff] at h' hl; rw [hl] at h'; cases h'
    | string h' => rw [leafTypeOf_iff] at h' hl; rw [hl] at h'; cases h'
    | boolean h' => rw [leafTypeOf_iff] at h' hl; rw [hl] at h'; cases h'
    | id h' => rw [leafTypeOf_iff] at h' hl; rw [hl] at h'; cases h'
    | custom h' => rw [leafTypeOf_iff] at h' hl; rw [hl] at h'; cases h'

theorem leafKind_cases (type : Str) (P : Prop)
    (enum : S.kind type = some .enum → leafKind S type = .enum → P)
    (int : S.kind type ≠ some .enum → leafKind S type = .int → (∀ v, parseLeaf S type v = wrap .int (parseInt v)) →
      emptyLeaf S type = .int 0 → P)
    (float : S.kind type ≠ some .enum → leafKind S type = .float → (∀ v, parseLeaf S type v = wrap .float (parseFloat v)) →
      emptyLeaf S type = .float (.finite 0) → P)
    (string : S.kind type ≠ some .enum → leafKind S type = .string →
      (∀ v, parseLeaf S type v = wrap .string (parseString v)) → emptyLeaf S type = .string [] → P)
    (boolean : S.kind type ≠ some .enum → leafKind S type = .boolean →
      (∀ v, parseLeaf S type v = wrap .boolean (parseBoolean v)) → emptyLeaf S type = .boolean false → P)
    (id : S.kind type ≠ some .enum → leafKind S type = .id → (∀ v, parseLeaf S type v = wrap .id (parseId v)) →
      emptyLeaf S type = .id [] → P)
    (custom : S.kind type ≠ some .enum → leafKind S type = .custom →
      (∀ v, parseLeaf S type v = wrap .scalar (parseScalar v)) → emptyLeaf S type = .scalar .null → P) : P := by
  by_cases h : S.kind type = some .enum
  · exact enum h (by simp [leafKind, h])
  by_cases h1 : type = str "Int"
  · exact int h (by rw [leafKind, if_neg h, if_pos h1]) (fun v => by rw [parseLeaf, if_neg h, if_pos h1])
      (by rw [emptyLeaf, if_neg h, if_pos h1])
  by_cases h2 : type = str "Float"
  · exact float h (by rw [leafKind, if_neg h, if_neg h1, if_pos h2]) (fun v => by rw [parseLeaf, if_neg h, if_neg h1, if_pos h2])
      (by rw [emptyLeaf, if_neg h, if_neg h1, if_pos h2])
  by_cases h3 : type = str "String"
  · exact string h (by rw [leafKind, if_neg h, if_neg h1, if_neg h2, if_pos h3])
      (fun v => by rw [parseLeaf, if_neg h, if_neg h1, if_neg h2, if_pos h3])
      (by rw [emptyLeaf, if_neg h, if_neg h1, if_neg h2, if_pos h3])
  by_cases h4 : type = str "Boolean"
  · exact boolean h (by rw [leafKind, if_neg h, if_neg h1, if_neg h2, if_neg h3, if_pos h4])
      (fun v => by rw [parseLeaf, if_neg h, if_neg h1, if_neg h2, if_neg h3, if_pos h4])
      (by rw [emptyLeaf, if_neg h, if_neg h1, if_neg h2, if_neg h3, if_pos h4])
  by_cases h5 : type = str "ID"
  · exact id h (by rw [leafKind, if_neg h, if_neg h1, if_neg h2, if_neg h3, if_neg h4, if_pos h5])
      (fun v => by rw [parseLeaf, if_neg h, if_neg h1, if_neg h2, if_neg h3, if_neg h4, if_pos h5])
      (by rw [emptyLeaf, if_neg h, if_neg h1, if_neg h2, if_neg h3, if_neg h4, if_pos h5])
  · exact custom h (by rw [leafKind, if_neg h, if_neg h1, if_neg h2, if_neg h3, if_neg h4, if_neg h5])
      (fun v => by rw [parseLeaf, if_neg h, if_neg h1, if_neg h2, if_neg h3, if_neg h4, if_neg h5])
      (by rw [emptyLeaf, if_neg h, if_neg h1, if_neg h2, if_neg h3, if_neg h4, if_neg h5])

theorem leafHolds_kind {type : Str} {v : Resp} {d : Data} : LeafHolds S type v d ↔
    (leafKind S type = .int ∧ ∃ i, v = .int i ∧ d = .int i) ∨
    (leafKind S type = .float ∧ ∃ x, (v = .float x ∨ ∃ i, v = .int i ∧ x = .finite i) ∧ d = .float x) ∨
    (leafKind S type = .string ∧ ∃ s j, v = .string s j ∧ d = .string s) ∨
    (leafKind S type = .boolean ∧ ∃ b, v = .boolean b ∧ d = .boolean b) ∨
    (leafKind S type = .id ∧ ∃ s j bytes, v = .string s j ∧ Verif.Base64.fromBase64 s = .ok bytes ∧ d = .id bytes) ∨
    (leafKind S type = .enum ∧ LeafHolds S type v d) ∨
    (leafKind S type = .custom ∧ d = .scalar v) := by
  constructor
  · intro h
    have h' := h
    cases h with
    | int h => exact .inl ⟨leafTypeOf_iff.mp h, _, rfl, rfl⟩
    | float h => exact .inr (.inl ⟨leafTypeOf_iff.mp h, _, .inl rfl, rfl⟩)
    | integral h => exact .inr (.inl ⟨leafTypeOf_iff.mp h, _, .inr ⟨_, rfl, rfl⟩, rfl⟩)
    | string h => exact .inr (.inr (.inl ⟨leafTypeOf_iff.mp h, _, _, rfl, rfl⟩))
    | boolean h => exact .inr (.inr (.inr (.inl ⟨leafTypeOf_iff.mp h, _, rfl, rfl⟩)))
    | id h hb => exact .inr (.inr (.inr (.inr (.inl ⟨leafTypeOf_iff.mp h, _, _, _, rfl, hb, rfl⟩))))
    | enum h => exact .inr (.inr (.inr (.inr (.inr (.inl ⟨leafTypeOf_iff.mp h, h'⟩)))))
    | custom h => exact .inr (.inr (.inr (.inr (.inr (.inr ⟨leafTypeOf_iff.mp h, rfl⟩)))))
  · rintro (⟨h, i, rfl, rfl⟩ | ⟨h, x, rfl | ⟨i, rfl, rfl⟩, rfl⟩ | ⟨h, s, j, rfl, rfl⟩ | ⟨h, b, rfl, rfl⟩ |
      ⟨h, s, j, bytes, rfl, hb, rfl⟩ | ⟨h, h'⟩ | ⟨h, rfl⟩)
    · exact .int (leafTypeOf_iff.mpr h)
    · exact .float (leafTypeOf_iff.mpr h)
    · exact .integral (leafTypeOf_iff.mpr h)
    · exact .string (leafTypeOf_iff.mpr h)
    · exact .boolean (leafTypeOf_iff.mpr h)
    · exact .id (leafTypeOf_iff.mpr h) hb
    · exact h'
    · exact .custom (leafTypeOf_iff.mpr h)

/-- Reading a leaf. -/
theorem parseLeaf_iff (hu : UniqueNames S) (he : EnumsSafe S) {type : Str} {v : Resp} {d : Data} :
    parseLeaf S type v = .ok d ↔ LeafHolds S type v d := by
  obtain ⟨ci, cf, cs, cb, cid⟩ := C40_client_leaf v
  refine leafKind_cases (S := S) type _ ?_ ?_ ?_ ?_ ?_ ?_ ?_
  · intro h _
    rw [parseLeaf, if_pos h]
    exact parseEnum_iff hu he h
  · intro _ h hp _
    rw [hp, wrap_ok, leafHolds_kind, h]
    simp [ci]
  · intro _ h hp _
    rw [hp, wrap_ok, leafHolds_kind, h]
    simp [cf, Double.ofInt]
  · intro _ h hp _
    rw [hp, wrap_ok, leafHolds_kind, h]
    simp [cs]
  · intro _ h hp _
    rw [hp, wrap_ok, leafHolds_kind, h]
    simp [cb]
  · intro _ h hp _
    rw [hp, wrap_ok, leafHolds_kind, h]
    simp only [cid, reduceCtorEq, false_and, true_and, false_or, or_false]
    constructor
    · rintro ⟨bytes, ⟨s, j, hv, hb⟩, hd⟩; exact ⟨s, j, bytes, hv, hb, hd⟩
    · rintro ⟨s, j, bytes, hv, hb, hd⟩; exact ⟨bytes, ⟨s, j, hv, hb⟩, hd⟩
  · intro _ h hp _
    rw [hp, wrap_ok, leafHolds_kind, h]
    simp [parseScalar]

/-- The empty leaf. -/
theorem leafEmpty_iff {type : Str} {d : Data} : LeafEmpty S type d ↔ d = emptyLeaf S type := by
  constructor
  · intro h
    refine leafKind_cases (S := S) type _ ?_ ?_ ?_ ?_ ?_ ?_ ?_
    · intro h1 h2
      cases h <;> rename_i h3 <;> rw [leafTypeOf_iff, h2] at h3 <;> cases h3
      simp [emptyLeaf, h1]
    all_goals
      intro _ h2 _ h4
      cases h <;> rename_i h3 <;> rw [leafTypeOf_iff, h2] at h3 <;> cases h3
      exact h4.symm
  · rintro rfl
    refine leafKind_cases (S := S) type _ ?_ ?_ ?_ ?_ ?_ ?_ ?_
    · intro h1 h2
      simp only [emptyLeaf, h1, if_true]
      exact .enum (.enum h1)
    · intro _ h2 _ h4; rw [h4]; exact .int (leafTypeOf_iff.mpr h2)
    · intro _ h2 _ h4; rw [h4]; exact .float (leafTypeOf_iff.mpr h2)
    · intro _ h2 _ h4; rw [h4]; exact .string (leafTypeOf_iff.mpr h2)
    · intro _ h2 _ h4; rw [h4]; exact .boolean (leafTypeOf_iff.mpr h2)
    · intro _ h2 _ h4; rw [h4]; exact .id (leafTypeOf_iff.mpr h2)
    · intro _ h2 _ h4; rw [h4]; exact .custom (leafTypeOf_iff.mpr h2)

/-! ## Lists -/

theorem forall₂_iff_of_mem {α β : Type} {R T : α → β → Prop} {as : List α} {bs : List β}
    (h : ∀ a ∈ as, ∀ b, R a b ↔ T a b) : List.Forall₂ R as bs ↔ List.Forall₂ T as bs := by
  induction as generalizing bs with
  | nil => cases bs <;> simp
  | cons a as ih =>
    cases bs with
    | nil => simp
    | cons b bs =>
      rw [List.forall₂_cons, List.forall₂_cons, h a List.mem_cons_self, ih fun a ha => h a (List.mem_cons_of_mem _ ha)]

theorem forall₂_mem {α β : Type} {R : α → β → Prop} {as : List α} {bs : List β} (h : List.Forall₂ R as bs) {a : α}
    (ha : a ∈ as) : ∃ b ∈ bs, R a b := by
  induction h with
  | nil => cases ha
  | cons h _ ih =>
    rcases List.mem_cons.mp ha with rfl | ha
    · exact ⟨_, List.mem_cons_self, h⟩
    · obtain ⟨b, hb, hr⟩ := ih ha
      exact ⟨b, List.mem_cons_of_mem _ hb, hr⟩

theorem each_iff {α β : Type} {R : α → β → Prop} {as : List α} {bs : List β} : Each R as bs ↔ List.Forall₂ R as bs := by
  constructor
  · intro h
    induction h with
    | nil => exact .nil
    | cons h _ ih => exact .cons h ih
  · intro h
    induction h with
    | nil => exact .nil
    | cons h _ ih => exact .cons h ih

theorem mapE_ok' {β γ : Type} {f : β → Except Exn γ} {xs : List β} {ys : List γ} :
    mapE f xs = .ok ys ↔ List.Forall₂ (fun x y => f x = .ok y) xs ys := by
  rw [mapE_ok, each_iff]

/-! ## Empty values -/

theorem emptyFields_eq (S : Schema) (fs : List ResponseField) :
    emptyFields S fs = fs.map fun f => (f.name, emptyField S f) := by
  induction fs with
  | nil => rfl
  | cons f fs ih => simp [emptyFields, ih]

theorem fieldReaders_eq (S : Schema) (fs : List ResponseField) :
    fieldReaders S fs = fs.map fun f => (f.name, parseField S f) := by
  induction fs with
  | nil => rfl
  | cons f fs ih => simp [fieldReaders, ih]

mutual
theorem isEmpty_iff : (f : ResponseField) → ∀ (ms : List Mod) (a : Arg Data), IsEmpty S f.type f.children ms a ↔
    a = Arg.empty (if S.isComposite f.type then .object (emptyFields S f.children) else emptyLeaf S f.type) ms
  | .mk type _ name pos children => by
    have ih := isEmpty_each children
    intro ms a
    show IsEmpty S type children ms a ↔
      a = Arg.empty (if S.isComposite type then .object (emptyFields S children) else emptyLeaf S type) ms
    constructor
    · intro h
      cases h with
      | none => rfl
      | list => rfl
      | leaf hc h => simp [Arg.empty, hc, leafEmpty_iff.mp h]
      | @object _ _ ds hc hn h =>
        simp only [Arg.empty, hc, if_true, Arg.leaf.injEq, Data.object.injEq]
        rw [emptyFields_eq]
        have hl : ds.length = children.length := by simpa using congrArg List.length hn
        apply List.ext_getElem (by simp [hl])
        intro i h1 h2
        have hi : i < children.length := by omega
        have hname : ds[i].1 = children[i].name := by
          have := congrArg (fun l => l[i]?) hn
          simpa [h1, hi] using this
        have hmem : (children[i], ds[i].2) ∈ children.zip (ds.map (·.2)) := by
          rw [List.mem_iff_getElem]
          exact ⟨i, by simp; omega, by simp⟩
        have := (ih _ (List.getElem_mem hi) _ _).mp (h _ _ hmem)
        rw [List.getElem_map]
        refine Prod.ext hname ?_
        rw [this]
        cases hcf : children[i]
        simp only [emptyField, ResponseField.type, ResponseField.children, ResponseField.modifiers]
        rfl
    · rintro rfl
      match ms with
      | .nullable :: _ => exact .none
      | .list :: _ => exact .list
      | [] =>
        by_cases hc : S.isComposite type = true
        case neg =>
          rw [if_neg hc]
          exact .leaf (by simpa using hc) (leafEmpty_iff.mpr rfl)
        case pos =>
          simp only [hc]
          simp only [Arg.empty, if_true]
          rw [emptyFields_eq]
          refine .object hc (by simp) ?_
          intro f a hm
          rw [List.map_map, List.zip_map_right] at hm
          obtain ⟨⟨f1, f2⟩, h1, h2⟩ := List.mem_map.mp hm
          simp only [Prod.map_apply, id_eq, Prod.mk.injEq, Function.comp] at h2
          obtain ⟨rfl, rfl⟩ := h2
          have : f1 = f2 ∧ f1 ∈ children := by
            rw [List.mem_iff_getElem] at h1
            obtain ⟨i, hi, he⟩ := h1
            simp only [List.getElem_zip, Prod.mk.injEq] at he
            exact ⟨he.1.symm.trans he.2, he.1 ▸ List.getElem_mem _⟩
          obtain ⟨rfl, hf⟩ := this
          refine (ih _ hf _ _).mpr ?_
          cases f1
          simp only [emptyField, ResponseField.type, ResponseField.children, ResponseField.modifiers]
          rfl
theorem isEmpty_each : (fs : List ResponseField) → ∀ f ∈ fs, ∀ (ms : List Mod) (a : Arg Data),
    IsEmpty S f.type f.children ms a ↔
    a = Arg.empty (if S.isComposite f.type then .object (emptyFields S f.children) else emptyLeaf S f.type) ms
  | [] => by simp
  | f :: fs => by
    intro g hg
    rcases List.mem_cons.mp hg with hg | hg
    · rw [hg]
      exact isEmpty_iff f
    · exact isEmpty_each fs g hg
end

theorem isEmpty_field {f : ResponseField} {a : Arg Data} : IsEmpty S f.type f.children f.modifiers a ↔ a = emptyField S f := by
  rw [isEmpty_iff f]
  cases f
  simp only [emptyField, ResponseField.type, ResponseField.children, ResponseField.modifiers]
  rfl

/-! ## Objects -/

/-- The loop over the members. -/
theorem readMembers_iff {readers : List (Str × (Resp → Except Exn (Arg Data)))} :
    ∀ {members : Resp.Members} {acc res : List (Str × Arg Data)}, (members.map (·.1)).Nodup →
    (∀ n, n ∈ acc.map (·.1) ↔ (readers.find? fun r => r.1 == n).isSome) →
    (readMembers readers members acc = .ok res ↔ List.Forall₂ (fun m0 m => m.1 = m0.1 ∧
      (∀ w, (m0.1, w) ∈ members → ∃ r, (readers.find? fun r => r.1 == m0.1) = some r ∧ r.2 w = .ok m.2) ∧
      ((∀ w, (m0.1, w) ∉ members) → m.2 = m0.2)) acc res) := by
  intro members
  induction members with
  | nil =>
    intro acc res _ _
    simp only [readMembers, List.not_mem_nil, not_false_eq_true, implies_true, forall_const, false_implies, true_and,
      Except.ok.injEq]
    have : ∀ m0 m : Str × Arg Data, (m.1 = m0.1 ∧ m.2 = m0.2) ↔ m0 = m := by
      intro m0 m
      rw [Prod.ext_iff]
      exact ⟨fun h => ⟨h.1.symm, h.2.symm⟩, fun h => ⟨h.1.symm, h.2.symm⟩⟩
    simp only [this]
    rw [List.forall₂_eq_eq_eq]
  | cons e rest ih =>
    obtain ⟨n, w⟩ := e
    intro acc res hn hr
    simp only [List.map_cons, List.nodup_cons] at hn
    simp only [readMembers]
    cases hf : readers.find? (fun r => r.1 == n) with
    | none =>
      simp only [ih hn.2 hr]
      refine forall₂_iff_of_mem fun m0 hm0 m => ?_
      have hne : m0.1 ≠ n := by
        rintro rfl
        have := (hr m0.1).mp (List.mem_map_of_mem hm0)
        rw [hf] at this
        cases this
      simp [hne]
    | some r =>
      obtain ⟨rn, read⟩ := r
      simp only
      cases hread : read w with
      | error e =>
        constructor
        · nofun
        · intro h
          exfalso
          obtain ⟨m0, hm0, hm0'⟩ := List.mem_map.mp ((hr n).mpr (by rw [hf]; rfl))
          subst hm0'
          obtain ⟨m, _, h1, h2, h3⟩ := forall₂_mem h hm0
          obtain ⟨r, h4, h5⟩ := h2 w List.mem_cons_self
          rw [hf] at h4
          cases h4
          simp only [hread] at h5
          cases h5
      | ok a =>
        simp only
        rw [ih hn.2 (by
          intro n'
          rw [← hr n']
          simp only [assign, List.map_map]
          have : ((fun x : Str × Arg Data => x.1) ∘ fun m : Str × Arg Data => if m.1 = n then (m.1, a) else m) = (·.1) := by
            funext m
            simp only [Function.comp]
            split <;> rfl
          rw [this])]
        unfold assign
        rw [List.forall₂_map_left_iff]
        refine forall₂_iff_of_mem fun m0 hm0 m => ?_
        by_cases hne : m0.1 = n
        · subst hne
          have hnot : ∀ w', (m0.1, w') ∉ rest := fun w' hw' => hn.1 (List.mem_map_of_mem (f := Prod.fst) hw')
          simp only [if_true, hnot, false_implies, implies_true, not_false_eq_true, forall_const, true_and, List.mem_cons,
            Prod.mk.injEq, or_false, hf, Option.some.injEq]
          constructor
          · rintro ⟨h1, h2⟩
            refine ⟨h1, fun w' hw' => ⟨_, rfl, by simp only [hw', hread, h2]⟩, fun h => absurd rfl (h w)⟩
          · rintro ⟨h1, h2, _⟩
            obtain ⟨r, rfl, h5⟩ := h2 w rfl
            simp only [hread, Except.ok.injEq] at h5
            exact ⟨h1, h5.symm⟩
        · simp [hne]

theorem find_reader {children : List ResponseField} (hn : (children.map (·.name)).Nodup) {f : ResponseField}
    (hf : f ∈ children) : (fieldReaders S children).find? (fun r => r.1 == f.name) = some (f.name, parseField S f) := by
  rw [fieldReaders_eq]
  induction children with
  | nil => cases hf
  | cons g gs ih =>
    simp only [List.map_cons, List.nodup_cons] at hn
    simp only [List.map_cons, List.find?_cons]
    rcases List.mem_cons.mp hf with rfl | hf
    · simp
    · have : g.name ≠ f.name := fun h => hn.1 (h ▸ List.mem_map_of_mem hf)
      have hb : (g.name == f.name) = false := by simpa using this
      rw [hb]
      exact ih hn.2 hf

/-- Reading an object, from reading its members. -/
theorem parseObject_iff {type : Str} (hc : S.isComposite type = true) {children : List ResponseField}
    (hn : (children.map (·.name)).Nodup)
    (ih : ∀ f ∈ children, ∀ v a, NoDuplicates v →
      (parseField S f v = .ok a ↔ Reads S f.type f.children f.modifiers v a)) {v : Resp} (hv : NoDuplicates v) {d : Data} :
    parseObject (fieldReaders S children) (emptyFields S children) v = .ok d ↔
      Reads S type children [] v (.leaf d) := by
  have hempty : ∀ a, IsEmpty S type children [] a ↔ a = .leaf (.object (emptyFields S children)) := by
    intro a
    have := isEmpty_iff (S := S) (.mk type [] [] {} children) [] a
    simpa [ResponseField.type, ResponseField.children, hc, Arg.empty] using this
  have hnot : (∀ members, v ≠ .map members) → parseObject (fieldReaders S children) (emptyFields S children) v =
      .ok (.object (emptyFields S children)) := by
    intro h
    unfold parseObject
    split
    · exact absurd rfl (h _)
    · rfl
  by_cases hm : ∃ members, v = .map members
  · obtain ⟨members, rfl⟩ := hm
    obtain ⟨hnd, hnds⟩ : (members.map (·.1)).Nodup ∧ ∀ m ∈ members, NoDuplicates m.2 := by
      cases hv with
      | map h1 h2 => exact ⟨h1, h2⟩
      | other h1 _ => exact absurd rfl (h1 _)
    have hkey : ∀ ds, readMembers (fieldReaders S children) members (emptyFields S children) = .ok ds ↔
        (ds.map (·.1) = children.map (·.name) ∧
          (∀ (f : ResponseField) a, (f, a) ∈ children.zip (ds.map (·.2)) → ∀ w, (f.name, w) ∈ members →
            Reads S f.type f.children f.modifiers w a) ∧
          ∀ (f : ResponseField) a, (f, a) ∈ children.zip (ds.map (·.2)) → (∀ w, (f.name, w) ∉ members) →
            IsEmpty S f.type f.children f.modifiers a) := by
      intro ds
      rw [readMembers_iff hnd (by
        intro n
        rw [emptyFields_eq, fieldReaders_eq]
        simp [List.find?_isSome])]
      rw [emptyFields_eq, List.forall₂_map_left_iff]
      rw [forall₂_iff_of_mem (T := fun (f : ResponseField) (m : Str × Arg Data) => m.1 = f.name ∧
        (∀ w, (f.name, w) ∈ members → Reads S f.type f.children f.modifiers w m.2) ∧
        ((∀ w, (f.name, w) ∉ members) → IsEmpty S f.type f.children f.modifiers m.2)) (by
          intro f hf m
          simp only [find_reader hn hf, Option.some.injEq, exists_eq_left', isEmpty_field]
          refine and_congr_right fun _ => and_congr ?_ Iff.rfl
          exact forall_congr' fun w => forall_congr' fun hw => ih f hf w m.2 (hnds _ hw))]
      rw [List.forall₂_iff_zip]
      constructor
      · rintro ⟨hl, h⟩
        refine ⟨?_, ?_, ?_⟩
        · apply List.ext_getElem (by simp [hl])
          intro i h1 h2
          simp only [List.length_map] at h1 h2
          simp only [List.getElem_map]
          exact (h (List.mem_iff_getElem.mpr ⟨i, by simp; omega, by simp⟩)).1
        · intro f a hm w hw
          rw [List.zip_map_right] at hm
          obtain ⟨⟨f1, m⟩, h1, h2⟩ := List.mem_map.mp hm
          simp only [Prod.map_apply, id_eq, Prod.mk.injEq] at h2
          obtain ⟨rfl, rfl⟩ := h2
          exact (h h1).2.1 w hw
        · intro f a hm hw
          rw [List.zip_map_right] at hm
          obtain ⟨⟨f1, m⟩, h1, h2⟩ := List.mem_map.mp hm
          simp only [Prod.map_apply, id_eq, Prod.mk.injEq] at h2
          obtain ⟨rfl, rfl⟩ := h2
          exact (h h1).2.2 hw
      · rintro ⟨h0, h1, h2⟩
        have hl : ds.length = children.length := by simpa using congrArg List.length h0
        refine ⟨hl.symm, ?_⟩
        intro f m hm
        have hz : (f, m.2) ∈ children.zip (ds.map (·.2)) := by
          rw [List.zip_map_right]
          exact List.mem_map.mpr ⟨_, hm, rfl⟩
        refine ⟨?_, fun w hw => h1 f _ hz w hw, fun hw => h2 f _ hz hw⟩
        obtain ⟨i, hi, he⟩ := List.mem_iff_getElem.mp hm
        simp only [List.getElem_zip, Prod.mk.injEq] at he
        simp only [List.length_zip] at hi
        have := congrArg (fun l => l[i]?) h0
        simp only [List.getElem?_map] at this
        rw [List.getElem?_eq_getElem (by omega), List.getElem?_eq_getElem (by omega)] at this
        simpa [he.1, he.2] using this
    simp only [parseObject, wrap_ok]
    constructor
    · rintro ⟨ds, h, rfl⟩
      obtain ⟨h1, h2, h3⟩ := (hkey ds).mp h
      exact .object hc h1 h2 h3
    · intro h
      cases h with
      | leaf hc' => rw [hc] at hc'; cases hc'
      | object _ h1 h2 h3 => exact ⟨_, (hkey _).mpr ⟨h1, h2, h3⟩, rfl⟩
      | notObject _ h => exact absurd rfl (h _)
  · have hm' : ∀ members, v ≠ .map members := fun m h => hm ⟨m, h⟩
    rw [hnot hm']
    constructor
    · intro h
      cases h
      exact .notObject hc hm' ((hempty _).mpr rfl)
    · intro h
      cases h with
      | leaf hc' => rw [hc] at hc'; cases hc'
      | object => exact absurd rfl (hm' _)
      | notObject _ _ h =>
        have := (hempty _).mp h
        simp only [Arg.leaf.injEq] at this
        rw [this]

/-- The modifiers. -/
theorem parse_iff {type : Str} {children : List ResponseField} {leaf : Resp → Except Exn Data}
    (hleaf : ∀ v d, NoDuplicates v → (leaf v = .ok d ↔ Reads S type children [] v (.leaf d))) (ms : List Mod) :
    ∀ (v : Resp) (a : Arg Data), NoDuplicates v →
      (Modifiers.parse leaf ms v = .ok a ↔ Reads S type children ms v a) := by
  induction ms with
  | nil =>
    intro v a hv
    simp only [Modifiers.parse]
    constructor
    · intro h
      split at h
      · rename_i d hd
        cases h
        exact (hleaf v d hv).mp hd
      · cases h
    · intro h
      have : ∃ d, a = .leaf d := by
        cases h with
        | leaf => exact ⟨_, rfl⟩
        | object => exact ⟨_, rfl⟩
        | notObject _ _ h => cases h <;> exact ⟨_, rfl⟩
      obtain ⟨d, rfl⟩ := this
      rw [(hleaf v d hv).mpr h]
  | cons m ms ih =>
    intro v a hv
    cases m with
    | nullable =>
      by_cases hn : v = .null
      · subst hn
        simp only [Modifiers.parse]
        constructor
        · intro h; cases h; exact .null
        · intro h
          cases h with
          | null => rfl
          | some h => exact absurd rfl h
      · have : Modifiers.parse leaf (.nullable :: ms) v = match Modifiers.parse leaf ms v with
            | .ok a => .ok (.some a)
            | .error e => .error e := by
          simp only [Modifiers.parse]
          cases Modifiers.parse leaf ms v <;> rfl
        rw [this]
        constructor
        · intro h
          split at h
          · rename_i a' ha'
            cases h
            exact .some hn ((ih v a' hv).mp ha')
          · cases h
        · intro h
          cases h with
          | null => exact absurd rfl hn
          | some _ h => rw [(ih _ _ hv).mpr h]
    | list =>
      by_cases hl : ∃ vs, v = .list vs
      · obtain ⟨vs, rfl⟩ := hl
        have hvs : ∀ w ∈ vs, NoDuplicates w := by
          cases hv with
          | list h => exact h
          | other _ h => exact absurd rfl (h _)
        have hmap : ∀ as, mapE (Modifiers.parse leaf ms) vs = .ok as ↔
            vs.length = as.length ∧ ∀ v a, (v, a) ∈ vs.zip as → Reads S type children ms v a := by
          intro as
          rw [mapE_ok', forall₂_iff_of_mem (T := Reads S type children ms) fun w hw a => ih w a (hvs w hw),
            List.forall₂_iff_zip]
        simp only [Modifiers.parse]
        constructor
        · intro h
          split at h
          · rename_i as has
            cases h
            obtain ⟨h1, h2⟩ := (hmap as).mp has
            exact .list h1 h2
          · cases h
        · intro h
          cases h with
          | list h1 h2 => rw [(hmap _).mpr ⟨h1, h2⟩]
          | notList h => exact absurd rfl (h _)
      · have hl' : ∀ vs, v ≠ .list vs := fun vs h => hl ⟨vs, h⟩
        have : Modifiers.parse leaf (.list :: ms) v = .ok (.list []) := by
          simp only [Modifiers.parse]
        rw [this]
        constructor
        · intro h; cases h; exact .notList hl'
        · intro h
          cases h with
          | list => exact absurd rfl (hl' _)
          | notList => rfl

mutual
/-- Reading a member. -/
theorem parseField_iff (hu : UniqueNames S) (he : EnumsSafe S) : (f : ResponseField) → Distinct f.children →
    ∀ (v : Resp) (a : Arg Data), NoDuplicates v → (parseField S f v = .ok a ↔ Reads S f.type f.children f.modifiers v a)
  | .mk type ms name pos children => by
    intro hd v a hv
    have hd' : Distinct children := hd
    obtain ⟨hn, hds⟩ := hd'
    have ih := parseFields_iff hu he children hds
    show parseField S (.mk type ms name pos children) v = .ok a ↔ Reads S type children ms v a
    rw [parseField]
    refine parse_iff (fun v d hv => ?_) ms v a hv
    by_cases hc : S.isComposite type = true
    · rw [if_pos hc]
      exact parseObject_iff hc hn ih hv
    · rw [if_neg hc, parseLeaf_iff hu he]
      have hc' : S.isComposite type = false := by simpa using hc
      constructor
      · exact fun h => .leaf hc' h
      · intro h
        cases h with
        | leaf _ h => exact h
        | object h => exact absurd h hc
        | notObject h => exact absurd h hc
theorem parseFields_iff (hu : UniqueNames S) (he : EnumsSafe S) : (fs : List ResponseField) → (∀ f ∈ fs, Distinct f.children) →
    ∀ f ∈ fs, ∀ (v : Resp) (a : Arg Data), NoDuplicates v →
      (parseField S f v = .ok a ↔ Reads S f.type f.children f.modifiers v a)
  | [] => by simp
  | f :: fs => by
    intro hd g hg
    rcases List.mem_cons.mp hg with hg | hg
    · rw [hg]
      exact parseField_iff hu he f (hd f List.mem_cons_self)
    · exact parseFields_iff hu he fs (fun f hf => hd f (List.mem_cons_of_mem _ hf)) g hg
end

end Verif.Gen.Client
