import Verif.Gen.InputSpec
import Verif.Gen.ParseProps

/-!
# Lemmas about arguments and input objects
-/
namespace Verif.Gen.Service
open Verif.Value Verif.Resp Verif.Errors Verif.Modifiers Verif.Gen
open Verif.Gen.Client (Data wrap_ok forall₂_iff_of_mem)

variable {T : Types}

/-! ## Lookups -/

theorem find_key {α β : Type} [BEq β] [LawfulBEq β] {key : α → β} {l : List α} (hn : (l.map key).Nodup) {a : α} (ha : a ∈ l) :
    l.find? (fun x => key x == key a) = some a := by
  induction l with
  | nil => cases ha
  | cons x xs ih =>
    simp only [List.map_cons, List.nodup_cons] at hn
    rw [List.find?_cons]
    rcases List.mem_cons.mp ha with rfl | ha
    · simp
    · have : key x ≠ key a := fun h => hn.1 (h ▸ List.mem_map_of_mem ha)
      have hb : (key x == key a) = false := by simpa using this
      rw [hb]
      exact ih hn.2 ha

theorem members_find {members : Members} (hn : (members.map (·.1)).Nodup) {name : Str} {v : Resp} :
    Members.find members name = some v ↔ (name, v) ∈ members := by
  unfold Members.find
  constructor
  · intro h
    obtain ⟨e, he, rfl⟩ := Option.map_eq_some_iff.mp h
    have h1 := List.mem_of_find?_eq_some he
    have h2 := List.find?_some he
    simp only [beq_iff_eq] at h2
    rw [← h2]
    exact h1
  · intro h
    have := find_key (key := Prod.fst) hn h
    simp only at this
    rw [this]
    rfl

theorem members_find_none {members : Members} {name : Str} :
    Members.find members name = none ↔ ∀ v, (name, v) ∉ members := by
  unfold Members.find
  simp only [Option.map_eq_none_iff, List.find?_eq_none, beq_iff_eq, Prod.forall]
  constructor
  · intro h v hv
    exact h _ _ hv rfl
  · rintro h n v hm rfl
    exact h v hm

theorem members_find_mem {members : Members} {name : Str} {v : Resp} (h : Members.find members name = some v) :
    (name, v) ∈ members := by
  unfold Members.find at h
  obtain ⟨e, he, rfl⟩ := Option.map_eq_some_iff.mp h
  have h1 := List.mem_of_find?_eq_some he
  have h2 := List.find?_some he
  simp only [beq_iff_eq] at h2
  rw [← h2]
  exact h1

theorem values_eq (hT : T.Unique) {e : EnumType} (he : e ∈ T.enums) : T.values e.type = e.values.map (·.value) := by
  unfold Types.values
  rw [find_key (key := fun e : EnumType => e.type) hT.enums he]
  rfl

theorem fields_eq (hT : T.Unique) {t : InputType} (ht : t ∈ T.inputs) : T.fields t.type = t.fields := by
  unfold Types.fields
  rw [find_key (key := fun t : InputType => t.type) hT.inputs ht]
  rfl

theorem type_null {v : Resp} : v.type = .null ↔ v = .null := by cases v <;> simp [Resp.type]

theorem defaults_find {fields : List InputField} (hn : (fields.map (·.name)).Nodup) {f : InputField} (hf : f ∈ fields)
    (hd : f.defaultValue ≠ .null) : lookup (defaults fields) f.name = .ok (some f.defaultValue) := by
  simp only [lookup, defaults]
  congr 1
  induction fields with
  | nil => cases hf
  | cons g gs ih =>
    simp only [List.map_cons, List.nodup_cons] at hn
    rw [List.filterMap_cons]
    rcases List.mem_cons.mp hf with rfl | hf
    · rw [if_neg (fun h => hd (type_null.mp h))]
      simp [Members.find]
    · have hne : g.name ≠ f.name := fun h => hn.1 (h ▸ List.mem_map_of_mem hf)
      by_cases hg : g.defaultValue.type = .null
      · rw [if_pos hg]
        exact ih hn.2 hf
      · rw [if_neg hg]
        have hb : (g.name == f.name) = false := by simpa using hne
        have := ih hn.2 hf
        unfold Members.find at this ⊢
        simp only [List.find?_cons, hb]
        exact this

/-! ## Results -/

theorem bind_ok {α β : Type} {r : Res α} {f : α → Res β} {b : β} : r.bind f = .ok b ↔ ∃ a, r = .ok a ∧ f a = .ok b := by
  cases r <;> simp [Res.bind]

theorem map_ok {α β : Type} {r : Res α} {f : α → β} {b : β} : r.map f = .ok b ↔ ∃ a, r = .ok a ∧ f a = b := by
  simp [Res.map, bind_ok]

theorem of_ok {α : Type} {r : Except Exn α} {a : α} : Res.of r = .ok a ↔ r = .ok a := by
  cases r <;> simp [Res.of]

theorem prefixed_ok {α : Type} {name : Str} {r : Res α} {a : α} : r.prefixed name = .ok a ↔ r = .ok a := by
  cases r <;> simp [Res.prefixed]

theorem at_ok {arguments : Resp} {name : Str} {v : Resp} : at_ arguments name = .ok v ↔ lookup arguments name = .ok (some v) := by
  unfold at_
  cases lookup arguments name with
  | error e => simp
  | ok o => cases o <;> simp

theorem elementsOf_ok {v : Resp} {vs : List Resp} : elementsOf v = .ok vs ↔ v = .list vs := by
  unfold elementsOf
  cases v <;> simp

theorem mapRes_ok {α β : Type} {f : α → Res β} {xs : List α} {ys : List β} :
    mapRes f xs = .ok ys ↔ List.Forall₂ (fun x y => f x = .ok y) xs ys := by
  induction xs generalizing ys with
  | nil =>
    simp only [mapRes, Res.ok.injEq, List.forall₂_nil_left_iff]
    exact eq_comm
  | cons x xs ih =>
    simp only [mapRes, bind_ok]
    constructor
    · rintro ⟨y, hy, ys', hys, h⟩
      cases h
      exact .cons hy (ih.mp hys)
    · intro h
      cases h with
      | cons h1 h2 => exact ⟨_, h1, _, ih.mpr h2, rfl⟩

/-- `Verif.Modifiers.require`, C17, is the same for arguments which are an object and a conversion which ends. -/
theorem require_eq (conv : Resp → Except Exn Data) (ms : List Mod) (name : Str) (members : Members) :
    require (fun v => .of (conv v)) ms name (.map members) = .of (Modifiers.require conv ms name members) := by
  induction ms generalizing members with
  | nil =>
    simp only [require, Modifiers.require, requireLeaf, at_, lookup, index]
    cases Members.find members name with
    | none => rfl
    | some v =>
      simp only [Res.of, Res.bind]
      cases conv v <;> rfl
  | cons m ms ih =>
    cases m with
    | nullable =>
      simp only [require, Modifiers.require, lookup]
      cases Members.find members name with
      | none => rfl
      | some v =>
        rw [ih]
        cases v <;> first | rfl | (cases Modifiers.require conv ms name members <;> rfl)
    | list =>
      simp only [require, Modifiers.require, at_, lookup, index]
      cases Members.find members name with
      | none => rfl
      | some v =>
        simp only [Res.of, Res.bind]
        cases elementsOf v with
        | error e => rfl
        | ok es =>
          simp only
          have hmap : mapRes (fun element => require (fun v => Res.of (conv v)) ms name (.map [(name, element)])) es =
              Res.of (mapE (fun element => Modifiers.require conv ms name (Members.emplace [] name element)) es) := by
            induction es with
            | nil => rfl
            | cons e es ihe =>
              simp only [mapRes, mapE, ihe]
              have : Members.emplace [] name e = [(name, e)] := by simp [Members.emplace, Members.find]
              rw [ih, this]
              cases Modifiers.require conv ms name [(name, e)] with
              | error _ => rfl
              | ok a =>
                simp only [Res.of, Res.bind]
                cases mapE (fun element => Modifiers.require conv ms name (Members.emplace [] name element)) es <;> rfl
          refine (congrArg (Res.map Arg.list) hmap).trans ?_
          cases mapE (fun element => Modifiers.require conv ms name (Members.emplace [] name element)) es <;> rfl

/-- The arguments, one by one. -/
theorem getArguments_ok {conv : InputField → Resp → Res Data} {defs : Resp} {fields : List InputField} {arguments : Resp}
    {ds : List (Str × Arg Data)} : getArguments conv defs fields arguments = .ok ds ↔
      ds.map (·.1) = fields.map (·.name) ∧
      ∀ (f : InputField) a, (f, a) ∈ fields.zip (ds.map (·.2)) → getArgument (conv f) defs f arguments = .ok a := by
  induction fields generalizing ds with
  | nil =>
    simp only [getArguments, Res.ok.injEq, List.map_nil, List.zip_nil_left, List.not_mem_nil, false_implies, implies_true,
      and_true, List.map_eq_nil_iff]
    exact eq_comm
  | cons f fs ih =>
    simp only [getArguments, bind_ok]
    constructor
    · rintro ⟨a, ha, as, has, h⟩
      cases h
      obtain ⟨h1, h2⟩ := ih.mp has
      refine ⟨by simp [h1], ?_⟩
      intro g b hm
      simp only [List.map_cons, List.zip_cons_cons, List.mem_cons, Prod.mk.injEq] at hm
      rcases hm with ⟨rfl, rfl⟩ | hm
      · exact ha
      · exact h2 g b hm
    · rintro ⟨h1, h2⟩
      cases ds with
      | nil => cases h1
      | cons d ds =>
        simp only [List.map_cons, List.cons.injEq] at h1
        refine ⟨d.2, h2 f d.2 (by simp), ds, ih.mpr ⟨h1.2, fun g b hm => h2 g b (by simp [hm])⟩, ?_⟩
        rw [← h1.1]

/-! ## Leaves -/

theorem convertEnum_iff (hT : T.Unique) {e : EnumType} (he : e ∈ T.enums) {v : Resp} {d : Data} :
    convertEnum T e.type v = .ok d ↔ LeafIs T .enum e.type v d := by
  have hfind : ∀ {s : Str} {i : Nat}, (T.values e.type).findIdx? (· == s) = some i ↔
      (e.values.map (·.value))[i]? = some s := by
    intro s i
    rw [values_eq hT he, List.findIdx?_eq_some_iff_getElem]
    constructor
    · rintro ⟨h, h1, _⟩
      rw [List.getElem?_eq_getElem h]
      simpa using h1
    · intro h
      obtain ⟨h1, h2⟩ := List.getElem?_eq_some_iff.mp h
      refine ⟨h1, by simp [h2], fun j hj => ?_⟩
      simp only [beq_iff_eq, ← h2]
      intro hc
      have := (List.Nodup.getElem_inj_iff (hT.values e he) (hi := by omega) (hj := h1)).mp hc
      omega
  constructor
  · intro h
    unfold convertEnum at h
    split at h
    · rename_i s
      dsimp only at h
      split at h
      · rename_i i hi
        cases h
        exact .enum he (.inl rfl) (hfind.mp hi)
      · cases h
    · rename_i s
      dsimp only at h
      split at h
      · rename_i i hi
        cases h
        exact .enum he (.inr rfl) (hfind.mp hi)
      · cases h
    · cases h
  · intro h
    generalize ht : e.type = type at h
    generalize hk : InputFieldType.enum = kind at h
    cases h with
    | @enum e' v s i he' hv hi =>
      have : e' = e := List.inj_on_of_nodup_map hT.enums he' he ht.symm
      subst this
      rcases hv with rfl | rfl
      · simp [convertEnum, hfind.mpr hi]
      · simp [convertEnum, hfind.mpr hi]
    | _ => cases hk

theorem convertEnum_ok (hT : T.Unique) {type : Str} {v : Resp} {d : Data} (h : convertEnum T type v = .ok d) :
    ∃ e ∈ T.enums, e.type = type := by
  by_cases hn : ∃ e ∈ T.enums, e.type = type
  · exact hn
  · exfalso
    have : T.values type = [] := by
      unfold Types.values
      have : T.enums.find? (fun e => e.type == type) = none := by
        rw [List.find?_eq_none]
        intro e he
        simp only [beq_iff_eq]
        exact fun h => hn ⟨e, he, h⟩
      rw [this]
      rfl
    unfold convertEnum at h
    rw [this] at h
    split at h <;> simp at h

theorem convertBuiltin_iff {type : Str} (ht : type ∈ builtinTypes) {v : Resp} {d : Data} :
    convertBuiltin type v = .ok d ↔ LeafIs T .builtin type v d := by
  have d1 : str "Int" ≠ str "Float" := by decide +kernel
  have d2 : str "Int" ≠ str "String" := by decide +kernel
  have d3 : str "Int" ≠ str "Boolean" := by decide +kernel
  have d4 : str "Int" ≠ str "ID" := by decide +kernel
  have d5 : str "Float" ≠ str "String" := by decide +kernel
  have d6 : str "Float" ≠ str "Boolean" := by decide +kernel
  have d7 : str "Float" ≠ str "ID" := by decide +kernel
  have d8 : str "String" ≠ str "Boolean" := by decide +kernel
  have d9 : str "String" ≠ str "ID" := by decide +kernel
  have d10 : str "Boolean" ≠ str "ID" := by decide +kernel
  obtain ⟨ci, cf, cs, cb, cid⟩ := C17_builtin v
  simp only [builtinTypes, List.mem_cons, List.not_mem_nil, or_false] at ht
  rcases ht with rfl | rfl | rfl | rfl | rfl
  · rw [convertBuiltin, if_pos rfl, wrap_ok]
    simp only [ci]
    constructor
    · rintro ⟨i, rfl, rfl⟩; exact .int
    · intro h
      generalize hx : str "Int" = x at h
      cases h <;> first | exact ⟨_, rfl, rfl⟩ | exact absurd hx (by assumption)
  · rw [convertBuiltin, if_neg d1.symm, if_pos rfl, wrap_ok]
    simp only [cf]
    constructor
    · rintro ⟨x, rfl | ⟨i, rfl, rfl⟩, rfl⟩
      · exact .float
      · exact .integral
    · intro h
      generalize hx : str "Float" = x at h
      cases h <;> first | exact ⟨_, .inl rfl, rfl⟩ | exact ⟨_, .inr ⟨_, rfl, rfl⟩, rfl⟩ | exact absurd hx (by assumption) | exact absurd hx.symm (by assumption)
  · rw [convertBuiltin, if_neg d2.symm, if_neg d5.symm, if_pos rfl, wrap_ok]
    simp only [cs]
    constructor
    · rintro ⟨s, ⟨j, rfl⟩, rfl⟩; exact .string
    · intro h
      generalize hx : str "String" = x at h
      cases h <;> first | exact ⟨_, ⟨_, rfl⟩, rfl⟩ | exact absurd hx (by assumption) | exact absurd hx.symm (by assumption)
  · rw [convertBuiltin, if_neg d3.symm, if_neg d6.symm, if_neg d8.symm, if_pos rfl, wrap_ok]
    simp only [cb]
    constructor
    · rintro ⟨b, rfl, rfl⟩; exact .boolean
    · intro h
      generalize hx : str "Boolean" = x at h
      cases h <;> first | exact ⟨_, rfl, rfl⟩ | exact absurd hx (by assumption) | exact absurd hx.symm (by assumption)
  · rw [convertBuiltin, if_neg d4.symm, if_neg d7.symm, if_neg d9.symm, if_neg d10.symm, wrap_ok]
    simp only [cid]
    constructor
    · rintro ⟨bytes, ⟨s, j, rfl, hb⟩, rfl⟩; exact .id hb
    · intro h
      generalize hx : str "ID" = x at h
      cases h <;> first | exact ⟨_, ⟨_, _, rfl, by assumption⟩, rfl⟩ | exact absurd hx.symm (by assumption)

end Verif.Gen.Service
