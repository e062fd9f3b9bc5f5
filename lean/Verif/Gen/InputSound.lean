import Verif.Gen.InputComplete
import Mathlib.Tactic.Choose

/-!
# What reaches the resolver was given, or is a default
-/
namespace Verif.Gen.Service
open Verif.Value Verif.Resp Verif.Errors Verif.Modifiers Verif.Gen
open Verif.Gen.Client (Data wrap_ok)

variable {T : Types}

theorem require_sound {conv : Resp → Res Data} {kind : InputFieldType} {type : Str}
    (hc : ∀ v d, conv v = .ok d → Obtained T kind type [] v (.leaf d)) {ms : List Mod} {name : Str} {arguments : Resp}
    {a : Arg Data} (h : require conv ms name arguments = .ok a) :
    (∃ v, lookup arguments name = .ok (some v) ∧ Obtained T kind type ms v a) ∨
      (lookup arguments name = .ok none ∧ Nullable ms ∧ a = .none) := by
  induction ms generalizing arguments a with
  | nil =>
    simp only [require, map_ok, prefixed_ok, bind_ok, of_ok, at_ok] at h
    obtain ⟨d, ⟨v, hv, hd⟩, rfl⟩ := h
    exact .inl ⟨v, hv, hc v d hd⟩
  | cons m ms ih =>
    cases m with
    | nullable =>
      simp only [require, bind_ok, of_ok] at h
      obtain ⟨o, ho, h⟩ := h
      rcases o with _ | v
      · cases h
        exact .inr ⟨ho, ⟨ms, rfl⟩, rfl⟩
      · by_cases hv : v = .null
        · subst hv
          cases h
          exact .inl ⟨_, ho, .null⟩
        · have h' : (require conv ms name arguments).map Arg.some = .ok a := by
            cases v <;> first | exact absurd rfl hv | exact h
          rw [map_ok] at h'
          obtain ⟨b, hb, rfl⟩ := h'
          rcases ih hb with ⟨w, hw, hob⟩ | ⟨hn, _⟩
          · rw [ho] at hw
            cases hw
            exact .inl ⟨v, ho, .some hv hob⟩
          · rw [ho] at hn
            cases hn
    | list =>
      simp only [require, bind_ok, of_ok, at_ok, map_ok, elementsOf_ok, mapRes_ok] at h
      obtain ⟨_, hv, vs, rfl, as, has, rfl⟩ := h
      rw [List.forall₂_iff_zip] at has
      refine .inl ⟨_, hv, .list has.1 fun v a hm => ?_⟩
      have hl : lookup (.map [(name, v)]) name = .ok (some v) := by simp [lookup, Members.find]
      rcases ih (has.2 hm) with ⟨w, hw, hob⟩ | ⟨hn, _⟩
      · rw [hl] at hw
        cases hw
        exact hob
      · rw [hl] at hn
        cases hn

theorem getArgument_sound {conv : Resp → Res Data} {fields : List InputField} (hn : (fields.map (·.name)).Nodup)
    {f : InputField} (hf : f ∈ fields)
    (hc : ∀ v d, conv v = .ok d → Obtained T f.fieldType f.type [] v (.leaf d)) {arguments : Resp} {a : Arg Data}
    (h : getArgument conv (defaults fields) f arguments = .ok a) :
    (∃ w, Given arguments f.name w ∧ Obtained T f.fieldType f.type f.modifiers w a) ∨
    ((∃ members, arguments = .map members ∧ ∀ w, (f.name, w) ∉ members) ∧ Nullable f.modifiers ∧ a = .none) ∨
    (f.defaultValue ≠ .null ∧ Obtained T f.fieldType f.type f.modifiers f.defaultValue a) := by
  unfold getArgument at h
  split at h
  · rename_i b hb
    cases h
    rcases require_sound hc hb with ⟨v, hv, hob⟩ | ⟨hv, hnl, rfl⟩
    · cases arguments <;> simp only [lookup, reduceCtorEq, Except.ok.injEq] at hv
      exact .inl ⟨v, ⟨_, rfl, members_find_mem hv⟩, hob⟩
    · cases arguments <;> simp only [lookup, reduceCtorEq, Except.ok.injEq] at hv
      exact .inr (.inl ⟨⟨_, rfl, members_find_none.mp hv⟩, hnl, rfl⟩)
  · cases h
  · split at h
    · cases h
    · rename_i hd
      have hd' : f.defaultValue ≠ .null := fun h => hd (type_null.mpr h)
      have hl := defaults_find hn hf hd'
      rcases require_sound hc h with ⟨v, hv, hob⟩ | ⟨hv, _⟩
      · rw [hl] at hv
        cases hv
        exact .inr (.inr ⟨hd', hob⟩)
      · rw [hl] at hv
        cases hv

theorem exists_zip {fields : List InputField} {ds : List (Str × Arg Data)} (hn : ds.map (·.1) = fields.map (·.name))
    {f : InputField} (hf : f ∈ fields) : ∃ a, (f, a) ∈ fields.zip (ds.map (·.2)) := by
  obtain ⟨i, hi, rfl⟩ := List.getElem_of_mem hf
  have hlen := congrArg List.length hn
  simp only [List.length_map] at hlen
  refine ⟨(ds[i]'(by omega)).2, ?_⟩
  rw [List.mem_iff_getElem]
  exact ⟨i, by simp; omega, by simp⟩

theorem sources {conv : InputField → Resp → Res Data} {fields : List InputField} (hn : (fields.map (·.name)).Nodup)
    (hc : ∀ f ∈ fields, ∀ v d, conv f v = .ok d → Obtained T f.fieldType f.type [] v (.leaf d)) {arguments : Resp}
    {ds : List (Str × Arg Data)} (h : getArguments conv (defaults fields) fields arguments = .ok ds) :
    ds.map (·.1) = fields.map (·.name) ∧ ∃ (source : InputField → Source) (given : InputField → Resp),
      (∀ f ∈ fields, source f = .given → Given arguments f.name (given f)) ∧
      (∀ (f : InputField) a, (f, a) ∈ fields.zip (ds.map (·.2)) → source f = .given →
        Obtained T f.fieldType f.type f.modifiers (given f) a) ∧
      (∀ (f : InputField) a, (f, a) ∈ fields.zip (ds.map (·.2)) → source f = .absent →
        (∃ members, arguments = .map members ∧ ∀ w, (f.name, w) ∉ members) ∧ Nullable f.modifiers ∧ a = .none) ∧
      (∀ f ∈ fields, source f = .default → f.defaultValue ≠ .null) ∧
      (∀ (f : InputField) a, (f, a) ∈ fields.zip (ds.map (·.2)) → source f = .default →
        Obtained T f.fieldType f.type f.modifiers f.defaultValue a) := by
  obtain ⟨hnames, hargs⟩ := getArguments_ok.mp h
  refine ⟨hnames, ?_⟩
  have key : ∀ f : InputField, ∃ (s : Source) (g : Resp), f ∈ fields →
      (s = .given → Given arguments f.name g) ∧ (s = .default → f.defaultValue ≠ .null) ∧
      ∀ a, (f, a) ∈ fields.zip (ds.map (·.2)) →
        (s = .given → Obtained T f.fieldType f.type f.modifiers g a) ∧
        (s = .absent → (∃ members, arguments = .map members ∧ ∀ w, (f.name, w) ∉ members) ∧ Nullable f.modifiers ∧
          a = .none) ∧
        (s = .default → Obtained T f.fieldType f.type f.modifiers f.defaultValue a) := by
    intro f
    by_cases hf : f ∈ fields
    · obtain ⟨a, ha⟩ := exists_zip hnames hf
      have hu : ∀ b, (f, b) ∈ fields.zip (ds.map (·.2)) → b = a := by
        intro b hb
        have := (hargs f b hb).symm.trans (hargs f a ha)
        cases this
        rfl
      rcases getArgument_sound hn hf (hc f hf) (hargs f a ha) with ⟨w, hw, hob⟩ | hab | ⟨hd, hob⟩
      · refine ⟨.given, w, fun _ => ⟨fun _ => hw, nofun, fun b hb => ?_⟩⟩
        rw [hu b hb]
        exact ⟨fun _ => hob, nofun, nofun⟩
      · refine ⟨.absent, .null, fun _ => ⟨nofun, nofun, fun b hb => ?_⟩⟩
        rw [hu b hb]
        exact ⟨nofun, fun _ => hab, nofun⟩
      · refine ⟨.default, .null, fun _ => ⟨nofun, fun _ => hd, fun b hb => ?_⟩⟩
        rw [hu b hb]
        exact ⟨nofun, nofun, fun _ => hob⟩
    · exact ⟨.given, .null, fun h => absurd h hf⟩
  choose source given key using key
  refine ⟨source, given, fun f hf => (key f hf).1, fun f a hx => ?_, fun f a hx => ?_, fun f hf => (key f hf).2.1,
    fun f a hx => ?_⟩
  · exact ((key f (List.of_mem_zip hx).1).2.2 a hx).1
  · exact ((key f (List.of_mem_zip hx).1).2.2 a hx).2.1
  · exact ((key f (List.of_mem_zip hx).1).2.2 a hx).2.2

theorem convert_sound (hT : T.Unique) (hC : T.Closed) (depth : Nat) {f : InputField} (hf : Known T f) {v : Resp} {d : Data}
    (h : convert T depth f v = .ok d) : Obtained T f.fieldType f.type [] v (.leaf d) := by
  induction depth generalizing f v d with
  | zero =>
    unfold convert at h
    unfold Known at hf
    split at h
    · rename_i hk
      rw [hk] at hf ⊢
      rw [of_ok] at h
      exact .leaf ((convertBuiltin_iff hf).mp h)
    · rename_i hk
      rw [hk]
      cases h
      exact .leaf .scalar
    · rename_i hk
      rw [hk]
      rw [of_ok] at h
      obtain ⟨e, he, hty⟩ := convertEnum_ok hT h
      rw [← hty] at h ⊢
      exact .leaf ((convertEnum_iff hT he).mp h)
    · cases h
  | succ n ih =>
    unfold convert at h
    unfold Known at hf
    split at h
    · rename_i hk
      rw [hk] at hf ⊢
      rw [of_ok] at h
      exact .leaf ((convertBuiltin_iff hf).mp h)
    · rename_i hk
      rw [hk]
      cases h
      exact .leaf .scalar
    · rename_i hk
      rw [hk]
      rw [of_ok] at h
      obtain ⟨e, he, hty⟩ := convertEnum_ok hT h
      rw [← hty] at h ⊢
      exact .leaf ((convertEnum_iff hT he).mp h)
    · rename_i hk
      rw [hk] at hf ⊢
      obtain ⟨t, ht, hty⟩ := hf
      dsimp only at h
      rw [map_ok] at h
      obtain ⟨ds, hds, rfl⟩ := h
      rw [← hty, fields_eq hT ht] at hds
      obtain ⟨hn, source, given, h1, h2, h3, h4, h5⟩ :=
        sources (hT.fields t ht) (fun g hg v d hd => ih (hC t ht g hg) hd) hds
      rw [← hty]
      exact .object ht hn source given h1 h2 h3 h4 h5

end Verif.Gen.Service
