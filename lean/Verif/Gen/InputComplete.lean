import Verif.Gen.InputProps

/-!
# Valid arguments reach the resolver
-/
namespace Verif.Gen.Service
open Verif.Value Verif.Resp Verif.Errors Verif.Modifiers Verif.Gen
open Verif.Gen.Client (Data wrap_ok)

variable {T : Types}

theorem eventually {α : Type} {P : Nat → α → Prop} {l : List α} (h : ∀ x ∈ l, ∃ n, ∀ d ≥ n, P d x) :
    ∃ n, ∀ d ≥ n, ∀ x ∈ l, P d x := by
  induction l with
  | nil => exact ⟨0, by simp⟩
  | cons x xs ih =>
    obtain ⟨n, hn⟩ := h x (by simp)
    obtain ⟨m, hm⟩ := ih fun y hy => h y (by simp [hy])
    refine ⟨max n m, fun d hd y hy => ?_⟩
    rcases List.mem_cons.mp hy with rfl | hy
    · exact hn d (by omega)
    · exact hm d (by omega) y hy

theorem require_nil {conv : Resp → Res Data} {name : Str} {arguments v : Resp} {a : Arg Data}
    (hv : lookup arguments name = .ok (some v)) :
    require conv [] name arguments = .ok a ↔ ∃ d, conv v = .ok d ∧ a = .leaf d := by
  simp only [require, map_ok, prefixed_ok, bind_ok, of_ok, at_ok, hv]
  constructor
  · rintro ⟨d, ⟨w, hw, hd⟩, rfl⟩
    cases hw
    exact ⟨d, hd, rfl⟩
  · rintro ⟨d, hd, rfl⟩
    exact ⟨d, ⟨v, rfl, hd⟩, rfl⟩

theorem require_absent {conv : Resp → Res Data} {ms : List Mod} {name : Str} {members : Members}
    (hv : ∀ v, (name, v) ∉ members) (hm : ¬ Nullable ms) : ∃ e, require conv ms name (.map members) = .error e := by
  have hl : lookup (.map members) name = .ok none := by simp [lookup, members_find_none.mpr hv]
  rcases ms with _ | ⟨m, ms⟩
  · simp [require, at_, hl, Res.of, Res.bind, Res.prefixed, Res.map]
  · cases m with
    | nullable => exact absurd ⟨ms, rfl⟩ hm
    | list => simp [require, at_, hl, Res.of, Res.bind]

theorem convert_leaf (hT : T.Unique) {kind : InputFieldType} {type : Str} {v : Resp} {d : Data} (h : LeafIs T kind type v d)
    {f : InputField} (hk : f.fieldType = kind) (ht : f.type = type) (depth : Nat) : convert T depth f v = .ok d := by
  subst hk ht
  generalize hk : f.fieldType = kind at h
  generalize ht : f.type = type at h
  have hb : kind = .builtin → type ∈ builtinTypes → convert T depth f v = .ok d := by
    intro h1 h2
    unfold convert
    rw [hk, h1, ht]
    dsimp only
    rw [of_ok, convertBuiltin_iff (T := T) h2, ← h1]
    exact h
  cases h with
  | scalar =>
    unfold convert
    rw [hk]
    rfl
  | enum he hv hi =>
    unfold convert
    rw [hk, ht]
    dsimp only
    rw [of_ok, convertEnum_iff hT he]
    exact .enum he hv hi
  | _ => exact hb rfl (by decide +kernel)

theorem getArgument_passed {conv : Resp → Res Data} {fields : List InputField} {members : Members} {f : InputField}
    {a : Arg Data} (hn : (fields.map (·.name)).Nodup) (hf : f ∈ fields)
    (hgiven : ∀ v, (f.name, v) ∈ members → Members.find members f.name = some v →
      require conv f.modifiers f.name (.map members) = .ok a)
    (hnull : (∀ v, (f.name, v) ∉ members) → Nullable f.modifiers → a = .none)
    (hrequired : (∀ v, (f.name, v) ∉ members) → ¬ Nullable f.modifiers → f.defaultValue ≠ .null)
    (hdefault : (∀ v, (f.name, v) ∉ members) → ¬ Nullable f.modifiers →
      lookup (defaults fields) f.name = .ok (some f.defaultValue) →
      require conv f.modifiers f.name (defaults fields) = .ok a) :
    getArgument conv (defaults fields) f (.map members) = .ok a := by
  unfold getArgument
  by_cases hab : ∀ v, (f.name, v) ∉ members
  · by_cases hnl : Nullable f.modifiers
    · obtain ⟨rest, hr⟩ := hnl
      have hl : lookup (.map members) f.name = .ok none := by simp [lookup, members_find_none.mpr hab]
      have : require conv f.modifiers f.name (.map members) = .ok .none := by
        rw [hr]
        simp [require, hl, Res.of, Res.bind]
      rw [this, hnull hab ⟨rest, hr⟩]
    · obtain ⟨e, he⟩ := require_absent (conv := conv) hab hnl
      rw [he]
      dsimp only
      rw [if_neg (fun h => hrequired hab hnl (type_null.mp h))]
      exact hdefault hab hnl (defaults_find hn hf (hrequired hab hnl))
  · cases hv : Members.find members f.name with
    | none => exact absurd (members_find_none.mp hv) hab
    | some v => rw [hgiven v (members_find_mem hv) hv]

theorem require_coerces (hT : T.Unique) {kind : InputFieldType} {type : Str} {ms : List Mod} {v : Resp} {a : Arg Data}
    (h : Coerces T kind type ms v a) : ∃ n, ∀ d ≥ n, ∀ f : InputField, f.fieldType = kind → f.type = type →
      ∀ name arguments, lookup arguments name = .ok (some v) → require (convert T d f) ms name arguments = .ok a := by
  induction h with
  | null =>
    refine ⟨0, fun d _ f _ _ name arguments hl => ?_⟩
    simp [require, hl, Res.of, Res.bind]
  | @some kind type ms v a hv h ih =>
    obtain ⟨n, ih⟩ := ih
    refine ⟨n, fun d hd f hk ht name arguments hl => ?_⟩
    have := ih d hd f hk ht name arguments hl
    simp only [require, hl, Res.of, Res.bind]
    cases v <;> first | exact absurd rfl hv | simp [this, Res.map, Res.bind]
  | @list kind type ms vs as hlen h ih =>
    obtain ⟨n, ih⟩ := eventually (l := vs.zip as) (P := fun d (x : Resp × Arg Data) =>
      ∀ f : InputField, f.fieldType = kind → f.type = type → ∀ name arguments, lookup arguments name = .ok (some x.1) →
        require (convert T d f) ms name arguments = .ok x.2) (by rintro ⟨v, a⟩ hx; exact ih v a hx)
    refine ⟨n, fun d hd f hk ht name arguments hl => ?_⟩
    simp only [require, bind_ok, of_ok, at_ok, hl, map_ok, elementsOf_ok]
    refine ⟨_, rfl, _, rfl, _, mapRes_ok.mpr ?_, rfl⟩
    rw [List.forall₂_iff_zip]
    refine ⟨hlen, fun {v a} hm => ih d hd (v, a) hm f hk ht name _ ?_⟩
    simp [lookup, Members.find]
  | @leaf kind type v d h =>
    refine ⟨0, fun depth _ f hk ht name arguments hl => ?_⟩
    exact (require_nil hl).mpr ⟨d, convert_leaf hT h hk ht depth, rfl⟩
  | @object t members ds ht hm hn hgiven hnull hrequired hdefault ihg ihd =>
    obtain ⟨n, ih⟩ := eventually (l := t.fields.zip (ds.map (·.2))) (P := fun d (x : InputField × Arg Data) =>
      getArgument (convert T d x.1) (defaults t.fields) x.1 (.map members) = .ok x.2) (by
        rintro ⟨f, a⟩ hx
        have hf : f ∈ t.fields := (List.of_mem_zip hx).1
        cases hv : Members.find members f.name with
        | some v =>
          obtain ⟨n, hn'⟩ := ihg f a v hx (members_find_mem hv)
          refine ⟨n, fun d hd => getArgument_passed (hT.fields t ht) hf ?_ (hnull f a hx) (hrequired f a hx) ?_⟩
          · intro w _ hw
            rw [hv] at hw
            cases hw
            exact hn' d hd f rfl rfl _ _ (by simp [lookup, hv])
          · exact fun hab => absurd (members_find_mem hv) (hab v)
        | none =>
          by_cases hnl : Nullable f.modifiers
          · refine ⟨0, fun d hd => getArgument_passed (hT.fields t ht) hf ?_ (hnull f a hx)
              (hrequired f a hx) ?_⟩
            · exact fun w hw => absurd hw (members_find_none.mp hv w)
            · exact fun _ h => absurd hnl h
          · obtain ⟨n, hn'⟩ := ihd f a hx (members_find_none.mp hv) hnl
            refine ⟨n, fun d hd => getArgument_passed (hT.fields t ht) hf ?_ (hnull f a hx)
              (hrequired f a hx) ?_⟩
            · exact fun w hw => absurd hw (members_find_none.mp hv w)
            · exact fun _ _ hl => hn' d hd f rfl rfl _ _ hl)
    refine ⟨n + 1, fun d hd f hk hty name arguments hl => ?_⟩
    refine (require_nil hl).mpr ⟨.object ds, ?_, rfl⟩
    obtain ⟨d, rfl⟩ : ∃ e, d = e + 1 := ⟨d - 1, by omega⟩
    unfold convert
    rw [hk, hty]
    dsimp only
    rw [map_ok]
    refine ⟨ds, ?_, rfl⟩
    rw [fields_eq hT ht, getArguments_ok]
    exact ⟨hn, fun g b hx => ih d (by omega) (g, b) hx⟩

end Verif.Gen.Service
