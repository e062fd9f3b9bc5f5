import Verif.Gen.InputSound

/-!
# C58: the arguments of a resolver
-/
namespace Verif.Gen.Service
open Verif.Value Verif.Resp Verif.Errors Verif.Modifiers Verif.Gen
open Verif.Gen.Client (Data wrap_ok NoDuplicates)

variable {T : Types}

/-! ## The bound on the depth -/

/-- `r'` is what `r` is, unless `r` is not known yet. -/
def Res.Le {α : Type} (r r' : Res α) : Prop := r = .depth ∨ r = r'

theorem le_refl {α : Type} (r : Res α) : r.Le r := .inr rfl

theorem le_bind {α β : Type} {r r' : Res α} {f f' : α → Res β} (h : r.Le r') (hf : ∀ a, (f a).Le (f' a)) :
    (r.bind f).Le (r'.bind f') := by
  rcases h with rfl | rfl
  · exact .inl rfl
  · cases r with
    | ok a => exact hf a
    | error e => exact .inr rfl
    | depth => exact .inl rfl

theorem le_map {α β : Type} {r r' : Res α} {f : α → β} (h : r.Le r') : (r.map f).Le (r'.map f) :=
  le_bind h fun _ => le_refl _

theorem le_prefixed {α : Type} {name : Str} {r r' : Res α} (h : r.Le r') : (r.prefixed name).Le (r'.prefixed name) := by
  rcases h with rfl | rfl
  · exact .inl rfl
  · exact le_refl _

theorem le_mapRes {α β : Type} {f f' : α → Res β} (h : ∀ a, (f a).Le (f' a)) (xs : List α) :
    (mapRes f xs).Le (mapRes f' xs) := by
  induction xs with
  | nil => exact le_refl _
  | cons x xs ih => exact le_bind (h x) fun _ => le_bind ih fun _ => le_refl _

theorem le_require {conv conv' : Resp → Res Data} (h : ∀ v, (conv v).Le (conv' v)) (ms : List Mod) (name : Str)
    (arguments : Resp) : (require conv ms name arguments).Le (require conv' ms name arguments) := by
  induction ms generalizing arguments with
  | nil => exact le_map (le_prefixed (le_bind (le_refl _) h))
  | cons m ms ih =>
    cases m with
    | nullable =>
      refine le_bind (le_refl _) fun o => ?_
      split
      · exact le_refl _
      · exact le_refl _
      · exact le_map (ih _)
    | list =>
      exact le_bind (le_refl _) fun _ => le_bind (le_refl _) fun _ => le_map (le_mapRes (fun _ => ih _) _)

theorem le_getArgument {conv conv' : Resp → Res Data} (h : ∀ v, (conv v).Le (conv' v)) (defs : Resp) (f : InputField)
    (arguments : Resp) : (getArgument conv defs f arguments).Le (getArgument conv' defs f arguments) := by
  unfold getArgument
  rcases le_require h f.modifiers f.name arguments with hr | hr
  · rw [hr]
    exact .inl rfl
  · rw [← hr]
    split
    · exact le_refl _
    · exact le_refl _
    · split
      · exact le_refl _
      · exact le_require h _ _ _

theorem le_getArguments {conv conv' : InputField → Resp → Res Data} (h : ∀ f v, (conv f v).Le (conv' f v)) (defs : Resp)
    (fields : List InputField) (arguments : Resp) :
    (getArguments conv defs fields arguments).Le (getArguments conv' defs fields arguments) := by
  induction fields with
  | nil => exact le_refl _
  | cons f fs ih => exact le_bind (le_getArgument (h f) _ _ _) fun _ => le_bind ih fun _ => le_refl _

theorem le_convert (T : Types) {depth depth' : Nat} (hd : depth ≤ depth') (f : InputField) (v : Resp) :
    (convert T depth f v).Le (convert T depth' f v) := by
  induction depth generalizing depth' f v with
  | zero =>
    unfold convert
    split <;> first | exact le_refl _ | exact .inl rfl
  | succ n ih =>
    obtain ⟨m, rfl⟩ : ∃ m, depth' = m + 1 := ⟨depth' - 1, by omega⟩
    unfold convert
    split <;> first | exact le_refl _ | exact le_map (le_getArguments (fun f v => ih (by omega) f v) _ _ _)

/-- A recursion which ends has the same result for all bounds which are large enough. -/
theorem C58_bound (T : Types) {depth depth' : Nat} (hd : depth ≤ depth') (fields : List InputField) (members : Members)
    (h : resolverArguments T depth fields members ≠ .depth) :
    resolverArguments T depth' fields members = resolverArguments T depth fields members := by
  rcases le_getArguments (fun f v => le_convert T hd f v) (defaults fields) fields (.map members) with hr | hr
  · exact absurd hr h
  · exact hr.symm

/-! ## Valid arguments -/

/-- Valid arguments reach the resolver: those which are given, null for the others which can be null, and otherwise the
default. -/
theorem C58_passed (hT : T.Unique) {fields : List InputField} (hf : (fields.map (·.name)).Nodup) {members : Members}
    {ds : List (Str × Arg Data)} (h : Passed T fields members ds) :
    ∃ n, ∀ depth ≥ n, resolverArguments T depth fields members = .ok ds := by
  obtain ⟨n, ih⟩ := eventually (l := fields.zip (ds.map (·.2))) (P := fun d (x : InputField × Arg Data) =>
    getArgument (convert T d x.1) (defaults fields) x.1 (.map members) = .ok x.2) (by
      rintro ⟨f, a⟩ hx
      have hm : f ∈ fields := (List.of_mem_zip hx).1
      cases hv : Members.find members f.name with
      | some v =>
        obtain ⟨n, hn'⟩ := require_coerces hT (h.given f a v hx (members_find_mem hv))
        refine ⟨n, fun d hd => getArgument_passed hf hm ?_ (h.null f a hx) (h.required f a hx) ?_⟩
        · intro w _ hw
          rw [hv] at hw
          cases hw
          exact hn' d hd f rfl rfl _ _ (by simp [lookup, hv])
        · exact fun hab => absurd (members_find_mem hv) (hab v)
      | none =>
        by_cases hnl : Nullable f.modifiers
        · refine ⟨0, fun d hd => getArgument_passed hf hm ?_ (h.null f a hx) (h.required f a hx) ?_⟩
          · exact fun w hw => absurd hw (members_find_none.mp hv w)
          · exact fun _ h => absurd hnl h
        · obtain ⟨n, hn'⟩ := require_coerces hT (h.default f a hx (members_find_none.mp hv) hnl)
          refine ⟨n, fun d hd => getArgument_passed hf hm ?_ (h.null f a hx) (h.required f a hx) ?_⟩
          · exact fun w hw => absurd hw (members_find_none.mp hv w)
          · exact fun _ _ hl => hn' d hd f rfl rfl _ _ hl)
  exact ⟨n, fun d hd => getArguments_ok.mpr ⟨h.names, fun f a hx => ih d hd (f, a) hx⟩⟩

/-- A valid value which is given is what the resolver gets: it is not replaced by the default. -/
theorem C58_given (hT : T.Unique) {fields : List InputField} {members : Members} (hm : (members.map (·.1)).Nodup)
    {ds : List (Str × Arg Data)} {depth : Nat} (h : resolverArguments T depth fields members = .ok ds) {f : InputField}
    {a b : Arg Data} (hx : (f, a) ∈ fields.zip (ds.map (·.2))) {w : Resp} (hw : (f.name, w) ∈ members)
    (hc : Coerces T f.fieldType f.type f.modifiers w b) : a = b := by
  obtain ⟨n, hn⟩ := require_coerces hT hc
  have h' : resolverArguments T (max depth n) fields members = .ok ds := by
    rw [C58_bound T (Nat.le_max_left _ _) fields members (by rw [h]; exact nofun), h]
  have h1 := (getArguments_ok.mp h').2 f a hx
  have h2 := hn (max depth n) (Nat.le_max_right _ _) f rfl rfl f.name (.map members)
    (by simp [lookup, (members_find hm).mpr hw])
  unfold getArgument at h1
  rw [h2] at h1
  cases h1
  rfl

/-! ## All arguments -/

/-- What reaches the resolver was given, or is null, or is a default. -/
theorem C58_received (hT : T.Unique) (hC : T.Closed) {fields : List InputField} (hf : (fields.map (·.name)).Nodup)
    (hk : ∀ f ∈ fields, Known T f) {members : Members} {ds : List (Str × Arg Data)} {depth : Nat}
    (h : resolverArguments T depth fields members = .ok ds) : Received T fields members ds := by
  obtain ⟨hn, hargs⟩ := getArguments_ok.mp h
  refine ⟨hn, fun f a hx => ?_⟩
  have hm : f ∈ fields := (List.of_mem_zip hx).1
  rcases getArgument_sound hf hm (fun v d hd => convert_sound hT hC depth (hk f hm) hd) (hargs f a hx) with
    ⟨w, ⟨members', he, hw⟩, hob⟩ | ⟨⟨members', he, hab⟩, hnl, rfl⟩ | hd
  · cases he
    exact .inl ⟨w, hw, hob⟩
  · cases he
    exact .inr (.inl ⟨hab, hnl, rfl⟩)
  · exact .inr (.inr hd)

theorem obtained_coerces (hD : T.NoDefaults) (hF : ∀ t ∈ T.inputs, t.fields ≠ []) {kind : InputFieldType} {type : Str}
    {ms : List Mod} {v : Resp} {a : Arg Data} (h : Obtained T kind type ms v a) (hv : NoDuplicates v) :
    Coerces T kind type ms v a := by
  induction h with
  | null => exact .null
  | some hv' _ ih => exact .some hv' (ih hv)
  | list hl _ ih =>
    refine .list hl fun v a hm => ih v a hm ?_
    cases hv with
    | list h => exact h v (List.of_mem_zip hm).1
    | other _ hl => exact absurd rfl (hl _)
  | leaf h => exact .leaf h
  | @object t v ds ht hn source given hgiven hvalue habsent hdefault hdefaultValue ih1 ih2 =>
    have hs : ∀ f ∈ t.fields, source f ≠ .default := fun f hf h => hdefault f hf h (hD t ht f hf)
    have hmap : ∃ members, v = .map members := by
      obtain ⟨f, hf⟩ := List.exists_mem_of_ne_nil _ (hF t ht)
      obtain ⟨a, ha⟩ := exists_zip hn hf
      cases hsf : source f with
      | given =>
        obtain ⟨members, hm, _⟩ := hgiven f hf hsf
        exact ⟨members, hm⟩
      | absent =>
        obtain ⟨⟨members, hm, _⟩, _⟩ := habsent f a ha hsf
        exact ⟨members, hm⟩
      | default => exact absurd hsf (hs f hf)
    obtain ⟨members, rfl⟩ := hmap
    have hm : (members.map (·.1)).Nodup ∧ ∀ m ∈ members, NoDuplicates m.2 := by
      cases hv with
      | map h1 h2 => exact ⟨h1, h2⟩
      | other h _ => exact absurd rfl (h _)
    have hcase : ∀ f a, (f, a) ∈ t.fields.zip (ds.map (·.2)) →
        (∃ w, (f.name, w) ∈ members ∧ Coerces T f.fieldType f.type f.modifiers w a) ∨
        ((∀ w, (f.name, w) ∉ members) ∧ Nullable f.modifiers ∧ a = .none) := by
      intro f a hx
      have hf := (List.of_mem_zip hx).1
      cases hsf : source f with
      | given =>
        obtain ⟨members', he, hw⟩ := hgiven f hf hsf
        cases he
        exact .inl ⟨_, hw, ih1 f a hx hsf (hm.2 _ hw)⟩
      | absent =>
        obtain ⟨⟨members', he, hab⟩, hnl, rfl⟩ := habsent f a hx hsf
        cases he
        exact .inr ⟨hab, hnl, rfl⟩
      | default => exact absurd hsf (hs f hf)
    refine .object ht hm.1 hn (fun f a w hx hw => ?_) (fun f a hx hab hnl => ?_) (fun f a hx hab hnl => ?_)
      (fun f a hx hab hnl => ?_)
    · rcases hcase f a hx with ⟨w', hw', hc⟩ | ⟨hab, _⟩
      · have := (members_find hm.1).mpr hw
        rw [(members_find hm.1).mpr hw'] at this
        cases this
        exact hc
      · exact absurd hw (hab w)
    · rcases hcase f a hx with ⟨w', hw', hc⟩ | ⟨_, _, rfl⟩
      · exact absurd hw' (hab w')
      · rfl
    · rcases hcase f a hx with ⟨w', hw', hc⟩ | ⟨_, hnl', _⟩
      · exact absurd hw' (hab w')
      · exact absurd hnl' hnl
    · rcases hcase f a hx with ⟨w', hw', hc⟩ | ⟨_, hnl', _⟩
      · exact absurd hw' (hab w')
      · exact absurd hnl' hnl

/-- Without defaults, exactly the valid arguments reach the resolver. -/
theorem C58_iff (hT : T.Unique) (hC : T.Closed) (hD : T.NoDefaults) (hF : ∀ t ∈ T.inputs, t.fields ≠ [])
    {fields : List InputField} (hf : (fields.map (·.name)).Nodup) (hk : ∀ f ∈ fields, Known T f)
    (hd : ∀ f ∈ fields, f.defaultValue = .null) {members : Members} (hm : NoDuplicates (.map members))
    {ds : List (Str × Arg Data)} :
    (∃ depth, resolverArguments T depth fields members = .ok ds) ↔ Passed T fields members ds := by
  constructor
  · rintro ⟨depth, h⟩
    obtain ⟨hn, hr⟩ := C58_received hT hC hf hk h
    have hm' : (members.map (·.1)).Nodup ∧ ∀ m ∈ members, NoDuplicates m.2 := by
      cases hm with
      | map h1 h2 => exact ⟨h1, h2⟩
      | other h _ => exact absurd rfl (h _)
    have hcase : ∀ f a, (f, a) ∈ fields.zip (ds.map (·.2)) →
        (∃ w, (f.name, w) ∈ members ∧ Coerces T f.fieldType f.type f.modifiers w a) ∨
        ((∀ w, (f.name, w) ∉ members) ∧ Nullable f.modifiers ∧ a = .none) := by
      intro f a hx
      rcases hr f a hx with ⟨w, hw, hob⟩ | h | ⟨hne, _⟩
      · exact .inl ⟨w, hw, obtained_coerces hD hF hob (hm'.2 _ hw)⟩
      · exact .inr h
      · exact absurd (hd f (List.of_mem_zip hx).1) hne
    refine ⟨hn, fun f a w hx hw => ?_, fun f a hx hab hnl => ?_, fun f a hx hab hnl => ?_, fun f a hx hab hnl => ?_⟩
    · rcases hcase f a hx with ⟨w', hw', hc⟩ | ⟨hab, _⟩
      · have := (members_find hm'.1).mpr hw
        rw [(members_find hm'.1).mpr hw'] at this
        cases this
        exact hc
      · exact absurd hw (hab w)
    · rcases hcase f a hx with ⟨w', hw', hc⟩ | ⟨_, _, rfl⟩
      · exact absurd hw' (hab w')
      · rfl
    · rcases hcase f a hx with ⟨w', hw', hc⟩ | ⟨_, hnl', _⟩
      · exact absurd hw' (hab w')
      · exact absurd hnl' hnl
    · rcases hcase f a hx with ⟨w', hw', hc⟩ | ⟨_, hnl', _⟩
      · exact absurd hw' (hab w')
      · exact absurd hnl' hnl
  · intro h
    obtain ⟨n, hn⟩ := C58_passed hT hf h
    exact ⟨n, hn n (Nat.le_refl n)⟩

end Verif.Gen.Service
