import Verif.Gen.InputClaims
import Verif.Json.Props

/-!
# C59: what a generated client sends, a generated service gets
-/
namespace Verif.Gen.Service
open Verif.Value Verif.Resp Verif.Errors Verif.Modifiers Verif.Gen
open Verif.Gen.Client (Data wrap_ok NoDuplicates safeName)
open Verif.Json.Spec (normalize normalizeList normalizeEntries)

variable {T : Types}

/-- What may happen to a value on its way from the client to the service. -/
structure Carries (g : Resp → Resp) (P : Resp → Prop) : Prop where
  null : g .null = .null
  list : ∀ vs, g (.list vs) = .list (vs.map g)
  map : ∀ ms : Members, g (.map ms) = .map (ms.map fun m => (m.1, g m.2))
  int : ∀ i, g (.int i) = .int i
  float : ∀ d, g (.float d) = .float d
  boolean : ∀ b, g (.boolean b) = .boolean b
  string : ∀ s j, ∃ k, g (.string s j) = .string s k
  enum : ∀ s, g (.enumValue s) = .enumValue s ∨ g (.enumValue s) = .string s true
  scalar : ∀ v, P v → g v = v ∧ v ≠ .null

theorem carries_id : Carries id (· ≠ .null) where
  null := rfl
  list vs := by simp
  map ms := by simp
  int _ := rfl
  float _ := rfl
  boolean _ := rfl
  string s j := ⟨j, rfl⟩
  enum s := .inl rfl
  scalar v h := ⟨rfl, h⟩

theorem normalizeList_eq (vs : List Resp) : normalizeList vs = vs.map normalize := by
  induction vs with
  | nil => simp [normalizeList]
  | cons v vs ih => simp [normalizeList, ih]

theorem normalizeEntries_eq (ms : Members) : normalizeEntries ms = ms.map fun m => (m.1, normalize m.2) := by
  induction ms with
  | nil => simp [normalizeEntries]
  | cons v vs ih => simp [normalizeEntries, ih]

theorem carries_json : Carries normalize (fun v => v ≠ .null ∧ normalize v = v) where
  null := by simp [normalize]
  list vs := by simp [normalize, normalizeList_eq]
  map ms := by simp [normalize, normalizeEntries_eq]
  int _ := by simp [normalize]
  float _ := by simp [normalize]
  boolean _ := by simp [normalize]
  string s j := ⟨true, by simp [normalize]⟩
  enum s := .inr (by simp [normalize])
  scalar v h := ⟨h.2, h.1⟩

theorem serializeArgs_eq (f : InputField) (as : List (Arg Data)) : serializeArgs T f as = as.map (serializeArg T f) := by
  induction as with
  | nil => simp [serializeArgs]
  | cons a as ih => simp [serializeArgs, ih]

theorem serializeMembers_eq (fields : List InputField) (ds : List (Str × Arg Data)) :
    serializeMembers T fields ds = (fields.zip (ds.map (·.2))).map fun x => (x.1.name, serializeArg T x.1 x.2) := by
  induction fields generalizing ds with
  | nil => simp [serializeMembers]
  | cons f fs ih =>
    rcases ds with _ | ⟨⟨n, a⟩, ds⟩
    · simp [serializeMembers]
    · simp [serializeMembers, ih]

theorem members_names {fields : List InputField} {ds : List (Str × Arg Data)} (hn : ds.map (·.1) = fields.map (·.name)) :
    (serializeMembers T fields ds).map (·.1) = fields.map (·.name) := by
  have hlen := congrArg List.length hn
  simp only [List.length_map] at hlen
  rw [serializeMembers_eq, List.map_map]
  have : (Prod.fst ∘ fun x : InputField × Arg Data => (x.1.name, serializeArg T x.1 x.2)) =
      (fun f : InputField => f.name) ∘ Prod.fst := rfl
  rw [this, ← List.map_map, List.map_fst_zip (by simp; omega)]

/-- Each field is serialised as itself. -/
theorem members_unique {fields : List InputField} (hf : (fields.map (·.name)).Nodup) {ds : List (Str × Arg Data)}
    (hn : ds.map (·.1) = fields.map (·.name)) (g : Resp → Resp) {f : InputField} {a : Arg Data}
    (hx : (f, a) ∈ fields.zip (ds.map (·.2))) (v : Resp) :
    (f.name, v) ∈ (serializeMembers T fields ds).map (fun m => (m.1, g m.2)) ↔ v = g (serializeArg T f a) := by
  have hmem : (f.name, g (serializeArg T f a)) ∈ (serializeMembers T fields ds).map (fun m => (m.1, g m.2)) := by
    rw [serializeMembers_eq, List.map_map]
    exact List.mem_map.mpr ⟨(f, a), hx, rfl⟩
  have hnd : (((serializeMembers T fields ds).map (fun m => (m.1, g m.2))).map (·.1)).Nodup := by
    rw [List.map_map]
    have : (Prod.fst ∘ fun m : Str × Resp => (m.1, g m.2)) = Prod.fst := rfl
    rw [this, members_names hn]
    exact hf
  constructor
  · intro h
    have h1 := (members_find hnd).mpr h
    rw [(members_find hnd).mpr hmem] at h1
    cases h1
    rfl
  · rintro rfl
    exact hmem

theorem single_tail {m : Mod} {ms : List Mod} (h : ∀ pre post, m :: ms ≠ pre ++ .nullable :: .nullable :: post) :
    ∀ pre post, ms ≠ pre ++ .nullable :: .nullable :: post := by
  intro pre post he
  exact h (m :: pre) post (by rw [he]; rfl)

theorem typed_coerces {g : Resp → Resp} {P : Resp → Prop} (hg : Carries g P) (hT : T.Unique) (hE : T.EnumsSafe)
    (hS : ∀ t ∈ T.inputs, SingleNullable t.fields) {kind : InputFieldType} {type : Str} {ms : List Mod} {a : Arg Data}
    (h : Typed T P kind type ms a) (hm : ∀ pre post, ms ≠ pre ++ .nullable :: .nullable :: post) :
    ∀ f : InputField, f.type = type → Coerces T kind type ms (g (serializeArg T f a)) a ∧
      (¬ Nullable ms → g (serializeArg T f a) ≠ .null) := by
  induction h with
  | none =>
    intro f _
    rw [serializeArg, hg.null]
    exact ⟨.null, fun h => absurd ⟨_, rfl⟩ h⟩
  | @some kind type ms a h ih =>
    intro f ht
    obtain ⟨h1, h2⟩ := ih (single_tail hm) f ht
    have hnn : ¬ Nullable ms := by
      rintro ⟨rest, rfl⟩
      exact hm [] rest rfl
    rw [serializeArg]
    exact ⟨.some (h2 hnn) h1, fun h => absurd ⟨_, rfl⟩ h⟩
  | @list kind type ms as h ih =>
    intro f ht
    rw [serializeArg, hg.list, serializeArgs_eq, List.map_map]
    refine ⟨.list (by simp) fun v a hx => ?_, fun _ => nofun⟩
    rw [List.zip_map_left, List.mem_map] at hx
    obtain ⟨⟨b, b'⟩, hb, he⟩ := hx
    cases he
    obtain ⟨i, hi, hbi⟩ := List.mem_iff_getElem.mp hb
    rw [List.getElem_zip] at hbi
    cases hbi
    exact (ih _ (List.getElem_mem _) (single_tail hm) f ht).1
  | int =>
    intro f _
    simp only [serializeArg, serialize, serializeLeaf, serializeInt, hg.int]
    exact ⟨.leaf .int, fun _ => nofun⟩
  | float =>
    intro f _
    simp only [serializeArg, serialize, serializeLeaf, serializeFloat, hg.float]
    exact ⟨.leaf .float, fun _ => nofun⟩
  | @string s =>
    intro f _
    simp only [serializeArg, serialize, serializeLeaf, serializeString]
    obtain ⟨k, hk⟩ := hg.string s false
    rw [hk]
    exact ⟨.leaf .string, fun _ => nofun⟩
  | boolean =>
    intro f _
    simp only [serializeArg, serialize, serializeLeaf, serializeBoolean, hg.boolean]
    exact ⟨.leaf .boolean, fun _ => nofun⟩
  | @id bytes =>
    intro f _
    obtain ⟨txt, h1, h2⟩ := Verif.Base64.C01_base64_roundtrip bytes
    simp only [serializeArg, serialize, serializeLeaf, serializeId, h1]
    obtain ⟨k, hk⟩ := hg.string txt false
    rw [hk]
    exact ⟨.leaf (.id h2), fun _ => nofun⟩
  | @scalar type v hv =>
    intro f _
    simp only [serializeArg, serialize, serializeLeaf, serializeScalar]
    obtain ⟨h1, h2⟩ := hg.scalar v hv
    rw [h1]
    exact ⟨.leaf .scalar, fun _ => h2⟩
  | @enum e i he hi =>
    intro f ht
    simp only [serializeArg, serialize, serializeEnum]
    rw [ht, values_eq hT he]
    have hs : (((e.values.map (·.value)).map safeName).getD i []) = e.values[i].value := by
      rw [List.getD_eq_getElem?_getD, List.getElem?_eq_getElem (by simpa using hi)]
      simp only [List.getElem_map, Option.getD_some]
      exact hE e he _ (List.getElem_mem _)
    rw [hs]
    have hi' : (e.values.map (·.value))[i]? = some e.values[i].value := by
      rw [List.getElem?_eq_getElem (by simpa using hi)]
      simp
    rcases hg.enum e.values[i].value with h | h
    · rw [h]
      exact ⟨.leaf (.enum he (.inr rfl) hi'), fun _ => nofun⟩
    · rw [h]
      exact ⟨.leaf (.enum he (.inl rfl) hi'), fun _ => nofun⟩
  | @object t ds ht hn h ih =>
    intro f hty
    simp only [serializeArg, serialize]
    rw [hty, fields_eq hT ht, hg.map]
    refine ⟨.object ht ?_ hn (fun f a v hx hv => ?_) (fun f a hx hab => ?_) (fun f a hx hab => ?_) (fun f a hx hab => ?_),
      fun _ => nofun⟩
    · rw [List.map_map]
      have : (Prod.fst ∘ fun m : Str × Resp => (m.1, g m.2)) = Prod.fst := rfl
      rw [this, members_names hn]
      exact hT.fields t ht
    · rw [members_unique (hT.fields t ht) hn g hx] at hv
      rw [hv]
      exact (ih f a hx (hS t ht f (List.of_mem_zip hx).1) f rfl).1
    · exact absurd ((members_unique (hT.fields t ht) hn g hx _).mpr rfl) (hab _)
    · exact absurd ((members_unique (hT.fields t ht) hn g hx _).mpr rfl) (hab _)
    · exact absurd ((members_unique (hT.fields t ht) hn g hx _).mpr rfl) (hab _)

theorem roundtrip {g : Resp → Resp} {P : Resp → Prop} (hg : Carries g P) (hT : T.Unique) (hE : T.EnumsSafe)
    (hS : ∀ t ∈ T.inputs, SingleNullable t.fields) {fields : List InputField} (hf : (fields.map (·.name)).Nodup)
    (hs : SingleNullable fields) {ds : List (Str × Arg Data)} (h : TypedMembers T P fields ds) :
    ∃ n, ∀ depth ≥ n,
      resolverArguments T depth fields ((serializeMembers T fields ds).map fun m => (m.1, g m.2)) = .ok ds := by
  refine C58_passed hT hf ⟨h.1, fun f a v hx hv => ?_, fun f a hx hab => ?_, fun f a hx hab => ?_, fun f a hx hab => ?_⟩
  · rw [members_unique hf h.1 g hx] at hv
    rw [hv]
    exact (typed_coerces hg hT hE hS (h.2 f a hx) (hs f (List.of_mem_zip hx).1) f rfl).1
  · exact absurd ((members_unique hf h.1 g hx _).mpr rfl) (hab _)
  · exact absurd ((members_unique hf h.1 g hx _).mpr rfl) (hab _)
  · exact absurd ((members_unique hf h.1 g hx _).mpr rfl) (hab _)

/-- What a generated client serialises is what a generated service passes to the resolver. -/
theorem C59_roundtrip (hT : T.Unique) (hE : T.EnumsSafe) (hS : ∀ t ∈ T.inputs, SingleNullable t.fields)
    {fields : List InputField} (hf : (fields.map (·.name)).Nodup) (hs : SingleNullable fields)
    {ds : List (Str × Arg Data)} (h : TypedMembers T (· ≠ .null) fields ds) :
    ∃ n, ∀ depth ≥ n, resolverArguments T depth fields (serializeMembers T fields ds) = .ok ds := by
  have := roundtrip carries_id hT hE hS hf hs h
  simpa using this

/-- The same through JSON, for custom scalars which JSON does not change. -/
theorem C59_json (hT : T.Unique) (hE : T.EnumsSafe) (hS : ∀ t ∈ T.inputs, SingleNullable t.fields)
    {fields : List InputField} (hf : (fields.map (·.name)).Nodup) (hs : SingleNullable fields)
    {ds : List (Str × Arg Data)} (h : TypedMembers T (fun v => v ≠ .null ∧ normalize v = v) fields ds)
    {v : Verif.Value.Value} (hb : Verif.Value.Built v) (hv : tree v = .map (serializeMembers T fields ds))
    (hr : Verif.Json.Spec.Representable (tree v)) :
    ∃ calls v' members, Verif.Json.write v = .ok calls ∧ Verif.Json.parseEvents (calls.map Verif.Json.reread) = .ok v' ∧
      tree v' = .map members ∧ ∃ n, ∀ depth ≥ n, resolverArguments T depth fields members = .ok ds := by
  obtain ⟨calls, v', h1, h2, h3⟩ := Verif.Json.C07_json_roundtrip v hb hr
  refine ⟨calls, v', _, h1, h2, ?_, roundtrip carries_json hT hE hS hf hs h⟩
  rw [h3, hv, carries_json.map]

end Verif.Gen.Service
