import Verif.Gen.BuildDecls

/-!
# The members of the declared types
-/
namespace Verif.Gen
open Verif.Value Verif.Errors Verif.Modifiers Verif.TypeSystem
open Verif.Schema.Wrap (Kind Addr)

variable {alloc : List Op → Addr}

/-- `m` has the types `ns` of the kind `k`. -/
structure Mapped (k : Kind) (m : TypeMap) (ns : List Str) (st : BuildState) : Prop where
  found : ∀ n ∈ ns, ∃ a, m.lookup n = some a ∧ st.schema.lookupType n = .ok a ∧ st.schema.Is a [k]
  missing : ∀ n, n ∉ ns → m.lookup n = none

theorem Steps.is {st st' : BuildState} {c : List Op} (h : Steps st st' c) {a : Addr} {ks : List Kind}
    (ha : st.schema.Is a ks) : st'.schema.Is a ks := by
  obtain ⟨m, h1, h2, h3⟩ := h.more
  clear h1 h3 h
  revert ha
  generalize st.schema = s at h2
  generalize st'.schema = s' at h2
  induction h2 with
  | nil => exact id
  | cons hv _ ih =>
    rintro ⟨t, ht, hk⟩
    obtain ⟨t', ht', e, _⟩ := apply_keeps hv ht
    exact ih ⟨t', ht', e ▸ hk⟩

theorem Mapped.stable (k : Kind) (m : TypeMap) (ns : List Str) : Stable fun st => Mapped k m ns st :=
  fun _ _ _ h hi hi' hm => ⟨fun n hn => let ⟨a, h1, h2, h3⟩ := hm.found n hn; ⟨a, h1, h.lookup hi hi' h2, h.is h3⟩, fun n hn => hm.missing n hn⟩

theorem lookup_stable (n : Str) (a : Addr) : Stable fun st => st.schema.lookupType n = .ok a :=
  fun _ _ _ h hi hi' hl => h.lookup hi hi' hl

theorem Stable.and {P Q : BuildState → Prop} (hP : Stable P) (hQ : Stable Q) : Stable fun st => P st ∧ Q st :=
  fun st st' c hs hi hi' h => ⟨hP st st' c hs hi hi' h.1, hQ st st' c hs hi hi' h.2⟩

theorem Stable.const (p : Prop) : Stable fun _ => p := fun _ _ _ _ _ _ h => h

theorem Stable.exists {α : Type} {P : α → BuildState → Prop} (h : ∀ x, Stable (P x)) : Stable fun st => ∃ x, P x st :=
  fun st st' c hs hi hi' ⟨x, hx⟩ => ⟨x, h x st st' c hs hi hi' hx⟩

/-- A call, unless there is nothing to say. -/
def optCall {β : Type} (op : Addr → List β → Op) (a : Addr) (vs : List β) : List Op := if vs.isEmpty then [] else [op a vs]

/-- The type `n` is given the members `vs`. -/
def Given {β : Type} (op : Addr → List β → Op) (R : BuildState → List β → Prop) (n : Str) (st : BuildState) (c : List Op) :
    Prop := ∃ a vs, st.schema.lookupType n = .ok a ∧ R st vs ∧ c = optCall op a vs

theorem Given.stable {β : Type} (op : Addr → List β → Op) {R : BuildState → List β → Prop} (hR : ∀ vs, Stable fun st => R st vs)
    (n : Str) (c : List Op) : Stable fun st => Given op R n st c :=
  Stable.exists fun _ => Stable.exists fun vs => (lookup_stable n _).and ((hR vs).and (Stable.const _))

/-- The interfaces of an object, then its fields. -/
def GivenBoth (n : Str) (is : List Str) (fs : List OutputField) (st : BuildState) (c : List Op) : Prop :=
  ∃ a as vs, st.schema.lookupType n = .ok a ∧ List.Forall₂ (fun n i => st.schema.lookupType n = .ok i) is as ∧
    List.Forall₂ (FieldOk st) fs vs ∧ c = optCall .addInterfaces a as ++ optCall .addFields a vs

theorem lookups_stable (ns : List Str) (as : List Addr) :
    Stable fun st => List.Forall₂ (fun n i => st.schema.lookupType n = .ok i) ns as :=
  forall₂_stable (R := fun st n i => st.schema.lookupType n = .ok i) lookup_stable ns as

theorem fields_stable (fs : List OutputField) (vs : List Field) : Stable fun st => List.Forall₂ (FieldOk st) fs vs :=
  forall₂_stable FieldOk.stable fs vs

theorem inputs_stable (fs : List InputField) (vs : List InputValue) : Stable fun st => List.Forall₂ (InputOk st) fs vs :=
  forall₂_stable InputOk.stable fs vs

theorem GivenBoth.stable (n : Str) (is : List Str) (fs : List OutputField) (c : List Op) : Stable fun st => GivenBoth n is fs st c :=
  Stable.exists fun _ => Stable.exists fun as => Stable.exists fun vs =>
    (lookup_stable n _).and ((lookups_stable is as).and ((fields_stable fs vs).and (Stable.const _)))

theorem quiet_one {op : Op} (h : ∀ n a, op ≠ .addType n a) : Quiet [op] := by
  intro o ho n a; simp at ho; subst ho; exact h n a

/-- The members of an enum. -/
def enumMembers (t : EnumType) : List EnumValue :=
  t.values.map fun v => { name := v.value, description := v.description, deprecationReason := v.deprecationReason }

theorem outcome_enums {m : TypeMap} {ns : List Str} (ts : List EnumType) (hts : ∀ t ∈ ts, t.type ∈ ns) {st : BuildState}
    (hi : Inv st) (hm : Mapped .enum m ns st) :
    Outcome alloc (ts.forM (enumDetails m)) st True fun _ st' => ∃ cs, Quiet cs.flatten ∧ Steps st st' cs.flatten ∧
      List.Forall₂ (fun t c => Given .addEnumValues (fun _ vs => vs = enumMembers t) t.type st' c) ts cs := by
  refine (outcome_forM (known := fun _ => True) (Mapped.stable .enum m ns).kept
    (R := fun st t c => Given .addEnumValues (fun _ vs => vs = enumMembers t) t.type st c)
    (fun t c => Given.stable _ (R := fun _ vs => vs = enumMembers t) (fun vs => Stable.const (vs = enumMembers t)) _ _) ts ?_ st hi hm).mono (by simp) fun _ _ h => h
  intro t ht st hi hm
  obtain ⟨a, h1, h2, h3⟩ := hm.found t.type (hts t ht)
  simp only [enumDetails, h1]
  split
  · rename_i he
    refine outcome_pure () ⟨[], .nil, .refl st, a, [], h2, ?_, by simp [optCall]⟩
    simp [enumMembers, List.isEmpty_iff.1 he]
  · rename_i he
    refine outcome_call (.addEnumValues a (enumMembers t)) h3 rfl ?_
    intro st' hs
    refine ⟨[.addEnumValues a (enumMembers t)], quiet_one nofun, hs, a, _, hs.lookup hi (hs.inv hi (quiet_one nofun)) h2, rfl, ?_⟩
    show _ = optCall _ _ (enumMembers t)
    rw [optCall, if_neg (by simpa [enumMembers] using he)]

theorem forall₂_empty {α β : Type} {R : α → β → Prop} {xs : List α} {ys : List β} (h : List.Forall₂ R xs ys) :
    ys.isEmpty = xs.isEmpty := by cases h <;> rfl

/-- Members are computed, and given to a type. -/
theorem outcome_given {α β : Type} {compute : Build (List β)} {op : Addr → List β → Op} {R : BuildState → α → β → Prop}
    (hR : ∀ x y, Stable fun st => R st x y) {xs : List α} {known : Prop} {st : BuildState} (hi : Inv st) {n : Str} {a : Addr} {k : Kind}
    (hl : st.schema.lookupType n = .ok a) (ha : st.schema.Is a [k])
    (hv : ∀ (s : Schema) vs, s.Is a [k] → (op a vs).Valid s) (hw : ∀ vs, isWrap (op a vs) = false)
    (hq : ∀ vs, Quiet [op a vs]) (hk : xs = [] → known)
    (hc : Outcome alloc compute st known fun vs st' => Steps st st' [] ∧ List.Forall₂ (R st') xs vs) :
    Outcome alloc (if xs.isEmpty then pure () else compute >>= fun vs => call (op a vs)) st known fun _ st' =>
      ∃ c, Quiet c ∧ Steps st st' c ∧ Given op (fun st => List.Forall₂ (R st) xs) n st' c := by
  split
  · rename_i he
    obtain rfl := List.isEmpty_iff.1 he
    exact (outcome_pure () ⟨[], .nil, .refl st, a, [], hl, .nil, by simp [optCall]⟩).mono (by simp [hk]) fun _ _ h => h
  · rename_i he
    refine (hc.bind (q := True) fun vs st₁ ⟨h4, h5⟩ => ?_).mono (by simp) fun _ _ h => h
    have hi₁ := h4.inv hi .nil
    refine outcome_call _ (hv _ vs (h4.is ha)) (hw vs) ?_
    intro st₂ h6
    refine ⟨_, hq vs, h4.trans h6, a, vs, ?_, ?_, ?_⟩
    · exact h6.lookup hi₁ (h6.inv hi₁ (hq vs)) (h4.lookup hi hi₁ hl)
    · exact forall₂_stable hR _ _ _ _ _ h6 hi₁ (h6.inv hi₁ (hq vs)) h5
    · rw [optCall, if_neg (by rw [forall₂_empty h5]; exact he)]

theorem Is.weaken {s : Schema} {a : Addr} {k : Kind} {ks : List Kind} (h : s.Is a [k]) (hk : k ∈ ks) : s.Is a ks := by
  obtain ⟨t, h1, h2⟩ := h
  simp at h2
  exact ⟨t, h1, h2 ▸ hk⟩

theorem outcome_inputTypes (hf : FreshAddrs alloc) {m : TypeMap} {ns : List Str} (ts : List InputType)
    (hts : ∀ t ∈ ts, t.type ∈ ns) {st : BuildState} (hi : Inv st) (hm : Mapped .inputObject m ns st) :
    Outcome alloc (ts.forM (inputDetails m)) st (∀ t ∈ ts, ∀ f ∈ t.fields, f.type ∈ names st) fun _ st' =>
      ∃ cs, Quiet cs.flatten ∧ Steps st st' cs.flatten ∧
      List.Forall₂ (fun t c => Given .addInputValues (fun st => List.Forall₂ (InputOk st) t.fields) t.type st' c) ts cs := by
  refine outcome_forM ((kept_names (names st)).and (Mapped.stable .inputObject m ns).kept)
    (R := fun st t c => Given .addInputValues (fun st => List.Forall₂ (InputOk st) t.fields) t.type st c)
    (fun t c => Given.stable _ (fun vs => inputs_stable _ _) _ _) ts ?_ st hi ⟨rfl, hm⟩
  intro t ht st hi ⟨hN, hm⟩
  obtain ⟨a, h1, h2, h3⟩ := hm.found t.type (hts t ht)
  simp only [inputDetails, h1]
  exact outcome_given (R := InputOk) InputOk.stable hi h2 h3 (fun _ _ h => h) (fun _ => rfl) (fun _ => quiet_one nofun)
    (by intro e; simp [e]) (hN ▸ outcome_inputs hf hi t.fields)

theorem outcome_lookups {st : BuildState} (hi : Inv st) (ns : List Str) :
    Outcome alloc (ns.mapM lookupType) st (∀ n ∈ ns, n ∈ names st) fun vs st' => Steps st st' [] ∧
      List.Forall₂ (fun n a => st'.schema.lookupType n = .ok a) ns vs :=
  outcome_mapM (R := fun st n a => st.schema.lookupType n = .ok a) lookup_stable ns
    (fun n _ _ hi' hN => hN ▸ outcome_lookup hi' n) st hi rfl

theorem outcome_unions {m : TypeMap} {ns : List Str} (ts : List UnionType)
    (hts : ∀ t ∈ ts, t.type ∈ ns) {st : BuildState} (hi : Inv st) (hm : Mapped .union m ns st) :
    Outcome alloc (ts.forM (unionDetails m)) st (∀ t ∈ ts, ∀ n ∈ t.options, n ∈ names st) fun _ st' =>
      ∃ cs, Quiet cs.flatten ∧ Steps st st' cs.flatten ∧
      List.Forall₂ (fun t c => Given .addPossibleTypes
        (fun st => List.Forall₂ (fun n a => st.schema.lookupType n = .ok a) t.options) t.type st' c) ts cs := by
  refine outcome_forM ((kept_names (names st)).and (Mapped.stable .union m ns).kept)
    (R := fun st t c => Given .addPossibleTypes
        (fun st => List.Forall₂ (fun n a => st.schema.lookupType n = .ok a) t.options) t.type st c)
    (fun t c => Given.stable _ (fun vs => lookups_stable _ _) _ _) ts ?_ st hi ⟨rfl, hm⟩
  intro t ht st hi ⟨hN, hm⟩
  obtain ⟨a, h1, h2, h3⟩ := hm.found t.type (hts t ht)
  simp only [unionDetails, h1]
  exact outcome_given (R := fun st n a => st.schema.lookupType n = .ok a) lookup_stable hi h2 h3 (fun _ _ h => h) (fun _ => rfl) (fun _ => quiet_one nofun)
    (by intro e; simp [e]) (hN ▸ outcome_lookups hi t.options)

/-- All that a list of fields needs. -/
def FieldsKnown (N : List Str) (fs : List OutputField) : Prop :=
  ∀ f ∈ fs, (∀ a ∈ f.arguments, a.type ∈ N) ∧ f.type ∈ N

theorem outcome_interfaces (hf : FreshAddrs alloc) {m : TypeMap} {ns : List Str} (ts : List InterfaceType)
    (hts : ∀ t ∈ ts, t.type ∈ ns) {st : BuildState} (hi : Inv st) (hm : Mapped .interface m ns st) :
    Outcome alloc (ts.forM (interfaceDetails m)) st (∀ t ∈ ts, FieldsKnown (names st) t.fields) fun _ st' =>
      ∃ cs, Quiet cs.flatten ∧ Steps st st' cs.flatten ∧
      List.Forall₂ (fun t c => Given .addFields (fun st => List.Forall₂ (FieldOk st) t.fields) t.type st' c) ts cs := by
  refine outcome_forM ((kept_names (names st)).and (Mapped.stable .interface m ns).kept)
    (R := fun st t c => Given .addFields (fun st => List.Forall₂ (FieldOk st) t.fields) t.type st c)
    (fun t c => Given.stable _ (fun vs => fields_stable _ _) _ _) ts ?_ st hi ⟨rfl, hm⟩
  intro t ht st hi ⟨hN, hm⟩
  obtain ⟨a, h1, h2, h3⟩ := hm.found t.type (hts t ht)
  simp only [interfaceDetails, h1]
  exact outcome_given (R := FieldOk) FieldOk.stable hi h2 h3 (fun _ _ h => Is.weaken h (by simp)) (fun _ => rfl) (fun _ => quiet_one nofun)
    (by intro e; simp [e, FieldsKnown]) (hN ▸ outcome_fields hf hi t.fields)

theorem outcome_findInterface {m : TypeMap} {ns : List Str} {st : BuildState} (hm : Mapped .interface m ns st) (n : Str) :
    Outcome alloc (findInterface m n) st (n ∈ ns) fun a st' => Steps st st' [] ∧ st'.schema.lookupType n = .ok a ∧
      st'.schema.Is a [.interface] := by
  unfold findInterface
  by_cases hn : n ∈ ns
  · obtain ⟨a, h1, h2, h3⟩ := hm.found n hn
    rw [h1]
    exact (outcome_pure a ⟨.refl st, h2, h3⟩).mono (by simp [hn]) fun _ _ h => h
  · rw [hm.missing n hn]
    exact outcome_throw _ |>.mono (by simp [hn]) fun _ _ h => h

theorem forall₂_right {α β : Type} {R : α → β → Prop} {xs : List α} {ys : List β} (h : List.Forall₂ R xs ys) {y : β}
    (hy : y ∈ ys) : ∃ x ∈ xs, R x y := by
  induction h with
  | nil => cases hy
  | cons h1 _ ih =>
    rcases List.mem_cons.1 hy with rfl | hy
    · exact ⟨_, by simp, h1⟩
    · obtain ⟨x, hx, h⟩ := ih hy; exact ⟨x, by simp [hx], h⟩

theorem is_stable (a : Addr) (ks : List Kind) : Stable fun st => st.schema.Is a ks := fun _ _ _ h _ _ hl => h.is hl

theorem outcome_findInterfaces {m : TypeMap} {ns : List Str} {st : BuildState} (hi : Inv st) (hm : Mapped .interface m ns st)
    (is : List Str) :
    Outcome alloc (is.mapM (findInterface m)) st (∀ n ∈ is, n ∈ ns) fun as st' => Steps st st' [] ∧
      List.Forall₂ (fun n a => st'.schema.lookupType n = .ok a ∧ st'.schema.Is a [.interface]) is as := by
  induction is generalizing st with
  | nil =>
    rw [List.mapM_nil]
    exact (outcome_pure [] ⟨.refl st, .nil⟩).mono (by simp) fun _ _ h => h
  | cons n is ih =>
    rw [List.mapM_cons]
    refine ((outcome_findInterface hm n).bind (q := ∀ x ∈ is, x ∈ ns) fun y st₁ ⟨h1, hr⟩ => ?_).mono (by simp) fun _ _ h => h
    have hi₁ := h1.inv hi .nil
    refine ((ih hi₁ (Mapped.stable _ _ _ _ _ _ h1 hi hi₁ hm)).bind (q := True) fun ys st₂ ⟨h2, hrs⟩ => ?_).mono (by simp)
      fun _ _ h => h
    exact outcome_pure _ ⟨h1.trans h2, .cons ⟨h2.lookup hi₁ (h2.inv hi₁ .nil) hr.1, h2.is hr.2⟩ hrs⟩

theorem outcome_objectInterfaces {m interfaces : TypeMap} {ns is : List Str} {t : ObjectType} (ht : t.type ∈ ns)
    {st : BuildState} (hi : Inv st) (hm : Mapped .object m ns st) (hm' : Mapped .interface interfaces is st) :
    Outcome alloc (objectInterfaces m interfaces t) st (∀ n ∈ t.interfaces, n ∈ is) fun _ st' => ∃ c, Quiet c ∧ Steps st st' c ∧
      Given .addInterfaces (fun st => List.Forall₂ (fun n a => st.schema.lookupType n = .ok a) t.interfaces) t.type st' c := by
  obtain ⟨a, h1, h2, h3⟩ := hm.found t.type ht
  simp only [objectInterfaces, h1]
  split
  · rename_i he
    rw [List.isEmpty_iff.1 he]
    exact (outcome_pure () ⟨[], .nil, .refl st, a, [], h2, .nil, by simp [optCall]⟩).mono (by simp) fun _ _ h => h
  · rename_i he
    refine ((outcome_findInterfaces hi hm' t.interfaces).bind (q := True) fun vs st₁ ⟨h4, h5⟩ => ?_).mono (by simp) fun _ _ h => h
    have hi₁ := h4.inv hi .nil
    refine outcome_call (.addInterfaces a vs) ⟨h4.is h3, ?_⟩ rfl ?_
    · intro i hi
      obtain ⟨n, _, h6⟩ := forall₂_right h5 hi
      exact h6.2
    · intro st₂ h6
      refine ⟨[.addInterfaces a vs], quiet_one nofun, h4.trans h6, a, vs, ?_, ?_, ?_⟩
      · exact h6.lookup hi₁ (h6.inv hi₁ (quiet_one nofun)) (h4.lookup hi hi₁ h2)
      · exact lookups_stable _ _ _ _ _ h6 hi₁ (h6.inv hi₁ (quiet_one nofun)) (h5.imp fun _ _ h => h.1)
      · rw [optCall, if_neg (by rw [forall₂_empty h5]; exact he)]

theorem outcome_objectFields (hf : FreshAddrs alloc) {m : TypeMap} {ns : List Str} {t : ObjectType} (ht : t.type ∈ ns)
    {st : BuildState} (hi : Inv st) (hm : Mapped .object m ns st) :
    Outcome alloc (objectFields m t) st (FieldsKnown (names st) t.fields) fun _ st' => ∃ c, Quiet c ∧ Steps st st' c ∧
      Given .addFields (fun st => List.Forall₂ (FieldOk st) t.fields) t.type st' c := by
  obtain ⟨a, h1, h2, h3⟩ := hm.found t.type ht
  simp only [objectFields, h1]
  exact outcome_given (R := FieldOk) FieldOk.stable hi h2 h3 (fun _ _ h => Is.weaken h (by simp)) (fun _ => rfl)
    (fun _ => quiet_one nofun) (by intro e; simp [e, FieldsKnown]) (outcome_fields hf hi t.fields)

theorem outcome_objects (hf : FreshAddrs alloc) {m interfaces : TypeMap} {ns is : List Str} (ts : List ObjectType)
    (hts : ∀ t ∈ ts, t.type ∈ ns) {st : BuildState} (hi : Inv st) (hm : Mapped .object m ns st)
    (hm' : Mapped .interface interfaces is st) :
    Outcome alloc (ts.forM (objectDetails m interfaces)) st
      (∀ t ∈ ts, (∀ n ∈ t.interfaces, n ∈ is) ∧ FieldsKnown (names st) t.fields) fun _ st' =>
      ∃ cs, Quiet cs.flatten ∧ Steps st st' cs.flatten ∧
      List.Forall₂ (fun t c => GivenBoth t.type t.interfaces t.fields st' c) ts cs := by
  refine outcome_forM ((kept_names (names st)).and ((Mapped.stable .object m ns).kept.and (Mapped.stable .interface interfaces is).kept))
    (R := fun st t c => GivenBoth t.type t.interfaces t.fields st c) (fun t c => GivenBoth.stable _ _ _ _) ts ?_ st hi ⟨rfl, hm, hm'⟩
  intro t ht st hi ⟨hN, hm, hm'⟩
  rw [← hN]
  unfold objectDetails
  refine (outcome_objectInterfaces (hts t ht) hi hm hm').bind fun _ st₁ ⟨c, hq, hs, a, as, h1, h2, h3⟩ => ?_
  have hi₁ := hs.inv hi hq
  rw [← hs.names hq]
  refine (outcome_objectFields hf (hts t ht) hi₁ (Mapped.stable _ _ _ _ _ _ hs hi hi₁ hm)).mono Iff.rfl
    fun _ st₂ ⟨c', hq', hs', a', vs, h1', h2', h3'⟩ => ?_
  have hi₂ := hs'.inv hi₁ hq'
  have e := hs'.lookup hi₁ hi₂ h1
  rw [h1'] at e
  injection e with e
  subst e
  exact ⟨c ++ c', hq.append hq', hs.trans hs', a', as, vs, h1', lookups_stable _ _ _ _ _ hs' hi₁ hi₂ h2, h2', by rw [h3, h3']⟩

/-! ## Directives and operations -/

theorem outcome_locations (ns : List Str) {st : BuildState} :
    Outcome alloc (ns.mapM directiveLocation) st (∀ n ∈ ns, n ∈ locationNames.map (·.1)) fun ls st' => st' = st ∧
      List.Forall₂ (fun n l => (n, l) ∈ locationNames) ns ls := by
  induction ns with
  | nil =>
    rw [List.mapM_nil]
    exact (outcome_pure [] ⟨rfl, .nil⟩).mono (by simp) fun _ _ h => h
  | cons n ns ih =>
    rw [List.mapM_cons]
    have one : Outcome alloc (directiveLocation n) st (n ∈ locationNames.map (·.1)) fun l st' => st' = st ∧ (n, l) ∈ locationNames := by
      unfold directiveLocation
      cases h : locationNames.lookup n with
      | none =>
        refine outcome_throw _ |>.mono ?_ fun _ _ h => h
        simp only [List.mem_map, false_iff]
        rintro ⟨⟨n', l⟩, hl, rfl⟩
        rw [List.lookup_eq_none_iff] at h
        simpa using h _ hl
      | some l =>
        have hm : (n, l) ∈ locationNames := by
          obtain ⟨l₁, l₂, e, _⟩ := List.lookup_eq_some_iff.1 h
          rw [e]; simp
        refine (outcome_pure l ⟨rfl, hm⟩).mono ?_ fun _ _ h => h
        simp only [true_iff, List.mem_map]
        exact ⟨_, hm, rfl⟩
    refine (one.bind (q := ∀ x ∈ ns, x ∈ locationNames.map (·.1)) fun y st₁ ⟨h1, hr⟩ => ?_).mono (by simp) fun _ _ h => h
    subst h1
    refine (ih.bind (q := True) fun ys st₂ ⟨h2, hrs⟩ => ?_).mono (by simp) fun _ _ h => h
    exact outcome_pure _ ⟨h2, .cons hr hrs⟩

/-- Like `IsSchemaDirective`, while the schema is being built. -/
structure DirectiveOk (st : BuildState) (d : DirectiveType) (v : TypeSystem.Directive) : Prop where
  name : v.name = d.name
  description : v.description = d.description
  locations : List.Forall₂ (fun n l => (n, l) ∈ locationNames) d.locations v.locations
  args : List.Forall₂ (InputOk st) d.arguments v.args

theorem DirectiveOk.stable (d : DirectiveType) (v : TypeSystem.Directive) : Stable fun st => DirectiveOk st d v :=
  fun _ _ _ h hi hi' ho => ⟨ho.name, ho.description, ho.locations, inputs_stable _ _ _ _ _ h hi hi' ho.args⟩

theorem outcome_directives (hf : FreshAddrs alloc) (ds : List DirectiveType) {st : BuildState} (hi : Inv st) :
    Outcome alloc (ds.forM addDirective) st
      (∀ d ∈ ds, (∀ n ∈ d.locations, n ∈ locationNames.map (·.1)) ∧ ∀ a ∈ d.arguments, a.type ∈ names st) fun _ st' =>
      ∃ cs, Quiet cs.flatten ∧ Steps st st' cs.flatten ∧
      List.Forall₂ (fun d c => ∃ v, DirectiveOk st' d v ∧ c = [.addDirective v]) ds cs := by
  refine outcome_forM (kept_names (names st)) (R := fun st d c => ∃ v, DirectiveOk st d v ∧ c = [.addDirective v])
    (fun d c => Stable.exists fun v => (DirectiveOk.stable d v).and (Stable.const _)) ds ?_ st hi rfl
  intro d hd st hi hN
  rw [← hN]
  unfold addDirective
  refine (outcome_locations d.locations).bind fun ls st₁ ⟨h1, h2⟩ => ?_
  subst h1
  refine ((outcome_inputs hf hi d.arguments).bind (q := True) fun as st₁ ⟨h3, h4⟩ => ?_).mono (by simp) fun _ _ h => h
  have hi₁ := h3.inv hi .nil
  refine outcome_call (.addDirective { name := d.name, description := d.description, locations := ls, args := as }) trivial rfl ?_
  intro st₂ h5
  have hi₂ := h5.inv hi₁ (quiet_one nofun)
  exact ⟨[.addDirective { name := d.name, description := d.description, locations := ls, args := as }], quiet_one nofun, h3.trans h5, _, ⟨rfl, rfl, h2, inputs_stable _ _ _ _ _ h5 hi₁ hi₂ h4⟩, rfl⟩

/-- The call for a root operation. -/
def rootCalls (operation : Str) (a : Addr) : List Op :=
  if operation = str "query" then [.addQueryType a]
  else if operation = str "mutation" then [.addMutationType a]
  else if operation = str "subscription" then [.addSubscriptionType a]
  else []

def rootNames : List Str := [str "query", str "mutation", str "subscription"]

def RootOk (st : BuildState) (o : OperationType) (c : List Op) : Prop :=
  ∃ a, (o.operation ∈ rootNames → st.schema.lookupType o.type = .ok a) ∧ c = rootCalls o.operation a

theorem RootOk.stable (o : OperationType) (c : List Op) : Stable fun st => RootOk st o c :=
  fun _ _ _ hs hi hi' ⟨a, h1, h2⟩ => ⟨a, fun h => hs.lookup hi hi' (h1 h), h2⟩

theorem outcome_operations {m : TypeMap} {ns : List Str} (os : List OperationType) {st : BuildState} (hi : Inv st)
    (hm : Mapped .object m ns st) :
    Outcome alloc (os.forM (addOperation m)) st (∀ o ∈ os, o.operation ∈ rootNames → o.type ∈ ns) fun _ st' =>
      ∃ cs, Quiet cs.flatten ∧ Steps st st' cs.flatten ∧ List.Forall₂ (RootOk st') os cs := by
  refine outcome_forM (Mapped.stable .object m ns).kept RootOk.stable os ?_ st hi hm
  intro o ho st hi hm
  have one : ∀ (op : Addr → Op), (∀ s a, s.Is a [.object] → (op a).Valid s) → (∀ a, isWrap (op a) = false) →
      (∀ a n b, op a ≠ .addType n b) → o.operation ∈ rootNames → (∀ a, rootCalls o.operation a = [op a]) →
      Outcome alloc (match m.lookup o.type with | some a => call (op a) | none => throw .undefined) st
        (o.operation ∈ rootNames → o.type ∈ ns) fun _ st' => ∃ c, Quiet c ∧ Steps st st' c ∧ RootOk st' o c := by
    intro op hv hw hq hr hc
    by_cases hn : o.type ∈ ns
    · obtain ⟨a, h1, h2, h3⟩ := hm.found _ hn
      rw [h1]
      refine (outcome_call (op a) (hv _ _ h3) (hw a) fun st' hs => ?_).mono (by simp [hn]) fun _ _ h => h
      exact ⟨[op a], quiet_one (hq a), hs, a, fun _ => hs.lookup hi (hs.inv hi (quiet_one (hq a))) h2, (hc a).symm⟩
    · rw [hm.missing _ hn]
      exact outcome_throw _ |>.mono (by simp [hn, hr]) fun _ _ h => h
  unfold addOperation
  split
  · rename_i h
    exact one .addQueryType (fun _ _ h => h) (fun _ => rfl) nofun (by simp [rootNames, h]) (fun a => by rw [rootCalls, if_pos h])
  split
  · rename_i h0 h
    exact one .addMutationType (fun _ _ h => h) (fun _ => rfl) nofun (by simp [rootNames, h])
      (fun a => by rw [rootCalls, if_neg h0, if_pos h])
  split
  · rename_i h0 h1 h
    exact one .addSubscriptionType (fun _ _ h => h) (fun _ => rfl) nofun (by simp [rootNames, h])
      (fun a => by rw [rootCalls, if_neg h0, if_neg h1, if_pos h])
  · rename_i h0 h1 h2
    have hr : o.operation ∉ rootNames := by simp [rootNames, h0, h1, h2]
    exact (outcome_pure () ⟨[], .nil, .refl st, 0, fun h => (hr h).elim,
      by rw [rootCalls, if_neg h0, if_neg h1, if_neg h2]⟩).mono (by simp [hr]) fun _ _ h => h

end Verif.Gen
