import Verif.Gen.BuildDetails

/-!
# All the calls for the loaded types
-/
namespace Verif.Gen
open Verif.Value Verif.Errors Verif.Modifiers Verif.TypeSystem
open Verif.Schema.Wrap (Kind Addr)

variable {alloc : List Op → Addr}

theorem Declared.mapped {st st' : BuildState} {ds : List Decl} (hi : Inv st) (h : Declared st st' ds) {k : Kind}
    (hk : ∀ d ∈ ds, d.kind = k) : Mapped k (mapOf ds) (ds.map (·.name)) st' := by
  have hnd : (ds.map (·.name)).Nodup := by
    have := h.inv.own.1
    have e := h.names
    rw [Gen.names] at e
    rw [e, List.nodup_append] at this
    exact this.2.1
  constructor
  · intro n hn
    obtain ⟨d, hd, rfl⟩ := List.mem_map.1 hn
    refine ⟨d.addr, ?_, ?_, ?_⟩
    · clear hn h hk hi
      induction ds with
      | nil => cases hd
      | cons e ds ih =>
        simp only [List.map_cons, List.nodup_cons] at hnd
        rcases List.mem_cons.1 hd with rfl | hd
        · simp [mapOf]
        · rw [mapOf, List.map_cons, List.lookup_cons, beq_false_of_ne]
          · exact ih hnd.2 hd
          · intro e'; exact hnd.1 (e' ▸ List.mem_map_of_mem hd)
    · refine (lookup_iff h.inv.built _ _).2 (named_of_mem h.inv.own.1 ?_)
      rw [h.steps.added]
      refine List.mem_append_right _ ?_
      simp only [Spec.added, List.mem_filterMap, List.mem_flatMap]
      exact ⟨.addType d.name d.addr, ⟨d, hd, by simp [Decl.calls]⟩, rfl⟩
    · obtain ⟨m, h1, h2, h3⟩ := h.steps.more
      have hm : Op.make d.addr d.kind d.name d.description ∈ st'.ops := by
        have : Op.make d.addr d.kind d.name d.description ∈ ds.flatMap Decl.calls :=
          List.mem_flatMap.2 ⟨d, hd, by simp [Decl.calls]⟩
        rw [← h3] at this
        rw [h1]
        exact List.mem_append_right _ (List.mem_filter.1 this).1
      obtain ⟨t, ht, e, _⟩ := h.inv.built.made _ _ _ _ hm
      exact ⟨t, ht, by simp [e, hk d hd]⟩
  · intro n hn
    apply lookup_none
    simpa [mapOf] using hn

/-- Kinds, names and descriptions of the types in order. -/
def allKeys (l : Loader) : List (Kind × Str × Str) :=
  (l.scalarTypes.map fun t => (.scalar, t.type, t.description)) ++ (l.enumTypes.map fun t => (.enum, t.type, t.description)) ++
  (l.inputTypes.map fun t => (.inputObject, t.type, t.description)) ++
  (l.unionTypes.map fun t => (.union, t.type, t.description)) ++
  (l.interfaceTypes.map fun t => (.interface, t.type, t.description)) ++
  (l.objectTypes.map fun t => (.object, t.type, t.description))

theorem allKeys_names (l : Loader) : (allKeys l).map (·.2.1) = typeNames l := by
  simp [allKeys, typeNames, Function.comp_def]

/-- The calls for the types `l`, as the state `st` knows them. -/
structure Calls (st : BuildState) (l : Loader) (ds : List Decl) (es is us fs os vs rs : List (List Op)) : Prop where
  keys : ds.map Decl.key = allKeys l
  enums : List.Forall₂ (fun t c => Given .addEnumValues (fun _ vs => vs = enumMembers t) t.type st c) l.enumTypes es
  inputs : List.Forall₂ (fun t c => Given .addInputValues (fun st => List.Forall₂ (InputOk st) t.fields) t.type st c)
    l.inputTypes is
  unions : List.Forall₂ (fun t c => Given .addPossibleTypes
    (fun st => List.Forall₂ (fun n a => st.schema.lookupType n = .ok a) t.options) t.type st c) l.unionTypes us
  interfaces : List.Forall₂ (fun t c => Given .addFields (fun st => List.Forall₂ (FieldOk st) t.fields) t.type st c)
    l.interfaceTypes fs
  objects : List.Forall₂ (fun t c => GivenBoth t.type t.interfaces t.fields st c) l.objectTypes os
  directives : List.Forall₂ (fun d c => ∃ v, DirectiveOk st d v ∧ c = [.addDirective v]) l.directives vs
  operations : List.Forall₂ (RootOk st) l.operationTypes rs

theorem Calls.stable (l : Loader) (ds : List Decl) (es is us fs os vs rs : List (List Op)) :
    Stable fun st => Calls st l ds es is us fs os vs rs := by
  intro st st' c hs hi hi' h
  refine ⟨h.keys, ?_, ?_, ?_, ?_, ?_, ?_, ?_⟩
  · exact h.enums.imp fun t c hc => Given.stable _ (R := fun _ vs => vs = enumMembers t) (fun vs => Stable.const _) _ _ _ _ _ hs hi hi' hc
  · exact h.inputs.imp fun t c hc => Given.stable _ (fun vs => inputs_stable _ _) _ _ _ _ _ hs hi hi' hc
  · exact h.unions.imp fun t c hc => Given.stable _ (fun vs => lookups_stable _ _) _ _ _ _ _ hs hi hi' hc
  · exact h.interfaces.imp fun t c hc => Given.stable _ (fun vs => fields_stable _ _) _ _ _ _ _ hs hi hi' hc
  · exact h.objects.imp fun t c hc => GivenBoth.stable _ _ _ _ _ _ _ hs hi hi' hc
  · exact h.directives.imp fun d c ⟨v, h1, h2⟩ => ⟨v, DirectiveOk.stable _ _ _ _ _ hs hi hi' h1, h2⟩
  · exact h.operations.imp fun o c hc => RootOk.stable _ _ _ _ _ hs hi hi' hc

/-- The state after `addTypes l`. -/
def Added (l : Loader) (st st' : BuildState) : Prop :=
  ∃ ds es is us fs os vs rs, Steps st st' (ds.flatMap Decl.calls ++ es.flatten ++ is.flatten ++ us.flatten ++ fs.flatten ++
    os.flatten ++ vs.flatten ++ rs.flatten) ∧ Calls st' l ds es is us fs os vs rs

theorem known_iff (N : List Str) (l : Loader) : Known N l ↔
    (∀ t ∈ l.inputTypes, ∀ f ∈ t.fields, f.type ∈ N) ∧ (∀ t ∈ l.unionTypes, ∀ n ∈ t.options, n ∈ N) ∧
    (∀ t ∈ l.interfaceTypes, FieldsKnown N t.fields) ∧
    (∀ t ∈ l.objectTypes, (∀ n ∈ t.interfaces, n ∈ l.interfaceTypes.map (·.type)) ∧ FieldsKnown N t.fields) ∧
    (∀ d ∈ l.directives, (∀ n ∈ d.locations, n ∈ locationNames.map (·.1)) ∧ ∀ a ∈ d.arguments, a.type ∈ N) ∧
    (∀ o ∈ l.operationTypes, o.operation ∈ rootNames → o.type ∈ l.objectTypes.map (·.type)) := by
  constructor
  · rintro ⟨h1, h2, h3, h4, h5, h6⟩
    simp only [inputPlaces, outputPlaces, List.mem_append, List.mem_flatMap] at h1 h2
    refine ⟨fun t ht f hf => h1 f (.inl (.inl (.inl ⟨t, ht, hf⟩))), h3, ?_, ?_, ?_, h6⟩
    · exact fun t ht f hf => ⟨fun a ha => h1 a (.inl (.inl (.inr ⟨f, ⟨t, ht, hf⟩, ha⟩))), h2 f (.inl ⟨t, ht, hf⟩)⟩
    · exact fun t ht => ⟨h4 t ht, fun f hf =>
        ⟨fun a ha => h1 a (.inl (.inr ⟨f, ⟨t, ht, hf⟩, ha⟩)), h2 f (.inr ⟨t, ht, hf⟩)⟩⟩
    · exact fun d hd => ⟨h5 d hd, fun a ha => h1 a (.inr ⟨d, hd, ha⟩)⟩
  · rintro ⟨h1, h2, h3, h4, h5, h6⟩
    refine ⟨?_, ?_, h2, fun t ht => (h4 t ht).1, fun d hd => (h5 d hd).1, h6⟩
    · simp only [inputPlaces, List.mem_append, List.mem_flatMap]
      rintro f (((⟨t, ht, hf⟩ | ⟨g, ⟨t, ht, hg⟩, hf⟩) | ⟨g, ⟨t, ht, hg⟩, hf⟩) | ⟨d, hd, hf⟩)
      · exact h1 t ht f hf
      · exact (h3 t ht g hg).1 f hf
      · exact ((h4 t ht).2 g hg).1 f hf
      · exact (h5 d hd).2 f hf
    · simp only [outputPlaces, List.mem_append, List.mem_flatMap]
      rintro f (⟨t, ht, hf⟩ | ⟨t, ht, hf⟩)
      · exact (h3 t ht f hf).2
      · exact ((h4 t ht).2 f hf).2

theorem kinds_of_keys {ds : List Decl} {k : Kind} {ts : List (Str × Str)} (h : ds.map Decl.key = ts.map fun t => (k, t.1, t.2)) :
    (∀ d ∈ ds, d.kind = k) ∧ ds.map (·.name) = ts.map (·.1) := by
  constructor
  · intro d hd
    have : Decl.key d ∈ ds.map Decl.key := List.mem_map_of_mem hd
    rw [h] at this
    obtain ⟨t, _, e⟩ := List.mem_map.1 this
    simp [Decl.key] at e
    exact e.1.symm
  · have := congrArg (List.map fun x : Kind × Str × Str => x.2.1) h
    simpa [Decl.key, Function.comp_def] using this

theorem outcome_declareTypes (hf : FreshAddrs alloc) {k : Kind} (hk : isNamed k = true) (ts : List (Str × Str)) {st : BuildState}
    (hi : Inv st) (hn : (names st ++ ts.map (·.1)).Nodup) (hne : [] ∉ ts.map (·.1)) :
    Outcome alloc (declareTypes k ts) st True fun m st' => Mapped k m (ts.map (·.1)) st' ∧ ∃ ds, Declared st st' ds ∧
      ds.map Decl.key = ts.map fun t => (k, t.1, t.2) := by
  refine (outcome_declare hf hk ts hi [] hn (by simp) hne).mono Iff.rfl fun m st' ⟨ds, h1, h2, h3⟩ => ?_
  obtain ⟨h4, h5⟩ := kinds_of_keys h2
  refine ⟨?_, ds, h1, h2⟩
  rw [h3, ← h5]
  exact h1.mapped hi h4

theorem Declared.stable {st st' : BuildState} {ds : List Decl} (h : Declared st st' ds) {P : BuildState → Prop} (hP : Stable P)
    (hi : Inv st) (hp : P st) : P st' := hP _ _ _ h.steps hi h.inv hp

theorem outcome_addTypes (hf : FreshAddrs alloc) (l : Loader) {st : BuildState} (hi : Inv st)
    (hn : (names st ++ typeNames l).Nodup) (hne : [] ∉ typeNames l) :
    Outcome alloc (addTypes l) st (Known (names st ++ typeNames l) l) fun _ st' =>
      Inv st' ∧ names st' = names st ++ typeNames l ∧ Added l st st' := by
  rw [known_iff]
  unfold addTypes
  simp only [typeNames, List.mem_append, not_or, List.append_assoc] at hn hne
  obtain ⟨ne1, ne2, ne3, ne4, ne5, ne6⟩ := hne
  have pick : ∀ (a b c : List Str), (a ++ (b ++ c)).Nodup → (a ++ b).Nodup := by
    intro a b c h; rw [← List.append_assoc] at h; exact (List.nodup_append.1 h).1
  have shift : ∀ {s s' : BuildState} {ds : List Decl} {ns rest : List Str}, Declared s s' ds → ds.map (·.name) = ns →
      (names s ++ (ns ++ rest)).Nodup → (names s' ++ rest).Nodup := by
    intro s s' ds ns rest h e hn
    rw [h.names, e, List.append_assoc]; exact hn
  refine (outcome_scalars hf l.scalarTypes hi (pick _ _ _ hn) ne1).bindTrue fun _ s1 ⟨d1, e1, k1⟩ => ?_
  have k1' : d1.map (·.name) = l.scalarTypes.map (·.type) := by
    have := congrArg (List.map fun x : Kind × Str × Str => x.2.1) k1
    simpa [Decl.key, Function.comp_def] using this
  have hn1 := shift e1 k1' hn
  have conv : ∀ {α : Type} (ts : List α) (f g : α → Str), (ts.map fun t => (f t, g t)).map (·.1) = ts.map f := by
    intro α ts f g; simp [Function.comp_def]
  refine (outcome_declareTypes hf (k := .enum) rfl _ e1.inv (by rw [conv]; exact pick _ _ _ hn1)
    (by rw [conv]; exact ne2)).bindTrue fun m2 s2 ⟨q2, d2, e2, k2⟩ => ?_
  have hn2 := shift e2 ((kinds_of_keys k2).2.trans (conv _ _ _)) hn1
  refine (outcome_declareTypes hf (k := .inputObject) rfl _ e2.inv (by rw [conv]; exact pick _ _ _ hn2)
    (by rw [conv]; exact ne3)).bindTrue fun m3 s3 ⟨q3, d3, e3, k3⟩ => ?_
  have hn3 := shift e3 ((kinds_of_keys k3).2.trans (conv _ _ _)) hn2
  refine (outcome_declareTypes hf (k := .union) rfl _ e3.inv (by rw [conv]; exact pick _ _ _ hn3)
    (by rw [conv]; exact ne4)).bindTrue fun m4 s4 ⟨q4, d4, e4, k4⟩ => ?_
  have hn4 := shift e4 ((kinds_of_keys k4).2.trans (conv _ _ _)) hn3
  refine (outcome_declareTypes hf (k := .interface) rfl _ e4.inv (by rw [conv]; exact pick _ _ _ hn4)
    (by rw [conv]; exact ne5)).bindTrue fun m5 s5 ⟨q5, d5, e5, k5⟩ => ?_
  have hn5 := shift e5 ((kinds_of_keys k5).2.trans (conv _ _ _)) hn4
  refine (outcome_declareTypes hf (k := .object) rfl _ e5.inv (by rw [conv]; exact hn5)
    (by rw [conv]; exact ne6)).bindTrue fun m6 s6 ⟨q6, d6, e6, k6⟩ => ?_
  have all : Declared st s6 (d1 ++ d2 ++ d3 ++ d4 ++ d5 ++ d6) :=
    ((((e1.trans hi.built e2).trans hi.built e3).trans hi.built e4).trans hi.built e5).trans hi.built e6
  have keys : (d1 ++ d2 ++ d3 ++ d4 ++ d5 ++ d6).map Decl.key = allKeys l := by
    simp only [List.map_append, k1, k2, k3, k4, k5, k6, allKeys, List.map_map, Function.comp_def]
  have hnames : names s6 = names st ++ typeNames l := by
    rw [all.names, ← allKeys_names, ← keys, List.map_map]; rfl
  rw [conv] at q2 q3 q4 q5 q6
  have r2 := e6.stable (Mapped.stable _ _ _) e5.inv (e5.stable (Mapped.stable _ _ _) e4.inv (e4.stable (Mapped.stable _ _ _) e3.inv
    (e3.stable (Mapped.stable _ _ _) e2.inv q2)))
  have r3 := e6.stable (Mapped.stable _ _ _) e5.inv (e5.stable (Mapped.stable _ _ _) e4.inv (e4.stable (Mapped.stable _ _ _) e3.inv
    q3))
  have r4 := e6.stable (Mapped.stable _ _ _) e5.inv (e5.stable (Mapped.stable _ _ _) e4.inv q4)
  have r5 := e6.stable (Mapped.stable _ _ _) e5.inv q5
  have i6 := e6.inv
  generalize d1 ++ d2 ++ d3 ++ d4 ++ d5 ++ d6 = ds at all keys
  clear e1 e2 e3 e4 e5 e6 k1 k2 k3 k4 k5 k6 k1' q2 q3 q4 q5 hn hn1 hn2 hn3 hn4 hn5 shift conv pick
  rw [← hnames]
  have mem : ∀ {α : Type} (ts : List α) (f : α → Str), ∀ t ∈ ts, f t ∈ ts.map f := fun ts f t h => List.mem_map_of_mem h
  refine (outcome_enums l.enumTypes (mem _ _) i6 r2).bindTrue fun _ s7 ⟨c7, u7, v7, w7⟩ => ?_
  have i7 := v7.inv i6 u7
  have n7 := v7.names u7
  have r3 := Mapped.stable _ _ _ _ _ _ v7 i6 i7 r3
  have r4 := Mapped.stable _ _ _ _ _ _ v7 i6 i7 r4
  have r5 := Mapped.stable _ _ _ _ _ _ v7 i6 i7 r5
  have r6 := Mapped.stable _ _ _ _ _ _ v7 i6 i7 q6
  rw [← n7]
  refine (outcome_inputTypes hf l.inputTypes (mem _ _) i7 r3).bind fun _ s8 ⟨c8, u8, v8, w8⟩ => ?_
  have i8 := v8.inv i7 u8
  have n8 := v8.names u8
  have r4 := Mapped.stable _ _ _ _ _ _ v8 i7 i8 r4
  have r5 := Mapped.stable _ _ _ _ _ _ v8 i7 i8 r5
  have r6 := Mapped.stable _ _ _ _ _ _ v8 i7 i8 r6
  rw [← n8]
  refine (outcome_unions l.unionTypes (mem _ _) i8 r4).bind fun _ s9 ⟨c9, u9, v9, w9⟩ => ?_
  have i9 := v9.inv i8 u9
  have n9 := v9.names u9
  have r5 := Mapped.stable _ _ _ _ _ _ v9 i8 i9 r5
  have r6 := Mapped.stable _ _ _ _ _ _ v9 i8 i9 r6
  rw [← n9]
  refine (outcome_interfaces hf l.interfaceTypes (mem _ _) i9 r5).bind fun _ s10 ⟨c10, u10, v10, w10⟩ => ?_
  have i10 := v10.inv i9 u10
  have n10 := v10.names u10
  have r5 := Mapped.stable _ _ _ _ _ _ v10 i9 i10 r5
  have r6 := Mapped.stable _ _ _ _ _ _ v10 i9 i10 r6
  rw [← n10]
  refine (outcome_objects hf l.objectTypes (mem _ _) i10 r6 r5).bind fun _ s11 ⟨c11, u11, v11, w11⟩ => ?_
  have i11 := v11.inv i10 u11
  have n11 := v11.names u11
  have r6 := Mapped.stable _ _ _ _ _ _ v11 i10 i11 r6
  rw [← n11]
  refine (outcome_directives hf l.directives i11).bind fun _ s12 ⟨c12, u12, v12, w12⟩ => ?_
  have i12 := v12.inv i11 u12
  have n12 := v12.names u12
  have r6 := Mapped.stable _ _ _ _ _ _ v12 i11 i12 r6
  refine (outcome_operations l.operationTypes i12 r6).mono Iff.rfl fun _ s13 ⟨c13, u13, v13, w13⟩ => ?_
  have i13 := v13.inv i12 u13
  have n13 := v13.names u13
  refine ⟨i13, by rw [n13, n12, n11, n10, n9, n8, n7, hnames], ds, c7, c8, c9, c10, c11, c12, c13, ?_, keys, ?_, ?_, ?_, ?_, ?_, ?_, w13⟩
  · exact ((((((all.steps.trans v7).trans v8).trans v9).trans v10).trans v11).trans v12).trans v13
  · have v := ((((v8.trans v9).trans v10).trans v11).trans v12).trans v13
    exact w7.imp fun t c hc => Given.stable _ (R := fun _ vs => vs = enumMembers t) (fun vs => Stable.const _) _ _ _ _ _ v i7 i13 hc
  · have v := (((v9.trans v10).trans v11).trans v12).trans v13
    exact w8.imp fun t c hc => Given.stable _ (fun vs => inputs_stable _ _) _ _ _ _ _ v i8 i13 hc
  · have v := ((v10.trans v11).trans v12).trans v13
    exact w9.imp fun t c hc => Given.stable _ (fun vs => lookups_stable _ _) _ _ _ _ _ v i9 i13 hc
  · have v := (v11.trans v12).trans v13
    exact w10.imp fun t c hc => Given.stable _ (fun vs => fields_stable _ _) _ _ _ _ _ v i10 i13 hc
  · exact w11.imp fun t c hc => GivenBoth.stable _ _ _ _ _ _ _ (v12.trans v13) i11 i13 hc
  · exact w12.imp fun d c ⟨v, h1, h2⟩ => ⟨v, DirectiveOk.stable _ _ _ _ _ v13 i12 i13 h1, h2⟩

end Verif.Gen
