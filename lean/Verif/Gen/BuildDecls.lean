import Verif.Gen.BuildLogic

/-!
# Declaring the types
-/
namespace Verif.Gen
open Verif.Value Verif.Errors Verif.Modifiers Verif.TypeSystem
open Verif.Schema.Wrap (Kind Addr)

variable {alloc : List Op → Addr}

/-- A type which is made and added. -/
structure Decl where
  kind : Kind
  name : Str
  description : Str
  addr : Addr

def Decl.calls (d : Decl) : List Op := [.make d.addr d.kind d.name d.description, .addType d.name d.addr]

def Decl.key (d : Decl) : Kind × Str × Str := (d.kind, d.name, d.description)

/-- The state `st'` after the declarations `ds`. -/
structure Declared (st st' : BuildState) (ds : List Decl) : Prop where
  steps : Steps st st' (ds.flatMap Decl.calls)
  inv : Inv st'
  fresh : ∀ d ∈ ds, st.schema.store d.addr = none
  nodup : (ds.map (·.addr)).Nodup

/-- Objects stay. -/
theorem Runs.alive {s s' : Schema} {ops : List Op} (r : Runs s ops s') {a : Addr} (h : s.store a ≠ none) :
    s'.store a ≠ none := by
  induction r with
  | nil => exact h
  | @cons s op ops s' hv _ ih =>
    apply ih
    cases hs : s.store a with
    | none => exact absurd hs h
    | some t => obtain ⟨t', ht', _⟩ := apply_keeps hv hs; rw [ht']; simp

theorem Steps.alive {st st' : BuildState} {c : List Op} (h : Steps st st' c) {a : Addr} (ha : st.schema.store a ≠ none) :
    st'.schema.store a ≠ none := by
  obtain ⟨m, _, h2, _⟩ := h.more
  exact Runs.alive h2 ha

theorem Declared.nil {st : BuildState} (hi : Inv st) : Declared st st [] := ⟨.refl st, hi, by simp, .nil⟩

theorem Declared.names {st st' : BuildState} {ds : List Decl} (h : Declared st st' ds) :
    names st' = names st ++ ds.map (·.name) := by
  rw [Gen.names, Gen.names, h.steps.added, List.map_append]
  congr 1
  clear h
  induction ds with
  | nil => rfl
  | cons d ds ih =>
    simp only [List.flatMap_cons, added_append, List.map_append, ih]
    rfl

theorem makes_alive {st st' : BuildState} {c : List Op} (h : Steps st st' c) {a : Addr} {k : Kind} {n d : Str}
    (hm : .make a k n d ∈ c) (hb : Built st.ops st.schema) : st'.schema.store a ≠ none := by
  obtain ⟨m, h1, h2, h3⟩ := h.more
  have : Op.make a k n d ∈ st'.ops := by
    rw [h1]
    rw [← h3] at hm
    exact List.mem_append_right _ (List.mem_filter.1 hm).1
  obtain ⟨t, ht, _⟩ := (h.built hb).made a k n d this
  rw [ht]; simp

theorem Declared.trans {st st' st'' : BuildState} {ds ds' : List Decl} (hb : Built st.ops st.schema)
    (h : Declared st st' ds) (h' : Declared st' st'' ds') : Declared st st'' (ds ++ ds') := by
  have made : ∀ d ∈ ds, st'.schema.store d.addr ≠ none := fun d hd =>
    makes_alive h.steps (List.mem_flatMap.2 ⟨d, hd, by simp only [Decl.calls]; exact .head _⟩) hb
  refine ⟨by rw [List.flatMap_append]; exact h.steps.trans h'.steps, h'.inv, ?_, ?_⟩
  · intro d hd
    rcases List.mem_append.1 hd with hd | hd
    · exact h.fresh d hd
    · cases hs : st.schema.store d.addr with
      | none => rfl
      | some t => exact absurd (h'.fresh d hd) (h.steps.alive (by rw [hs]; simp))
  · rw [List.map_append, List.nodup_append]
    refine ⟨h.nodup, h'.nodup, ?_⟩
    intro a ha b hb' e
    obtain ⟨d, hd, rfl⟩ := List.mem_map.1 ha
    obtain ⟨d', hd', rfl⟩ := List.mem_map.1 hb'
    exact made d hd (e ▸ h'.fresh d' hd')

theorem make_kind {k : Kind} {n d : Str} (hk : isNamed k = true) : (BaseType.make k n d).kind = k := by
  cases k <;> simp_all [BaseType.make, BaseType.kind, isNamed]

/-- Making and adding one type. -/
theorem declare_one (hf : FreshAddrs alloc) {st : BuildState} (hi : Inv st) {k : Kind} (hk : isNamed k = true) {n d : Str}
    (hn : n ∉ names st) (hne : n ≠ []) :
    let a := alloc st.ops
    let op := Op.make a k n d
    let st₁ : BuildState := { ops := st.ops ++ [op], schema := st.schema.apply op }
    Declared st { ops := st₁.ops ++ [.addType n a], schema := st₁.schema.apply (.addType n a) } [⟨k, n, d, a⟩] := by
  intro a op st₁
  have ha : st.schema.store a = none := hf _ _ hi.built
  have s1 : Steps st st₁ [op] := steps_call ⟨ha, hk⟩ rfl
  have q1 : Quiet [op] := by intro o ho n a e; simp at ho; rw [ho] at e; simp [op] at e
  have i1 := s1.inv hi q1
  have hs : st₁.schema.store a = some (.make k n d) := by simp [st₁, op, Schema.apply]
  have s2 : Steps st₁ { ops := st₁.ops ++ [.addType n a], schema := st₁.schema.apply (.addType n a) } [.addType n a] :=
    steps_call (by show st₁.schema.store a ≠ none; rw [hs]; simp) rfl
  have s3 := s1.trans s2
  refine ⟨s3, ⟨s3.built hi.built, ?_, ?_⟩, by simpa using ha, by simp⟩
  · show ((Spec.added (st.ops ++ [op] ++ [Op.addType n a])).map (·.1)).Nodup
    have e : Spec.added (st.ops ++ [op] ++ [Op.addType n a]) = Spec.added st.ops ++ [(n, a)] := by
      rw [added_append, added_append]; simp [Spec.added, op]
    rw [e, List.map_append, List.nodup_append]
    refine ⟨hi.own.1, by simp, ?_⟩
    intro x hx y hy
    simp at hy; subst hy
    rintro rfl
    exact hn hx
  · intro m b hm
    have e : Spec.added (st.ops ++ [op] ++ [Op.addType n a]) = Spec.added st.ops ++ [(n, a)] := by
      rw [added_append, added_append]; simp [Spec.added, op]
    rw [e] at hm
    rcases List.mem_append.1 hm with hm | hm
    · obtain ⟨x, k', d', y⟩ := hi.own.2 m b hm
      exact ⟨x, k', d', by simp [st₁, y]⟩
    · simp at hm
      obtain ⟨rfl, rfl⟩ := hm
      exact ⟨hne, k, d, by simp [st₁, op]⟩

theorem outcome_scalars (hf : FreshAddrs alloc) (ts : List ScalarType) {st : BuildState} (hi : Inv st)
    (hn : (names st ++ ts.map (·.type)).Nodup) (hne : [] ∉ ts.map (·.type)) :
    Outcome alloc (ts.forM addScalar) st True fun _ st' => ∃ ds, Declared st st' ds ∧
      ds.map Decl.key = ts.map fun t => (.scalar, t.type, t.description) := by
  induction ts generalizing st with
  | nil => exact outcome_pure () ⟨[], .nil hi, rfl⟩
  | cons t ts ih =>
    show Outcome alloc (addScalar t >>= fun _ => ts.forM addScalar) st _ _
    have h1 := declare_one hf hi (k := .scalar) rfl (n := t.type) (d := t.description)
      (by intro h; simp [List.nodup_append] at hn; exact hn.2.2 _ h |>.1 rfl) (by rintro e; simp [e] at hne)
    refine (Outcome.bind (p := True) (q := True) (P := fun _ st' => Declared st st' [⟨.scalar, t.type, t.description, alloc st.ops⟩])
      ⟨fun _ => ⟨(), _, rfl, h1⟩, fun h => (h trivial).elim⟩ fun _ st₁ h1 => ?_).mono (by simp) fun _ _ h => h
    refine (ih h1.inv (by rw [h1.names]; simpa using hn) (by simp at hne ⊢; exact hne.2)).mono Iff.rfl
      fun _ st₂ ⟨ds, h2, h3⟩ => ⟨_, h1.trans hi.built h2, by simp [Decl.key, h3]⟩

theorem lookup_none {m : TypeMap} {n : Str} (h : n ∉ m.map (·.1)) : m.lookup n = none := by
  induction m with
  | nil => rfl
  | cons x m ih =>
    simp only [List.map_cons, List.mem_cons, not_or] at h
    rw [List.lookup_cons, beq_false_of_ne h.1]
    exact ih h.2

theorem lookup_append_self {m : TypeMap} {n : Str} {a : Addr} (h : n ∉ m.map (·.1)) : (m ++ [(n, a)]).lookup n = some a := by
  induction m with
  | nil => simp
  | cons x m ih =>
    simp only [List.map_cons, List.mem_cons, not_or] at h
    rw [List.cons_append, List.lookup_cons, beq_false_of_ne h.1]
    exact ih h.2

def mapOf (ds : List Decl) : TypeMap := ds.map fun d => (d.name, d.addr)

theorem outcome_declare (hf : FreshAddrs alloc) {k : Kind} (hk : isNamed k = true) (ts : List (Str × Str)) {st : BuildState}
    (hi : Inv st) (m : TypeMap) (hn : (names st ++ ts.map (·.1)).Nodup) (hm : ∀ n ∈ m.map (·.1), n ∈ names st)
    (hne : [] ∉ ts.map (·.1)) :
    Outcome alloc (ts.foldlM (declareType k) m) st True fun m' st' => ∃ ds, Declared st st' ds ∧
      ds.map Decl.key = (ts.map fun t => (k, t.1, t.2)) ∧ m' = m ++ mapOf ds := by
  induction ts generalizing st m with
  | nil => exact outcome_pure m ⟨[], .nil hi, rfl, by simp [mapOf]⟩
  | cons t ts ih =>
    rw [List.foldlM_cons]
    have hnew : t.1 ∉ names st := by intro h; simp [List.nodup_append] at hn; exact hn.2.2 _ h |>.1 rfl
    have h1 := declare_one hf hi hk (n := t.1) (d := t.2) hnew (by rintro e; simp [e] at hne)
    have hl : m.lookup t.1 = none := lookup_none fun h => hnew (hm _ h)
    refine (Outcome.bind (p := True) (q := True)
      (P := fun m' st' => Declared st st' [⟨k, t.1, t.2, alloc st.ops⟩] ∧ m' = m ++ [(t.1, alloc st.ops)])
      ⟨fun _ => ⟨_, _, rfl, ?_, ?_⟩, fun h => (h trivial).elim⟩ fun m' st₁ ⟨h1, h4⟩ => ?_).mono (by simp) fun _ _ h => h
    · simp only [TypeMap.emplace, hl, lookup_append_self fun h => hnew (hm _ h), Option.getD_some]
      exact h1
    · simp only [TypeMap.emplace, hl]
    · refine (ih h1.inv m' (by rw [h1.names]; simpa using hn) ?_ (by simp at hne ⊢; exact hne.2)).mono Iff.rfl
        fun _ st₂ ⟨ds, h2, h3, h5⟩ => ⟨_, h1.trans hi.built h2, by simp [Decl.key, h3], by simp [h5, h4, mapOf]⟩
      intro n hn'
      rw [h1.names]
      subst h4
      simp only [List.map_append, List.mem_append, List.map_cons, List.map_nil, List.mem_singleton] at hn' ⊢
      exact hn'.imp (hm n) id

end Verif.Gen
