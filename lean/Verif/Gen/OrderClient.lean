import Verif.Gen.OrderProps

/-!
# C42: input types in the client generator
-/
namespace Verif.Gen
open Verif.Value Verif.TypeSystem Relation
open Verif.Schema.Wrap (Kind Addr)

/-! ## Specification -/

/-- The input object type inside of any lists and non-null types. -/
inductive Inner (s : Schema) : Addr → Addr → Prop where
  | self {a t} : s.store a = some t → t.kind = .inputObject → Inner s a a
  | wrapper {a t b c} : s.store a = some t → t.kind = .list ∨ t.kind = .nonNull → t.ofType = some b → Inner s b c →
      Inner s a c

/-- An input object type has a field of another one, of any modifiers. -/
def Contains (s : Schema) (a b : Addr) : Prop :=
  ∃ t, s.store a = some t ∧ t.kind = .inputObject ∧ ∃ f ∈ t.inputFields, Inner s f.type b

/-- An input object type has a field which is nullable, and no list, of an input object type of this name. -/
def NeedsDirectly (s : Schema) (a : Addr) (n : Str) : Prop :=
  ∃ t, s.store a = some t ∧ t.kind = .inputObject ∧ ∃ f ∈ t.inputFields,
    ∃ u, s.store f.type = some u ∧ u.kind = .inputObject ∧ u.name = n

/-- Input object types have different names. -/
def UniqueInputs (s : Schema) : Prop :=
  ∀ a b t u, s.store a = some t → s.store b = some u → t.kind = .inputObject → u.kind = .inputObject →
    t.name = u.name → a = b

/-- The name of a type. -/
def nameAt (s : Schema) (a : Addr) : Str := ((s.store a).map (·.name)).getD []

/-! ## Collected types -/

/-- All types are input objects, with these names, each once. -/
structure Collected.Ok (s : Schema) (c : Collected) : Prop where
  names : c.names = c.types.map (nameAt s)
  kinds : ∀ a ∈ c.types, ∃ t, s.store a = some t ∧ t.kind = .inputObject
  nodup : c.names.Nodup

/-- What a part of the collecting does: it adds types, which are closed together with what is there at the end. -/
structure Adds (s : Schema) (c c' : Collected) (roots : List Addr) : Prop where
  ok : c'.Ok s
  prefix' : ∃ more, c'.types = c.types ++ more ∧ (∀ b ∈ more, ∃ r ∈ roots, ∃ i, Inner s r i ∧ ReflTransGen (Contains s) i b) ∧
    ∀ b ∈ more, ∀ d, Contains s b d → nameAt s d ∈ c'.names
  roots : ∀ r ∈ roots, ∀ i, Inner s r i → nameAt s i ∈ c'.names

theorem inner_input {s : Schema} {a i : Addr} {t : BaseType} (h : s.store a = some t) (hk : t.kind = .inputObject) :
    Inner s a i ↔ i = a := by
  constructor
  · intro hi
    cases hi with
    | self => rfl
    | wrapper h1 h2 =>
      rw [h] at h1; cases h1
      rw [hk] at h2
      rcases h2 with h2 | h2 <;> cases h2
  · rintro rfl; exact .self h hk

theorem inner_wrapper {s : Schema} {a b i : Addr} {t : BaseType} (h : s.store a = some t)
    (hk : t.kind = .list ∨ t.kind = .nonNull) (hb : t.ofType = some b) : Inner s a i ↔ Inner s b i := by
  constructor
  · intro hi
    cases hi with
    | self h1 h2 =>
      rw [h] at h1; cases h1
      rw [h2] at hk
      rcases hk with hk | hk <;> cases hk
    | wrapper h1 h2 h3 h4 =>
      rw [h] at h1; cases h1
      rw [hb] at h3; cases h3
      exact h4
  · exact .wrapper h hk hb

theorem inner_other {s : Schema} {a i : Addr} {t : BaseType} (h : s.store a = some t)
    (hk : t.kind ∉ [Kind.inputObject, .list, .nonNull]) : ¬ Inner s a i := by
  intro hi
  simp only [List.mem_cons, List.not_mem_nil, or_false, not_or] at hk
  cases hi with
  | self h1 h2 => rw [h] at h1; cases h1; exact hk.1 h2
  | wrapper h1 h2 =>
    rw [h] at h1; cases h1
    rcases h2 with h2 | h2
    · exact hk.2.1 h2
    · exact hk.2.2 h2

theorem Adds.mono_names {s : Schema} {c c' : Collected} {roots : List Addr} (h : Adds s c c' roots) (hc : c.Ok s)
    {n : Str} (hn : n ∈ c.names) : n ∈ c'.names := by
  obtain ⟨more, h1, _⟩ := h.prefix'
  rw [h.ok.names, h1, List.map_append]
  rw [hc.names] at hn
  exact List.mem_append_left _ hn

/-- Two parts, one after the other. -/
theorem Adds.append {s : Schema} {c c' c'' : Collected} {as bs : List Addr} (ih1 : Adds s c c' as)
    (ih2 : Adds s c' c'' bs) : Adds s c c'' (as ++ bs) := by
  obtain ⟨more1, e1, hr1, hcl1⟩ := ih1.prefix'
  obtain ⟨more2, e2, hr2, hcl2⟩ := ih2.prefix'
  refine ⟨ih2.ok, ⟨more1 ++ more2, by rw [e2, e1, List.append_assoc], ?_, ?_⟩, ?_⟩
  · intro b hb
    rcases List.mem_append.1 hb with hb | hb
    · obtain ⟨r, hr, x⟩ := hr1 b hb
      exact ⟨r, List.mem_append_left _ hr, x⟩
    · obtain ⟨r, hr, x⟩ := hr2 b hb
      exact ⟨r, List.mem_append_right _ hr, x⟩
  · intro b hb d hd
    rcases List.mem_append.1 hb with hb | hb
    · exact ih2.mono_names ih1.ok (hcl1 b hb d hd)
    · exact hcl2 b hb d hd
  · intro r hr i hi
    rcases List.mem_append.1 hr with hr | hr
    · exact ih2.mono_names ih1.ok (ih1.roots _ hr i hi)
    · exact ih2.roots r hr i hi

theorem collect_adds {s : Schema} {c c' : Collected} {as : List Addr} (h : CollectInputTypes s c as c') (hc : c.Ok s) :
    Adds s c c' as := by
  induction h with
  | nil => exact ⟨hc, ⟨[], by simp, by simp, by simp⟩, by simp⟩
  | @new c a t c' rest c'' h1 h2 h3 _ _ ih ihr =>
    have hc' : Collected.Ok s { names := c.names ++ [t.name], types := c.types ++ [a] } := by
      refine ⟨?_, ?_, ?_⟩
      · simp [hc.names, nameAt, h1]
      · intro b hb
        simp only [List.mem_append, List.mem_singleton] at hb
        rcases hb with hb | rfl
        · exact hc.kinds b hb
        · exact ⟨t, h1, h2⟩
      · rw [List.nodup_append]
        refine ⟨hc.nodup, List.nodup_singleton _, ?_⟩
        rintro x hx y hy rfl
        rw [List.mem_singleton] at hy
        subst hy
        exact h3 hx
    have ih := ih hc'
    refine Adds.append (as := [a]) ?_ (ihr ih.ok)
    obtain ⟨more, e, hr, hcl⟩ := ih.prefix'
    have hself : Inner s a a := .self h1 h2
    refine ⟨ih.ok, ⟨a :: more, by simpa using e, ?_, ?_⟩, ?_⟩
    · intro b hb
      rcases List.mem_cons.1 hb with rfl | hb
      · exact ⟨b, by simp, b, hself, .refl⟩
      · obtain ⟨r, hrm, i, hi, hp⟩ := hr b hb
        obtain ⟨f, hf, rfl⟩ := List.mem_map.1 hrm
        exact ⟨a, by simp, a, hself, .head ⟨t, h1, h2, f, hf, hi⟩ hp⟩
    · intro b hb d hd
      rcases List.mem_cons.1 hb with rfl | hb
      · obtain ⟨t', h1', _, f, hf, hi⟩ := hd
        rw [h1] at h1'; cases h1'
        exact ih.roots f.type (List.mem_map_of_mem hf) d hi
      · exact hcl b hb d hd
    · intro r hr i hi
      rw [List.mem_singleton] at hr
      subst hr
      rw [(inner_input h1 h2).1 hi]
      apply ih.mono_names hc'
      simp [nameAt, h1]
  | @known c a t rest c' h1 h2 h3 _ ih =>
    refine Adds.append (as := [a]) ?_ (ih hc)
    refine ⟨hc, ⟨[], by simp, by simp, by simp⟩, ?_⟩
    intro r hr i hi
    rw [List.mem_singleton] at hr
    subst hr
    rw [(inner_input h1 h2).1 hi]
    simpa [nameAt, h1] using h3
  | @wrapper c a t b rest c' h1 h2 h3 _ ih =>
    have ih := ih hc
    obtain ⟨more, e, hr, hcl⟩ := ih.prefix'
    refine ⟨ih.ok, ⟨more, e, ?_, hcl⟩, ?_⟩
    · intro d hd
      obtain ⟨r, hrm, i, hi, hp⟩ := hr d hd
      rcases List.mem_cons.1 hrm with rfl | hrm
      · exact ⟨a, by simp, i, (inner_wrapper h1 h2 h3).2 hi, hp⟩
      · exact ⟨r, by simp [hrm], i, hi, hp⟩
    · intro r hr i hi
      rcases List.mem_cons.1 hr with rfl | hr
      · exact ih.roots _ (by simp) i ((inner_wrapper h1 h2 h3).1 hi)
      · exact ih.roots _ (by simp [hr]) i hi
  | @other c a t rest c' h1 h2 _ ih =>
    refine Adds.append (as := [a]) ?_ (ih hc)
    refine ⟨hc, ⟨[], by simp, by simp, by simp⟩, ?_⟩
    intro r hr i hi
    rw [List.mem_singleton] at hr
    subst hr
    exact absurd hi (inner_other h1 h2)

theorem inner_kind {s : Schema} {a i : Addr} (h : Inner s a i) : ∃ t, s.store i = some t ∧ t.kind = .inputObject := by
  induction h with
  | self h1 h2 => exact ⟨_, h1, h2⟩
  | wrapper _ _ _ _ ih => exact ih

theorem Collected.Ok.mem {s : Schema} (hu : UniqueInputs s) {c : Collected} (hc : c.Ok s) {i : Addr}
    (hi : ∃ t, s.store i = some t ∧ t.kind = .inputObject) (hn : nameAt s i ∈ c.names) : i ∈ c.types := by
  rw [hc.names] at hn
  obtain ⟨b, hb, e⟩ := List.mem_map.1 hn
  obtain ⟨t, h1, h2⟩ := hi
  obtain ⟨u, h3, h4⟩ := hc.kinds b hb
  have : b = i := hu b i u t h3 h1 h4 h2 (by simpa [nameAt, h1, h3] using e)
  exact this ▸ hb

/-- **C42.** The client generator collects exactly the input types which the variables mention: the types of the variables,
and the types of the fields of collected types; each of them once. -/
theorem C42_collected {s : Schema} (hu : UniqueInputs s) {roots : List Addr} {c : Collected}
    (h : CollectInputTypes s {} roots c) :
    c.types.Nodup ∧ ∀ b, b ∈ c.types ↔ ∃ r ∈ roots, ∃ i, Inner s r i ∧ ReflTransGen (Contains s) i b := by
  have ha := collect_adds h ⟨rfl, by simp, by simp⟩
  have hok := ha.ok
  refine ⟨?_, fun b => ⟨?_, ?_⟩⟩
  · have := hok.nodup
    rw [hok.names] at this
    exact List.Nodup.of_map _ this
  · intro hb
    obtain ⟨more, e, hr, _⟩ := ha.prefix'
    rw [e] at hb
    exact hr b (by simpa using hb)
  · rintro ⟨r, hr, i, hi, hp⟩
    induction hp with
    | refl => exact hok.mem hu (inner_kind hi) (ha.roots r hr i hi)
    | tail _ hc ih =>
      obtain ⟨more, e, _, hcl⟩ := ha.prefix'
      have hb := ih
      rw [e] at hb
      obtain ⟨_, _, _, f, _, hd⟩ := id hc
      exact hok.mem hu (inner_kind hd) (hcl _ (by simpa using hb) _ hc)

/-! ## Order -/

theorem rounds_ok {rest result : List Entry} {handled : List Str} (h : Rounds handled rest result)
    {before : List Entry} (hh : ∀ n, n ∈ handled ↔ ∃ y ∈ before, y.name = n)
    (hb : Ordered (·.name) (fun x n => n ∈ x.dependencies) before) :
    result.Perm rest ∧ Ordered (·.name) (fun x n => n ∈ x.dependencies) (before ++ result) := by
  induction h generalizing before with
  | done => exact ⟨.refl _, by simpa using hb⟩
  | @round handled rest result hne hr ih =>
    by_cases hback : rest.filter (fun e => !ready handled e.dependencies) = []
    · rw [hback] at hr
      have : result = [] := by
        cases hr with
        | done => rfl
        | round h => exact absurd rfl h
      subst this
      refine ⟨perm_split _ _ (by rw [hback]), ?_⟩
      exact ordered_round hh hb fun h => by simpa using h
    · have hif : (rest.filter fun e => !ready handled e.dependencies).isEmpty = false := by simpa using hback
      have hnext : ∀ n, n ∈ (if (rest.filter fun e => !ready handled e.dependencies).isEmpty then handled
          else handled ++ (rest.filter fun e => ready handled e.dependencies).map (·.name)) ↔
          ∃ y ∈ before ++ rest.filter (fun e => ready handled e.dependencies), y.name = n := by
        rw [hif]
        exact handled_next hh
      refine ⟨perm_split _ _ (ih hnext ?_).1, ?_⟩
      · have := ordered_round (rest := rest) (result := []) hh hb fun h => by simpa using h
        simpa using this
      · exact ordered_round hh hb fun h => (ih hnext h).2

theorem rounds_exist {all rest : List Entry} {handled : List Str}
    (hc : ∀ t ∈ all, ∀ n ∈ t.dependencies, ∃ u ∈ all, u.name = n)
    (hac : ¬ ∃ t, TransGen (fun x y => x ∈ all ∧ y ∈ all ∧ y.name ∈ x.dependencies) t t)
    (hs : ∀ t ∈ rest, t ∈ all) (hh : ∀ t ∈ all, t ∈ rest ∨ t.name ∈ handled) :
    ∃ result, Rounds handled rest result := by
  induction hn : rest.length using Nat.strongRecOn generalizing rest handled with
  | _ n ih =>
    subst hn
    by_cases hne : rest = []
    · subst hne; exact ⟨_, .done⟩
    by_cases hf : rest.filter (fun e => ready handled e.dependencies) = []
    · exfalso
      have total : ∀ x ∈ rest, ∃ y ∈ rest, x ∈ all ∧ y ∈ all ∧ y.name ∈ x.dependencies := by
        intro x hx
        have hr := List.filter_eq_nil_iff.1 hf x hx
        rw [ready_iff] at hr
        push Not at hr
        obtain ⟨d, hd, hnd⟩ := hr
        obtain ⟨u, hu, rfl⟩ := hc x (hs x hx) d hd
        exact ⟨u, (hh u hu).resolve_right hnd, hs x hx, hu, hd⟩
      obtain ⟨x, hx⟩ := List.exists_mem_of_ne_nil _ hne
      obtain ⟨c, _, _, h2⟩ := cycle_of_total total hx
      exact hac ⟨c, h2⟩
    · have hl := List.length_eq_length_filter_add (l := rest) fun e => ready handled e.dependencies
      have hp := List.length_pos_iff.2 hf
      by_cases hback : rest.filter (fun e => !ready handled e.dependencies) = []
      · refine ⟨_, .round (result := []) hne ?_⟩
        rw [hback]
        exact .done
      · have hif : (rest.filter fun e => !ready handled e.dependencies).isEmpty = false := by simpa using hback
        obtain ⟨result, hr⟩ := ih (rest.filter fun e => !ready handled e.dependencies).length (by omega)
          (handled := handled ++ (rest.filter fun e => ready handled e.dependencies).map (·.name))
          (fun t ht => hs t (List.mem_filter.1 ht).1) (by
            intro t ht
            rcases hh t ht with h | h
            · by_cases hr : ready handled t.dependencies
              · exact .inr (List.mem_append_right _ (List.mem_map_of_mem (List.mem_filter.2 ⟨h, hr⟩)))
              · exact .inl (List.mem_filter.2 ⟨h, by simpa using hr⟩)
            · exact .inr (List.mem_append_left _ h)) rfl
        refine ⟨_, .round hne (result := result) ?_⟩
        rw [hif]
        exact hr

theorem entry_spec {s : Schema} {a : Addr} (ha : ∃ t, s.store a = some t ∧ t.kind = .inputObject) :
    ∃ e, entry s a = some e ∧ e.type = a ∧ e.name = nameAt s a ∧ ∀ n, n ∈ e.dependencies ↔ NeedsDirectly s a n := by
  obtain ⟨t, h1, h2⟩ := ha
  refine ⟨_, by simp only [entry, h1]; rfl, rfl, by simp [nameAt, h1], fun n => ?_⟩
  simp only [List.mem_filterMap, NeedsDirectly, h1]
  constructor
  · rintro ⟨f, hf, h⟩
    refine ⟨t, rfl, h2, f, hf, ?_⟩
    cases hst : s.store f.type with
    | none => simp [hst] at h
    | some u =>
      simp only [hst, Option.ite_none_right_eq_some, Option.some.injEq] at h
      exact ⟨u, rfl, h.1, h.2⟩
  · rintro ⟨t', e, _, f, hf, u, h3, h4, h5⟩
    cases e
    exact ⟨f, hf, by simp [h3, h4, h5]⟩

theorem entries_spec {s : Schema} {types : List Addr} (h : ∀ a ∈ types, ∃ t, s.store a = some t ∧ t.kind = .inputObject) :
    ∃ entries : List Entry, types.map (entry s) = entries.map some ∧ entries.map (·.type) = types ∧
      ∀ e ∈ entries, e.name = nameAt s e.type ∧ e.type ∈ types ∧ ∀ n, n ∈ e.dependencies ↔ NeedsDirectly s e.type n := by
  induction types with
  | nil => exact ⟨[], rfl, rfl, by simp⟩
  | cons a as ih =>
    obtain ⟨es, h1, h2, h3⟩ := ih fun b hb => h b (by simp [hb])
    obtain ⟨e, g1, g2, g3, g4⟩ := entry_spec (h a (by simp))
    refine ⟨e :: es, by simp [g1, h1], by simp [g2, h2], ?_⟩
    intro x hx
    rcases List.mem_cons.1 hx with rfl | hx
    · exact ⟨by rw [g3, g2], by simp [g2], by rw [g2]; exact g4⟩
    · obtain ⟨k1, k2, k3⟩ := h3 x hx
      exact ⟨k1, by simp [k2], k3⟩

theorem needsDirectly_contains {s : Schema} {a : Addr} {n : Str} (h : NeedsDirectly s a n) :
    ∃ b, Contains s a b ∧ nameAt s b = n ∧ ∃ t, s.store b = some t ∧ t.kind = .inputObject := by
  obtain ⟨t, h1, h2, f, hf, u, h3, h4, h5⟩ := h
  exact ⟨f.type, ⟨t, h1, h2, f, hf, .self h3 h4⟩, by simp [nameAt, h3, h5], u, h3, h4⟩

/-- **C42.** The client generator reorders the collected types so that each comes after the input types of its fields which
are nullable and no lists. It comes to an end if no input type contains itself. -/
theorem C42_client {s : Schema} (hu : UniqueInputs s) {roots : List Addr} {c : Collected}
    (h : CollectInputTypes s {} roots c) :
    (∀ result, ReorderReferenced s c.types result →
      result.Perm c.types ∧ Ordered (nameAt s) (NeedsDirectly s) result) ∧
    ((¬ ∃ a, TransGen (Contains s) a a) → ∃ result, ReorderReferenced s c.types result) := by
  have hok := (collect_adds h ⟨rfl, by simp, by simp⟩).ok
  obtain ⟨entries, he, ht, hp⟩ := entries_spec hok.kinds
  constructor
  · rintro result ⟨entries', sorted, he', hr, rfl⟩
    have : entries' = entries := by
      rw [he] at he'
      exact (List.map_injective_iff.2 (Option.some_injective _) he').symm
    subst this
    obtain ⟨h1, h2⟩ := rounds_ok hr (before := []) (by simp) (by intro pre x post h; simp at h)
    refine ⟨by rw [← ht]; exact h1.map _, ?_⟩
    intro pre x post hx n hn
    obtain ⟨pre', l, rfl, rfl, hl⟩ := List.map_eq_append_iff.1 hx
    obtain ⟨e, post', rfl, rfl, rfl⟩ := List.map_eq_cons_iff.1 hl
    have hem : e ∈ entries' := h1.mem_iff.1 (by simp)
    obtain ⟨y, hy, hyn⟩ := h2 pre' e post' (by simp) n (((hp e hem).2.2 n).2 hn)
    refine ⟨y.type, List.mem_map_of_mem hy, ?_⟩
    exact (hp y (h1.mem_iff.1 (by simp [hy]))).1.symm.trans hyn
  · intro hac
    have hmem := (C42_collected hu h).2
    obtain ⟨result, hr⟩ := rounds_exist (all := entries) (rest := entries) (handled := []) (by
        intro e hem n hn
        obtain ⟨b, hb, hbn, _⟩ := needsDirectly_contains (((hp e hem).2.2 n).1 hn)
        obtain ⟨r, hr, i, hi, hpth⟩ := (hmem e.type).1 (hp e hem).2.1
        have hbm : b ∈ entries.map (·.type) := by rw [ht]; exact (hmem b).2 ⟨r, hr, i, hi, hpth.tail hb⟩
        obtain ⟨u, hu', rfl⟩ := List.mem_map.1 hbm
        exact ⟨u, hu', by rw [(hp u hu').1, hbn]⟩) (by
        rintro ⟨e, hcyc⟩
        apply hac
        refine ⟨e.type, ?_⟩
        have hem : e ∈ entries := by
          cases hcyc with
          | single h => exact h.1
          | tail _ h => exact h.2.1
        obtain ⟨a', rfl, h⟩ := transGen_lift (S := Contains s) (fun (x : Entry) a => a = x.type) (by
          rintro x y x' rfl ⟨hx, hy, hd⟩
          refine ⟨y.type, rfl, ?_⟩
          obtain ⟨b, hb, hbn, tb, hb1, hb2⟩ := needsDirectly_contains (((hp x hx).2.2 _).1 hd)
          obtain ⟨ty, hy1, hy2⟩ := hok.kinds _ (hp y hy).2.1
          have : b = y.type := hu _ _ _ _ hb1 hy1 hb2 hy2 (by
            rw [(hp y hy).1] at hbn
            simpa [nameAt, hb1, hy1] using hbn)
          exact this ▸ hb) rfl hcyc
        exact h) (fun _ h => h) (fun t ht => .inl ht)
    exact ⟨_, entries, result, he, hr, rfl⟩

end Verif.Gen
