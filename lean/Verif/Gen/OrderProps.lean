import Verif.Gen.Order
import Mathlib.Order.WellFounded
import Mathlib.Data.Fintype.EquivFin
import Mathlib.Data.Set.Finite.List
import Mathlib.Order.Preorder.Finite
import Mathlib.Tactic.Tauto

/-!
# C42: generated input types are declared before use
-/
namespace Verif.Gen
open Verif.Value Verif.TypeSystem Relation
open Verif.Schema.Wrap (Kind Addr)

/-! ## Specification -/

/-- `t` has a field of the input type `u` (of any modifiers). -/
def Uses (types : List InputType) (t u : InputType) : Prop :=
  t ∈ types ∧ u ∈ types ∧ ∃ f ∈ t.fields, f.fieldType = .input ∧ f.type = u.type

/-- The part of an input type which comes from the document. -/
def InputType.content (t : InputType) : Str × List InputField × Str := (t.type, t.fields, t.description)

/-- Everything is preceded by what it needs. -/
def Ordered {α : Type} (name : α → Str) (needs : α → Str → Prop) (l : List α) : Prop :=
  ∀ pre x post, l = pre ++ x :: post → ∀ n, needs x n → ∃ y ∈ pre, name y = n

/-- A field is of an input type which needs to be declared before. -/
def InputType.needs (t : InputType) (n : Str) : Prop := ∃ f ∈ t.fields, f.fieldType = .input ∧ f.type = n

/-! ## Rounds -/

theorem ready_iff {handled deps : List Str} : ready handled deps = true ↔ ∀ d ∈ deps, d ∈ handled := by
  simp [ready, List.find?_eq_none]

/-- A round, for any kind of entries. -/
theorem ordered_round {α : Type} {name : α → Str} {deps : α → List Str} {handled : List Str} {rest result : List α}
    {before : List α} (hh : ∀ n, n ∈ handled ↔ ∃ y ∈ before, name y = n)
    (hb : Ordered name (fun x n => n ∈ deps x) before)
    (ih : Ordered name (fun x n => n ∈ deps x) (before ++ rest.filter (fun e => ready handled (deps e))) →
      Ordered name (fun x n => n ∈ deps x)
        (before ++ rest.filter (fun e => ready handled (deps e)) ++ result)) :
    Ordered name (fun x n => n ∈ deps x)
      (before ++ (rest.filter (fun e => ready handled (deps e)) ++ result)) := by
  rw [← List.append_assoc]
  apply ih
  intro pre x post h n hn
  rcases List.append_eq_append_iff.1 h with ⟨as, h1, h2⟩ | ⟨bs, h1, h2⟩
  · have hx : x ∈ rest.filter (fun e => ready handled (deps e)) := by rw [h2]; simp
    have hr := (List.mem_filter.1 hx).2
    obtain ⟨y, hy, e⟩ := (hh n).1 (ready_iff.1 hr n hn)
    exact ⟨y, by rw [h1]; simp [hy], e⟩
  · cases bs with
    | nil =>
      simp only [List.append_nil, List.nil_append] at h1 h2
      have hx : x ∈ rest.filter (fun e => ready handled (deps e)) := by rw [← h2]; simp
      have hr := (List.mem_filter.1 hx).2
      obtain ⟨y, hy, e⟩ := (hh n).1 (ready_iff.1 hr n hn)
      exact ⟨y, by rw [← h1]; exact hy, e⟩
    | cons b bs =>
      simp only [List.cons_append, List.cons.injEq] at h2
      obtain ⟨rfl, h2⟩ := h2
      exact hb pre x bs h1 n hn

theorem perm_split {α : Type} (p : α → Bool) (l : List α) {r : List α} (h : r.Perm (l.filter fun e => !p e)) :
    (l.filter p ++ r).Perm l :=
  (List.Perm.append_left _ h).trans (List.filter_append_perm p l)

theorem handled_next {α : Type} {name : α → Str} {deps : α → List Str} {handled : List Str} {rest before : List α}
    (hh : ∀ n, n ∈ handled ↔ ∃ y ∈ before, name y = n) (n : Str) :
    n ∈ handled ++ (rest.filter fun e => ready handled (deps e)).map name ↔
      ∃ y ∈ before ++ rest.filter (fun e => ready handled (deps e)), name y = n := by
  simp only [List.mem_append, hh, List.mem_map]
  constructor
  · rintro (⟨y, h, e⟩ | ⟨y, h, e⟩)
    · exact ⟨y, .inl h, e⟩
    · exact ⟨y, .inr h, e⟩
  · rintro ⟨y, h | h, e⟩
    · exact .inl ⟨y, h, e⟩
    · exact .inr ⟨y, h, e⟩

theorem orderLoop_ok {rest result : List InputType} {handled : List Str} (h : orderLoop handled rest = .ok result)
    {before : List InputType} (hh : ∀ n, n ∈ handled ↔ ∃ y ∈ before, y.type = n)
    (hb : Ordered (·.type) (fun x n => n ∈ x.dependencies) before) :
    result.Perm rest ∧ Ordered (·.type) (fun x n => n ∈ x.dependencies) (before ++ result) := by
  induction hn : rest.length using Nat.strongRecOn generalizing rest result handled before with
  | _ n ih =>
    subst hn
    cases rest with
    | nil => rw [orderLoop] at h; cases h; exact ⟨.refl _, by simpa using hb⟩
    | cons first others =>
      rw [orderLoop] at h
      split at h
      · cases h
      · rename_i hf
        simp only at h
        split at h
        · cases h
        · rename_i r hr
          simp only [Except.ok.injEq] at h
          subst h
          have hl := List.length_eq_length_filter_add (l := first :: others) fun e => ready handled e.dependencies
          have hp := List.length_pos_iff.2 hf
          by_cases hback : (first :: others).filter (fun e => !ready handled e.dependencies) = []
          · rw [hback] at hr
            simp only [List.isEmpty_nil, if_true] at hr
            rw [orderLoop] at hr
            cases hr
            refine ⟨perm_split _ _ (by rw [hback]), ?_⟩
            exact ordered_round hh hb fun h => by simpa using h
          · have hr' := hr
            rw [if_neg (by simpa using hback)] at hr'
            refine ⟨perm_split _ _ (ih _ (by omega) hr' (before := before ++ _) (handled_next hh) ?_ rfl).1, ?_⟩
            · have := ordered_round (rest := first :: others) (result := []) hh hb fun h => by simpa using h
              simpa using this
            · refine ordered_round hh hb fun h => ?_
              exact (ih _ (by omega) hr' (handled_next hh) h rfl).2

theorem addDependencies_spec (t : InputType) :
    (addDependencies t).content = t.content ∧
    ∀ n, n ∈ (addDependencies t).dependencies ↔ n ∈ t.dependencies ∨ t.needs n := by
  refine ⟨rfl, fun n => ?_⟩
  have : ∀ (fs : List InputField) (ds : List Str),
      n ∈ fs.foldl (fun deps field => if field.fieldType = .input then deps ++ [field.type] else deps) ds ↔
        n ∈ ds ∨ ∃ f ∈ fs, f.fieldType = .input ∧ f.type = n := by
    intro fs
    induction fs with
    | nil => simp
    | cons f fs ih =>
      intro ds
      rw [List.foldl_cons, ih]
      by_cases hf : f.fieldType = .input
      · simp [hf]
        grind
      · simp [hf]
  exact this _ _

/-- **C42.** The types which the generator emits are those of the document, and each of them comes after all the input
types of its fields. -/
theorem C42_order {types result : List InputType} (hd : ∀ t ∈ types, t.dependencies = [])
    (h : reorderInputTypes types = .ok result) :
    (result.map (·.content)).Perm (types.map (·.content)) ∧ Ordered (·.type) (·.needs) result := by
  obtain ⟨h1, h2⟩ := orderLoop_ok h (before := []) (by simp) (by intro pre x post h; simp at h)
  constructor
  · have := h1.map (·.content)
    rwa [List.map_map] at this
  · intro pre x post hx n hn
    refine h2 pre x post (by simpa using hx) n ?_
    have hm : x ∈ types.map addDependencies := h1.mem_iff.1 (by rw [hx]; simp)
    obtain ⟨t, _, rfl⟩ := List.mem_map.1 hm
    exact ((addDependencies_spec t).2 n).2 (.inr hn)

/-! ## Cycles -/

/-- A finite set in which everything has a successor has a cycle, which is reached from everywhere. -/
theorem cycle_of_total {α : Type} {R : α → α → Prop} {l : List α} (h : ∀ x ∈ l, ∃ y ∈ l, R x y) {x : α} (hx : x ∈ l) :
    ∃ c ∈ l, ReflTransGen R x c ∧ TransGen R c c := by
  by_contra hc
  push Not at hc
  let S := {y // y ∈ l ∧ ReflTransGen R x y}
  have : Finite S := by
    have hf : {y | y ∈ l ∧ ReflTransGen R x y}.Finite := (List.finite_toSet l).subset fun _ h => h.1
    exact hf
  let r : S → S → Prop := fun a b => TransGen R b.1 a.1
  have : IsTrans S r := ⟨fun a b c h1 h2 => h2.trans h1⟩
  have : Std.Irrefl r := ⟨fun a h => hc a.1 a.2.1 a.2.2 h⟩
  have wf : WellFounded r := Finite.wellFounded_of_trans_of_irrefl r
  obtain ⟨m, _, hm⟩ := wf.has_min Set.univ ⟨⟨x, hx, .refl⟩, trivial⟩
  obtain ⟨y, hy, e⟩ := h m.1 m.2.1
  exact hm ⟨y, hy, m.2.2.tail e⟩ trivial (.single e)

/-- In an order there is no cycle. -/
theorem ordered_irrefl {α : Type} {name : α → Str} {needs : α → Str → Prop} {l : List α} (hn : (l.map name).Nodup)
    (h : Ordered name needs l) {x : α} : ¬ TransGen (fun x y => x ∈ l ∧ needs x (name y)) x x := by
  have step : ∀ {x y}, x ∈ l ∧ needs x (name y) → (l.map name).idxOf (name y) < (l.map name).idxOf (name x) := by
    rintro x y ⟨hx, hy⟩
    obtain ⟨pre, post, rfl⟩ := List.append_of_mem hx
    obtain ⟨z, hz, e⟩ := h pre x post rfl _ hy
    have hxp : name x ∉ pre.map name := by
      intro hc
      rw [List.map_append, List.map_cons, List.nodup_append] at hn
      exact hn.2.2 _ hc _ (by simp) rfl
    rw [List.map_append, List.map_cons, List.idxOf_append_of_notMem hxp,
      List.idxOf_append_of_mem (by rw [← e]; exact List.mem_map_of_mem hz)]
    have := List.idxOf_lt_length_of_mem (a := name y) (l := pre.map name) (by rw [← e]; exact List.mem_map_of_mem hz)
    omega
  have : ∀ {x y}, TransGen (fun x y => x ∈ l ∧ needs x (name y)) x y →
      (l.map name).idxOf (name y) < (l.map name).idxOf (name x) := by
    intro x y h
    induction h with
    | single h => exact step h
    | tail _ h ih => exact (step h).trans ih
  intro h
  exact absurd (this h) (lt_irrefl _)

theorem orderLoop_error {types rest : List InputType} {handled : List Str} {e : LoadError}
    (hc : ∀ t ∈ types, ∀ n ∈ t.dependencies, ∃ u ∈ types, u.type = n)
    (hs : ∀ t ∈ rest, t ∈ types) (hh : ∀ t ∈ types, t ∈ rest ∨ t.type ∈ handled) (h : orderLoop handled rest = .error e) :
    ∃ t ∈ types, e = .cycle t.type ∧ ∃ c ∈ types,
      ReflTransGen (fun x y => x ∈ types ∧ y ∈ types ∧ y.type ∈ x.dependencies) t c ∧
      TransGen (fun x y => x ∈ types ∧ y ∈ types ∧ y.type ∈ x.dependencies) c c := by
  induction hn : rest.length using Nat.strongRecOn generalizing rest handled with
  | _ n ih =>
    subst hn
    cases rest with
    | nil => rw [orderLoop] at h; cases h
    | cons first others =>
      rw [orderLoop] at h
      split at h
      · rename_i hf
        cases h
        refine ⟨first, hs _ (by simp), rfl, ?_⟩
        have total : ∀ x ∈ first :: others, ∃ y ∈ first :: others, x ∈ types ∧ y ∈ types ∧ y.type ∈ x.dependencies := by
          intro x hx
          have hr := List.filter_eq_nil_iff.1 hf x hx
          rw [ready_iff] at hr
          push Not at hr
          obtain ⟨d, hd, hnd⟩ := hr
          obtain ⟨u, hu, rfl⟩ := hc x (hs x hx) d hd
          refine ⟨u, (hh u hu).resolve_right hnd, hs x hx, hu, hd⟩
        obtain ⟨c, hcl, h1, h2⟩ := cycle_of_total total (List.mem_cons_self ..)
        exact ⟨c, hs c hcl, h1, h2⟩
      · rename_i hf
        simp only at h
        split at h
        · rename_i e' hloop
          simp only [Except.error.injEq] at h
          subst h
          have hl := List.length_eq_length_filter_add (l := first :: others) fun e => ready handled e.dependencies
          have hp := List.length_pos_iff.2 hf
          refine ih _ (by omega) (fun t ht => hs t (List.mem_filter.1 ht).1) ?_ hloop rfl
          intro t ht
          rcases hh t ht with h | h
          · by_cases hr : ready handled t.dependencies
            · by_cases hb : (List.filter (fun e => !ready handled e.dependencies) (first :: others)).isEmpty
              · exfalso
                rw [if_pos hb, List.isEmpty_iff.1 hb, orderLoop] at hloop
                cases hloop
              · rw [if_neg hb]
                right
                exact List.mem_append_right _ (List.mem_map_of_mem (List.mem_filter.2 ⟨h, hr⟩))
            · exact .inl (List.mem_filter.2 ⟨h, by simpa using hr⟩)
          · right
            split
            · exact h
            · exact List.mem_append_left _ h
        · cases h

theorem transGen_lift {α β : Type} {R : α → α → Prop} {S : β → β → Prop} (rel : α → β → Prop)
    (step : ∀ {x y x'}, rel x x' → R x y → ∃ y', rel y y' ∧ S x' y') {x y : α} {x' : β} (hx : rel x x')
    (h : TransGen R x y) : ∃ y', rel y y' ∧ TransGen S x' y' := by
  induction h with
  | single h => obtain ⟨y', h1, h2⟩ := step hx h; exact ⟨y', h1, .single h2⟩
  | tail _ h ih =>
    obtain ⟨z', h1, h2⟩ := ih
    obtain ⟨y', h3, h4⟩ := step h1 h
    exact ⟨y', h3, h2.tail h4⟩

theorem unique_of_nodup {types : List InputType} (hn : (types.map (·.type)).Nodup) {t u : InputType} (ht : t ∈ types)
    (hu : u ∈ types) (h : t.type = u.type) : t = u :=
  List.inj_on_of_nodup_map hn ht hu h

/-- **C42.** The generator fails exactly if an input type contains itself, by its fields or by the fields of its fields and
so on. The error names a type which contains such a type. -/
theorem C42_cycle {types : List InputType} (hd : ∀ t ∈ types, t.dependencies = []) (hn : (types.map (·.type)).Nodup)
    (hc : ∀ t ∈ types, ∀ n, t.needs n → ∃ u ∈ types, u.type = n) :
    ((∃ e, reorderInputTypes types = .error e) ↔ ∃ t, TransGen (Uses types) t t) ∧
    ∀ e, reorderInputTypes types = .error e →
      ∃ t ∈ types, e = .cycle t.type ∧ ∃ c, ReflTransGen (Uses types) t c ∧ TransGen (Uses types) c c := by
  have mem : ∀ {t}, t ∈ types.map addDependencies ↔ ∃ u ∈ types, addDependencies u = t := by simp
  have uses : ∀ {t u}, t ∈ types → u ∈ types →
      (u.type ∈ (addDependencies t).dependencies ↔ Uses types t u) := by
    intro t u ht hu
    rw [(addDependencies_spec t).2, hd t ht]
    simp [Uses, ht, hu, InputType.needs]
  have unadd : ∀ {t u}, t ∈ types → u ∈ types → addDependencies t = addDependencies u → t = u := by
    intro t u ht hu h
    exact unique_of_nodup hn ht hu (by have := congrArg InputType.type h; exact this)
  have back : ∀ e, reorderInputTypes types = .error e →
      ∃ t ∈ types, e = .cycle t.type ∧ ∃ c, ReflTransGen (Uses types) t c ∧ TransGen (Uses types) c c := by
    intro e he
    obtain ⟨t', ht', rfl, c', hcm', h1, h2⟩ := orderLoop_error (types := types.map addDependencies) (by
      intro t' ht' n hn
      obtain ⟨t, ht, rfl⟩ := mem.1 ht'
      rw [(addDependencies_spec t).2, hd t ht] at hn
      obtain ⟨u, hu, h⟩ := hc t ht n (by simpa using hn)
      exact ⟨addDependencies u, mem.2 ⟨u, hu, rfl⟩, h⟩) (fun _ h => h) (fun t ht => .inl ht) he
    obtain ⟨t, ht, rfl⟩ := mem.1 ht'
    obtain ⟨c, hcm, rfl⟩ := mem.1 hcm'
    have step : ∀ {x y x'}, (x' ∈ types ∧ addDependencies x' = x) →
        (x ∈ types.map addDependencies ∧ y ∈ types.map addDependencies ∧ y.type ∈ x.dependencies) →
        ∃ y', (y' ∈ types ∧ addDependencies y' = y) ∧ Uses types x' y' := by
      rintro x y x' ⟨hx, rfl⟩ ⟨_, hy, h⟩
      obtain ⟨y', hy', rfl⟩ := mem.1 hy
      exact ⟨y', ⟨hy', rfl⟩, (uses hx hy').1 h⟩
    refine ⟨t, ht, rfl, c, ?_, ?_⟩
    · rcases reflTransGen_iff_eq_or_transGen.1 h1 with h | h
      · rw [unadd hcm ht h]
      · obtain ⟨c', ⟨hc', e⟩, h⟩ := transGen_lift (fun x x' => x' ∈ types ∧ addDependencies x' = x) step ⟨ht, rfl⟩ h
        rw [unadd hcm hc' e.symm]
        exact h.to_reflTransGen
    · obtain ⟨c', ⟨hc', e⟩, h⟩ := transGen_lift (fun x x' => x' ∈ types ∧ addDependencies x' = x) step ⟨hcm, rfl⟩ h2
      rw [unadd hc' hcm e] at h
      exact h
  refine ⟨⟨?_, ?_⟩, back⟩
  · rintro ⟨e, he⟩
    obtain ⟨_, _, _, c, _, h⟩ := back e he
    exact ⟨c, h⟩
  · rintro ⟨t, ht⟩
    cases hr : reorderInputTypes types with
    | error e => exact ⟨e, rfl⟩
    | ok result =>
      exfalso
      obtain ⟨h1, h2⟩ := C42_order hd hr
      have hm : ∀ {t}, t ∈ types → ∃ u ∈ result, u.content = t.content := by
        intro t ht
        exact List.mem_map.1 (h1.mem_iff.2 (List.mem_map_of_mem ht))
      have hn' : (result.map (·.type)).Nodup := by
        have := h1.map (·.1)
        rw [List.map_map, List.map_map] at this
        exact this.nodup_iff.2 hn
      have ht' : t ∈ types := by
        cases ht with
        | single h => exact h.1
        | tail _ h => exact h.2.1
      obtain ⟨u, hu, e⟩ := hm ht'
      obtain ⟨u', ⟨hu', e'⟩, h⟩ := transGen_lift (S := fun x y => x ∈ result ∧ x.needs y.type)
        (fun x x' => x' ∈ result ∧ x'.content = x.content) (by
          rintro x y x' ⟨hx, e⟩ ⟨_, hy, f, hf, h1, h2⟩
          obtain ⟨y', hy', e'⟩ := hm hy
          have e1 : x'.fields = x.fields := congrArg (·.2.1) e
          have e2 : y'.type = y.type := congrArg (·.1) e'
          exact ⟨y', ⟨hy', e'⟩, hx, f, by rw [e1]; exact hf, h1, by rw [e2]; exact h2⟩) ⟨hu, e⟩ ht
      have e3 : u'.type = u.type := by
        have a : u'.type = t.type := congrArg (·.1) e'
        have b : u.type = t.type := congrArg (·.1) e
        rw [a, b]
      rw [unique_of_nodup hn' hu' hu e3] at h
      exact ordered_irrefl hn' h2 h

end Verif.Gen
