import Verif.Gen.LoaderProps

/-!
# Loading a schema document: definitions and extensions (C53)
-/
namespace Verif.Gen
open Verif.Value Verif.Resp Verif.Ast Verif.Modifiers

/-! ## Collecting definitions and extensions -/

/-- A type and the definitions which say what it is. -/
structure Item where
  name : Str
  description : Str
  parts : List TypeDef

/-- The types of one kind. -/
structure Reg where
  names : Str → Option Nat := fun _ => none
  items : List Item := []

/-- A definition adds a type, an extension adds to the last one of that name. -/
def Reg.step (k : SchemaType) (r : Reg) (d : TypeDef) : Reg :=
  match d.defines with
  | some (k', n) =>
    if k' = k then
      { names := assign r.names n r.items.length, items := r.items ++ [⟨n, d.description, [d]⟩] }
    else r
  | none =>
    match d.extended with
    | some (k', n) =>
      if k' = k then
        match r.names n with
        | some i => { r with items := r.items.modify i fun t => { t with parts := t.parts ++ [d] } }
        | none => r
      else r
    | none => r

theorem not_both {d : TypeDef} {x : SchemaType × Str} (h : d.extended = some x) : d.defines = none := by
  cases d <;> simp_all [TypeDef.defines, TypeDef.extended]

/-- The index of a name is that of the last item with it. -/
structure Reg.Ok (r : Reg) : Prop where
  bound : ∀ {n i}, r.names n = some i → ∃ t : Item, r.items[i]? = some t ∧ t.name = n
  last : ∀ {n i}, r.names n = some i → ∀ (j : Nat) (t : Item), i < j → r.items[j]? = some t → t.name ≠ n
  known : ∀ {j : Nat} {t : Item}, r.items[j]? = some t → ∃ i, r.names t.name = some i

theorem Reg.ok_init : Reg.Ok {} := ⟨by simp, by simp, by simp⟩

theorem modify_getElem? {α : Type} (l : List α) (i j : Nat) (f : α → α) :
    (l.modify i f)[j]? = if i = j then l[j]?.map f else l[j]? := by
  rw [List.getElem?_modify]
  split <;> simp_all

theorem Reg.ok_step {k : SchemaType} {r : Reg} (d : TypeDef) (h : r.Ok) : (r.step k d).Ok := by
  unfold Reg.step
  split
  · rename_i k' n hd
    split
    · constructor
      · intro m i hm
        simp only [assign] at hm
        split at hm
        · cases hm
          exact ⟨_, List.getElem?_concat_length .., by simp [*]⟩
        · obtain ⟨t, ht, hn⟩ := h.bound hm
          exact ⟨t, by rw [List.getElem?_append_left (List.getElem?_eq_some_iff.1 ht).1]; exact ht, hn⟩
      · intro m i hm j t hij ht
        simp only [assign] at hm
        rw [List.getElem?_append] at ht
        split at hm
        · cases hm
          rw [if_neg (by omega)] at ht
          have : (List.length [(⟨n, d.description, [d]⟩ : Item)]) ≤ j - r.items.length := by simp; omega
          rw [List.getElem?_eq_none this] at ht
          cases ht
        · rename_i hmn
          split at ht
          · exact h.last hm j t hij ht
          · rw [List.getElem?_singleton] at ht
            split at ht
            · cases ht
              exact fun e => hmn e.symm
            · cases ht
      · intro j t ht
        simp only [assign]
        split
        · exact ⟨_, rfl⟩
        · rename_i hne
          rw [List.getElem?_append] at ht
          split at ht
          · exact h.known ht
          · rw [List.getElem?_singleton] at ht
            split at ht
            · cases ht
              exact (hne rfl).elim
            · cases ht
    · exact h
  · split
    · rename_i k' n hd
      split
      · split
        · rename_i i0 hi0
          constructor
          · intro m i hm
            obtain ⟨t, ht, hn⟩ := h.bound hm
            rw [modify_getElem?]
            split
            · rw [ht]; exact ⟨_, rfl, hn⟩
            · exact ⟨t, ht, hn⟩
          · intro m i hm j t hij ht
            rw [modify_getElem?] at ht
            split at ht
            · obtain ⟨u, hu, rfl⟩ := Option.map_eq_some_iff.1 ht
              exact h.last hm j u hij hu
            · exact h.last hm j t hij ht
          · intro j t ht
            rw [modify_getElem?] at ht
            split at ht
            · obtain ⟨u, hu, rfl⟩ := Option.map_eq_some_iff.1 ht
              exact (h.known hu : ∃ i, r.names u.name = some i)
            · exact h.known ht
        · exact h
      · exact h
    · exact h

/-- All the definitions of a document. -/
def Reg.run (k : SchemaType) (r : Reg) (doc : List TypeDef) : Reg := doc.foldl (Reg.step k) r

theorem Reg.ok_run {k : SchemaType} {r : Reg} (doc : List TypeDef) (h : r.Ok) : (r.run k doc).Ok := by
  induction doc generalizing r with
  | nil => exact h
  | cons d doc ih => exact ih (Reg.ok_step d h)

theorem extensions_cons {k : SchemaType} {n : Str} {d : TypeDef} {rest : List TypeDef} :
    extensions k n (d :: rest) =
      if d.defines = some (k, n) then []
      else if d.extended = some (k, n) then d :: extensions k n rest else extensions k n rest := by
  unfold extensions
  by_cases h : d.defines = some (k, n)
  · simp [h]
  · by_cases h' : d.extended = some (k, n) <;> simp [h, h']

/-- The item with what is still to come. -/
def later (k : SchemaType) (names : Str → Option Nat) (doc : List TypeDef) (i : Nat) (t : Item) : Item :=
  if names t.name = some i then { t with parts := t.parts ++ extensions k t.name doc } else t

/-- The item of a definition. -/
def itemOf (k : SchemaType) (d : TypeDef × List TypeDef) : Item :=
  match d.1.defines with
  | some (_, n) => ⟨n, d.1.description, d.1 :: extensions k n d.2⟩
  | none => ⟨[], [], []⟩

theorem mapIdx_congr {α β : Type} {l : List α} {f g : Nat → α → β} (h : ∀ i a, l[i]? = some a → f i a = g i a) :
    l.mapIdx f = l.mapIdx g := by
  apply List.ext_getElem?
  intro i
  rw [List.getElem?_mapIdx, List.getElem?_mapIdx]
  cases h' : l[i]? with
  | none => rfl
  | some a => simp [h i a h']

theorem Reg.run_items {k : SchemaType} {r : Reg} (doc : List TypeDef) (h : r.Ok) :
    (r.run k doc).items = r.items.mapIdx (later k r.names doc) ++ (definitions k doc).map (itemOf k) := by
  induction doc generalizing r with
  | nil =>
    have : r.items.mapIdx (later k r.names []) = r.items.mapIdx fun _ a => a := by
      apply mapIdx_congr
      intro i a _
      simp [later, extensions]
    have e : r.items.mapIdx (fun _ a => a) = r.items := by
      apply List.ext_getElem?
      intro i
      simp
    rw [this, e]
    simp [Reg.run, definitions]
  | cons d doc ih =>
    have ih := ih (Reg.ok_step (k := k) d h)
    change ((r.step k d).run k doc).items = _
    rw [ih]
    have same : ∀ (hr : r.step k d = r) (hd : definitions k (d :: doc) = definitions k doc)
        (he : ∀ n, (∃ i, r.names n = some i) → extensions k n (d :: doc) = extensions k n doc),
        (r.step k d).items.mapIdx (later k (r.step k d).names doc) ++ (definitions k doc).map (itemOf k) =
          r.items.mapIdx (later k r.names (d :: doc)) ++ (definitions k (d :: doc)).map (itemOf k) := by
      intro hr hd he
      rw [hr, hd]
      congr 1
      apply mapIdx_congr
      intro i a _
      unfold later
      split
      · rename_i hn
        rw [he _ ⟨i, hn⟩]
      · rfl
    cases hd : d.defines with
    | some x =>
      obtain ⟨k', n⟩ := x
      have hext : d.extended = none := by
        cases hx : d.extended with
        | none => rfl
        | some y => rw [not_both hx] at hd; cases hd
      by_cases hk : k' = k
      · subst hk
        have hs : r.step k' d =
            { names := assign r.names n r.items.length, items := r.items ++ [⟨n, d.description, [d]⟩] } := by
          simp [Reg.step, hd]
        rw [hs]
        simp only [List.mapIdx_append, List.mapIdx_cons, List.mapIdx_nil, definitions, hd, Option.map_some, if_true,
          List.map_cons, List.append_assoc, List.cons_append, List.nil_append]
        congr 1
        · apply mapIdx_congr
          intro i a hi
          unfold later assign
          simp only [extensions_cons, hd, hext]
          by_cases ha : a.name = n
          · subst ha
            obtain ⟨hlt, _⟩ := List.getElem?_eq_some_iff.1 hi
            have : ¬ r.items.length = i := by omega
            simp [this]
          · have : ¬ n = a.name := fun e => ha e.symm
            simp [ha, this]
        · simp [later, assign, itemOf, hd]
      · refine same (by simp [Reg.step, hd, hk]) (by simp [definitions, hd, hk]) ?_
        intro m _
        simp [extensions_cons, hd, hk, hext]
    | none =>
      cases hx : d.extended with
      | none =>
        refine same (by simp [Reg.step, hd, hx]) (by simp [definitions, hd]) ?_
        intro m _
        simp [extensions_cons, hd, hx]
      | some x =>
        obtain ⟨k', n⟩ := x
        by_cases hk : k' = k
        · subst hk
          cases hn : r.names n with
          | none =>
            refine same (by simp [Reg.step, hd, hx, hn]) (by simp [definitions, hd]) ?_
            rintro m ⟨i, hm⟩
            have : ¬ n = m := by rintro rfl; rw [hn] at hm; cases hm
            simp [extensions_cons, hd, hx, this]
          | some i0 =>
            have hs : r.step k' d =
                { r with items := r.items.modify i0 fun t => { t with parts := t.parts ++ [d] } } := by
              simp [Reg.step, hd, hx, hn]
            rw [hs]
            have hdef : definitions k' (d :: doc) = definitions k' doc := by simp [definitions, hd]
            rw [hdef]
            congr 1
            apply List.ext_getElem?
            intro j
            rw [List.getElem?_mapIdx, List.getElem?_mapIdx, modify_getElem?]
            cases ht : r.items[j]? with
            | none => split <;> simp
            | some t =>
              by_cases hij : i0 = j
              · subst hij
                obtain ⟨u, hu, hun⟩ := h.bound hn
                rw [ht] at hu
                cases hu
                subst hun
                simp [later, hn, extensions_cons, hd, hx]
              · rw [if_neg hij]
                simp only [Option.map_some, Option.some.injEq]
                unfold later
                split
                · rename_i hj
                  have : ¬ n = t.name := by
                    rintro rfl
                    rw [hn] at hj
                    cases hj
                    exact hij rfl
                  simp [extensions_cons, hd, hx, this]
                · rfl
        · refine same (by simp [Reg.step, hd, hx, hk]) (by simp [definitions, hd]) ?_
          intro m _
          simp [extensions_cons, hd, hx, hk]

theorem Reg.run_items_init (k : SchemaType) (doc : List TypeDef) :
    (Reg.run k {} doc).items = (definitions k doc).map (itemOf k) := by
  rw [Reg.run_items doc Reg.ok_init]
  simp

theorem Reg.run_concat {k : SchemaType} {r : Reg} {pre : List TypeDef} {d : TypeDef} :
    r.run k (pre ++ [d]) = (r.run k pre).step k d := by
  simp [Reg.run, List.foldl_append]

/-- A name has an index if it has been defined. -/
theorem Reg.names_iff (k : SchemaType) (pre : List TypeDef) (n : Str) :
    (Reg.run k {} pre).names n = none ↔ ∀ e ∈ pre, e.defines ≠ some (k, n) := by
  induction pre using List.reverseRecOn with
  | nil => simp [Reg.run]
  | append_singleton pre d ih =>
    rw [Reg.run_concat]
    simp only [List.mem_append, List.mem_singleton]
    unfold Reg.step
    split
    · rename_i k' m hd
      split
      · rename_i hk
        subst hk
        simp only [assign]
        by_cases hm : n = m
        · subst hm
          simp only [if_true, reduceCtorEq, false_iff]
          exact fun h => h d (.inr rfl) hd
        · rw [if_neg hm, ih]
          constructor
          · rintro h e (he | rfl)
            · exact h e he
            · rw [hd]
              simp only [ne_eq, Option.some.injEq, Prod.mk.injEq, true_and]
              exact fun e => hm e.symm
          · exact fun h e he => h e (.inl he)
      · rename_i hk
        rw [ih]
        constructor
        · rintro h e (he | rfl)
          · exact h e he
          · rw [hd]
            simp [hk]
        · exact fun h e he => h e (.inl he)
    · rename_i hd
      have : (∀ e, e ∈ pre ∨ e = d → e.defines ≠ some (k, n)) ↔ ∀ e ∈ pre, e.defines ≠ some (k, n) := by
        constructor
        · exact fun h e he => h e (.inl he)
        · rintro h e (he | rfl)
          · exact h e he
          · rw [hd]; simp
      rw [this, ← ih]
      split
      · split
        · split
          · simp
          · rfl
        · rfl
      · rfl

end Verif.Gen
