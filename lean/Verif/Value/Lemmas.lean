import Verif.Value.Spec
import Verif.SortedMap.Lemmas

namespace Verif.Value
open Verif.Std Verif.SortedMap Verif.SortedMap.Spec

theorem strLess_irrefl (a : Str) : strLess a a = false := by
  simp [strLess, List.lt_irrefl]

theorem strLess_trans {a b c : Str} (h1 : strLess a b = true) (h2 : strLess b c = true) : strLess a c = true := by
  simp [strLess] at *
  exact List.lt_trans h1 h2

theorem strLess_eq {a b : Str} (h1 : strLess a b = false) (h2 : strLess b a = false) : a = b := by
  simp [strLess] at *
  exact List.le_antisymm h2 h1

theorem strLess_strictWeak : StrictWeak strLess where
  irrefl := strLess_irrefl
  trans _ _ _ := strLess_trans
  incomp a b c h1 h2 h3 h4 := by
    have e1 := strLess_eq h1 h2
    have e2 := strLess_eq h3 h4
    subst e1; subst e2
    exact ⟨h1, h1⟩

theorem same_iff (a b : Str) : same strLess a b = true ↔ a = b := by
  constructor
  · intro h
    simp [same] at h
    exact strLess_eq h.1 h.2
  · rintro rfl; exact same_refl strLess_strictWeak a

section MapData
variable {V : Type}

/-- The invariant of `MapData`: names are distinct, the index is a permutation of the positions and sorted by name. -/
structure MInv (entries : List (Str × V)) (members : List Nat) : Prop where
  nodup : (entries.map (·.1)).Nodup
  perm : members.Perm (List.range entries.length)
  sorted : Sorted strLess (nameAt entries) members

theorem MInv.nil : MInv ([] : List (Str × V)) [] := ⟨by simp, by simp, List.Pairwise.nil⟩

theorem nameAt_lt {entries : List (Str × V)} {i : Nat} (h : i < entries.length) :
    nameAt entries i = entries[i].1 := by simp [nameAt, h]

theorem nameAt_append {entries : List (Str × V)} {e : Str × V} {i : Nat} (h : i < entries.length) :
    nameAt (entries ++ [e]) i = nameAt entries i := by
  rw [nameAt_lt h, nameAt_lt (by simp; omega), List.getElem_append_left h]

theorem nameAt_last {entries : List (Str × V)} {e : Str × V} : nameAt (entries ++ [e]) entries.length = e.1 := by
  simp [nameAt]

theorem MInv.mem_lt {entries : List (Str × V)} {members : List Nat} (h : MInv entries members) {i : Nat} :
    i ∈ members ↔ i < entries.length := by
  rw [h.perm.mem_iff]; simp

theorem MInv.length_eq {entries : List (Str × V)} {members : List Nat} (h : MInv entries members) :
    members.length = entries.length := by simpa using h.perm.length_eq

/-- What `equal_range` finds on a valid index: nothing if the name is absent, else its position. -/
theorem memberRange_cases {entries : List (Str × V)} {members : List Nat} (h : MInv entries members) (name : Str) :
    ∃ a e b, members = a ++ e ++ b ∧ memberRange entries members name = (a.length, a.length + e.length) ∧
      (∀ i ∈ a, strLess (nameAt entries i) name = true) ∧ (∀ i ∈ b, strLess name (nameAt entries i) = true) ∧
      ((e = [] ∧ ∀ x ∈ entries, x.1 ≠ name) ∨
       ∃ i, ∃ hi : i < entries.length, e = [i] ∧ entries[i].1 = name) := by
  obtain ⟨a, e, b, hm, ha, hb, he⟩ := split strLess_strictWeak (nameAt entries) name members h.sorted
  refine ⟨a, e, b, hm, ?_, ha, hb, ?_⟩
  · rw [hm]
    exact range_split strLess_strictWeak (nameAt entries) name a e b ha hb he
  · rcases he with rfl | ⟨i, rfl, hi⟩
    · left
      refine ⟨rfl, ?_⟩
      intro x hx hname
      obtain ⟨i, hi, rfl⟩ := List.mem_iff_getElem.1 hx
      have hmem : i ∈ a ++ [] ++ b := hm ▸ h.mem_lt.2 hi
      simp at hmem
      rcases hmem with hmem | hmem
      · have := ha i hmem
        rw [nameAt_lt hi, hname, strLess_irrefl] at this; cases this
      · have := hb i hmem
        rw [nameAt_lt hi, hname, strLess_irrefl] at this; cases this
    · right
      have hlt : i < entries.length := h.mem_lt.1 (hm ▸ by simp)
      refine ⟨i, hlt, rfl, ?_⟩
      rw [← nameAt_lt hlt]
      exact (same_iff _ _).1 hi

theorem any_name {entries : List (Str × V)} {name : Str} :
    entries.any (fun x => x.1 == name) = true ↔ ∃ x ∈ entries, x.1 = name := by
  simp

theorem emplaceBack_spec {entries : List (Str × V)} {members : List Nat} (h : MInv entries members) (name : Str) (v : V) :
    MInv (mapEmplaceBack entries members name v).1.1 (mapEmplaceBack entries members name v).1.2 ∧
    (mapEmplaceBack entries members name v).1.1 = Spec.add entries (name, v) ∧
    (mapEmplaceBack entries members name v).2 = !(entries.map (·.1)).contains name := by
  obtain ⟨a, e, b, hm, hr, ha, hb, he⟩ := memberRange_cases h name
  simp only [mapEmplaceBack, hr]
  rcases he with ⟨rfl, hno⟩ | ⟨i, hi, rfl, hname⟩
  · simp only [List.length_nil, Nat.add_zero, ne_eq, not_true_eq_false, if_false]
    have hadd : Spec.add entries (name, v) = entries ++ [(name, v)] := by
      unfold Spec.add
      rw [if_neg]
      rw [any_name]
      rintro ⟨x, hx, hxn⟩
      exact hno x hx hxn
    have hnot : name ∉ entries.map (·.1) := by
      intro hc
      obtain ⟨x, hx, hxn⟩ := List.mem_map.1 hc
      exact hno x hx hxn
    refine ⟨?_, hadd.symm, ?_⟩
    · simp only [List.append_nil] at hm
      have hlen := h.length_eq
      have hlt : ∀ j ∈ a ++ b, j < entries.length := fun j hj => h.mem_lt.1 (hm ▸ hj)
      rw [hlen, hm, vectorInsert_split]
      constructor
      · simp only [List.map_append, List.map_cons, List.map_nil, List.nodup_append]
        refine ⟨h.nodup, by simp, ?_⟩
        intro x hx y hy
        simp at hy
        subst hy
        rintro rfl
        exact hnot hx
      · have hp := h.perm
        rw [hm] at hp
        simp only [List.length_append, List.length_singleton, List.range_succ]
        exact (List.perm_middle.trans (hp.cons _)).trans (List.perm_append_comm (l₁ := [entries.length]))
      · have hs : Sorted strLess (nameAt (entries ++ [(name, v)])) (a ++ b) := by
          have := h.sorted
          rw [hm] at this
          unfold Sorted at *
          refine this.imp_of_mem ?_
          intro x y hx hy hxy
          rwa [nameAt_append (hlt x hx), nameAt_append (hlt y hy)]
        refine Sorted_insert strLess_strictWeak nameAt_last hs ?_ ?_
        · intro j hj
          rw [nameAt_append (hlt j (by simp [hj]))]
          exact ha j hj
        · intro j hj
          rw [nameAt_append (hlt j (by simp [hj]))]
          exact hb j hj
    · simp only [List.contains_eq_mem, hnot, decide_false, Bool.not_false]
  · simp only [List.length_singleton, ne_eq]
    rw [if_pos (by omega)]
    have hex : ∃ x ∈ entries, x.1 = name := ⟨entries[i], List.getElem_mem hi, hname⟩
    refine ⟨h, ?_, ?_⟩
    · unfold Spec.add
      rw [if_pos (any_name.2 hex)]
    · have : name ∈ entries.map (·.1) := by
        obtain ⟨x, hx, hxn⟩ := hex
        exact List.mem_map.2 ⟨x, hx, hxn⟩
      simp only [List.contains_eq_mem, this, decide_true, Bool.not_true]

theorem insertAll_spec (es : List (Str × V)) {entries : List (Str × V)} {members : List Nat} (h : MInv entries members)
    (seen : List Str) (hseen : ∀ n, n ∈ seen ↔ n ∈ entries.map (·.1)) :
    MInv (mapInsertAll entries members es).1.1 (mapInsertAll entries members es).1.2 ∧
    (mapInsertAll entries members es).1.1 = Spec.addAll entries es ∧
    (mapInsertAll entries members es).2 = Spec.addedNew seen es := by
  induction es generalizing entries members seen with
  | nil => exact ⟨h, rfl, rfl⟩
  | cons e es ih =>
    obtain ⟨n, v⟩ := e
    obtain ⟨h1, h2, h3⟩ := emplaceBack_spec h n v
    have hs : ∀ m, m ∈ n :: seen ↔ m ∈ (mapEmplaceBack entries members n v).1.1.map (·.1) := by
      intro m
      rw [h2]
      unfold Spec.add
      split
      · rename_i hany
        obtain ⟨x, hx, hxn⟩ := any_name.1 hany
        simp only [List.mem_cons, hseen]
        constructor
        · rintro (rfl | hm)
          · exact List.mem_map.2 ⟨x, hx, hxn⟩
          · exact hm
        · exact .inr
      · simp only [List.mem_cons, hseen, List.map_append, List.mem_append, List.map_cons, List.map_nil,
          List.not_mem_nil, or_false]
        exact or_comm
    obtain ⟨i1, i2, i3⟩ := ih h1 (n :: seen) hs
    refine ⟨i1, ?_, ?_⟩
    · simp only [mapInsertAll]
      rw [i2, h2]
      rfl
    · simp only [mapInsertAll, Spec.addedNew]
      rw [i3, h3]
      congr 2
      simp only [List.contains_eq_mem, hseen]

theorem find_nodup {entries : List (Str × V)} (hn : (entries.map (·.1)).Nodup) {i : Nat} (hi : i < entries.length) :
    entries.find? (fun x => x.1 == entries[i].1) = some entries[i] := by
  induction entries generalizing i with
  | nil => simp at hi
  | cons e es ih =>
    simp only [List.map_cons, List.nodup_cons] at hn
    cases i with
    | zero => simp
    | succ i =>
      simp only [List.getElem_cons_succ]
      have hi' : i < es.length := by simpa using hi
      rw [List.find?_cons, ih hn.2 hi']
      have : (e.1 == es[i].1) = false := by
        simp only [beq_eq_false_iff_ne]
        intro heq
        exact hn.1 (heq ▸ List.mem_map_of_mem (List.getElem_mem hi'))
      simp [this]

theorem mapFind_spec {entries : List (Str × V)} {members : List Nat} (h : MInv entries members) (name : Str) :
    mapFind entries members name = entries.find? (fun x => x.1 == name) := by
  obtain ⟨a, e, b, hm, hr, ha, hb, he⟩ := memberRange_cases h name
  simp only [mapFind, hr]
  rcases he with ⟨rfl, hno⟩ | ⟨i, hi, rfl, hname⟩
  · simp only [List.length_nil, Nat.add_zero, if_true]
    symm
    rw [List.find?_eq_none]
    intro x hx
    simpa using hno x hx
  · simp only [List.length_singleton]
    rw [if_neg (by omega)]
    have : members[a.length]? = some i := by rw [hm]; simp
    rw [this]
    simp only [hi, List.getElem?_eq_getElem]
    rw [← hname]
    exact (find_nodup h.nodup hi).symm

/-! ### the index of a copy -/

theorem orderedAssign_spec (name : Str) (i : Nat) (l : List (Str × Nat)) (hl : Sorted strLess Prod.fst l)
    (hn : name ∉ l.map (·.1)) :
    Sorted strLess Prod.fst (orderedAssign name i l) ∧ (orderedAssign name i l).Perm ((name, i) :: l) := by
  induction l with
  | nil => exact ⟨by simp [orderedAssign, Sorted], by simp [orderedAssign]⟩
  | cons e rest ih =>
    obtain ⟨n, j⟩ := e
    simp only [List.map_cons, List.mem_cons, not_or] at hn
    have hl' := List.pairwise_cons.1 hl
    unfold orderedAssign
    split
    · rename_i h1
      refine ⟨List.pairwise_cons.2 ⟨?_, hl⟩, List.Perm.refl _⟩
      intro y hy
      rcases List.mem_cons.1 hy with rfl | hy
      · exact h1
      · exact strLess_trans h1 (hl'.1 y hy)
    · split
      · rename_i h1 h2
        obtain ⟨i1, i2⟩ := ih hl'.2 hn.2
        refine ⟨List.pairwise_cons.2 ⟨?_, i1⟩, (i2.cons _).trans (List.Perm.swap _ _ _)⟩
        intro y hy
        rcases List.mem_cons.1 (i2.mem_iff.1 hy) with rfl | hy
        · exact h2
        · exact hl'.1 y hy
      · rename_i h1 h2
        exact absurd (strLess_eq (by simpa using h1) (by simpa using h2)) hn.1

theorem buildMembers_spec (names : List Str) (l : List (Str × Nat)) (hl : Sorted strLess Prod.fst l)
    (hn : (l.map (·.1) ++ names).Nodup) :
    Sorted strLess Prod.fst (buildMembers l names) ∧
    (buildMembers l names).Perm (names.zipIdx l.length ++ l) := by
  induction names generalizing l with
  | nil => exact ⟨hl, by simp [buildMembers]⟩
  | cons n names ih =>
    have hnl : n ∉ l.map (·.1) := by
      intro hc
      rw [List.nodup_append] at hn
      exact hn.2.2 n hc n (by simp) rfl
    obtain ⟨h1, h2⟩ := orderedAssign_spec n l.length l hl hnl
    have hp : ((orderedAssign n l.length l).map (·.1) ++ names).Nodup := by
      have hperm : ((orderedAssign n l.length l).map (·.1) ++ names).Perm (l.map (·.1) ++ n :: names) :=
        ((h2.map _).append_right names).trans (by simpa using List.perm_middle.symm)
      exact hperm.nodup_iff.2 hn
    obtain ⟨i1, i2⟩ := ih _ h1 hp
    refine ⟨i1, ?_⟩
    have hlen : (orderedAssign n l.length l).length = l.length + 1 := by simpa using h2.length_eq
    rw [buildMembers]
    refine i2.trans ?_
    rw [hlen]
    simp only [List.zipIdx_cons, List.cons_append]
    exact (List.Perm.append_left _ h2).trans List.perm_middle

theorem zipIdx_nameAt (entries : List (Str × V)) :
    (entries.map (·.1)).zipIdx = (List.range entries.length).map (fun i => (nameAt entries i, i)) := by
  apply List.ext_getElem
  · simp
  · intro i h1 h2
    simp at h1
    simp [nameAt, h1]

theorem sorted_perm_eq {kf : Nat → Str} {a b : List Nat} (ha : Sorted strLess kf a) (hb : Sorted strLess kf b)
    (h : a.Perm b) : a = b := by
  refine List.Perm.eq_of_pairwise ?_ ha hb h
  intro x y _ _ h1 h2
  rw [asymm' strLess_strictWeak h1] at h2
  cases h2

/-- The index computed by the copy constructor is the index the object had. -/
theorem copy_members {entries : List (Str × V)} {members : List Nat} (h : MInv entries members) :
    (buildMembers [] (entries.map (·.1))).map (·.2) = members := by
  obtain ⟨h1, h2⟩ := buildMembers_spec (entries.map (·.1)) [] List.Pairwise.nil (by simpa using h.nodup)
  simp only [List.length_nil, List.append_nil] at h2
  rw [zipIdx_nameAt] at h2
  have hfst : ∀ e ∈ buildMembers [] (entries.map (·.1)), e.1 = nameAt entries e.2 := by
    intro e he
    obtain ⟨i, _, rfl⟩ := List.mem_map.1 (h2.mem_iff.1 he)
    rfl
  apply sorted_perm_eq (kf := nameAt entries) _ h.sorted
  · have := h2.map (·.2)
    simp only [List.map_map] at this
    refine this.trans (List.Perm.trans (by simp [Function.comp_def]) h.perm.symm)
  · unfold Sorted
    rw [List.pairwise_map]
    refine h1.imp_of_mem ?_
    intro a b ha hb hab
    rwa [← hfst a ha, ← hfst b hb]

end MapData

/-! ## Value trees -/

mutual
/-- Values every object of which satisfies the index invariant. -/
def Value.WF : Value → Prop
  | .map entries members => MInv entries members ∧ Value.WFEntries entries
  | .list elements => Value.WFList elements
  | .scalar (some v) => Value.WF v
  | _ => True
def Value.WFEntries : List (Str × Value) → Prop
  | [] => True
  | (_, v) :: rest => Value.WF v ∧ Value.WFEntries rest
def Value.WFList : List Value → Prop
  | [] => True
  | v :: rest => Value.WF v ∧ Value.WFList rest
end

mutual
/-- Values without an empty `Type::Scalar` (one that was default constructed and never set, or released). -/
def Value.NoEmptyScalar : Value → Prop
  | .map entries _ => Value.NoEmptyScalarEntries entries
  | .list elements => Value.NoEmptyScalarList elements
  | .scalar (some v) => Value.NoEmptyScalar v
  | .scalar none => False
  | _ => True
def Value.NoEmptyScalarEntries : List (Str × Value) → Prop
  | [] => True
  | (_, v) :: rest => Value.NoEmptyScalar v ∧ Value.NoEmptyScalarEntries rest
def Value.NoEmptyScalarList : List Value → Prop
  | [] => True
  | v :: rest => Value.NoEmptyScalar v ∧ Value.NoEmptyScalarList rest
end

mutual
/-- Values without a floating point NaN. -/
def Value.NoNaN : Value → Prop
  | .map entries _ => Value.NoNaNEntries entries
  | .list elements => Value.NoNaNList elements
  | .scalar (some v) => Value.NoNaN v
  | .float .nan => False
  | _ => True
def Value.NoNaNEntries : List (Str × Value) → Prop
  | [] => True
  | (_, v) :: rest => Value.NoNaN v ∧ Value.NoNaNEntries rest
def Value.NoNaNList : List Value → Prop
  | [] => True
  | v :: rest => Value.NoNaN v ∧ Value.NoNaNList rest
end

mutual
theorem copy_eq : (v : Value) → v.WF → v.NoEmptyScalar → v.copy = .ok v
  | .map entries members, hw, hs => by
    simp only [Value.WF, Value.NoEmptyScalar] at hw hs
    rw [Value.copy, copyEntries_eq entries hw.2 hs]
    simp only [bind, Except.bind]
    rw [copy_members hw.1]
  | .list elements, hw, hs => by
    simp only [Value.WF, Value.NoEmptyScalar] at hw hs
    rw [Value.copy, copyList_eq elements hw hs]
    rfl
  | .scalar (some v), hw, hs => by
    simp only [Value.WF, Value.NoEmptyScalar] at hw hs
    rw [Value.copy, copy_eq v hw hs]
    rfl
  | .scalar none, _, hs => by simp [Value.NoEmptyScalar] at hs
  | .string .., _, _ => by rw [Value.copy]
  | .null, _, _ => by rw [Value.copy]
  | .boolean _, _, _ => by rw [Value.copy]
  | .int _, _, _ => by rw [Value.copy]
  | .float _, _, _ => by rw [Value.copy]
  | .enumValue _, _, _ => by rw [Value.copy]
theorem copyEntries_eq : (l : List (Str × Value)) → Value.WFEntries l → Value.NoEmptyScalarEntries l →
    Value.copyEntries l = .ok l
  | [], _, _ => by rw [Value.copyEntries]
  | (n, v) :: rest, hw, hs => by
    simp only [Value.WFEntries, Value.NoEmptyScalarEntries] at hw hs
    rw [Value.copyEntries, copy_eq v hw.1 hs.1, copyEntries_eq rest hw.2 hs.2]
    rfl
theorem copyList_eq : (l : List Value) → Value.WFList l → Value.NoEmptyScalarList l → Value.copyList l = .ok l
  | [], _, _ => by rw [Value.copyList]
  | v :: rest, hw, hs => by
    simp only [Value.WFList, Value.NoEmptyScalarList] at hw hs
    rw [Value.copyList, copy_eq v hw.1 hs.1, copyList_eq rest hw.2 hs.2]
    rfl
end

theorem Double.eq_self {d : Double} (h : d ≠ .nan) : d.eq d = true := by
  cases d <;> simp_all [Double.eq]

mutual
theorem eq_refl : (v : Value) → v.NoNaN → v.eq v = true
  | .map entries members, h => by
    simp only [Value.NoNaN] at h
    rw [Value.eq]; exact eqEntries_refl entries h
  | .list elements, h => by
    simp only [Value.NoNaN] at h
    rw [Value.eq]; exact eqList_refl elements h
  | .scalar (some v), h => by
    simp only [Value.NoNaN] at h
    rw [Value.eq]; exact eq_refl v h
  | .scalar none, _ => by simp [Value.eq]
  | .string .., _ => by simp [Value.eq]
  | .null, _ => by rw [Value.eq]
  | .boolean _, _ => by simp [Value.eq]
  | .int _, _ => by simp [Value.eq]
  | .float d, h => by
    rw [Value.eq]
    cases d with
    | nan => simp [Value.NoNaN] at h
    | finite => exact Double.eq_self (by simp)
    | negZero => rfl
    | inf => exact Double.eq_self (by simp)
  | .enumValue _, _ => by simp [Value.eq]
theorem eqEntries_refl : (l : List (Str × Value)) → Value.NoNaNEntries l → Value.eqEntries l l = true
  | [], _ => by rw [Value.eqEntries]
  | (n, v) :: rest, h => by
    simp only [Value.NoNaNEntries] at h
    rw [Value.eqEntries, eq_refl v h.1, eqEntries_refl rest h.2]
    simp
theorem eqList_refl : (l : List Value) → Value.NoNaNList l → Value.eqList l l = true
  | [], _ => by rw [Value.eqList]
  | v :: rest, h => by
    simp only [Value.NoNaNList] at h
    rw [Value.eqList, eq_refl v h.1, eqList_refl rest h.2]
    simp
end

end Verif.Value
