import Verif.Subs.Spec
import Verif.SortedMap.Props

namespace Verif.Subs
open Verif.Value Verif.Resp Verif.Errors Verif.Ast Verif.Exec Verif.Request Verif.SortedMap Verif.Subs.Spec
open Verif.SortedMap.Spec (StrictWeak same)

variable {E O C : Type}

/-! ## Orders -/

theorem keyLess_strictWeak : StrictWeak keyLess := natLess_strictWeak

theorem nameLess_strictWeak : StrictWeak nameLess where
  irrefl a := by simp [nameLess, List.lt_irrefl]
  trans a b c h1 h2 := by
    simp only [nameLess, decide_eq_true_eq] at *
    exact List.lt_trans h1 h2
  incomp a b c h1 h2 h3 h4 := by
    simp only [nameLess, decide_eq_false_iff_not, List.not_lt] at *
    have e1 : a = b := List.le_antisymm h2 h1
    have e2 : b = c := List.le_antisymm h4 h3
    subst e1; subst e2
    exact ⟨List.le_refl _, List.le_refl _⟩

theorem same_key (a b : Nat) : same keyLess a b = decide (a = b) := by
  simp only [same, keyLess]
  by_cases h : a = b
  · simp [h]
  · simp [h]; omega

theorem same_name (a b : Str) : same nameLess a b = decide (a = b) := by
  simp only [same, nameLess]
  by_cases h : a = b
  · simp [h, List.lt_irrefl]
  · simp only [h, decide_false, Bool.and_eq_false_iff, Bool.not_eq_false', decide_eq_true_eq]
    by_cases h1 : a < b
    · exact .inl h1
    · right
      apply Decidable.byContradiction
      intro h2
      exact h (List.le_antisymm (List.not_lt.mp h2) (List.not_lt.mp h1))

/-! ## Sorted vectors of keys -/

/-- Strictly increasing keys. -/
abbrev Increasing (l : List Nat) : Prop := l.Pairwise (· < ·)

theorem setEmplace_last (keys : List Nat) (key : Nat) (h : ∀ k ∈ keys, k < key) :
    (setEmplace keyLess keys key).1 = keys ++ [key] := by
  have hr := range_split keyLess_strictWeak id key keys [] [] (by simpa [keyLess] using h) (by simp) (.inl rfl)
  simp only [List.append_nil, List.length_nil, Nat.add_zero, id] at hr
  simp only [setEmplace, hr]
  simp [vectorInsert]

theorem emplace_last (m : SMap Nat (Registration C)) (key : Nat) (r : Registration C) (h : ∀ e ∈ m, e.1 < key) :
    (emplace keyLess m key r).1 = m ++ [(key, r)] := by
  have hr := range_split keyLess_strictWeak Prod.fst key m [] [] (by simpa [keyLess] using h) (by simp) (.inl rfl)
  simp only [List.append_nil, List.length_nil, Nat.add_zero] at hr
  simp only [emplace, range, hr]
  simp [vectorInsert]

theorem setErase_eq (keys : List Nat) (h : Increasing keys) (key : Nat) :
    setErase keyLess keys key = keys.filter (· ≠ key) := by
  obtain ⟨a, e, b, rfl, ha, hb, he⟩ := split keyLess_strictWeak id key keys (by simpa [Sorted, keyLess] using h)
  have hr := range_split keyLess_strictWeak id key a e b ha hb he
  simp only [id] at hr
  simp only [setErase, hr]
  have fa : a.filter (· ≠ key) = a := by
    rw [List.filter_eq_self]; intro x hx
    have := ha x hx; simp [keyLess] at this; simp; omega
  have fb : b.filter (· ≠ key) = b := by
    rw [List.filter_eq_self]; intro x hx
    have := hb x hx; simp [keyLess] at this; simp; omega
  rcases he with rfl | ⟨x, rfl, hx⟩
  · simp only [List.length_nil, Nat.add_zero, if_true, List.append_nil, List.filter_append, fa, fb]
  · simp only [same_key, id, decide_eq_true_eq] at hx
    subst hx
    have he : (a ++ [x] ++ b).eraseIdx a.length = a ++ b := by simp [List.eraseIdx_append_of_length_le]
    simp only [List.length_singleton]
    rw [if_neg (by omega), he]
    simp only [List.filter_append, fa, fb]
    simp

theorem erase_eq (m : SMap Nat (Registration C)) (h : Increasing (m.map Prod.fst)) (key : Nat) :
    erase keyLess m key = m.filter (fun e => e.1 ≠ key) := by
  have hm : Sorted keyLess Prod.fst m := by simpa [Sorted, keyLess, List.pairwise_map] using h
  obtain ⟨a, e, b, rfl, ha, hb, he⟩ := split keyLess_strictWeak Prod.fst key m hm
  have hr := range_split keyLess_strictWeak Prod.fst key a e b ha hb he
  simp only [erase, range, hr]
  have fa : a.filter (fun e => e.1 ≠ key) = a := by
    rw [List.filter_eq_self]; intro x hx
    have := ha x hx; simp [keyLess] at this; simp; omega
  have fb : b.filter (fun e => e.1 ≠ key) = b := by
    rw [List.filter_eq_self]; intro x hx
    have := hb x hx; simp [keyLess] at this; simp; omega
  rcases he with rfl | ⟨x, rfl, hx⟩
  · simp only [List.length_nil, Nat.add_zero, if_true, List.append_nil, List.filter_append, fa, fb]
  · simp only [same_key, decide_eq_true_eq] at hx
    have he : (a ++ [x] ++ b).eraseIdx a.length = a ++ b := by simp [List.eraseIdx_append_of_length_le]
    simp only [List.length_singleton]
    rw [if_neg (by omega), he]
    simp only [List.filter_append, fa, fb]
    simp [hx]

theorem find_key (m : SMap Nat (Registration C)) (h : Increasing (m.map Prod.fst)) (key : Nat) :
    find keyLess m key = m.find? (fun e => e.1 == key) := by
  have hm : Sorted keyLess Prod.fst m := by simpa [Sorted, keyLess, List.pairwise_map] using h
  obtain ⟨a, e, b, rfl, ha, hb, he⟩ := split keyLess_strictWeak Prod.fst key m hm
  have hr := range_split keyLess_strictWeak Prod.fst key a e b ha hb he
  simp only [find, range, hr]
  have fa : a.find? (fun e => e.1 == key) = none := by
    rw [List.find?_eq_none]; intro x hx
    have := ha x hx; simp [keyLess] at this; simp; omega
  have fb : b.find? (fun e => e.1 == key) = none := by
    rw [List.find?_eq_none]; intro x hx
    have := hb x hx; simp [keyLess] at this; simp; omega
  rcases he with rfl | ⟨x, rfl, hx⟩
  · simp [List.find?_append, fa, fb]
  · simp only [same_key, decide_eq_true_eq] at hx
    simp [List.find?_append, fa, hx]

theorem at_key (m : SMap Nat (Registration C)) (h : Increasing (m.map Prod.fst)) (key : Nat) :
    at? keyLess m key = (m.find? (fun e => e.1 == key)).map (·.2) := by
  rw [← find_key m h]
  simp only [at?, find]
  split <;> rfl

/-! ## The listeners -/

/-- The keys of the subscriptions to a field. -/
def keysOf (a : Active C) (name : Str) : List Nat := (a.filter fun e => e.2.field == name).map Prod.fst

/-- The listeners as a function. -/
def listenersOf (m : SMap Str (List Nat)) : Str → Option (List Nat) := abs nameLess m

/-- The invariant of `Request`: the keys of the subscriptions increase; the next key is the last one plus one; and the
listeners of every name are the keys of the subscriptions to it, with no entry if there are none. -/
structure Ok (st : State C) : Prop where
  keys : Increasing (st.subscriptions.map Prod.fst)
  next : st.nextKey = fresh st.subscriptions
  sorted : Inv nameLess st.listeners
  listeners : ∀ name, listenersOf st.listeners name =
    if keysOf st.subscriptions name = [] then none else some (keysOf st.subscriptions name)

theorem Ok.init : Ok ({} : State C) where
  keys := List.Pairwise.nil
  next := rfl
  sorted := List.Pairwise.nil
  listeners := by intro name; simp [listenersOf, abs, keysOf]

theorem fresh_lt (a : Active C) (h : Increasing (a.map Prod.fst)) : ∀ e ∈ a, e.1 < fresh a := by
  intro e he
  unfold fresh
  cases hl : a.getLast? with
  | none => rw [List.getLast?_eq_none_iff] at hl; subst hl; cases he
  | some l =>
    obtain ⟨ys, rfl⟩ := List.getLast?_eq_some_iff.mp hl
    simp only [List.map_append, List.pairwise_append, List.map_cons, List.map_nil] at h
    rcases List.mem_append.mp he with h' | h'
    · have := h.2.2 e.1 (List.mem_map_of_mem h') l.1 (by simp)
      simp only; omega
    · simp at h'; subst h'; simp

theorem keysOf_increasing (a : Active C) (h : Increasing (a.map Prod.fst)) (name : Str) : Increasing (keysOf a name) := by
  apply List.Pairwise.sublist _ h
  exact List.Sublist.map _ List.filter_sublist

theorem listeners_index (m : SMap Str (List Nat)) (hm : Inv nameLess m) (name : Str) (f : List Nat → List Nat) :
    Inv nameLess (index nameLess [] m name f).1 ∧
    ∀ x, listenersOf (index nameLess [] m name f).1 x =
      if x = name then some (f ((listenersOf m name).getD [])) else listenersOf m x := by
  have := step_refines nameLess_strictWeak [] m hm (.index name f)
  refine ⟨this.1, ?_⟩
  intro x
  have h3 := congrFun this.2.2 x
  simp only [step, Verif.SortedMap.Spec.step, same_name, decide_eq_true_eq] at h3
  exact h3

theorem listeners_erase (m : SMap Str (List Nat)) (hm : Inv nameLess m) (name : Str) :
    Inv nameLess (erase nameLess m name) ∧
    ∀ x, listenersOf (erase nameLess m name) x = if x = name then none else listenersOf m x := by
  have := step_refines nameLess_strictWeak [] m hm (.erase name)
  refine ⟨this.1, ?_⟩
  intro x
  have h3 := congrFun this.2.2 x
  simp only [step, Verif.SortedMap.Spec.step, same_name, decide_eq_true_eq] at h3
  exact h3

theorem listeners_at (m : SMap Str (List Nat)) (hm : Inv nameLess m) (name : Str) :
    at? nameLess m name = listenersOf m name := by
  have := (step_refines nameLess_strictWeak [] m hm (.at name)).2.1
  simp only [step, Verif.SortedMap.Spec.step, Verif.SortedMap.Out.value.injEq] at this
  exact this

theorem listeners_find (m : SMap Str (List Nat)) (hm : Inv nameLess m) (name : Str) :
    (find nameLess m name).map (·.2) = listenersOf m name := by
  have := (step_refines nameLess_strictWeak [] m hm (.find name)).2.1
  simp only [step, Verif.SortedMap.Spec.step, Verif.SortedMap.Out.value.injEq] at this
  exact this

/-- Two sorted vectors with the same contents are the same. -/
theorem listeners_ext (m m' : SMap Str (List Nat)) (hm : Inv nameLess m) (hm' : Inv nameLess m')
    (h : ∀ x, listenersOf m x = listenersOf m' x) : m = m' := by
  have mem : ∀ (m : SMap Str (List Nat)), Inv nameLess m → ∀ e : Str × List Nat, e ∈ m ↔ listenersOf m e.1 = some e.2 := by
    intro m hm e
    unfold listenersOf abs
    constructor
    · intro he
      have : m.find? (fun y => same nameLess e.1 y.1) = some e := by
        clear h hm' m'
        induction m with
        | nil => cases he
        | cons y ys ih =>
          rw [List.find?_cons]
          rcases List.mem_cons.mp he with rfl | h'
          · simp [same_name]
          · have hne : y.1 ≠ e.1 := by
              intro hc
              have := (List.pairwise_cons.mp hm).1 e h'
              rw [hc] at this
              simp [nameLess, List.lt_irrefl] at this
            rw [show same nameLess e.1 y.1 = false by rw [same_name]; simpa using fun hc => hne (Eq.symm hc)]
            exact ih (List.pairwise_cons.mp hm).2 h'
      simp [this]
    · intro he
      rw [Option.map_eq_some_iff] at he
      obtain ⟨y, hy, hy2⟩ := he
      have h1 := List.mem_of_find?_eq_some hy
      have h2 := List.find?_some hy
      simp only [same_name, decide_eq_true_eq] at h2
      have : e = y := Prod.ext h2 hy2.symm
      rw [this]; exact h1
  have nodup : ∀ (m : SMap Str (List Nat)), Inv nameLess m → m.Nodup := by
    intro m hm
    apply List.Pairwise.imp _ hm
    intro a b hab hc
    subst hc
    simp [nameLess, List.lt_irrefl] at hab
  have perm : m.Perm m' := by
    rw [List.perm_ext_iff_of_nodup (nodup m hm) (nodup m' hm')]
    intro e
    rw [mem m hm, mem m' hm', h]
  apply List.Perm.eq_of_pairwise _ hm hm' perm
  intro a b _ _ h1 h2
  exfalso
  simp only [nameLess, decide_eq_true_eq] at h1 h2
  exact List.lt_irrefl _ (List.lt_trans h1 h2)

end Verif.Subs
