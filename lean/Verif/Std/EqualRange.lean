/-!
# `std::lower_bound`, `std::upper_bound`, `std::equal_range`

The standard library's binary searches, as implemented in libstdc++ (`bits/stl_algobase.h`,
`bits/stl_algo.h`), over a vector given as a list. `lt x` is `comp(x, value)` and `gt x` is `comp(value, x)`.
Iterators are indices into the list. On ranges which are not partitioned with respect to the value the C++
standard leaves the result undefined; the model then computes what this implementation computes.
-/
namespace Verif.Std

/-- `std::lower_bound`: halve the range, go right if the middle element is less than the value. -/
def lowerBound (lt : α → Bool) (xs : List α) : Nat :=
  if h : xs = [] then 0
  else
    have hl : xs.length / 2 < xs.length := by
      have : 0 < xs.length := List.length_pos_iff.2 h
      omega
    let half := xs.length / 2
    if lt xs[half] then half + 1 + lowerBound lt (xs.drop (half + 1))
    else lowerBound lt (xs.take half)
termination_by xs.length
decreasing_by
  · simp; omega
  · simp; omega

/-- `std::upper_bound`: halve the range, go left if the value is less than the middle element. -/
def upperBound (gt : α → Bool) (xs : List α) : Nat :=
  if h : xs = [] then 0
  else
    have hl : xs.length / 2 < xs.length := by
      have : 0 < xs.length := List.length_pos_iff.2 h
      omega
    let half := xs.length / 2
    if gt xs[half] then upperBound gt (xs.take half)
    else half + 1 + upperBound gt (xs.drop (half + 1))
termination_by xs.length
decreasing_by
  · simp; omega
  · simp; omega

/-- `std::equal_range`: halve the range until the middle element is equivalent to the value, then search for
both ends. -/
def equalRange (lt gt : α → Bool) (xs : List α) : Nat × Nat :=
  if h : xs = [] then (0, 0)
  else
    have hl : xs.length / 2 < xs.length := by
      have : 0 < xs.length := List.length_pos_iff.2 h
      omega
    let half := xs.length / 2
    let mid := xs[half]
    if lt mid then
      let r := equalRange lt gt (xs.drop (half + 1))
      (half + 1 + r.1, half + 1 + r.2)
    else if gt mid then equalRange lt gt (xs.take half)
    else (lowerBound lt (xs.take half), half + 1 + upperBound gt (xs.drop (half + 1)))
termination_by xs.length
decreasing_by
  · simp; omega
  · simp; omega

theorem take_append_le {a b : List α} {n : Nat} (h : n ≤ a.length) : (a ++ b).take n = a.take n := by
  simp [List.take_append, Nat.sub_eq_zero_of_le h]

theorem drop_append_le {a b : List α} {n : Nat} (h : n ≤ a.length) : (a ++ b).drop n = a.drop n ++ b := by
  simp [List.drop_append, Nat.sub_eq_zero_of_le h]

/-- On a partitioned range `lower_bound` returns the partition point. -/
theorem lowerBound_eq (lt : α → Bool) (xs a b : List α) (hxs : xs = a ++ b)
    (ha : ∀ x ∈ a, lt x = true) (hb : ∀ x ∈ b, lt x = false) : lowerBound lt xs = a.length := by
  fun_induction lowerBound lt xs generalizing a b with
  | case1 =>
    have : a = [] := by simp_all
    simp [this]
  | case2 xs h hl half hlt ih =>
    subst hxs
    have hge : half < a.length := by
      apply Decidable.byContradiction
      intro hc
      have hc : a.length ≤ half := by omega
      have : (a ++ b)[half] ∈ b := by
        rw [List.getElem_append_right hc]; exact List.getElem_mem _
      rw [hb _ this] at hlt
      exact absurd hlt (by simp)
    rw [ih (a.drop (half + 1)) b (drop_append_le (by omega)) (fun x hx => ha x (List.mem_of_mem_drop hx)) hb]
    simp; omega
  | case3 xs h hl half hlt ih =>
    subst hxs
    have hge : a.length ≤ half := by
      apply Decidable.byContradiction
      intro hc
      have hc : half < a.length := by omega
      have : (a ++ b)[half] ∈ a := by
        rw [List.getElem_append_left hc]; exact List.getElem_mem _
      exact hlt (ha _ this)
    rw [ih a (b.take (half - a.length)) (by simp [List.take_append, List.take_of_length_le hge]) ha
      (fun x hx => hb x (List.mem_of_mem_take hx))]

/-- On a partitioned range `upper_bound` returns the partition point. -/
theorem upperBound_eq (gt : α → Bool) (xs a b : List α) (hxs : xs = a ++ b)
    (ha : ∀ x ∈ a, gt x = false) (hb : ∀ x ∈ b, gt x = true) : upperBound gt xs = a.length := by
  fun_induction upperBound gt xs generalizing a b with
  | case1 =>
    have : a = [] := by simp_all
    simp [this]
  | case2 xs h hl half hlt ih =>
    subst hxs
    have hge : a.length ≤ half := by
      apply Decidable.byContradiction
      intro hc
      have hc : half < a.length := by omega
      have : (a ++ b)[half] ∈ a := by
        rw [List.getElem_append_left hc]; exact List.getElem_mem _
      rw [ha _ this] at hlt
      exact absurd hlt (by simp)
    rw [ih a (b.take (half - a.length)) (by simp [List.take_append, List.take_of_length_le hge]) ha
      (fun x hx => hb x (List.mem_of_mem_take hx))]
  | case3 xs h hl half hlt ih =>
    subst hxs
    have hge : half < a.length := by
      apply Decidable.byContradiction
      intro hc
      have hc : a.length ≤ half := by omega
      have : (a ++ b)[half] ∈ b := by
        rw [List.getElem_append_right hc]; exact List.getElem_mem _
      exact hlt (hb _ this)
    rw [ih (a.drop (half + 1)) b (drop_append_le (by omega)) (fun x hx => ha x (List.mem_of_mem_drop hx)) hb]
    simp; omega

/-- On a range partitioned into smaller, equivalent and greater elements, `equal_range` returns the bounds of
the equivalent ones. -/
theorem equalRange_eq (lt gt : α → Bool) (xs a e b : List α) (hxs : xs = a ++ e ++ b)
    (ha : ∀ x ∈ a, lt x = true ∧ gt x = false) (he : ∀ x ∈ e, lt x = false ∧ gt x = false)
    (hb : ∀ x ∈ b, lt x = false ∧ gt x = true) : equalRange lt gt xs = (a.length, a.length + e.length) := by
  fun_induction equalRange lt gt xs generalizing a e b with
  | case1 =>
    have : a = [] ∧ e = [] := by simp_all
    simp [this]
  | case2 xs h hl half mid hlt r ih =>
    subst hxs
    have hge : half < a.length := by
      apply Decidable.byContradiction
      intro hc
      have hc : a.length ≤ half := by omega
      have : mid ∈ e ++ b := by
        simp only [mid, List.append_assoc]
        rw [List.getElem_append_right hc]; exact List.getElem_mem _
      rcases List.mem_append.1 this with h | h
      · rw [(he _ h).1] at hlt; exact absurd hlt (by simp)
      · rw [(hb _ h).1] at hlt; exact absurd hlt (by simp)
    have : r = _ := ih (a.drop (half + 1)) e b (by
        rw [List.append_assoc, drop_append_le (by omega), List.append_assoc])
      (fun x hx => ha x (List.mem_of_mem_drop hx)) he hb
    rw [this]
    simp; omega
  | case3 xs h hl half mid hlt hgt ih =>
    subst hxs
    have hge : a.length + e.length ≤ half := by
      apply Decidable.byContradiction
      intro hc
      have hc : half < (a ++ e).length := by simp; omega
      have : mid ∈ a ++ e := by
        simp only [mid]
        rw [List.getElem_append_left hc]; exact List.getElem_mem _
      rcases List.mem_append.1 this with h | h
      · rw [(ha _ h).2] at hgt; exact absurd hgt (by simp)
      · rw [(he _ h).2] at hgt; exact absurd hgt (by simp)
    refine ih a e (b.take (half - (a.length + e.length))) ?_ ha he
      (fun x hx => hb x (List.mem_of_mem_take hx))
    rw [List.take_append, List.take_of_length_le (by simpa using hge)]
    simp
  | case4 xs h hl half mid hlt hgt =>
    subst hxs
    have hge : a.length ≤ half := by
      apply Decidable.byContradiction
      intro hc
      have hc : half < a.length := by omega
      have : mid ∈ a := by
        simp only [mid, List.append_assoc]
        rw [List.getElem_append_left hc]; exact List.getElem_mem _
      exact hlt (ha _ this).1
    have hle : half < a.length + e.length := by
      apply Decidable.byContradiction
      intro hc
      have hc : (a ++ e).length ≤ half := by simp; omega
      have : mid ∈ b := by
        simp only [mid]
        rw [List.getElem_append_right hc]; exact List.getElem_mem _
      exact hgt (hb _ this).2
    have h1 := lowerBound_eq lt ((a ++ e ++ b).take half) a ((e ++ b).take (half - a.length))
      (by rw [List.append_assoc, List.take_append, List.take_of_length_le hge])
      (fun x hx => (ha x hx).1)
      (fun x hx => by
        rcases List.mem_append.1 (List.mem_of_mem_take hx) with h | h
        · exact (he x h).1
        · exact (hb x h).1)
    have h2 := upperBound_eq gt ((a ++ e ++ b).drop (half + 1)) ((a ++ e).drop (half + 1)) b
      (by rw [drop_append_le (by simp; omega)])
      (fun x hx => by
        rcases List.mem_append.1 (List.mem_of_mem_drop hx) with h | h
        · exact (ha x h).2
        · exact (he x h).2)
      (fun x hx => (hb x hx).2)
    rw [h1, h2]
    simp; omega

end Verif.Std
