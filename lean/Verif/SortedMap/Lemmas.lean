import Verif.SortedMap.Spec

namespace Verif.SortedMap
open Verif.Std Spec

variable {K V α : Type} {cmp : K → K → Bool}

theorem asymm' (h : StrictWeak cmp) {a b : K} (hab : cmp a b = true) : cmp b a = false := by
  cases hba : cmp b a with
  | false => rfl
  | true => have := h.trans a b a hab hba; rw [h.irrefl] at this; cases this

/-- less than something equivalent -/
theorem lt_of_lt_same (h : StrictWeak cmp) {a b c : K} (hab : cmp a b = true) (hbc : same cmp b c = true) :
    cmp a c = true := by
  simp [same] at hbc
  cases hac : cmp a c with
  | true => rfl
  | false =>
    cases hca : cmp c a with
    | true => have := h.trans c a b hca hab; rw [hbc.2] at this; cases this
    | false => have := h.incomp a c b hac hca hbc.2 hbc.1; rw [hab] at this; cases this.1

theorem lt_of_same_lt (h : StrictWeak cmp) {a b c : K} (hab : same cmp a b = true) (hbc : cmp b c = true) :
    cmp a c = true := by
  simp [same] at hab
  cases hac : cmp a c with
  | true => rfl
  | false =>
    cases hca : cmp c a with
    | true => have := h.trans b c a hbc hca; rw [hab.2] at this; cases this
    | false => have := h.incomp b a c hab.2 hab.1 hac hca; rw [hbc] at this; cases this.1

theorem same_symm {a b : K} : same cmp a b = same cmp b a := by simp [same, Bool.and_comm]

theorem same_refl (h : StrictWeak cmp) (a : K) : same cmp a a = true := by simp [same, h.irrefl]

theorem same_trans (h : StrictWeak cmp) {a b c : K} (hab : same cmp a b = true) (hbc : same cmp b c = true) :
    same cmp a c = true := by
  simp [same] at *
  exact h.incomp a b c hab.1 hab.2 hbc.1 hbc.2

theorem same_congr (h : StrictWeak cmp) {a b : K} (hab : same cmp a b = true) (x : K) :
    same cmp x a = same cmp x b := by
  cases hx : same cmp x a with
  | true => exact (same_trans h hx hab).symm
  | false =>
    cases hy : same cmp x b with
    | false => rfl
    | true => rw [same_trans h hy (by rw [same_symm]; exact hab)] at hx; cases hx

/-- Strictly increasing by key `kf`. -/
def Sorted (cmp : K → K → Bool) (kf : α → K) (m : List α) : Prop := m.Pairwise (fun a b => cmp (kf a) (kf b) = true)

/-- A sorted vector splits at every key into smaller entries, at most one equivalent entry, and greater ones. -/
theorem split (h : StrictWeak cmp) (kf : α → K) (key : K) (m : List α) (hm : Sorted cmp kf m) :
    ∃ a e b, m = a ++ e ++ b ∧ (∀ x ∈ a, cmp (kf x) key = true) ∧ (∀ x ∈ b, cmp key (kf x) = true) ∧
      (e = [] ∨ ∃ x, e = [x] ∧ same cmp (kf x) key = true) := by
  induction m with
  | nil => exact ⟨[], [], [], rfl, by simp, by simp, .inl rfl⟩
  | cons x m ih =>
    have hx := List.pairwise_cons.1 hm
    cases h1 : cmp (kf x) key with
    | true =>
      obtain ⟨a, e, b, rfl, ha, hb, he⟩ := ih hx.2
      exact ⟨x :: a, e, b, by simp, by simpa using ⟨h1, ha⟩, hb, he⟩
    | false =>
      cases h2 : cmp key (kf x) with
      | true =>
        refine ⟨[], [], x :: m, rfl, by simp, ?_, .inl rfl⟩
        intro y hy
        rcases List.mem_cons.1 hy with rfl | hy
        · exact h2
        · exact h.trans _ _ _ h2 (hx.1 y hy)
      | false =>
        have hs : same cmp (kf x) key = true := by simp [same, h1, h2]
        refine ⟨[], [x], m, rfl, by simp, ?_, .inr ⟨x, rfl, hs⟩⟩
        intro y hy
        exact lt_of_same_lt h (by rw [same_symm]; exact hs) (hx.1 y hy)

theorem range_split (h : StrictWeak cmp) (kf : α → K) (key : K) (a e b : List α)
    (ha : ∀ x ∈ a, cmp (kf x) key = true) (hb : ∀ x ∈ b, cmp key (kf x) = true)
    (he : e = [] ∨ ∃ x, e = [x] ∧ same cmp (kf x) key = true) :
    equalRange (fun x => cmp (kf x) key) (fun x => cmp key (kf x)) (a ++ e ++ b)
      = (a.length, a.length + e.length) := by
  apply equalRange_eq _ _ _ a e b rfl
  · exact fun x hx => ⟨ha x hx, asymm' h (ha x hx)⟩
  · rcases he with rfl | ⟨y, rfl, hy⟩
    · simp
    · simp [same] at hy
      simpa using hy
  · exact fun x hx => ⟨asymm' h (hb x hx), hb x hx⟩

/-- The contents of a vector as a function of the key. -/
def abs (cmp : K → K → Bool) (m : SMap K V) : Map K V := fun x => (m.find? (fun e => same cmp x e.1)).map (·.2)

theorem find?_none_of_lt (h : StrictWeak cmp) (x key : K) (hx : same cmp x key = true) (a : SMap K V)
    (ha : ∀ e ∈ a, cmp e.1 key = true) : a.find? (fun e => same cmp x e.1) = none := by
  rw [List.find?_eq_none]
  intro e he
  have := lt_of_lt_same h (ha e he) (by rw [same_symm]; exact hx)
  simp [same, this]

theorem find?_none_of_gt (h : StrictWeak cmp) (x key : K) (hx : same cmp x key = true) (b : SMap K V)
    (hb : ∀ e ∈ b, cmp key e.1 = true) : b.find? (fun e => same cmp x e.1) = none := by
  rw [List.find?_eq_none]
  intro e he
  have := lt_of_same_lt h hx (hb e he)
  simp [same, this]

/-- The state invariant: strictly increasing keys. -/
abbrev Inv (cmp : K → K → Bool) (m : SMap K V) : Prop := Sorted cmp Prod.fst m

theorem vectorInsert_split (a b : List α) (x : α) : vectorInsert (a ++ b) a.length x = a ++ x :: b := by
  simp [vectorInsert]

theorem Sorted_insert (h : StrictWeak cmp) {kf : α → K} {a b : List α} {x : α} {key : K} (hk : kf x = key)
    (hm : Sorted cmp kf (a ++ b)) (ha : ∀ y ∈ a, cmp (kf y) key = true) (hb : ∀ y ∈ b, cmp key (kf y) = true) :
    Sorted cmp kf (a ++ x :: b) := by
  unfold Sorted at *
  rw [List.pairwise_append] at hm ⊢
  refine ⟨hm.1, List.pairwise_cons.2 ⟨fun y hy => by rw [hk]; exact hb y hy, hm.2.1⟩, ?_⟩
  intro y hy z hz
  rcases List.mem_cons.1 hz with rfl | hz
  · rw [hk]; exact ha y hy
  · exact h.trans _ _ _ (ha y hy) (hb z hz)

theorem Sorted_erase {kf : α → K} {a b : List α} {x : α} (hm : Sorted cmp kf (a ++ x :: b)) :
    Sorted cmp kf (a ++ b) := by
  unfold Sorted at *
  rw [List.pairwise_append] at hm ⊢
  have := List.pairwise_cons.1 hm.2.1
  exact ⟨hm.1, this.2, fun y hy z hz => hm.2.2 y hy z (by simp [hz])⟩

theorem abs_split (h : StrictWeak cmp) (key : K) (a b : SMap K V) (e : SMap K V) (x : K)
    (ha : ∀ y ∈ a, cmp y.1 key = true) (hb : ∀ y ∈ b, cmp key y.1 = true)
    (hx : same cmp x key = true) : abs cmp (a ++ e ++ b) x = abs cmp e x := by
  simp only [abs, List.find?_append, find?_none_of_lt h x key hx a ha, find?_none_of_gt h x key hx b hb]
  simp

theorem abs_other (a b e e' : SMap K V) (x : K)
    (he : ∀ y ∈ e, same cmp x y.1 = false) (he' : ∀ y ∈ e', same cmp x y.1 = false) :
    abs cmp (a ++ e ++ b) x = abs cmp (a ++ e' ++ b) x := by
  have h1 : e.find? (fun y => same cmp x y.1) = none := by
    rw [List.find?_eq_none]; intro y hy; simp [he y hy]
  have h2 : e'.find? (fun y => same cmp x y.1) = none := by
    rw [List.find?_eq_none]; intro y hy; simp [he' y hy]
  simp only [abs, List.find?_append, h1, h2]

/-- One call keeps the invariant, returns what the finite map returns and has the effect it has. -/
theorem step_refines (h : StrictWeak cmp) (dflt : V) (m : SMap K V) (hm : Inv cmp m) (op : Op K V) :
    Inv cmp (step cmp dflt m op).1 ∧
    (step cmp dflt m op).2 = (Spec.step cmp dflt (abs cmp m) op).2 ∧
    abs cmp (step cmp dflt m op).1 = (Spec.step cmp dflt (abs cmp m) op).1 := by
  cases op with
  | clear => exact ⟨List.Pairwise.nil, rfl, by funext x; simp [step, Spec.step, abs]⟩
  | emplace key v =>
    obtain ⟨a, e, b, rfl, ha, hb, he⟩ := split h Prod.fst key m hm
    have hr := range_split h Prod.fst key a e b ha hb he
    have hk := abs_split h key a b e key ha hb (same_refl h key)
    simp only [step, emplace, range, hr, Spec.step]
    rcases he with rfl | ⟨⟨k, w⟩, rfl, hs⟩
    · have : abs cmp (a ++ b) key = none := by rw [List.append_nil] at hk; rw [hk]; rfl
      simp only [this, Option.isSome_none, List.append_nil, List.length_nil, Nat.add_zero, ne_eq, not_true_eq_false,
        if_false, Bool.false_eq_true]
      rw [vectorInsert_split]
      refine ⟨Sorted_insert h rfl (by simpa using hm) ha hb, trivial, ?_⟩
      funext x
      cases hx : same cmp x key with
      | true =>
        have := abs_split h key a b [(key, v)] x ha hb hx
        simp only [List.append_assoc, List.singleton_append] at this
        rw [this]
        simp [abs, hx]
      | false =>
        have := abs_other (cmp := cmp) a b [(key, v)] [] x (by simp [hx]) (by simp)
        simp only [List.append_assoc, List.singleton_append, List.nil_append] at this
        rw [this]; simp
    · have : abs cmp (a ++ [(k, w)] ++ b) key = some w := by
        rw [hk]; simp only [abs, List.find?_cons]; rw [same_symm, hs]; rfl
      simp only [this, Option.isSome_some, if_true, List.length_singleton, ne_eq]
      rw [if_pos (by omega)]
      exact ⟨hm, rfl, rfl⟩
  | erase key =>
    obtain ⟨a, e, b, rfl, ha, hb, he⟩ := split h Prod.fst key m hm
    have hr := range_split h Prod.fst key a e b ha hb he
    simp only [step, erase, range, hr, Spec.step]
    rcases he with rfl | ⟨⟨k, w⟩, rfl, hs⟩
    · simp only [List.length_nil, Nat.add_zero, if_true]
      refine ⟨hm, trivial, ?_⟩
      funext x
      cases hx : same cmp x key with
      | true => rw [abs_split h key a b [] x ha hb hx]; rfl
      | false => simp
    · simp only [List.length_singleton]
      rw [if_neg (by omega)]
      have he : (a ++ [(k, w)] ++ b).eraseIdx a.length = a ++ b := by
        simp [List.eraseIdx_append_of_length_le]
      rw [he]
      refine ⟨Sorted_erase (by simpa using hm), trivial, ?_⟩
      funext x
      cases hx : same cmp x key with
      | true =>
        have := abs_split h key a b [] x ha hb hx
        simp only [List.append_nil] at this
        rw [this]; rfl
      | false =>
        have hxk : same cmp x k = false := by rw [same_congr h hs]; exact hx
        have := abs_other (cmp := cmp) a b [] [(k, w)] x (by simp) (by simp [hxk])
        simp only [List.append_nil] at this
        rw [this]; simp
  | index key f =>
    obtain ⟨a, e, b, rfl, ha, hb, he⟩ := split h Prod.fst key m hm
    have hr := range_split h Prod.fst key a e b ha hb he
    have hk := abs_split h key a b e key ha hb (same_refl h key)
    simp only [step, index, range, hr, Spec.step]
    rcases he with rfl | ⟨⟨k, w⟩, rfl, hs⟩
    · have : abs cmp (a ++ b) key = none := by rw [List.append_nil] at hk; rw [hk]; rfl
      simp only [this, Option.getD_none, List.append_nil, List.length_nil, Nat.add_zero, ne_eq, not_true_eq_false,
        if_false]
      rw [vectorInsert_split]
      refine ⟨Sorted_insert h rfl (by simpa using hm) ha hb, trivial, ?_⟩
      funext x
      cases hx : same cmp x key with
      | true =>
        have := abs_split h key a b [(key, f dflt)] x ha hb hx
        simp only [List.append_assoc, List.singleton_append] at this
        rw [this]
        simp [abs, hx]
      | false =>
        have := abs_other (cmp := cmp) a b [(key, f dflt)] [] x (by simp [hx]) (by simp)
        simp only [List.append_assoc, List.singleton_append, List.nil_append] at this
        rw [this]; simp
    · have hw : abs cmp (a ++ [(k, w)] ++ b) key = some w := by
        rw [hk]; simp only [abs, List.find?_cons]; rw [same_symm, hs]; rfl
      have hg : (a ++ [(k, w)] ++ b)[a.length]? = some (k, w) := by simp
      have hset : (a ++ [(k, w)] ++ b).set a.length (k, f w) = a ++ [(k, f w)] ++ b := by
        simp [List.set_append]
      simp only [hw, List.length_singleton, hg, hset, Option.getD_some]
      rw [if_pos (by omega)]
      refine ⟨?_, rfl, ?_⟩
      · have h1 : Inv cmp (a ++ b) := Sorted_erase (by simpa using hm)
        have h2 := List.pairwise_append.1 (show List.Pairwise _ (a ++ ((k, w) :: b)) by simpa [Sorted] using hm)
        have h3 := List.pairwise_cons.1 h2.2.1
        have := Sorted_insert (x := (k, f w)) (key := k) h rfl h1
          (fun y hy => h2.2.2 y hy (k, w) (by simp)) (fun y hy => h3.1 y hy)
        simpa using this
      · funext x
        cases hx : same cmp x key with
        | true =>
          rw [abs_split h key a b [(k, f w)] x ha hb hx]
          have : same cmp x k = true := by rw [same_congr h hs]; exact hx
          simp [abs, this]
        | false =>
          have hxk : same cmp x k = false := by rw [same_congr h hs]; exact hx
          rw [abs_other (cmp := cmp) a b [(k, f w)] [(k, w)] x (by simp [hxk]) (by simp [hxk])]
          simp
  | «at» key =>
    obtain ⟨a, e, b, rfl, ha, hb, he⟩ := split h Prod.fst key m hm
    have hr := range_split h Prod.fst key a e b ha hb he
    have hk := abs_split h key a b e key ha hb (same_refl h key)
    refine ⟨hm, ?_, rfl⟩
    simp only [step, at?, range, hr, Spec.step, hk]
    rcases he with rfl | ⟨⟨k, w⟩, rfl, hs⟩
    · simp [abs]
    · rw [same_symm] at hs
      simp [abs, hs]
  | find key =>
    obtain ⟨a, e, b, rfl, ha, hb, he⟩ := split h Prod.fst key m hm
    have hr := range_split h Prod.fst key a e b ha hb he
    have hk := abs_split h key a b e key ha hb (same_refl h key)
    refine ⟨hm, ?_, rfl⟩
    simp only [step, find, range, hr, Spec.step, hk]
    rcases he with rfl | ⟨⟨k, w⟩, rfl, hs⟩
    · simp [abs]
    · rw [same_symm] at hs
      simp [abs, hs]

theorem run_refines (h : StrictWeak cmp) (dflt : V) (ops : List (Op K V)) (m : SMap K V) (hm : Inv cmp m) :
    Inv cmp (run cmp dflt m ops).1 ∧
    (run cmp dflt m ops).2 = (Spec.run cmp dflt (abs cmp m) ops).2 ∧
    abs cmp (run cmp dflt m ops).1 = (Spec.run cmp dflt (abs cmp m) ops).1 := by
  induction ops generalizing m with
  | nil => exact ⟨hm, rfl, rfl⟩
  | cons op ops ih =>
    obtain ⟨h1, h2, h3⟩ := step_refines h dflt m hm op
    obtain ⟨i1, i2, i3⟩ := ih _ h1
    rw [h3] at i2 i3
    exact ⟨i1, by simp only [run, Spec.run, h2, i2], i3⟩

/-! ## Sets -/

/-- The contents of a set vector. -/
def setAbs (cmp : K → K → Bool) (s : List K) : K → Bool := fun x => s.any (fun e => same cmp x e)

theorem any_false_lt (h : StrictWeak cmp) {x key : K} (hx : same cmp x key = true) {a : List K}
    (ha : ∀ e ∈ a, cmp e key = true) : a.any (fun e => same cmp x e) = false := by
  rw [List.any_eq_false]
  intro e he
  have := lt_of_lt_same h (ha e he) (by rw [same_symm]; exact hx)
  simp [same, this]

theorem any_false_gt (h : StrictWeak cmp) {x key : K} (hx : same cmp x key = true) {b : List K}
    (hb : ∀ e ∈ b, cmp key e = true) : b.any (fun e => same cmp x e) = false := by
  rw [List.any_eq_false]
  intro e he
  have := lt_of_same_lt h hx (hb e he)
  simp [same, this]

theorem setStep_refines (h : StrictWeak cmp) (s : List K) (hm : Sorted cmp id s) (op : SetOp K) :
    Sorted cmp id (setStep cmp s op).1 ∧
    (setStep cmp s op).2 = (Spec.setStep cmp (setAbs cmp s) op).2 ∧
    setAbs cmp (setStep cmp s op).1 = (Spec.setStep cmp (setAbs cmp s) op).1 := by
  cases op with
  | clear => exact ⟨List.Pairwise.nil, rfl, by funext x; simp [setStep, Spec.setStep, setAbs]⟩
  | emplace key =>
    obtain ⟨a, e, b, rfl, ha, hb, he⟩ := split h id key s hm
    have hr : equalRange (fun e => cmp e key) (fun e => cmp key e) (a ++ e ++ b) = _ :=
      range_split h id key a e b ha hb he
    have fa := fun x hx => any_false_lt (x := x) h hx ha
    have fb := fun x hx => any_false_gt (x := x) h hx hb
    simp only [setStep, setEmplace, hr, Spec.setStep]
    rcases he with rfl | ⟨k, rfl, hs⟩
    · simp only [List.append_nil, List.length_nil, Nat.add_zero, ne_eq, not_true_eq_false, if_false]
      rw [vectorInsert_split]
      refine ⟨Sorted_insert h rfl (by simpa using hm) ha hb, ?_, ?_⟩
      · simp only [setAbs, List.any_append, fa key (same_refl h key), fb key (same_refl h key)]; rfl
      · funext x
        simp only [setAbs, List.any_append, List.any_cons]
        cases same cmp x key <;> simp
    · simp only [List.length_singleton, ne_eq]
      rw [if_pos (by omega)]
      simp only [id] at hs
      refine ⟨hm, ?_, ?_⟩
      · simp only [setAbs, List.any_append, List.any_cons, same_symm (a := key), hs]; simp
      · funext x
        simp only [setAbs, List.any_append, List.any_cons]
        cases hx : same cmp x key with
        | true => simp [same_congr h hs x, hx]
        | false => simp
  | erase key =>
    obtain ⟨a, e, b, rfl, ha, hb, he⟩ := split h id key s hm
    have hr : equalRange (fun e => cmp e key) (fun e => cmp key e) (a ++ e ++ b) = _ :=
      range_split h id key a e b ha hb he
    have fa := fun x hx => any_false_lt (x := x) h hx ha
    have fb := fun x hx => any_false_gt (x := x) h hx hb
    simp only [setStep, setErase, hr, Spec.setStep]
    rcases he with rfl | ⟨k, rfl, hs⟩
    · simp only [List.length_nil, Nat.add_zero, if_true]
      refine ⟨hm, trivial, ?_⟩
      funext x
      simp only [setAbs, List.any_append, List.append_nil]
      cases hx : same cmp x key with
      | true => simp only [fa x hx, fb x hx]; rfl
      | false => simp
    · simp only [List.length_singleton]
      rw [if_neg (by omega)]
      simp only [id] at hs
      have he : (a ++ [k] ++ b).eraseIdx a.length = a ++ b := by
        simp [List.eraseIdx_append_of_length_le]
      rw [he]
      refine ⟨Sorted_erase (by simpa using hm), trivial, ?_⟩
      funext x
      simp only [setAbs, List.any_append, List.any_cons, same_congr h hs x]
      cases hx : same cmp x key with
      | true => simp only [fa x hx, fb x hx]; simp
      | false => simp
  | find key =>
    obtain ⟨a, e, b, rfl, ha, hb, he⟩ := split h id key s hm
    have hr : equalRange (fun e => cmp e key) (fun e => cmp key e) (a ++ e ++ b) = _ :=
      range_split h id key a e b ha hb he
    have fa := fun x hx => any_false_lt (x := x) h hx ha
    have fb := fun x hx => any_false_gt (x := x) h hx hb
    refine ⟨hm, ?_, rfl⟩
    simp only [setStep, setFind, hr, Spec.setStep]
    rcases he with rfl | ⟨k, rfl, hs⟩
    · simp only [setAbs, List.any_append, fa key (same_refl h key), fb key (same_refl h key)]; simp
    · simp only [id] at hs
      simp only [setAbs, List.any_append, List.any_cons, same_symm (a := key), hs]; simp

theorem setRun_refines (h : StrictWeak cmp) (ops : List (SetOp K)) (s : List K) (hm : Sorted cmp id s) :
    Sorted cmp id (setRun cmp s ops).1 ∧
    (setRun cmp s ops).2 = (Spec.setRun cmp (setAbs cmp s) ops).2 ∧
    setAbs cmp (setRun cmp s ops).1 = (Spec.setRun cmp (setAbs cmp s) ops).1 := by
  induction ops generalizing s with
  | nil => exact ⟨hm, rfl, rfl⟩
  | cons op ops ih =>
    obtain ⟨h1, h2, h3⟩ := setStep_refines h s hm op
    obtain ⟨i1, i2, i3⟩ := ih _ h1
    rw [h3] at i2 i3
    exact ⟨i1, by simp only [setRun, Spec.setRun, h2, i2], i3⟩

end Verif.SortedMap
