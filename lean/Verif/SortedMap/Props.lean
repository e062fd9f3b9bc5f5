import Verif.SortedMap.Lemmas

/-!
# C09, C10: `sorted_map`/`sorted_set` are finite maps/sets; the name order is a strict total order
-/
namespace Verif.SortedMap
open Spec

variable {K V : Type}

/-- **C09.** Starting from an empty `sorted_map`, every sequence of calls returns exactly what the same calls
return on a mathematical finite map; afterwards a lookup of any key gives the value in the finite map, and
iteration visits strictly increasing keys (so every key once). -/
theorem C09_sorted_map_refines_finite_map (cmp : K → K → Bool) (h : StrictWeak cmp) (dflt : V)
    (ops : List (Op K V)) :
    (run cmp dflt [] ops).2 = (Spec.run cmp dflt (fun _ => none) ops).2 ∧
    (∀ key, (find cmp (run cmp dflt [] ops).1 key).map (·.2) = (Spec.run cmp dflt (fun _ => none) ops).1 key) ∧
    (run cmp dflt [] ops).1.Pairwise (fun a b => cmp a.1 b.1 = true) := by
  obtain ⟨h1, h2, h3⟩ := run_refines h dflt ops ([] : SMap K V) List.Pairwise.nil
  refine ⟨h2, ?_, h1⟩
  intro key
  have := (step_refines h dflt _ h1 (.find key)).2.1
  simp only [step, Spec.step, Out.value.injEq] at this
  rw [this, h3]
  rfl

/-- the hypotheses hold for `std::less<int>` -/
theorem natLess_strictWeak : StrictWeak (fun a b : Nat => decide (a < b)) where
  irrefl := by simp
  trans := by simp; omega
  incomp := by simp; omega

example : (run (fun a b : Nat => decide (a < b)) (0 : Nat) []
    [.emplace 3 30, .emplace 1 10, .emplace 3 31, .index 2 (fun _ => 20), .erase 1, .find 3, .at 1]).2
    = [.inserted true, .inserted true, .inserted false, .value (some 0), .nothing, .value (some 30), .value none] := by
  decide +kernel

/-- **C09.** The same for `sorted_set`. -/
theorem C09_sorted_set_refines_finite_set (cmp : K → K → Bool) (h : StrictWeak cmp) (ops : List (SetOp K)) :
    (setRun cmp [] ops).2 = (Spec.setRun cmp (fun _ => false) ops).2 ∧
    (∀ key, (setFind cmp (setRun cmp [] ops).1 key).isSome = (Spec.setRun cmp (fun _ => false) ops).1 key) ∧
    (setRun cmp [] ops).1.Pairwise (fun a b => cmp a b = true) := by
  obtain ⟨h1, h2, h3⟩ := setRun_refines h ops ([] : List K) List.Pairwise.nil
  refine ⟨h2, ?_, h1⟩
  intro key
  have := (setStep_refines h _ h1 (.find key)).2.1
  simp only [setStep, Spec.setStep, Option.some.injEq] at this
  rw [this, h3]
  rfl

example : (setRun (fun a b : Nat => decide (a < b)) []
    [.emplace 3, .emplace 1, .emplace 3, .erase 1, .find 3, .find 1]).2
    = [some true, some true, some false, none, some true, some false] := by
  decide +kernel

/-- **C09.** A `sorted_map` constructed from a list of entries with distinct keys finds exactly these entries. -/
theorem C09_initializer_list (cmp : K → K → Bool) (h : StrictWeak cmp) (init m : SMap K V)
    (hdistinct : init.Pairwise (fun a b => same cmp a.1 b.1 = false)) (hm : Initialized cmp init m) :
    (∀ e ∈ init, find cmp m e.1 = some e) ∧
    (∀ key, (∀ e ∈ init, same cmp key e.1 = false) → find cmp m key = none) := by
  obtain ⟨hp, hs⟩ := hm
  have hsorted : Inv cmp m := by
    have hd : m.Pairwise (fun a b => same cmp a.1 b.1 = false) :=
      hp.pairwise hdistinct (fun {a b} hab => by rw [same_symm]; exact hab)
    have := hs.and hd
    refine this.imp ?_
    rintro a b ⟨h1, h2⟩
    cases hc : cmp a.1 b.1 with
    | true => rfl
    | false => simp [same, h1, hc] at h2
  constructor
  · intro e he
    have he' := hp.mem_iff.1 he
    obtain ⟨a, e', b, rfl, ha, hb, hcase⟩ := split h Prod.fst e.1 m hsorted
    have hr := range_split h Prod.fst e.1 a e' b ha hb hcase
    have hmem : e ∈ e' := by
      rcases List.mem_append.1 he' with h1 | h1
      · rcases List.mem_append.1 h1 with h1 | h1
        · have := ha e h1; rw [h.irrefl] at this; cases this
        · exact h1
      · have := hb e h1; rw [h.irrefl] at this; cases this
    rcases hcase with rfl | ⟨x, rfl, hx⟩
    · cases hmem
    · simp at hmem
      subst hmem
      simp only [find, range, hr]
      simp
  · intro key hno
    obtain ⟨a, e', b, rfl, ha, hb, hcase⟩ := split h Prod.fst key m hsorted
    have hr := range_split h Prod.fst key a e' b ha hb hcase
    rcases hcase with rfl | ⟨x, rfl, hx⟩
    · simp only [find, range, hr]
      simp
    · have := hno x (hp.mem_iff.2 (by simp))
      rw [same_symm, hx] at this
      cases this

example : Initialized (fun a b : Nat => decide (a < b)) [(2, 'b'), (1, 'a')] [(1, 'a'), (2, 'b')] := by
  constructor
  · exact List.Perm.swap _ _ _
  · simp

/-- **C10.** The order on names is a strict total order. -/
theorem C10_shorter_or_less_strict_total (a b c : List UInt8) :
    shorterOrLess a a = false ∧
    (shorterOrLess a b = true → shorterOrLess b c = true → shorterOrLess a c = true) ∧
    (a ≠ b → shorterOrLess a b = true ∨ shorterOrLess b a = true) ∧
    (shorterOrLess a b = true → shorterOrLess b a = false) := by
  refine ⟨?_, ?_, ?_, ?_⟩
  · simp [shorterOrLess, List.lt_irrefl]
  · unfold shorterOrLess
    split <;> split <;> split <;> simp only [decide_eq_true_eq] <;> intro h1 h2
    · exact List.lt_trans h1 h2
    all_goals omega
  · intro hne
    unfold shorterOrLess
    by_cases hl : a.length = b.length
    · simp only [hl, if_true, decide_eq_true_eq]
      rcases Std.lt_trichotomy a b with h | h | h
      · exact .inl h
      · exact absurd h hne
      · exact .inr h
    · have hl' : b.length ≠ a.length := fun h => hl h.symm
      simp only [hl, hl', if_false, decide_eq_true_eq]
      omega
  · unfold shorterOrLess
    by_cases hl : a.length = b.length
    · simp only [hl, if_true, decide_eq_true_eq, decide_eq_false_iff_not]
      exact fun h => List.lt_asymm h
    · have hl' : b.length ≠ a.length := fun h => hl h.symm
      simp only [hl, hl', if_false, decide_eq_true_eq, decide_eq_false_iff_not]
      omega

example : shorterOrLess [0x62] [0x61, 0x61] = true ∧ shorterOrLess [0x61, 0x61] [0x61, 0x62] = true := by
  decide +kernel

/-- The order on names meets the requirements of all the theorems above. -/
theorem shorterOrLess_strictWeak : StrictWeak shorterOrLess where
  irrefl a := (C10_shorter_or_less_strict_total a a a).1
  trans a b c := (C10_shorter_or_less_strict_total a b c).2.1
  incomp a b c h1 h2 h3 h4 := by
    have e : ∀ x y : List UInt8, shorterOrLess x y = false → shorterOrLess y x = false → x = y := by
      intro x y h1 h2
      apply Decidable.byContradiction
      intro hne
      rcases (C10_shorter_or_less_strict_total x y x).2.2.1 hne with h | h <;> simp_all
    have e1 := e a b h1 h2
    have e2 := e b c h3 h4
    subst e1; subst e2
    exact ⟨h1, h1⟩

/-- **C10.** A table built from any list of entries with distinct names finds every entry under its name, and
nothing under any other name. -/
theorem C10_name_table (init m : SMap (List UInt8) V) (hdistinct : (init.map (·.1)).Nodup)
    (hm : Initialized shorterOrLess init m) :
    (∀ e ∈ init, find shorterOrLess m e.1 = some e) ∧
    (∀ name, name ∉ init.map (·.1) → find shorterOrLess m name = none) := by
  have ns : ∀ x y : List UInt8, x ≠ y → same shorterOrLess x y = false := by
    intro x y hne
    rcases (C10_shorter_or_less_strict_total x y x).2.2.1 hne with h | h <;> simp [same, h]
  have hd : init.Pairwise (fun a b => same shorterOrLess a.1 b.1 = false) := by
    have := List.pairwise_map.1 (List.nodup_iff_pairwise_ne.1 hdistinct)
    exact this.imp (fun {a b} h => ns _ _ h)
  constructor
  · exact (C09_initializer_list _ shorterOrLess_strictWeak init m hd hm).1
  · intro name hn
    refine (C09_initializer_list _ shorterOrLess_strictWeak init m hd hm).2 name ?_
    intro e' he'
    apply ns
    rintro rfl
    exact hn (List.mem_map_of_mem he')

example : ([([0x62], 1), ([0x61, 0x61], 2)].map (·.1) : List (List UInt8)).Nodup ∧
    Initialized shorterOrLess [([0x61, 0x61], 2), ([0x62], 1)] [([0x62], 1), ([0x61, 0x61], 2)] := by
  refine ⟨by decide, List.Perm.swap _ _ _, ?_⟩
  simp [shorterOrLess]

end Verif.SortedMap
