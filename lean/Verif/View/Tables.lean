import Verif.View.Spec
import Verif.Schema.TypesLemmas

/-!
# The tables of the validator as finite maps
-/
namespace Verif.View
open Verif.Value Verif.SortedMap Verif.SortedMap.Spec Verif.TypeSystem

section
variable {V : Type}

/-- The entries are in order. -/
abbrev Ordered (m : SMap Str V) : Prop := SortedMap.Inv nameCmp m

theorem get_abs {m : SMap Str V} (hm : Ordered m) (k : Str) : get m k = abs nameCmp m k := by
  cases m with
  | nil => simp [get, find, abs]
  | cons e m =>
    have := (step_refines nameCmp_strictWeak e.2 (e :: m) hm (.find k)).2.1
    simpa [SortedMap.step, SortedMap.Spec.step, get] using this

theorem ordered_nil : Ordered ([] : SMap Str V) := List.Pairwise.nil

theorem get_nil (k : Str) : get ([] : SMap Str V) k = none := by simp [get, find]

theorem ordered_index {m : SMap Str V} (hm : Ordered m) (dflt : V) (k : Str) (f : V → V) :
    Ordered (index nameCmp dflt m k f).1 :=
  (step_refines nameCmp_strictWeak dflt m hm (.index k f)).1

theorem index_old {m : SMap Str V} (hm : Ordered m) (dflt : V) (k : Str) (f : V → V) :
    (index nameCmp dflt m k f).2 = (get m k).getD dflt := by
  have := (step_refines nameCmp_strictWeak dflt m hm (.index k f)).2.1
  rw [get_abs hm]
  simpa [SortedMap.step, SortedMap.Spec.step] using this

theorem get_index {m : SMap Str V} (hm : Ordered m) (dflt : V) (k : Str) (f : V → V) (x : Str) :
    get (index nameCmp dflt m k f).1 x = if x = k then some (f ((get m k).getD dflt)) else get m x := by
  have := congrFun (step_refines nameCmp_strictWeak dflt m hm (.index k f)).2.2 x
  rw [get_abs (ordered_index hm dflt k f), get_abs hm, get_abs hm]
  simp only [SortedMap.step, SortedMap.Spec.step] at this
  rw [this]
  by_cases hx : x = k
  · subst hx
    rw [if_pos ((same_name x x).2 rfl), if_pos rfl]
  · rw [if_neg (fun h => hx ((same_name x k).1 h)), if_neg hx]

theorem ordered_assign {m : SMap Str V} (hm : Ordered m) (dflt : V) (k : Str) (w : V) : Ordered (assign dflt m k w) :=
  ordered_index hm dflt k _

theorem get_assign {m : SMap Str V} (hm : Ordered m) (dflt : V) (k : Str) (w : V) (x : Str) :
    get (assign dflt m k w) x = if x = k then some w else get m x := get_index hm dflt k _ x

theorem emplace_new {m : SMap Str V} (hm : Ordered m) {k : Str} (hk : get m k = none) (w : V) :
    Ordered (emplace nameCmp m k w).1 ∧ ∀ x, get (emplace nameCmp m k w).1 x = if x = k then some w else get m x := by
  have h := step_refines nameCmp_strictWeak w m hm (.emplace k w)
  rw [get_abs hm] at hk
  have h1 : Ordered (emplace nameCmp m k w).1 := h.1
  refine ⟨h1, fun x => ?_⟩
  have h3 := congrFun h.2.2 x
  simp only [SortedMap.step, SortedMap.Spec.step, hk, Option.isSome_none, Bool.false_eq_true, if_false] at h3
  rw [get_abs h1, get_abs hm, h3]
  by_cases hx : x = k
  · subst hx
    rw [if_pos ((same_name x x).2 rfl), if_pos rfl]
  · rw [if_neg (fun h => hx ((same_name x k).1 h)), if_neg hx]

/-- A loop of assignments: the last one of a name counts. -/
theorem get_assigns {α : Type} (dflt : V) (key : α → Str) (val : α → V) (xs : List α) {m : SMap Str V} (hm : Ordered m) :
    Ordered (xs.foldl (fun m x => assign dflt m (key x) (val x)) m) ∧
    ∀ n, get (xs.foldl (fun m x => assign dflt m (key x) (val x)) m) n =
      ((xs.reverse.find? fun x => key x == n).map val).or (get m n) := by
  induction xs generalizing m with
  | nil => exact ⟨hm, fun n => by simp⟩
  | cons x xs ih =>
    obtain ⟨h1, h2⟩ := ih (ordered_assign hm dflt (key x) (val x))
    refine ⟨h1, fun n => ?_⟩
    rw [List.foldl_cons, h2 n, get_assign hm, List.reverse_cons, List.find?_append]
    cases hf : xs.reverse.find? fun x => key x == n with
    | some y => simp
    | none =>
      by_cases hk : n = key x
      · subst hk; simp
      · simp [hk, beq_eq_false_iff_ne.2 (Ne.symm hk)]
end

/-! ## Sets -/

section
variable {K : Type} {cmp : K → K → Bool}

theorem setEmplace_spec (hc : StrictWeak cmp) {s : List K} (hs : Sorted cmp id s) (k : K) :
    Sorted cmp id (setEmplace cmp s k).1 ∧ setAbs cmp (setEmplace cmp s k).1 = fun x => same cmp x k || setAbs cmp s x := by
  have h := setStep_refines hc s hs (.emplace k)
  exact ⟨h.1, h.2.2⟩

theorem setFind_spec (hc : StrictWeak cmp) {s : List K} (hs : Sorted cmp id s) (k : K) :
    (setFind cmp s k).isSome = setAbs cmp s k := by
  have h := (setStep_refines hc s hs (.find k)).2.1
  simpa [SortedMap.setStep, SortedMap.Spec.setStep] using h

/-- A loop of `emplace` into a set. -/
theorem setEmplaces_spec (hc : StrictWeak cmp) (xs : List K) {s : List K} (hs : Sorted cmp id s) :
    Sorted cmp id (xs.foldl (fun s x => (setEmplace cmp s x).1) s) ∧
    ∀ x, setAbs cmp (xs.foldl (fun s x => (setEmplace cmp s x).1) s) x = (xs.any (same cmp x) || setAbs cmp s x) := by
  induction xs generalizing s with
  | nil => exact ⟨hs, fun x => by simp⟩
  | cons y ys ih =>
    obtain ⟨h1, h2⟩ := setEmplace_spec hc hs y
    obtain ⟨h3, h4⟩ := ih h1
    refine ⟨h3, fun x => ?_⟩
    rw [List.foldl_cons, h4 x, h2]
    simp only [List.any_cons, ← Bool.or_assoc]
    congr 1
    exact Bool.or_comm ..
end

theorem setAbs_name (s : List Str) (x : Str) : setAbs nameCmp s x = true ↔ x ∈ s := by
  simp only [setAbs, List.any_eq_true, same_name]
  exact ⟨fun ⟨e, he, h⟩ => h ▸ he, fun h => ⟨x, h, rfl⟩⟩

/-- Names in order. -/
abbrev OrderedSet (s : List Str) : Prop := Sorted nameCmp id s

theorem mem_setEmplace {s : List Str} (hs : OrderedSet s) (k : Str) :
    OrderedSet (setEmplace nameCmp s k).1 ∧ ∀ x, x ∈ (setEmplace nameCmp s k).1 ↔ x = k ∨ x ∈ s := by
  obtain ⟨h1, h2⟩ := setEmplace_spec nameCmp_strictWeak hs k
  refine ⟨h1, fun x => ?_⟩
  rw [← setAbs_name, h2, Bool.or_eq_true, same_name, setAbs_name]

theorem mem_setEmplaces (xs : List Str) {s : List Str} (hs : OrderedSet s) :
    OrderedSet (xs.foldl (fun s x => (setEmplace nameCmp s x).1) s) ∧
    ∀ x, x ∈ xs.foldl (fun s x => (setEmplace nameCmp s x).1) s ↔ x ∈ xs ∨ x ∈ s := by
  obtain ⟨h1, h2⟩ := setEmplaces_spec nameCmp_strictWeak xs hs
  refine ⟨h1, fun x => ?_⟩
  rw [← setAbs_name, h2, Bool.or_eq_true, setAbs_name, List.any_eq_true]
  simp only [same_name]
  exact or_congr ⟨fun ⟨e, he, h⟩ => h ▸ he, fun h => ⟨x, h, rfl⟩⟩ Iff.rfl

theorem setFind_name {s : List Str} (hs : OrderedSet s) (k : Str) : (setFind nameCmp s k).isSome ↔ k ∈ s := by
  rw [setFind_spec nameCmp_strictWeak hs, setAbs_name]

theorem locationLess_strictWeak : StrictWeak locationLess where
  irrefl := by intro a; simp [locationLess]
  trans := by intro a b c; simp only [locationLess, decide_eq_true_eq]; exact Nat.lt_trans
  incomp := by
    intro a b c
    simp only [locationLess, decide_eq_false_iff_not]
    omega

theorem same_location (a b : DirectiveLocation) : same locationLess a b = true ↔ a = b := by
  cases a <;> cases b <;> decide

end Verif.View
