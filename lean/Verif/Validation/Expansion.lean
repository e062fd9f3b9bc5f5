import Verif.Validation.Sets
import Verif.Request.Model
import Mathlib.Data.List.Perm.Subperm

/-!
# Fragments without cycles can be expanded
-/
namespace Verif.Validation
open Verif.Value Verif.Errors Verif.Ast Verif.Validation.Spec
open Verif.Request (Fragment FragmentMap Found collectFragments expandSel expandAll expandFragment expand)

/-! ## The fragments of a document as a map -/

theorem FragmentMap.find_append (m : FragmentMap) (name : Str) (f : Fragment) (n : Str) :
    FragmentMap.find (m ++ [(name, f)]) n = (m.find n).or (if name == n then some f else none) := by
  unfold FragmentMap.find
  rw [List.find?_append]
  cases m.find? (fun e => e.1 == n) with
  | some e => rfl
  | none => cases h : name == n <;> simp [h]

/-- The entries are the fragments of the document. -/
theorem collectFragments_find {env : Exec.Env} : ∀ (fs : List FragmentDef) (acc m : FragmentMap),
    collectFragments env fs acc = .ok m → ∀ name,
    (m.find name).map (·.sub) = ((acc.find name).map (·.sub)).or ((fs.find? fun f => f.name == name).map (·.sub)) := by
  intro fs
  induction fs with
  | nil =>
    intro acc m h name
    cases h
    simp
  | cons f fs ih =>
    intro acc m h name
    unfold collectFragments at h
    cases hf : Request.makeFragment env f with
    | error e => rw [hf] at h; cases h
    | ok fragment =>
      rw [hf] at h
      have hsub : fragment.sub = f.sub := by
        unfold Request.makeFragment at hf
        cases he : Exec.evalDirectives env f.directives with
        | error e => rw [he] at hf; cases hf
        | ok ds => rw [he] at hf; cases hf; rfl
      rw [ih _ _ h name]
      unfold FragmentMap.emplace
      by_cases hs : (acc.find f.name).isSome
      · simp only [hs, if_true]
        cases ha : acc.find name with
        | some g => simp
        | none =>
          have hne : (f.name == name) = false := by
            rw [beq_eq_false_iff_ne]
            rintro rfl
            rw [ha] at hs
            cases hs
          simp [List.find?_cons, hne]
      · simp only [hs, Bool.false_eq_true, if_false, FragmentMap.find_append]
        cases ha : acc.find name with
        | some g => simp
        | none =>
          cases hn : f.name == name with
          | true => simp [List.find?_cons, hn, hsub]
          | false => simp [List.find?_cons, hn]

theorem FragmentMap.emplace_nodup {m : FragmentMap} (h : (m.map (·.1)).Nodup) (name : Str) (f : Fragment) :
    ((m.emplace name f).map (·.1)).Nodup := by
  unfold FragmentMap.emplace
  split
  · exact h
  · rename_i hn
    rw [List.map_append, List.nodup_append]
    refine ⟨h, by simp, ?_⟩
    intro a ha b hb hab
    simp only [List.map_cons, List.map_nil, List.mem_singleton] at hb
    subst hb hab
    obtain ⟨e, he, rfl⟩ := List.mem_map.mp ha
    apply hn
    unfold FragmentMap.find
    rw [Option.isSome_map, List.find?_isSome]
    exact ⟨e, he, by simp⟩

theorem collectFragments_nodup {env : Exec.Env} : ∀ (fs : List FragmentDef) (acc m : FragmentMap),
    collectFragments env fs acc = .ok m → (acc.map (·.1)).Nodup → (m.map (·.1)).Nodup := by
  intro fs
  induction fs with
  | nil => intro acc m h hn; cases h; exact hn
  | cons f fs ih =>
    intro acc m h hn
    unfold collectFragments at h
    cases hf : Request.makeFragment env f with
    | error e => rw [hf] at h; cases h
    | ok fragment => rw [hf] at h; exact ih _ _ h (FragmentMap.emplace_nodup hn _ _)

/-! ## What cannot be expanded contains a spread which cannot be -/

/-- The spread is written in the selections, at any depth. -/
inductive Written : Selection → Str → Prop where
  | spread {pos name ds} : Written (.spread pos name ds) name
  | node {f pos sub s name} (hm : s ∈ sub) (h : Written s name) : Written (.node f pos sub) name
  | inline {pos t ds sub s name} (hm : s ∈ sub) (h : Written s name) : Written (.inline pos t ds sub) name

mutual
theorem expandSel_none (find : Str → Option Found) : (s : Selection) → expandSel find s = none → ∃ name, Written s name ∧ find name = none
  | .leaf f, h => by simp [expandSel] at h
  | .node f pos sub, h => by
    unfold expandSel at h
    cases hx : expandAll find sub with
    | some xs => rw [hx] at h; cases h
    | none =>
      obtain ⟨s, hs, name, hw, hf⟩ := expandAll_none find sub hx
      exact ⟨name, .node hs hw, hf⟩
  | .spread pos name ds, h => by
    unfold expandSel at h
    cases hx : find name with
    | none => exact ⟨name, .spread, hx⟩
    | some x =>
      rw [hx] at h
      cases x with
      | none => cases h
      | some x => cases h
  | .inline pos t ds sub, h => by
    unfold expandSel at h
    cases hx : expandAll find sub with
    | some xs => rw [hx] at h; cases h
    | none =>
      obtain ⟨s, hs, name, hw, hf⟩ := expandAll_none find sub hx
      exact ⟨name, .inline hs hw, hf⟩
theorem expandAll_none (find : Str → Option Found) : (ss : List Selection) → expandAll find ss = none →
    ∃ s ∈ ss, ∃ name, Written s name ∧ find name = none
  | [], h => by cases h
  | s :: rest, h => by
    unfold expandAll at h
    cases hx : expandSel find s with
    | none => exact ⟨s, List.mem_cons_self, expandSel_none find s hx⟩
    | some x =>
      cases hy : expandAll find rest with
      | none =>
        obtain ⟨s, hs, h⟩ := expandAll_none find rest hy
        exact ⟨s, List.mem_cons_of_mem _ hs, h⟩
      | some xs => rw [hx, hy] at h; cases h
end

variable {fragments : List FragmentDef}

theorem Written.reaches {s : Selection} {name : Str} (h : Written s name) :
    ∀ {sel : List Selection}, s ∈ sel → Reaches fragments sel name := by
  induction h with
  | spread => exact fun hm => .here hm
  | node hm _ ih => exact fun hm' => .node hm' (ih hm)
  | inline hm _ ih => exact fun hm' => .inline hm' (ih hm)

theorem Written.reaches_through {s : Selection} {g name : Str} {fragment : FragmentDef} (h : Written s g)
    (hf : fragments.find? (fun f => f.name == g) = some fragment) (hr : Reaches fragments fragment.sub name) :
    ∀ {sel : List Selection}, s ∈ sel → Reaches fragments sel name := by
  induction h with
  | spread => exact fun hm => .spread hm hf hr
  | node hm _ ih => exact fun hm' => .node hm' (ih hf hm)
  | inline hm _ ih => exact fun hm' => .inline hm' (ih hf hm)

/-! ## The bound is never reached -/

/-- No fragment reaches itself. -/
def Acyclic (fragments : List FragmentDef) : Prop :=
  ∀ name f, fragments.find? (fun f => f.name == name) = some f → ¬ Reaches fragments f.sub name

theorem expandFragment_isSome {m : FragmentMap}
    (hm : ∀ name, (m.find name).map (·.sub) = (fragments.find? fun f => f.name == name).map (·.sub))
    (hac : Acyclic fragments) :
    ∀ (depth : Nat) (stack : List Str) (sub : List Selection), stack.Nodup → stack ⊆ m.map (·.1) →
      m.length ≤ depth + stack.length →
      (∀ g ∈ stack, ∃ f, fragments.find? (fun f => f.name == g) = some f ∧
        ∀ name, Reaches fragments sub name → Reaches fragments f.sub name) →
      (expandAll (expandFragment m depth) sub).isSome := by
  have found : ∀ name frag, m.find name = some frag → ∃ f, fragments.find? (fun f => f.name == name) = some f ∧ frag.sub = f.sub := by
    intro name frag h
    have := hm name
    rw [h] at this
    cases hf : fragments.find? (fun f => f.name == name) with
    | none => rw [hf] at this; cases this
    | some f => rw [hf] at this; exact ⟨f, rfl, by simpa using this⟩
  have key : ∀ name frag, m.find name = some frag → name ∈ m.map (·.1) := by
    intro name frag h
    unfold FragmentMap.find at h
    obtain ⟨e, he, _⟩ := Option.map_eq_some_iff.mp h
    exact List.mem_map.mpr ⟨e, List.mem_of_find?_eq_some he, by simpa using List.find?_some he⟩
  intro depth
  induction depth with
  | zero =>
    intro stack sub hn hk hl hs
    by_contra hc
    rw [Option.not_isSome_iff_eq_none] at hc
    obtain ⟨s, hs', name, hw, hf⟩ := expandAll_none _ _ hc
    unfold expandFragment at hf
    cases hfind : m.find name with
    | none => rw [hfind] at hf; cases hf
    | some frag =>
      have hnot : name ∉ stack := by
        intro hin
        obtain ⟨f, hf1, hf2⟩ := hs name hin
        exact hac name f hf1 (hf2 _ (hw.reaches hs'))
      have hlen := ((List.nodup_cons.mpr ⟨hnot, hn⟩).subperm (l₂ := m.map (·.1)) (by
        intro x hx
        rcases List.mem_cons.mp hx with rfl | hx
        · exact key _ _ hfind
        · exact hk hx)).length_le
      simp only [List.length_cons, List.length_map] at hlen
      omega
  | succ depth ih =>
    intro stack sub hn hk hl hs
    by_contra hc
    rw [Option.not_isSome_iff_eq_none] at hc
    obtain ⟨s, hs', name, hw, hf⟩ := expandAll_none _ _ hc
    unfold expandFragment at hf
    cases hfind : m.find name with
    | none => rw [hfind] at hf; cases hf
    | some frag =>
      rw [hfind] at hf
      obtain ⟨f0, hf0, hsub⟩ := found _ _ hfind
      have hnot : name ∉ stack := by
        intro hin
        obtain ⟨f, hf1, hf2⟩ := hs name hin
        exact hac name f hf1 (hf2 _ (hw.reaches hs'))
      have := ih (name :: stack) frag.sub (List.nodup_cons.mpr ⟨hnot, hn⟩) (by
        intro x hx
        rcases List.mem_cons.mp hx with rfl | hx
        · exact key _ _ hfind
        · exact hk hx) (by simp only [List.length_cons]; omega) (by
        intro g hg
        rcases List.mem_cons.mp hg with rfl | hg
        · exact ⟨f0, hf0, fun n h => hsub ▸ h⟩
        · obtain ⟨f, hf1, hf2⟩ := hs g hg
          exact ⟨f, hf1, fun n h => hf2 _ (hw.reaches_through hf0 (hsub ▸ h) hs')⟩)
      obtain ⟨xs, hxs⟩ := Option.isSome_iff_exists.mp this
      simp only [hxs] at hf
      cases hf

theorem expand_isSome {doc : Document} {env : Exec.Env} {m : FragmentMap} (hm : collectFragments env doc.fragments [] = .ok m)
    (hac : Acyclic doc.fragments) (sub : List Selection) : (expand m sub).isSome := by
  refine expandFragment_isSome (fragments := doc.fragments) ?_ hac m.length [] sub List.nodup_nil (by simp) (by simp) (by simp)
  intro name
  rw [collectFragments_find _ _ _ hm name]
  simp [FragmentMap.find]

end Verif.Validation
