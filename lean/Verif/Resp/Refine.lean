import Verif.Resp.Basic
import Verif.Value.Props

/-!
# The abstract operations on `Resp` are what the concrete ones do
-/
namespace Verif.Resp
open Verif.Value

theorem treeEntries_map (l : List (Str × Value)) : treeEntries l = l.map (fun e => (e.1, tree e.2)) := by
  induction l with
  | nil => rfl
  | cons e l ih => obtain ⟨n, v⟩ := e; simp [treeEntries, ih]

theorem treeList_map (l : List Value) : treeList l = l.map tree := by
  induction l with
  | nil => rfl
  | cons e l ih => simp [treeList, ih]

theorem type_tree (v : Value) : (tree v).type = v.type := by
  cases v with
  | scalar o => cases o <;> rfl
  | _ => rfl

/-- Insertion and lookup in an object commute with forgetting the index, for every value a program can build. -/
theorem emplace_tree (entries : List (Str × Value)) (members : List Nat) (h : Built (.map entries members))
    (name : Str) (w : Value) :
    ∃ r, (Value.map entries members).emplaceBack name w = .ok (r, Members.isNew (treeEntries entries) name) ∧
      tree r = .map (Members.emplace (treeEntries entries) name (tree w)) := by
  obtain ⟨_, _, members', h3⟩ := C04_map_built entries members h name w
  have hany : (treeEntries entries).any (fun e => e.1 == name) = entries.any (fun e => e.1 == name) := by
    rw [treeEntries_map, List.any_map]; rfl
  refine ⟨.map (Verif.Value.Spec.add entries (name, w)) members', ?_, ?_⟩
  · rw [h3]
    congr 2
    rw [Members.isNew, hany, Bool.eq_iff_iff]
    simp
    constructor
    · rintro h a b hab rfl
      exact h b hab
    · intro h x hx
      exact h _ _ hx rfl
  · simp only [tree, Verif.Value.Spec.add, Members.emplace, hany]
    by_cases hh : entries.any (fun e => e.1 == name)
    · rw [if_pos hh, if_pos (by simpa using hh)]
    · rw [if_neg hh, if_neg (by simpa using hh)]
      simp [treeEntries_map]

theorem find_tree (entries : List (Str × Value)) (members : List Nat) (h : Built (.map entries members)) (name : Str) :
    ∃ o, (Value.map entries members).find name = .ok o ∧
      o.map (fun e => tree e.2) = Members.find (treeEntries entries) name := by
  obtain ⟨h1, _, _⟩ := C04_map_built entries members h name .null
  refine ⟨_, h1, ?_⟩
  rw [treeEntries_map, Members.find, List.find?_map]
  simp [Option.map_map, Function.comp_def]

theorem push_tree (xs : List Value) (w : Value) :
    ∃ r, (Value.list xs).push w = .ok r ∧ tree r = .list (treeList xs ++ [tree w]) :=
  ⟨_, rfl, by simp [tree, treeList_map]⟩

end Verif.Resp
