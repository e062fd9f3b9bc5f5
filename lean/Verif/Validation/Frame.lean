import Verif.Validation.Same
import Mathlib.Data.List.Perm.Subperm

/-!
# What visiting selections does not change, and that it ends (C20)
-/
namespace Verif.Validation
open Verif.Value Verif.Resp Verif.Errors Verif.Ast Spec

/-- Errors are only added, and the rest of these members is restored. -/
structure Wide (st st' : State) : Prop where
  errors : ∃ new, st'.errors = st.errors ++ new
  scopedType : st'.scopedType = st.scopedType
  fragmentStack : st'.fragmentStack = st.fragmentStack
  operationVariables : st'.operationVariables = st.operationVariables
  variableDefinitions : st'.variableDefinitions = st.variableDefinitions
  noVariables : st.operationVariables = none → st'.referencedVariables = st.referencedVariables

theorem Wide.refl (st : State) : Wide st st := ⟨⟨[], by simp⟩, rfl, rfl, rfl, rfl, fun _ => rfl⟩
theorem Wide.trans {a b c : State} (h : Wide a b) (h' : Wide b c) : Wide a c := by
  obtain ⟨n, hn⟩ := h.errors
  obtain ⟨n', hn'⟩ := h'.errors
  exact ⟨⟨n ++ n', by rw [hn', hn, List.append_assoc]⟩, h'.2.trans h.2, h'.3.trans h.3, h'.4.trans h.4, h'.5.trans h.5,
    fun hn => (h'.6 (by rw [h.4]; exact hn)).trans (h.6 hn)⟩
theorem Quiet.wide {a b : State} (h : Quiet a b) : Wide a b :=
  ⟨h.errors, h.scopedType, h.fragmentStack, h.operationVariables, h.variableDefinitions, h.noVariables⟩
theorem Wide.fail (st : State) (m : Str) : Wide st (st.fail m) := (Quiet.fail st m).wide
theorem Wide.errors_nil {a b : State} (h : Wide a b) (hb : b.errors = []) : a.errors = [] := by
  obtain ⟨n, hn⟩ := h.errors
  rw [hn] at hb
  exact (List.append_eq_nil_iff.mp hb).1

theorem visitFieldBody_wide (S : Schema) (key : Str) (def_ : FieldDef) (selected : SelectedField)
    (sub : Option (State → State)) (hsub : ∀ g, sub = some g → ∀ st, Wide st (g st)) (st : State) :
    Wide st (visitFieldBody S key def_ selected sub st) := by
  unfold visitFieldBody
  have h1 := (checkArguments_quiet S (str "type: " ++ st.scopedType ++ str " field: " ++ selected.fieldName) def_.arguments
    selected.arguments st).wide
  generalize checkArguments S _ def_.arguments selected.arguments st = st1 at h1
  unfold visitFieldSub
  cases sub with
  | none =>
    simp only
    split
    · exact h1.trans ⟨⟨[_], rfl⟩, rfl, rfl, rfl, rfl, fun _ => rfl⟩
    · exact h1.trans ⟨⟨[], by simp⟩, rfl, rfl, rfl, rfl, fun _ => rfl⟩
  | some g =>
    simp only
    have h2 := hsub g rfl { st1 with
      fieldCount := 0, scopedType := baseName def_.type, selectionFields := [] }
    refine h1.trans ?_
    obtain ⟨⟨n, hn⟩, _, h3, h4, h5, h6⟩ := h2
    split
    · exact ⟨⟨n ++ [_], by simp only [State.fail]; rw [hn, List.append_assoc]⟩, rfl, h3, h4, h5, h6⟩
    · exact ⟨⟨n, hn⟩, rfl, h3, h4, h5, h6⟩

theorem visitSelected_wide (S : Schema) (ov : Int → Int) (f : Field) (def_ : FieldDef) (selected : SelectedField)
    (sub : Option (State → State)) (hsub : ∀ g, sub = some g → ∀ st, Wide st (g st)) (st : State) :
    Wide st (visitSelected S ov f def_ selected sub st) := by
  unfold visitSelected
  split
  · exact visitFieldBody_wide S _ _ _ sub hsub _
  · split
    · exact .refl _
    · exact .trans (.fail _ _) (visitFieldBody_wide S _ _ _ sub hsub _)

theorem visitField_wide (S : Schema) (ov : Int → Int) (f : Field)
    (sub : Option (State → State)) (hsub : ∀ g, sub = some g → ∀ st, Wide st (g st)) (st : State) :
    Wide st (visitField S ov f sub st) := by
  unfold visitField
  have h1 := (visitDirectives_quiet S .field f.directives st).wide
  generalize visitDirectives S .field f.directives st = st1 at h1
  refine h1.trans ?_
  simp only
  split
  · exact .fail _ _
  · split
    · exact .fail _ _
    · split
      · exact .fail _ _
      · split
        · exact .fail _ _
        · exact .trans (Quiet.failAll _ _).wide (visitSelected_wide S _ _ _ _ sub hsub _)

theorem visitSpread_wide (S : Schema) (fragments : List FragmentDef) (enter : List Selection → State → State)
    (henter : ∀ ss st, Wide st (enter ss st)) (name : Str) (ds : Option (List Directive)) (st : State) :
    Wide st (visitSpread S fragments enter name ds st) := by
  unfold visitSpread
  have h1 := (visitDirectives_quiet S .fragmentSpread ds st).wide
  generalize visitDirectives S .fragmentSpread ds st = st1 at h1
  refine h1.trans ?_
  simp only
  split
  · exact .fail _ _
  · split
    · split
      · exact .refl _
      · exact ⟨⟨[_], rfl⟩, rfl, rfl, rfl, rfl, fun _ => rfl⟩
    · split
      · exact .fail _ _
      · rename_i fragment _ _ _
        obtain ⟨⟨n, hn⟩, _, h3, h4, h5, h6⟩ := henter fragment.sub
          { st1 with fragmentStack := name :: st1.fragmentStack, scopedType := fragment.typeCondition }
        exact ⟨⟨n, hn⟩, rfl, by simp only [h3]; simp, h4, h5, h6⟩

theorem visitInline_wide (S : Schema) (t : Option Str) (ds : Option (List Directive)) (visit : State → State)
    (hvisit : ∀ st, Wide st (visit st)) (st : State) : Wide st (visitInline S t ds visit st) := by
  unfold visitInline
  have h1 := (visitDirectives_quiet S .inlineFragment ds st).wide
  generalize visitDirectives S .inlineFragment ds st = st1 at h1
  refine h1.trans ?_
  simp only
  split
  · obtain ⟨⟨n, hn⟩, _, h3, h4, h5, h6⟩ := hvisit st1
    exact ⟨⟨n, hn⟩, rfl, h3, h4, h5, h6⟩
  · split
    · exact .fail _ _
    · split
      · exact .fail _ _
      · split
        · exact .fail _ _
        · obtain ⟨⟨n, hn⟩, _, h3, h4, h5, h6⟩ := hvisit { st1 with scopedType := t.getD [] }
          exact ⟨⟨n, hn⟩, rfl, h3, h4, h5, h6⟩

mutual
theorem visitOne_wide (S : Schema) (ov : Int → Int) (fragments : List FragmentDef) (enter : List Selection → State → State)
    (henter : ∀ ss st, Wide st (enter ss st)) : (s : Selection) → ∀ st, Wide st (visitOne S ov fragments enter s st)
  | .leaf f, st => visitField_wide S ov f none (by simp) st
  | .node f _ sub, st => visitField_wide S ov f _
      (by rintro g ⟨⟩ st; exact visitAll_wide S ov fragments enter henter sub st) st
  | .spread _ name ds, st => visitSpread_wide S fragments enter henter name ds st
  | .inline _ t ds sub, st => visitInline_wide S t ds _ (visitAll_wide S ov fragments enter henter sub) st
theorem visitAll_wide (S : Schema) (ov : Int → Int) (fragments : List FragmentDef) (enter : List Selection → State → State)
    (henter : ∀ ss st, Wide st (enter ss st)) : (ss : List Selection) → ∀ st, Wide st (visitAll S ov fragments enter ss st)
  | [], st => .refl _
  | s :: ss, st => .trans (visitOne_wide S ov fragments enter henter s st) (visitAll_wide S ov fragments enter henter ss _)
end

theorem exhaust_wide : ∀ (_ : List Selection) (st : State), Wide st { st.fail [] with exhausted := true } :=
  fun _ _ => ⟨⟨[[]], rfl⟩, rfl, rfl, rfl, rfl, fun _ => rfl⟩

theorem visitSelection_wide (S : Schema) (ov : Int → Int) (fragments : List FragmentDef) (depth : Nat) (ss : List Selection)
    (st : State) : Wide st (visitSelection S ov fragments depth ss st) := by
  induction depth generalizing ss st with
  | zero => exact visitAll_wide S ov fragments _ exhaust_wide ss st
  | succ depth ih => exact visitAll_wide S ov fragments _ ih ss st

/-! ## Termination -/

/-- The fragments we are in are different ones, and with `depth` more all of them would be entered. -/
structure Fuel (fragments : List FragmentDef) (depth : Nat) (stack : List Str) : Prop where
  nodup : stack.Nodup
  names : ∀ name ∈ stack, name ∈ fragments.map (·.name)
  enough : fragments.length ≤ stack.length + depth

theorem Fuel.enter {fragments : List FragmentDef} {depth : Nat} {stack : List Str} (h : Fuel fragments depth stack)
    {name : Str} (hn : name ∉ stack) (hm : name ∈ fragments.map (·.name)) :
    ∃ d, depth = d + 1 ∧ Fuel fragments d (name :: stack) := by
  have hnd : (name :: stack).Nodup := List.nodup_cons.mpr ⟨hn, h.nodup⟩
  have hsub : ∀ x ∈ name :: stack, x ∈ fragments.map (·.name) := by
    intro x hx
    rcases List.mem_cons.mp hx with rfl | hx
    · exact hm
    · exact h.names x hx
  have hle := (List.Nodup.subperm hnd hsub).length_le
  simp only [List.length_cons, List.length_map] at hle
  have := h.enough
  cases depth with
  | zero => omega
  | succ d => exact ⟨d, rfl, hnd, hsub, by simp only [List.length_cons]; omega⟩

/-- Visiting with this `enter` never runs out of depth. -/
def Endless (fragments : List FragmentDef) (depth : Nat) (visit : State → State) : Prop :=
  ∀ st, Fuel fragments depth st.fragmentStack → (visit st).exhausted = st.exhausted

theorem visitFieldBody_exhausted {S : Schema} {fragments : List FragmentDef} {depth : Nat} (key : Str) (def_ : FieldDef)
    (selected : SelectedField) (sub : Option (State → State)) (hsub : ∀ g, sub = some g → Endless fragments depth g)
    (st : State) (hst : Fuel fragments depth st.fragmentStack) :
    (visitFieldBody S key def_ selected sub st).exhausted = st.exhausted := by
  unfold visitFieldBody
  have hq := checkArguments_quiet S (str "type: " ++ st.scopedType ++ str " field: " ++ selected.fieldName) def_.arguments
    selected.arguments st
  generalize checkArguments S _ def_.arguments selected.arguments st = st1 at hq
  have h1 := hq.exhausted
  rw [← hq.fragmentStack] at hst
  unfold visitFieldSub
  cases sub with
  | none => simp only; split <;> exact h1
  | some g =>
    simp only
    have h2 := hsub g rfl { st1 with
      fieldCount := 0, scopedType := baseName def_.type, selectionFields := [] } hst
    split <;> exact h2.trans h1

theorem visitSelected_exhausted {S : Schema} {fragments : List FragmentDef} {depth : Nat} (ov : Int → Int) (f : Field)
    (def_ : FieldDef) (selected : SelectedField)
    (sub : Option (State → State)) (hsub : ∀ g, sub = some g → Endless fragments depth g) :
    Endless fragments depth (visitSelected S ov f def_ selected sub) := by
  intro st hst
  unfold visitSelected
  split
  · exact visitFieldBody_exhausted _ _ _ sub hsub _ hst
  · split
    · rfl
    · exact visitFieldBody_exhausted _ _ _ sub hsub (st.fail _) hst

theorem visitField_exhausted {S : Schema} {fragments : List FragmentDef} {depth : Nat} (ov : Int → Int) (f : Field)
    (sub : Option (State → State)) (hsub : ∀ g, sub = some g → Endless fragments depth g) :
    Endless fragments depth (visitField S ov f sub) := by
  intro st hst
  unfold visitField
  have hq := visitDirectives_quiet S .field f.directives st
  generalize visitDirectives S .field f.directives st = st1 at hq
  rw [← hq.fragmentStack] at hst
  rw [← hq.exhausted]
  simp only
  split
  · rfl
  · split
    · rfl
    · split
      · rfl
      · split
        · rfl
        · exact visitSelected_exhausted ov _ _ _ sub hsub (st1.failAll _) hst

mutual
theorem visitOne_exhausted {S : Schema} {ov : Int → Int} {fragments : List FragmentDef} {depth : Nat}
    {enter : List Selection → State → State} (hwide : ∀ ss st, Wide st (enter ss st))
    (henter : ∀ d, depth = d + 1 → ∀ ss, Endless fragments d (enter ss)) :
    (s : Selection) → Endless fragments depth (visitOne S ov fragments enter s)
  | .leaf f => visitField_exhausted ov f none (by simp)
  | .node f _ sub => visitField_exhausted ov f _ (by rintro g ⟨⟩; exact visitAll_exhausted hwide henter sub)
  | .spread _ name ds => by
    intro st hst
    simp only [visitOne, visitSpread]
    have hq := visitDirectives_quiet S .fragmentSpread ds st
    generalize visitDirectives S .fragmentSpread ds st = st1 at hq
    rw [← hq.fragmentStack] at hst
    rw [← hq.exhausted]
    split
    · rfl
    · rename_i fragment hfind
      split
      · split <;> rfl
      · rename_i hstack
        split
        · rfl
        · have hm : name ∈ fragments.map (·.name) := by
            have h1 := List.mem_of_find?_eq_some hfind
            have h2 := List.find?_some hfind
            simp only [beq_iff_eq] at h2
            exact List.mem_map.mpr ⟨fragment, h1, h2⟩
          obtain ⟨d, hd, hfuel⟩ := hst.enter (by simpa using hstack) hm
          exact henter d hd fragment.sub
            { st1 with fragmentStack := name :: st1.fragmentStack, scopedType := fragment.typeCondition } hfuel
  | .inline _ t ds sub => by
    intro st hst
    simp only [visitOne, visitInline]
    have hq := visitDirectives_quiet S .inlineFragment ds st
    generalize visitDirectives S .inlineFragment ds st = st1 at hq
    rw [← hq.fragmentStack] at hst
    rw [← hq.exhausted]
    have ih := visitAll_exhausted (S := S) (ov := ov) hwide henter sub
    split
    · exact ih st1 hst
    · split
      · rfl
      · split
        · rfl
        · split
          · rfl
          · exact ih { st1 with scopedType := t.getD [] } hst
theorem visitAll_exhausted {S : Schema} {ov : Int → Int} {fragments : List FragmentDef} {depth : Nat}
    {enter : List Selection → State → State} (hwide : ∀ ss st, Wide st (enter ss st))
    (henter : ∀ d, depth = d + 1 → ∀ ss, Endless fragments d (enter ss)) :
    (ss : List Selection) → Endless fragments depth (visitAll S ov fragments enter ss)
  | [] => fun _ _ => rfl
  | s :: ss => by
    intro st hst
    simp only [visitAll]
    have h1 := visitOne_exhausted (S := S) (ov := ov) hwide henter s st hst
    exact (visitAll_exhausted hwide henter ss _ (by rw [(visitOne_wide S ov fragments enter hwide s st).fragmentStack]; exact hst)).trans h1
end

theorem visitSelection_exhausted (S : Schema) (ov : Int → Int) (fragments : List FragmentDef) (depth : Nat)
    (ss : List Selection) : Endless fragments depth (visitSelection S ov fragments depth ss) := by
  induction depth generalizing ss with
  | zero => exact visitAll_exhausted exhaust_wide (by rintro d ⟨⟩) ss
  | succ depth ih =>
    exact visitAll_exhausted (visitSelection_wide S ov fragments depth) (by rintro d ⟨⟩; exact ih) ss

end Verif.Validation
