import Verif.Validation.Frame

/-!
# Visiting selections: exactly the checked ones give no errors
-/
namespace Verif.Validation
open Verif.Value Verif.Resp Verif.Errors Verif.Ast Spec

/-- What the proofs need of the schema. -/
structure SchemaOk (S : Schema) : Prop where
  empty : S.find [] = none
  inputs : KnownInputs S
  directives : KnownDirectives S
  fields : ∀ type name d, S.findField type name = some d → KnownArgs S d.arguments

theorem SchemaOk.of {S : Schema} (h : Schema.Closed S) : SchemaOk S where
  empty := h.names
  inputs := fun name t ht v hv => h.inputFields name t ht v hv
  directives := fun d hd v hv => h.directives d hd v hv
  fields := by
    intro type name d hd v hv
    unfold Schema.findField at hd
    split at hd
    · cases hd
    · rename_i t ht
      split at hd
      · cases hd; simp at hv
      · split at hd
        · cases hd; simp at hv
        · split at hd
          · cases hd
            simp only [List.mem_singleton] at hv
            subst hv
            exact ⟨h.string, trivial⟩
          · exact h.arguments type t ht d (List.mem_reverse.mp (List.mem_of_find?_eq_some hd)) v hv

section
variable (S : Schema) (vars : Option VariableTypes)

/-- A state without errors, in these fragments, on this type, after these fields. -/
structure At (stack : List Str) (type : Str) (selected : List (Str × Occurrence)) (st : State) : Prop where
  errors : st.errors = []
  cycles : st.fragmentCycles = []
  vars : st.operationVariables = vars
  stack : st.fragmentStack = stack
  type : st.scopedType = type
  fields : st.selectionFields = selected.map fun e => (e.1, selectedOf S e.2)
  nodup : (selected.map (·.1)).Nodup

/-- From `st` to `st'` these fields were added, and these things used. -/
structure Outcome (stack : List Str) (type : Str) (before after : List (Str × Occurrence)) (uses : Uses)
    (st st' : State) : Prop where
  at_ : At S vars stack type after st'
  count : st'.fieldCount + before.length = st.fieldCount + after.length
  vars : ∀ v, v ∈ st'.referencedVariables ↔ v ∈ st.referencedVariables ∨ v ∈ uses.vars
  fragments : ∀ f, f ∈ st'.referencedFragments ↔ f ∈ st.referencedFragments ∨ f ∈ uses.fragments
end

variable {S : Schema} {vars : Option VariableTypes} {ov : Int → Int} {fragments : List FragmentDef}

theorem Outcome.refl {stack : List Str} {type : Str} {fields : List (Str × Occurrence)} {st : State}
    (h : At S vars stack type fields st) : Outcome S vars stack type fields fields {} st st :=
  ⟨h, rfl, by simp, by simp⟩

theorem Outcome.trans {stack : List Str} {type : Str} {a b c : List (Str × Occurrence)} {u u' : Uses} {s s' s'' : State}
    (h : Outcome S vars stack type a b u s s') (h' : Outcome S vars stack type b c u' s' s'') :
    Outcome S vars stack type a c (u.and u') s s'' := by
  refine ⟨h'.at_, ?_, ?_, ?_⟩
  · have := h.count; have := h'.count; omega
  · intro v; rw [h'.vars, h.vars]; simp [Uses.and, or_assoc]
  · intro v; rw [h'.fragments, h.fragments]; simp [Uses.and, or_assoc]

theorem At.step {stack : List Str} {type : Str} {fields : List (Str × Occurrence)} {st st' : State} {P : Prop} {U : Set Str}
    (h : At S vars stack type fields st) (hs : Step P U st st') (hp : P) :
    Outcome S vars stack type fields fields ⟨∅, U⟩ st st' := by
  refine ⟨⟨?_, ?_, ?_, ?_, ?_, ?_, h.nodup⟩, by rw [hs.fieldCount], hs.refs hp, ?_⟩
  · rw [← hs.ok.mpr hp]; exact h.errors
  · rw [hs.fragmentCycles]; exact h.cycles
  · rw [hs.operationVariables]; exact h.vars
  · rw [hs.fragmentStack]; exact h.stack
  · rw [hs.scopedType]; exact h.type
  · rw [hs.selectionFields]; exact h.fields
  · intro f; rw [hs.referencedFragments]; simp

/-! ## Fields -/

theorem givenArguments_nil (type : Str) (f : Field) :
    (givenArguments type f).1 = [] ↔ UniqueArgs (f.arguments.getD []) := by
  unfold givenArguments
  cases f.arguments with
  | none => simp [UniqueArgs]
  | some args => exact collectArguments_nil _ _

theorem givenArguments_eq (type : Str) (f : Field) (h : UniqueArgs (f.arguments.getD [])) :
    (givenArguments type f).2 = f.arguments.getD [] := by
  unfold givenArguments
  cases hf : f.arguments with
  | none => rfl
  | some args => rw [hf] at h; exact collectArguments_eq _ _ h

/-- The state after the directives. -/
abbrev afterDirectives (S : Schema) (f : Field) (st : State) : State := visitDirectives S .field f.directives st

theorem visitField_found {f : Field} {sub : Option (State → State)} {st : State} {def_ : FieldDef}
    (h : HasField S st.scopedType f.name def_) :
    visitField S ov f sub st = visitSelected S ov f def_ {
        returnType := def_.type
        objectType := if S.kind st.scopedType = some .object then some st.scopedType else none
        fieldName := f.name
        arguments := (givenArguments st.scopedType f).2 } sub
      ((afterDirectives S f st).failAll (givenArguments st.scopedType f).1) := by
  unfold visitField
  have hq := (visitDirectives_quiet S .field f.directives st).scopedType
  have h2 : ¬ (S.kind st.scopedType = some .union ∧ f.name ≠ str "__typename") := fun hc => hc.2 (h.union hc.1)
  have h3 : (S.find (baseName def_.type)).isNone = false := by
    have := h.known
    cases hf : S.find (baseName def_.type) with
    | none => rw [hf] at this; simp at this
    | some x => rfl
  simp only [hq, h.composite, Bool.not_true, Bool.false_eq_true, if_false, h.found, h3]
  rw [if_neg (by simpa using h2)]

theorem visitField_missing {f : Field} {sub : Option (State → State)} {st : State}
    (h : ∀ def_, ¬ HasField S st.scopedType f.name def_) :
    ∃ m, visitField S ov f sub st = (afterDirectives S f st).fail m := by
  unfold visitField
  have hq := (visitDirectives_quiet S .field f.directives st).scopedType
  simp only [hq]
  by_cases h1 : S.isComposite st.scopedType = true
  · by_cases h2 : S.kind st.scopedType = some .union ∧ f.name ≠ str "__typename"
    · rw [if_neg (by simp [h1]), if_pos (by simpa using h2)]
      exact ⟨_, rfl⟩
    · rw [if_neg (by simp [h1]), if_neg (by simpa using h2)]
      cases hf : S.findField st.scopedType f.name with
      | none => exact ⟨_, rfl⟩
      | some def_ =>
        cases hk : S.find (baseName def_.type) with
        | none => simp only [hk, Option.isNone_none, if_true]; exact ⟨_, rfl⟩
        | some x =>
          refine absurd ⟨h1, ?_, hf, by rw [hk]; rfl⟩ (h def_)
          intro hu
          by_contra hne
          exact h2 ⟨hu, hne⟩
  · rw [if_pos (by simpa using h1)]
    exact ⟨_, rfl⟩

theorem findSelected_eq {fields : List (Str × Occurrence)} {key : Str} :
    findSelected (fields.map fun e => (e.1, selectedOf S e.2)) key =
      (fields.find? fun e => e.1 == key).map fun e => selectedOf S e.2 := by
  unfold findSelected
  rw [List.find?_map]
  cases h : fields.find? (fun e => e.1 == key) with
  | none =>
    have : fields.find? ((fun e : Str × SelectedField => e.1 == key) ∘ fun e => (e.1, selectedOf S e.2)) = none := h
    rw [this]; rfl
  | some e =>
    have : fields.find? ((fun e : Str × SelectedField => e.1 == key) ∘ fun e => (e.1, selectedOf S e.2)) = some e := h
    rw [this]; rfl

variable {stack : List Str} {type : Str} {before : List (Str × Occurrence)} {st : State} {f : Field} {def_ : FieldDef}

/-- The directives are fine and no argument is written twice. -/
theorem field_head (hS : SchemaOk S) (h : At S vars stack type before st) (hv : VarsOk S vars) :
    Step (DirectivesOk S vars .field f.directives ∧ UniqueArgs (f.arguments.getD []))
      (directiveVariables S vars f.directives) st
      ((afterDirectives S f st).failAll (givenArguments st.scopedType f).1) := by
  have h1 := visitDirectives_step hS.empty hS.inputs hS.directives .field f.directives st (by rw [h.vars]; exact hv)
  rw [h.vars] at h1
  refine (h1.trans (Step.failAll _ (givenArguments st.scopedType f).1)).congr (by rw [givenArguments_nil]) fun _ => ?_
  rw [Set.union_empty]

/-- What is kept of the field. -/
theorem field_selected (hu : UniqueArgs (f.arguments.getD [])) :
    (⟨def_.type, if S.kind type = some .object then some type else none, f.name, (givenArguments type f).2⟩ : SelectedField) =
      selectedOf S ⟨type, f, def_.type⟩ := by
  rw [givenArguments_eq _ _ hu]; rfl

/-- A field whose response name was used before. -/
theorem visitField_again (hS : SchemaOk S) (hv : VarsOk S vars) (h : At S vars stack type before st)
    (hf : FieldOk S vars type f def_) {first : Occurrence} (hm : (Exec.responseName f, first) ∈ before)
    (ha : Agree S ov first ⟨type, f, def_.type⟩) (sub : Option (State → State)) :
    Outcome S vars stack type before before ⟨∅, directiveVariables S vars f.directives⟩ st (visitField S ov f sub st) := by
  have hu : UniqueArgs (f.arguments.getD []) := ⟨hf.unique, hf.uniqueMembers⟩
  have hfield := hf.exists_
  rw [← h.type] at hfield
  rw [visitField_found hfield]
  have h1 := h.step (field_head hS h hv) ⟨hf.directives, hu⟩
  rw [h.type] at h1 ⊢
  rw [field_selected hu]
  unfold visitSelected
  rw [h1.at_.fields, findSelected_eq, find_nodup h.nodup hm]
  simp only [Option.map_some]
  rw [if_pos ((same_iff S ov _ _).mpr ha)]
  exact h1

/-- The state in which the selections below a new field are visited. -/
theorem visitFieldSub_new (h : At S vars stack type before st) {key : Str} (hnew : key ∉ before.map (·.1)) (o : Occurrence)
    (sub : Option (State → State)) (inside : List (Str × Occurrence)) (uses : Uses)
    (hsub : match sub with
      | none => S.isComposite (baseName def_.type) = false ∧ uses = {}
      | some g => (Outcome S vars stack (baseName def_.type) [] inside uses
            { st with fieldCount := 0, scopedType := baseName def_.type, selectionFields := [] }
            (g { st with fieldCount := 0, selectionFields := [], scopedType := baseName def_.type })) ∧
          (S.isComposite (baseName def_.type) = true → inside ≠ [])) :
    Outcome S vars stack type before (before ++ [(key, o)]) uses st
      (visitFieldSub S key def_ (selectedOf S o) sub st) := by
  have hsel : (findSelected st.selectionFields key).isSome = false := by
    rw [h.fields, findSelected_eq]
    cases hf : before.find? (fun e => e.1 == key) with
    | none => rfl
    | some e =>
      have h1 := List.mem_of_find?_eq_some hf
      have h2 := List.find?_some hf
      simp only [beq_iff_eq] at h2
      exact absurd (List.mem_map.mpr ⟨e, h1, h2⟩) hnew
  have hfields : st.selectionFields ++ [(key, selectedOf S o)] =
      (before ++ [(key, o)]).map fun e => (e.1, selectedOf S e.2) := by rw [h.fields]; simp
  have hnodup : ((before ++ [(key, o)]).map (·.1)).Nodup := by
    simp only [List.map_append, List.map_cons, List.map_nil]
    rw [List.nodup_append]
    refine ⟨h.nodup, by simp, ?_⟩
    intro a ha b hb
    simp only [List.mem_singleton] at hb
    rintro rfl
    exact hnew (hb ▸ ha)
  unfold visitFieldSub
  simp only [hsel, Bool.false_eq_true, if_false]
  cases sub with
  | none =>
    simp only at hsub
    obtain ⟨hc, rfl⟩ := hsub
    simp only [hc, Bool.false_eq_true, if_false]
    refine ⟨⟨h.errors, h.cycles, h.vars, h.stack, h.type, hfields, hnodup⟩, ?_, by simp, by simp⟩
    simp only [List.length_append, List.length_singleton]; omega
  | some g =>
    simp only at hsub
    obtain ⟨hg, hsome⟩ := hsub
    have hin := hg
    simp only
    have hcount := hin.count
    simp only [List.length_nil, Nat.add_zero, Nat.zero_add] at hcount
    rw [if_neg]
    · refine ⟨⟨hin.at_.errors, hin.at_.cycles, hin.at_.vars, hin.at_.stack, h.type, hfields, hnodup⟩, ?_, ?_, ?_⟩
      · simp only [List.length_append, List.length_singleton]; omega
      · exact hin.vars
      · exact hin.fragments
    · rw [hcount]
      simp only [Bool.and_eq_true, decide_eq_true_eq, List.length_eq_zero_iff, not_and]
      intro h0 hc
      exact hsome hc h0

/-- A field with a new response name. -/
theorem visitField_new (hS : SchemaOk S) (hv : VarsOk S vars) (h : At S vars stack type before st)
    (hf : FieldOk S vars type f def_) (hnew : Exec.responseName f ∉ before.map (·.1))
    (hargs : ArgumentsOk S vars def_.arguments (f.arguments.getD []))
    (sub : Option (State → State)) (inside : List (Str × Occurrence)) (uses : Uses)
    (hsub : match sub with
      | none => S.isComposite (baseName def_.type) = false ∧ uses = {}
      | some g => (∀ st, At S vars stack (baseName def_.type) [] st →
          Outcome S vars stack (baseName def_.type) [] inside uses st (g st)) ∧
          (S.isComposite (baseName def_.type) = true → inside ≠ [])) :
    Outcome S vars stack type before (before ++ [(Exec.responseName f, ⟨type, f, def_.type⟩)])
      (Uses.and ⟨∅, directiveVariables S vars f.directives ∪
        argumentVariables S vars def_.arguments (f.arguments.getD [])⟩ uses) st (visitField S ov f sub st) := by
  have hu : UniqueArgs (f.arguments.getD []) := ⟨hf.unique, hf.uniqueMembers⟩
  have hfield := hf.exists_
  rw [← h.type] at hfield
  rw [visitField_found hfield]
  have hstep := field_head (f := f) hS h hv
  have h1 := h.step hstep ⟨hf.directives, hu⟩
  rw [h.type] at h1 hstep ⊢
  rw [field_selected hu]
  unfold visitSelected
  generalize (afterDirectives S f st).failAll (givenArguments type f).1 = st1 at h1 hstep
  have hnone : before.find? (fun e => e.1 == Exec.responseName f) = none := by
    rw [List.find?_eq_none]
    intro e he hc
    exact hnew (List.mem_map.mpr ⟨e, he, by simpa using hc⟩)
  rw [h1.at_.fields, findSelected_eq, hnone]
  simp only [Option.map_none]
  unfold visitFieldBody
  have h2 := checkArguments_step hS.empty hS.inputs
    (str "type: " ++ st1.scopedType ++ str " field: " ++ (selectedOf S ⟨type, f, def_.type⟩).fieldName)
    (hS.fields _ _ _ hf.exists_.found) hu st1 (by rw [h1.at_.vars]; exact hv)
  rw [h1.at_.vars] at h2
  have h12 := h.step (hstep.trans h2) ⟨⟨hf.directives, hu⟩, hargs⟩
  refine h12.trans (visitFieldSub_new h12.at_ hnew _ sub inside uses ?_)
  cases sub with
  | none => exact hsub
  | some g =>
    exact ⟨hsub.1 _ ⟨h12.at_.errors, h12.at_.cycles, h12.at_.vars, h12.at_.stack, rfl, rfl, by simp⟩, hsub.2⟩

theorem visitFieldSub_wide (key : Str) (selected : SelectedField)
    (sub : Option (State → State)) (hsub : ∀ g, sub = some g → ∀ st, Wide st (g st)) (st : State) :
    Wide st (visitFieldSub S key def_ selected sub st) := by
  unfold visitFieldSub
  cases sub with
  | none =>
    simp only
    split
    · exact ⟨⟨[_], rfl⟩, rfl, rfl, rfl, rfl, fun _ => rfl⟩
    · exact ⟨⟨[], by simp⟩, rfl, rfl, rfl, rfl, fun _ => rfl⟩
  | some g =>
    simp only
    obtain ⟨⟨n, hn⟩, _, h3, h4, h5, h6⟩ := hsub g rfl { st with
      fieldCount := 0, scopedType := baseName def_.type, selectionFields := [] }
    split
    · exact ⟨⟨n ++ [_], by simp only [State.fail]; rw [hn, List.append_assoc]⟩, rfl, h3, h4, h5, h6⟩
    · exact ⟨⟨n, hn⟩, rfl, h3, h4, h5, h6⟩

/-- If there are no errors, the field is fine. -/
theorem visitField_sound (hS : SchemaOk S) (hv : VarsOk S vars) (h : At S vars stack type before st)
    (sub : Option (State → State)) (hwide : ∀ g, sub = some g → ∀ st, Wide st (g st))
    (Q : Str → List (Str × Occurrence) → Uses → Prop)
    (hsub : ∀ g, sub = some g → ∀ inner st, At S vars stack inner [] st → (g st).errors = [] →
      ∃ inside uses, Q inner inside uses ∧ Outcome S vars stack inner [] inside uses st (g st))
    (he : (visitField S ov f sub st).errors = []) :
    ∃ def_, FieldOk S vars type f def_ ∧
      ((∃ first, (Exec.responseName f, first) ∈ before ∧ Agree S ov first ⟨type, f, def_.type⟩) ∨
       (Exec.responseName f ∉ before.map (·.1) ∧ ArgumentsOk S vars def_.arguments (f.arguments.getD []) ∧
         ∃ inside uses, Outcome S vars stack type before (before ++ [(Exec.responseName f, ⟨type, f, def_.type⟩)])
           (Uses.and ⟨∅, directiveVariables S vars f.directives ∪
             argumentVariables S vars def_.arguments (f.arguments.getD [])⟩ uses) st (visitField S ov f sub st) ∧
           match sub with
           | none => S.isComposite (baseName def_.type) = false ∧ uses = {}
           | some _ => Q (baseName def_.type) inside uses ∧
               (S.isComposite (baseName def_.type) = true → inside ≠ []))) := by
  by_cases hfield : ∃ def_, HasField S st.scopedType f.name def_
  · obtain ⟨def_, hfield⟩ := hfield
    rw [visitField_found hfield] at he ⊢
    have hstep := field_head (f := f) hS h hv
    generalize hst1 : (afterDirectives S f st).failAll (givenArguments st.scopedType f).1 = st1 at he hstep ⊢
    have he1 : st1.errors = [] := (visitSelected_wide S ov f def_ _ sub hwide st1).errors_nil he
    have hok := (hstep.errors_nil.mp he1).2
    have hu := hok.2
    have h1 := h.step hstep hok
    rw [h.type] at he hfield ⊢
    rw [field_selected hu] at he ⊢
    refine ⟨def_, ⟨hok.1, hfield, hu.1, hu.2⟩, ?_⟩
    unfold visitSelected at he ⊢
    rw [h1.at_.fields, findSelected_eq] at he ⊢
    cases hfind : before.find? (fun e => e.1 == Exec.responseName f) with
    | some e =>
      rw [hfind] at he
      simp only [Option.map_some] at he
      have hm := List.mem_of_find?_eq_some hfind
      have hk := List.find?_some hfind
      simp only [beq_iff_eq] at hk
      left
      refine ⟨e.2, by rw [← hk]; exact hm, ?_⟩
      by_contra hna
      rw [if_neg (by rw [same_iff]; exact hna)] at he
      have := (visitFieldBody_wide S _ _ _ sub hwide _).errors_nil he
      simp [State.fail] at this
    | none =>
      rw [hfind] at he
      simp only [Option.map_none] at he ⊢
      right
      have hnew : Exec.responseName f ∉ before.map (·.1) := by
        intro hc
        obtain ⟨e, he, hk⟩ := List.mem_map.mp hc
        exact absurd (by simpa using hk) (List.find?_eq_none.mp hfind e he)
      refine ⟨hnew, ?_⟩
      unfold visitFieldBody at he ⊢
      have h2 := checkArguments_step hS.empty hS.inputs
        (str "type: " ++ st1.scopedType ++ str " field: " ++ (selectedOf S ⟨type, f, def_.type⟩).fieldName)
        (hS.fields _ _ _ hfield.found) hu st1 (by rw [h1.at_.vars]; exact hv)
      rw [h1.at_.vars] at h2
      have harg : (selectedOf S ⟨type, f, def_.type⟩).arguments = f.arguments.getD [] := rfl
      rw [harg] at he ⊢
      generalize checkArguments S _ def_.arguments (f.arguments.getD []) st1 = st2 at he h2 ⊢
      have he2 := (visitFieldSub_wide _ _ sub hwide st2).errors_nil he
      have hargs := (h2.errors_nil.mp he2).2
      have h12 := h.step (hstep.trans h2) ⟨hok, hargs⟩
      refine ⟨hargs, ?_⟩
      cases sub with
      | none =>
        have hc : S.isComposite (baseName def_.type) = false := by
          unfold visitFieldSub at he
          cases hc : S.isComposite (baseName def_.type) with
          | false => rfl
          | true => simp [hc, State.fail] at he
        exact ⟨[], {}, h12.trans (visitFieldSub_new h12.at_ hnew _ none [] {} ⟨hc, rfl⟩), hc, rfl⟩
      | some g =>
        have hat : At S vars stack (baseName def_.type) [] { st2 with
            fieldCount := 0, scopedType := baseName def_.type, selectionFields := [] } :=
          ⟨he2, h12.at_.cycles, h12.at_.vars, h12.at_.stack, rfl, rfl, by simp⟩
        have heg : (g { st2 with
            fieldCount := 0, scopedType := baseName def_.type, selectionFields := [] }).errors = [] := by
          unfold visitFieldSub at he
          simp only at he
          split at he
          · simp only [State.fail] at he
            exact (List.append_eq_nil_iff.mp he).1
          · exact he
        obtain ⟨inside, uses, hQ, hout⟩ := hsub g rfl _ _ hat heg
        have hsome : S.isComposite (baseName def_.type) = true → inside ≠ [] := by
          unfold visitFieldSub at he
          simp only at he
          rintro hc rfl
          have hcount := hout.count
          simp only [List.length_nil, Nat.add_zero] at hcount
          rw [if_pos (by rw [hcount, hc]; rfl)] at he
          simp [State.fail] at he
        exact ⟨inside, uses, h12.trans (visitFieldSub_new h12.at_ hnew _ (some g) inside uses ⟨hout, hsome⟩), hQ, hsome⟩
  · obtain ⟨m, hm⟩ := visitField_missing (ov := ov) (sub := sub) (fun d hd => hfield ⟨d, hd⟩)
    rw [hm] at he
    simp [State.fail] at he

end Verif.Validation
