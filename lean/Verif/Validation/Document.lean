import Verif.Validation.Checked
import Mathlib.Data.List.Induction

/-!
# Visiting definitions and documents
-/
namespace Verif.Validation
open Verif.Value Verif.Resp Verif.Errors Verif.Ast Spec

variable {S : Schema} {ov : Int → Int} {fragments : List FragmentDef}

/-! ## Variable definitions -/

/-- The variable is fine after these ones. -/
structure VariableOk (S : Schema) (before : List VarDef) (d : VarDef) : Prop where
  unique : d.name ∉ before.map (·.name)
  type : ∃ k, S.kind (baseName d.type) = some k ∧ k.isInput = true
  default : ∀ l, d.default = some l → Unique l ∧ Fits S (some (declared before)) false l d.type

/-- The variables used in its default. -/
def defaultUses (S : Schema) (d : VarDef) : Set Str := {v | ∃ l, d.default = some l ∧ Mentions S l d.type v}

/-- The state after the definitions `ds`, from `st0`. -/
structure Decl (st0 : State) (ds : List VarDef) (U : Set Str) (st : State) : Prop where
  frame : st = { st0 with
    errors := []
    operationVariables := some (declared ds)
    variableDefinitions := st.variableDefinitions
    referencedVariables := st.referencedVariables }
  defs : ∀ v, v ∈ st.variableDefinitions ↔ v ∈ ds.map (·.name)
  refs : ∀ v, v ∈ st.referencedVariables ↔ v ∈ st0.referencedVariables ∨ v ∈ U

theorem Decl.errors {st0 : State} {ds : List VarDef} {U : Set Str} {st : State} (h : Decl st0 ds U st) : st.errors = [] := by
  rw [h.frame]
theorem Decl.vars {st0 : State} {ds : List VarDef} {U : Set Str} {st : State} (h : Decl st0 ds U st) :
    st.operationVariables = some (declared ds) := by
  rw [h.frame]

theorem findVariable_declared {ds : List VarDef} {name : Str} {a : Argument}
    (h : findVariable (declared ds) name = some a) : ∃ d ∈ ds, d.name = name ∧ a.type = d.type := by
  unfold findVariable declared at h
  simp only [Option.map_eq_some_iff] at h
  obtain ⟨e, he, rfl⟩ := h
  have h1 := List.mem_of_find?_eq_some he
  have h2 := List.find?_some he
  obtain ⟨d, hd, rfl⟩ := List.mem_map.mp h1
  exact ⟨d, hd, by simpa using h2, rfl⟩

theorem findVariable_isSome {ds : List VarDef} {name : Str} :
    (findVariable (declared ds) name).isSome = true ↔ name ∈ ds.map (·.name) := by
  unfold findVariable declared
  simp

theorem VarsOk.declared {ds : List VarDef} (h : ∀ d ∈ ds, ∃ k, S.kind (baseName d.type) = some k ∧ k.isInput = true) :
    VarsOk S (some (declared ds)) := by
  rintro vs ⟨⟩ name a ha
  obtain ⟨d, hd, _, ht⟩ := findVariable_declared ha
  rw [ht]
  exact h d hd

theorem variableType_iff {t : TypeRef} :
    variableType S t = some t ↔ ∃ k, S.kind (baseName t) = some k ∧ k.isInput = true := by
  unfold variableType
  cases h : S.kind (baseName t) with
  | none => simp
  | some k => simp

theorem variableType_cases (S : Schema) (t : TypeRef) :
    (variableType S t = some t ∧ ∃ k, S.kind (baseName t) = some k ∧ k.isInput = true) ∨
      (variableType S t = none ∧ ¬ ∃ k, S.kind (baseName t) = some k ∧ k.isInput = true) := by
  by_cases h : ∃ k, S.kind (baseName t) = some k ∧ k.isInput = true
  · exact .inl ⟨variableType_iff.mpr h, h⟩
  · refine .inr ⟨?_, h⟩
    have := mt variableType_iff.mp h
    unfold variableType at this ⊢
    split at this
    · exact absurd rfl this
    · rename_i hc; rw [if_neg hc]

theorem KnownType.of_kind {t : TypeRef} (h : ∃ k, S.kind (baseName t) = some k ∧ k.isInput = true) (hw : WellFormed t) :
    KnownType S t := by
  obtain ⟨k, hk, _⟩ := h
  refine ⟨?_, hw⟩
  unfold Schema.kind at hk
  cases hf : S.find (baseName t) with
  | none => simp [hf] at hk
  | some x => rfl

/-- What is kept of a variable. -/
def declaredArgument (d : VarDef) : Argument where
  type := d.type
  defaultValue := d.default.isSome
  nonNullDefaultValue := d.default.any fun l => !l.isNull

theorem declared_append (before : List VarDef) (d : VarDef) :
    declared (before ++ [d]) = declared before ++ [(d.name, declaredArgument d)] := by
  simp [declared, declaredArgument]

theorem Decl.add {st0 : State} {before : List VarDef} {U : Set Str} {st : State} {d : VarDef} (h : Decl st0 before U st)
    {st' : State} {V : Set Str} (hs : Step True V st st') :
    Decl st0 (before ++ [d]) (U ∪ V) { st' with
      variableDefinitions := st'.variableDefinitions.insert d.name
      operationVariables := some (declared before ++ [(d.name, declaredArgument d)]) } := by
  refine ⟨?_, ?_, ?_⟩
  · rw [declared_append]
    have h1 : st'.errors = [] := by rw [← hs.ok.mpr trivial]; exact h.errors
    have h2 := hs.frame
    rw [h.frame] at h2
    rw [h2]
    simp only [h1]
  · intro v
    simp only [List.mem_insert_iff, hs.variableDefinitions, h.defs, List.map_append, List.map_cons, List.map_nil,
      List.mem_append, List.mem_singleton]
    exact or_comm
  · intro v
    simp only [hs.refs trivial, h.refs, Set.mem_union, or_assoc]

theorem visitVariableDefinition_wide (opName : Str) (d : VarDef) (st : State) :
    ∃ new, (visitVariableDefinition S opName d st).errors = st.errors ++ new := by
  unfold visitVariableDefinition
  simp only
  split
  · exact ⟨[_], rfl⟩
  · split
    · exact ⟨[_], rfl⟩
    · split
      · exact ⟨[], by simp⟩
      · rename_i type _ _ default _
        have hq := validateInputValue_quiet S (visitValue default).2 false type (st.failAll (visitValue default).1)
        obtain ⟨n, hn⟩ := hq.errors
        have : (st.failAll (visitValue default).1).errors = st.errors ++ (visitValue default).1 := rfl
        rw [this, List.append_assoc] at hn
        split
        · rename_i st' hst
          rw [hst] at hn
          exact ⟨(visitValue default).1 ++ n ++ [_], by
            simp only at hn
            simp only [State.fail]
            rw [hn]
            simp only [List.append_assoc]
            rfl⟩
        · rename_i st' hst
          rw [hst] at hn
          exact ⟨_, hn⟩

theorem visitVariableDefinition_sound (hS : SchemaOk S) {st0 : State} {before : List VarDef} {U : Set Str} {st : State}
    {d : VarDef} (opName : Str) (h : Decl st0 before U st) (hv : VarsOk S (some (declared before))) (hw : WellFormed d.type) :
    ((visitVariableDefinition S opName d st).errors = [] → VariableOk S before d) ∧
    (VariableOk S before d → Decl st0 (before ++ [d]) (U ∪ defaultUses S d) (visitVariableDefinition S opName d st)) := by
  unfold visitVariableDefinition
  simp only [h.vars, Option.getD_some]
  by_cases hn : d.name ∈ before.map (·.name)
  · rw [if_pos (findVariable_isSome.mpr hn)]
    exact ⟨fun he => by simp [State.fail] at he, fun hok => absurd hn hok.unique⟩
  · rw [if_neg (by rw [findVariable_isSome]; exact hn)]
    rcases variableType_cases S d.type with ⟨ht, hk⟩ | ⟨ht, hk⟩
    · simp only [ht]
      cases hd : d.default with
      | none =>
        simp only
        refine ⟨fun _ => ⟨hn, hk, by rw [hd]; simp⟩, fun _ => ?_⟩
        have hu : defaultUses S d = ∅ := by ext v; simp [defaultUses, hd]
        have := h.add (d := d) (Step.refl st)
        rw [hu]
        have ha : declaredArgument d = { type := d.type } := by simp [declaredArgument, hd]
        rw [ha] at this
        exact this
      | some l =>
        simp only
        have hvv := visitValue_ok l
        by_cases huq : Unique l
        · have h1 := hvv.1.mpr huq
          rw [hvv.2 h1, h1]
          have hst : st.failAll [] = st := by simp [State.failAll]
          rw [hst]
          have hin := validateInputValue_input hS.empty hS.inputs l false d.type st (.of_kind hk hw) (by rw [h.vars]; exact hv)
          rw [show validateInputValue S false l d.type st = ((validateInputValue S false l d.type st).1,
            (validateInputValue S false l d.type st).2) from rfl]
          obtain ⟨hstep, hres⟩ := hin
          generalize (validateInputValue S false l d.type st).1 = st' at hstep
          generalize (validateInputValue S false l d.type st).2 = r at hres
          rw [h.vars] at hstep hres
          cases r with
          | false =>
            refine ⟨fun he => by simp [State.fail] at he, fun hok => ?_⟩
            have := hres.mpr (hok.default l hd).2
            cases this
          | true =>
            have hfits := hres.mp rfl
            simp only
            refine ⟨fun _ => ⟨hn, hk, by rw [hd]; rintro l' ⟨⟩; exact ⟨huq, hfits⟩⟩, fun _ => ?_⟩
            have hu : defaultUses S d = litVariables S (some (declared before)) l d.type := by
              ext v; simp [defaultUses, litVariables, hd]
            rw [hu]
            have := h.add (d := d) (hstep.congr (by simp [hfits]) fun _ => rfl : Step True _ _ _)
            have ha : declaredArgument d = { type := d.type, defaultValue := true, nonNullDefaultValue := !l.isNull } := by
              simp [declaredArgument, hd]
            rw [ha] at this
            exact this
        · refine ⟨fun he => ?_, fun hok => absurd (hok.default l hd).1 huq⟩
          exfalso
          have hq := validateInputValue_quiet S (visitValue l).2 false d.type (st.failAll (visitValue l).1)
          obtain ⟨n, hn'⟩ := hq.errors
          have hne : (visitValue l).1 ≠ [] := fun hc => huq (hvv.1.mp hc)
          have hnil : (validateInputValue S false (visitValue l).2 d.type (st.failAll (visitValue l).1)).1.errors ≠ [] := by
            rw [hn']
            simp [State.failAll, hne]
          revert he
          split
          · intro he; simp [State.fail] at he
          · rename_i st' hst
            rw [hst] at hnil
            exact hnil
    · simp only [ht]
      exact ⟨fun he => by simp [State.fail] at he, fun hok => absurd hok.type hk⟩

theorem visitVariableDefinitions_wide (opName : Str) (ds : List VarDef) (st : State) :
    ∃ new, (visitVariableDefinitions S opName ds st).errors = st.errors ++ new := by
  induction ds generalizing st with
  | nil => exact ⟨[], by simp [visitVariableDefinitions]⟩
  | cons d ds ih =>
    obtain ⟨n, hn⟩ := visitVariableDefinition_wide (S := S) opName d st
    obtain ⟨n', hn'⟩ := ih (visitVariableDefinition S opName d st)
    exact ⟨n ++ n', by rw [visitVariableDefinitions, hn', hn, List.append_assoc]⟩

/-- The variables `ds` are fine after `before`. -/
def VariablesFrom (S : Schema) (before ds : List VarDef) : Prop :=
  ∀ pre d post, ds = pre ++ d :: post → VariableOk S (before ++ pre) d

theorem VariablesFrom.cons {before ds : List VarDef} {d : VarDef} :
    VariablesFrom S before (d :: ds) ↔ VariableOk S before d ∧ VariablesFrom S (before ++ [d]) ds := by
  constructor
  · intro h
    refine ⟨by simpa using h [] d ds rfl, ?_⟩
    rintro pre e post rfl
    simpa using h (d :: pre) e post rfl
  · rintro ⟨h1, h2⟩ pre e post he
    cases pre with
    | nil => simp only [List.nil_append, List.cons.injEq] at he; obtain ⟨rfl, rfl⟩ := he; simpa using h1
    | cons a pre =>
      simp only [List.cons_append, List.cons.injEq] at he
      obtain ⟨rfl, rfl⟩ := he
      simpa using h2 pre e post rfl

theorem visitVariableDefinitions_sound (hS : SchemaOk S) {st0 : State} {before ds : List VarDef} {U : Set Str} {st : State}
    (opName : Str) (h : Decl st0 before U st) (hb : ∀ d ∈ before, ∃ k, S.kind (baseName d.type) = some k ∧ k.isInput = true)
    (hw : ∀ d ∈ ds, WellFormed d.type) :
    ((visitVariableDefinitions S opName ds st).errors = [] → VariablesFrom S before ds) ∧
    (VariablesFrom S before ds →
      Decl st0 (before ++ ds) (U ∪ defaultVariables S ds) (visitVariableDefinitions S opName ds st)) := by
  induction ds generalizing before U st with
  | nil =>
    refine ⟨fun _ pre d post he => by simp at he, fun _ => ?_⟩
    have : defaultVariables S [] = ∅ := by ext v; simp [defaultVariables]
    simpa [visitVariableDefinitions, this] using h
  | cons d ds ih =>
    have h1 := visitVariableDefinition_sound hS opName h (VarsOk.declared hb) (hw d (by simp))
    rw [VariablesFrom.cons, visitVariableDefinitions]
    have step : VariableOk S before d → _ := fun hok => ih (h1.2 hok) (by
      intro e he
      rcases List.mem_append.mp he with he | he
      · exact hb e he
      · rw [List.mem_singleton] at he; rw [he]; exact hok.type) (fun e he => hw e (List.mem_cons_of_mem _ he))
    constructor
    · intro he
      obtain ⟨n, hn⟩ := visitVariableDefinitions_wide (S := S) opName ds (visitVariableDefinition S opName d st)
      have he1 : (visitVariableDefinition S opName d st).errors = [] := by
        rw [hn] at he; exact (List.append_eq_nil_iff.mp he).1
      exact ⟨h1.1 he1, (step (h1.1 he1)).1 he⟩
    · rintro ⟨hok, hrest⟩
      have := (step hok).2 hrest
      have hu : U ∪ defaultUses S d ∪ defaultVariables S ds = U ∪ defaultVariables S (d :: ds) := by
        ext v; simp [defaultUses, defaultVariables, or_assoc]
      rw [hu, List.append_assoc] at this
      exact this

theorem variablesOk_iff {ds : List VarDef} : VariablesOk S ds ↔ VariablesFrom S [] ds := by
  constructor
  · intro h pre d post he
    rw [List.nil_append]
    refine ⟨?_, h.types d (by rw [he]; simp), h.defaults pre d post he⟩
    have := h.unique
    rw [he, List.map_append, List.map_cons, List.nodup_append] at this
    intro hc
    exact this.2.2 _ hc _ (List.mem_cons_self) rfl
  · intro h
    have hs : ∀ d ∈ ds, ∃ pre post, ds = pre ++ d :: post := fun d hd => List.append_of_mem hd
    refine ⟨?_, ?_, ?_⟩
    · induction ds using List.reverseRecOn with
      | nil => simp
      | append_singleton ds d ih =>
        rw [List.map_append, List.nodup_append]
        refine ⟨ih ?_ (fun e he => List.append_of_mem he), by simp, ?_⟩
        · rintro pre e post rfl
          exact h pre e (post ++ [d]) (by simp)
        · intro a ha b hb
          simp only [List.map_cons, List.map_nil, List.mem_singleton] at hb
          rintro rfl
          have := (h ds d [] rfl).unique
          rw [List.nil_append] at this
          exact this (hb ▸ ha)
    · intro d hd
      obtain ⟨pre, post, he⟩ := hs d hd
      exact (h pre d post he).type
    · intro pre d post he l hl
      have := (h pre d post he).default l hl
      rwa [List.nil_append] at this

/-! ## Operations -/

/-- The visitor between definitions, without errors; `used` are the fragments used so far. -/
structure Idle (used : Set Str) (st : State) : Prop where
  errors : st.errors = []
  cycles : st.fragmentCycles = []
  vars : st.operationVariables = none
  stack : st.fragmentStack = []
  fields : st.selectionFields = []
  defs : st.variableDefinitions = []
  refs : st.referencedVariables = []
  used : ∀ f, f ∈ st.referencedFragments ↔ f ∈ used

theorem Fuel.operation (fragments : List FragmentDef) : Fuel fragments fragments.length [] := ⟨by simp, by simp, by simp⟩

theorem Fuel.fragment {f : FragmentDef} (h : f ∈ fragments) : Fuel fragments fragments.length [f.name] :=
  ⟨by simp, by simpa using ⟨f, h, rfl⟩, by simp⟩

/-- Errors are only added. -/
def Grows (st st' : State) : Prop := ∃ new, st'.errors = st.errors ++ new

theorem Grows.trans {a b c : State} (h : Grows a b) (h' : Grows b c) : Grows a c := by
  obtain ⟨n, hn⟩ := h
  obtain ⟨n', hn'⟩ := h'
  exact ⟨n ++ n', by rw [hn', hn, List.append_assoc]⟩
theorem Grows.nil {a b : State} (h : Grows a b) (hb : b.errors = []) : a.errors = [] := by
  obtain ⟨n, hn⟩ := h
  rw [hn] at hb
  exact (List.append_eq_nil_iff.mp hb).1

theorem finishOperation_grows (type name : Str) (st : State) : Grows st (finishOperation type name st) := by
  unfold finishOperation Grows
  simp only
  split
  · exact ⟨[_] ++ _, by simp only [State.failAll, State.fail]; rw [List.append_assoc]⟩
  · exact ⟨_, rfl⟩

theorem visitRoot_grows (type name : Str) (sub : List Selection) (st : State) :
    Grows st (visitRoot S ov fragments type name sub st) := by
  unfold visitRoot
  split
  · exact ⟨[_], rfl⟩
  · rename_i object _
    exact .trans (visitSelection_wide S ov fragments fragments.length sub
      { st with scopedType := object, fieldCount := 0 }).errors (finishOperation_grows _ _ _)

theorem visitOperationDefinition_grows (op : Operation) (st : State) :
    Grows st (visitOperationDefinition S ov fragments op st) := by
  unfold visitOperationDefinition
  refine .trans ?_ (visitRoot_grows _ _ _ _)
  refine .trans ?_ (visitDirectives_quiet S _ op.directives _).errors
  exact visitVariableDefinitions_wide (S := S) (op.name.getD []) op.variables { st with operationVariables := some [] }

theorem visitFragmentDefinition_grows (f : FragmentDef) (st : State) :
    Grows st (visitFragmentDefinition S ov fragments f st) := by
  unfold visitFragmentDefinition
  refine .trans (visitDirectives_quiet S .fragmentDefinition f.directives st).errors ?_
  generalize visitDirectives S .fragmentDefinition f.directives st = st1
  simp only
  split
  · exact ⟨[_], rfl⟩
  · split
    · exact ⟨[_], rfl⟩
    · obtain ⟨n, hn⟩ := (visitSelection_wide S ov fragments fragments.length f.sub
        { st1 with fragmentStack := st1.fragmentStack.insert f.name, scopedType := f.typeCondition }).errors
      exact ⟨n, hn⟩

/-! ## Operations -/

/-- The end of an operation. -/
theorem finishOperation_nil (type name : Str) {st : State} (he : st.errors = []) :
    (finishOperation type name st).errors = [] ↔
      (type = str "subscription" → st.fieldCount ≤ 1) ∧ ∀ v ∈ st.variableDefinitions, v ∈ st.referencedVariables := by
  unfold finishOperation
  simp only
  by_cases hc : st.fieldCount > 1 ∧ type = str "subscription"
  · rw [if_pos (by simpa using hc)]
    simp only [State.failAll, State.fail, he]
    constructor
    · intro h; simp at h
    · intro h; have := h.1 hc.2; omega
  · rw [if_neg (by simpa using hc)]
    simp only [State.failAll, he, List.nil_append, List.map_eq_nil_iff, List.filter_eq_nil_iff]
    constructor
    · intro h
      refine ⟨fun ht => ?_, fun v hv => by simpa using h v hv⟩
      by_contra hn
      exact hc ⟨by omega, ht⟩
    · intro h v hv
      simpa using h.2 v hv

theorem finishOperation_idle {type name : Str} {st : State} {used : Set Str} (he : (finishOperation type name st).errors = [])
    (hc : st.fragmentCycles = []) (hu : ∀ f, f ∈ st.referencedFragments ↔ f ∈ used) :
    Idle used (finishOperation type name st) := by
  refine ⟨he, ?_, ?_, ?_, ?_, ?_, ?_, ?_⟩
  all_goals (unfold finishOperation; simp only)
  · split <;> exact hc
  · split <;> exact hu

theorem visitOperation_sound (hS : SchemaOk S) {used : Set Str} {st : State} (h : Idle used st) {op : Operation}
    (hw : ∀ d ∈ op.variables, WellFormed d.type) :
    ((visitOperationDefinition S ov fragments op st).errors = [] → ∃ new, OperationOk S ov fragments op new) ∧
    (∀ new, OperationOk S ov fragments op new →
      Idle (used ∪ new) (visitOperationDefinition S ov fragments op st)) := by
  unfold visitOperationDefinition
  have hdecl : Decl { st with operationVariables := some [] } [] ∅ { st with operationVariables := some [] } := by
    refine ⟨?_, ?_, by simp⟩
    · simp [declared, h.errors]
    · simp [h.defs]
  have hvs := visitVariableDefinitions_sound hS (op.name.getD []) (ds := op.variables) hdecl (by simp) hw
  rw [List.nil_append, Set.empty_union] at hvs
  simp only
  generalize visitVariableDefinitions S (op.name.getD []) op.variables { st with operationVariables := some [] } = st1 at hvs ⊢
  have hgrow1 := (visitDirectives_quiet S (operationLocation (op.type.getD (str "query"))) op.directives st1).errors
  -- what follows if the variables are fine
  have key : VariablesFrom S [] op.variables →
      ((visitRoot S ov fragments (op.type.getD (str "query")) (op.name.getD []) op.sub (visitDirectives S
          (operationLocation (op.type.getD (str "query"))) op.directives st1)).errors = [] →
        ∃ new, OperationOk S ov fragments op new) ∧
      (∀ new, OperationOk S ov fragments op new → Idle (used ∪ new) (visitRoot S ov fragments (op.type.getD (str "query"))
        (op.name.getD []) op.sub (visitDirectives S (operationLocation (op.type.getD (str "query"))) op.directives st1))) := by
    intro hvf
    have hd := hvs.2 hvf
    have hvok := variablesOk_iff.mpr hvf
    have hv : VarsOk S (some (declared op.variables)) := .declared hvok.types
    have hds := visitDirectives_step hS.empty hS.inputs hS.directives (operationLocation (op.type.getD (str "query")))
      op.directives st1 (by rw [hd.vars]; exact hv)
    rw [hd.vars] at hds
    generalize visitDirectives S (operationLocation (op.type.getD (str "query"))) op.directives st1 = st2 at hds
    have hframe2 := hds.frame
    rw [hd.frame] at hframe2
    -- the state in which the selections are visited
    have hat : DirectivesOk S (some (declared op.variables)) (operationLocation (op.type.getD (str "query"))) op.directives →
        ∀ object, At S (some (declared op.variables)) [] object [] { st2 with scopedType := object, fieldCount := 0 } := by
      intro hdok object
      have he2 : st2.errors = [] := hds.errors_nil.mpr ⟨hd.errors, hdok⟩
      refine ⟨he2, ?_, ?_, ?_, rfl, ?_, by simp⟩
      · rw [hframe2]; exact h.cycles
      · rw [hframe2]
      · rw [hframe2]; exact h.stack
      · rw [hframe2]; simp [h.fields]
    have hrefs : DirectivesOk S (some (declared op.variables)) (operationLocation (op.type.getD (str "query"))) op.directives →
        ∀ v, v ∈ st2.referencedVariables ↔ v ∈ defaultVariables S op.variables ∨
          v ∈ directiveVariables S (some (declared op.variables)) op.directives := by
      intro hdok v
      rw [hds.refs hdok, hd.refs]
      simp [h.refs]
    have hfrags : ∀ f, f ∈ st2.referencedFragments ↔ f ∈ used := by
      intro f; rw [hframe2]; exact h.used f
    have hdefs : ∀ v, v ∈ st2.variableDefinitions ↔ v ∈ op.variables.map (·.name) := by
      intro v; rw [hds.variableDefinitions]; exact hd.defs v
    unfold visitRoot
    cases ho : S.operationType (op.type.getD (str "query")) with
    | none =>
      refine ⟨fun he => by simp [State.fail] at he, fun new hok => ?_⟩
      obtain ⟨_, _, root, _, _, hr, _⟩ := hok
      rw [ho] at hr
      cases hr
    | some object =>
      simp only
      have hwide := visitSelection_wide S ov fragments fragments.length op.sub { st2 with scopedType := object, fieldCount := 0 }
      constructor
      · intro he
        have he3 := (finishOperation_grows _ _ _).nil he
        have he2 : st2.errors = [] := hwide.errors_nil he3
        have hdok := (hds.errors_nil.mp he2).2
        obtain ⟨fields, uses, hchk, hout⟩ := visitSelection_sound hS hv fragments.length op.sub _ _ _ _ (hat hdok object) he3
        have hfin := (finishOperation_nil _ _ he3).mp he
        have hcount := hout.count
        simp only [List.length_nil, Nat.add_zero, Nat.zero_add] at hcount
        rw [hcount] at hfin
        refine ⟨_, hvok, hdok, object, fields, uses, ho, hchk, hfin.1, ?_, rfl⟩
        intro d hdm
        have h1 := hfin.2 d.name (by
          rw [hwide.variableDefinitions]
          exact (hdefs d.name).mpr (List.mem_map.mpr ⟨d, hdm, rfl⟩))
        rw [hout.vars] at h1
        rcases h1 with h1 | h1
        · rcases (hrefs hdok _).mp h1 with h2 | h2
          · exact .inr h2
          · exact .inl (.inr h2)
        · exact .inl (.inl h1)
      · rintro new ⟨_, hdok, root, fields, uses, hr, hchk, hsub, hall, rfl⟩
        rw [ho] at hr
        cases hr
        have hout := visitSelection_complete hS hv hchk fragments.length _ (.operation fragments) (hat hdok object)
        have hcount := hout.count
        simp only [List.length_nil, Nat.add_zero, Nat.zero_add] at hcount
        refine finishOperation_idle ((finishOperation_nil _ _ hout.at_.errors).mpr ⟨by rw [hcount]; exact hsub, ?_⟩)
          hout.at_.cycles ?_
        · intro v hv
          rw [hwide.variableDefinitions] at hv
          obtain ⟨d, hdm, rfl⟩ := List.mem_map.mp ((hdefs v).mp hv)
          rw [hout.vars]
          rcases hall d hdm with (h1 | h1) | h1
          · exact .inr h1
          · exact .inl ((hrefs hdok _).mpr (.inr h1))
          · exact .inl ((hrefs hdok _).mpr (.inl h1))
        · intro f
          rw [hout.fragments, Set.mem_union]
          simp only
          rw [hfrags]
  constructor
  · intro he
    have he2 := (visitRoot_grows _ _ _ _).nil he
    have he1 : st1.errors = [] := Grows.nil hgrow1 he2
    exact (key (hvs.1 he1)).1 he
  · intro new hok
    exact (key (variablesOk_iff.mp hok.1)).2 new hok

/-! ## Fragments -/

theorem argumentVariables_none (defs : List InputValue) (given : Args) : argumentVariables S none defs given = ∅ := by
  ext v; simp [argumentVariables]
theorem directiveVariables_none (ds : Option (List Directive)) : directiveVariables S none ds = ∅ := by
  ext v; simp [directiveVariables, argumentVariables_none]

theorem checked_none {stack : List Str} {type : Str} {ss : List Selection} {before after : List (Str × Occurrence)} {uses : Uses}
    (h : Checked S ov fragments none stack type ss before after uses) : uses.vars = ∅ := by
  generalize hv : (none : Option VariableTypes) = vars at h
  induction h with
  | nil => rfl
  | leaf _ _ _ _ _ ih => subst hv; simp [Uses.and, directiveVariables_none, argumentVariables_none, ih]
  | node _ _ _ _ _ _ ih1 ih2 => subst hv; simp [Uses.and, directiveVariables_none, argumentVariables_none, ih1, ih2]
  | leafAgain _ _ _ _ ih => subst hv; simp [Uses.and, directiveVariables_none, ih]
  | nodeAgain _ _ _ _ ih => subst hv; simp [Uses.and, directiveVariables_none, ih]
  | spread _ _ _ _ _ _ _ ih1 ih2 => subst hv; simp [Uses.and, directiveVariables_none, ih1, ih2]
  | inline _ _ _ _ ih1 ih2 => subst hv; simp [Uses.and, directiveVariables_none, ih1, ih2]

theorem visitFragment_sound (hS : SchemaOk S) {used : Set Str} {st : State} (h : Idle used st) {f : FragmentDef}
    (hf : f ∈ fragments) :
    ((visitFragmentDefinition S ov fragments f st).errors = [] → ∃ new, FragmentOk S ov fragments f new) ∧
    (∀ new, FragmentOk S ov fragments f new → Idle (used ∪ new) (visitFragmentDefinition S ov fragments f st)) := by
  have hv : VarsOk S none := by rintro vs ⟨⟩
  have hds := visitDirectives_step hS.empty hS.inputs hS.directives .fragmentDefinition f.directives st (by rw [h.vars]; exact hv)
  rw [h.vars] at hds
  unfold visitFragmentDefinition
  simp only
  generalize visitDirectives S .fragmentDefinition f.directives st = st1 at hds
  have hframe := hds.frame
  by_cases hk : (S.find f.typeCondition).isNone = true
  · rw [if_pos hk]
    refine ⟨fun he => by simp [State.fail] at he, fun new hok => ?_⟩
    have := hok.2.1
    unfold Schema.isComposite Schema.kind at this
    cases hfnd : S.find f.typeCondition with
    | none => simp [hfnd] at this
    | some x => simp [hfnd] at hk
  · rw [if_neg hk]
    by_cases hc : S.isComposite f.typeCondition = true
    · rw [if_neg (by simp [hc])]
      have hat : DirectivesOk S none .fragmentDefinition f.directives →
          At S none [f.name] f.typeCondition [] { st1 with
            fragmentStack := st1.fragmentStack.insert f.name, scopedType := f.typeCondition } := by
        intro hdok
        refine ⟨hds.errors_nil.mpr ⟨h.errors, hdok⟩, ?_, ?_, ?_, rfl, ?_, by simp⟩
        · rw [hframe]; exact h.cycles
        · rw [hframe]; exact h.vars
        · simp only [hds.fragmentStack, h.stack]; rfl
        · rw [hframe]; simp [h.fields]
      have hfrags : ∀ g, g ∈ st1.referencedFragments ↔ g ∈ used := by
        intro g; rw [hframe]; exact h.used g
      have hwide := visitSelection_wide S ov fragments fragments.length f.sub { st1 with
            fragmentStack := st1.fragmentStack.insert f.name, scopedType := f.typeCondition }
      constructor
      · intro he
        have he1 : st1.errors = [] := hwide.errors_nil he
        have hdok := (hds.errors_nil.mp he1).2
        obtain ⟨fields, uses, hchk, hout⟩ := visitSelection_sound hS hv fragments.length f.sub _ _ _ _ (hat hdok) he
        exact ⟨_, hdok, hc, fields, uses, hchk, rfl⟩
      · rintro new ⟨hdok, _, fields, uses, hchk, rfl⟩
        have hout := visitSelection_complete hS hv hchk fragments.length _ (.fragment hf) (hat hdok)
        refine ⟨hout.at_.errors, hout.at_.cycles, hout.at_.vars, rfl, rfl, ?_, ?_, ?_⟩
        · simp only [hwide.variableDefinitions]; rw [hframe]; exact h.defs
        · have hnil : uses.vars = ∅ := checked_none hchk
          refine List.eq_nil_iff_forall_not_mem.mpr fun v hm => ?_
          simp only [hout.vars, hnil, Set.mem_empty_iff_false, or_false] at hm
          rw [hds.refs hdok, h.refs, directiveVariables_none] at hm
          simp at hm
        · intro g
          rw [Set.mem_union]
          simp only [hout.fragments, hfrags]
    · rw [if_pos (by simpa using hc)]
      exact ⟨fun he => by simp [State.fail] at he, fun new hok => absurd hok.2.1 hc⟩

end Verif.Validation
