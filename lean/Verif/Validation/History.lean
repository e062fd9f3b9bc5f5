import Verif.Validation.Accept

/-!
# One visitor for many documents (C20, C31)

`Request` keeps one visitor and uses it for every document (GraphQLService.cpp:1593-1637).
-/
namespace Verif.Validation
open Verif.Value Verif.Resp Verif.Errors Verif.Ast Spec

variable {S : Schema} {ov : Int → Int} {fragments : List FragmentDef}

/-! ## The number of fields counted before does not matter -/

/-- The same state with another number of fields. -/
def State.shift (k : Nat) (st : State) : State := { st with fieldCount := st.fieldCount + k }

/-- The visit does not depend on the number of fields counted before. -/
def Steady (f : State → State) : Prop := ∀ k st, f (st.shift k) = (f st).shift k

/-- The same for checks with a result. -/
def Steady2 (f : State → State × Bool) : Prop := ∀ k st, f (st.shift k) = ((f st).1.shift k, (f st).2)

theorem Steady.comp {f g : State → State} (hf : Steady f) (hg : Steady g) : Steady fun st => g (f st) :=
  fun k st => by simp only [hf k st, hg k]

theorem validateVariable_steady (d : Bool) (name : Str) (t : TypeRef) : Steady2 (validateVariable S d name t) := by
  intro k st
  unfold validateVariable
  have h : (st.shift k).operationVariables = st.operationVariables := rfl
  rw [h]
  cases st.operationVariables with
  | none => rfl
  | some vars =>
    simp only
    cases findVariable vars name with
    | none => rfl
    | some var =>
      simp only
      cases variableTypeError S (d || var.nonNullDefaultValue) var.type t <;> rfl

theorem check_steady (m : Option Str) : Steady2 fun st => st.check m := by
  intro k st
  cases m <;> rfl

theorem validateNamed_steady (t : TypeRef) (l : Lit) : Steady2 (validateNamed S t l) := by
  intro k st
  unfold validateNamed
  cases t with
  | list _ => rfl
  | nonNull _ => rfl
  | named name =>
    simp only
    cases S.find name with
    | none => rfl
    | some def_ =>
      simp only
      cases def_.kind with
      | inputObject => simp only; split <;> rfl
      | enum => exact check_steady _ k st
      | scalar => exact check_steady _ k st
      | _ => rfl

/-- The common case of `validateInputValue`. -/
theorem plain_steady (t : TypeRef) (l : Lit) : Steady2 fun st =>
    if (S.valid t).isNone then (st.fail (str "Unknown input type"), false)
    else
      match unwrapNonNull S t with
      | none => (st.fail (str "Unknown Non-Null type"), false)
      | some t => validateNamed S t l st := by
  intro k st
  simp only
  split
  · rfl
  · cases unwrapNonNull S t with
    | none => rfl
    | some t => exact validateNamed_steady t l k st

mutual
theorem validateInputValue_steady : (l : Lit) → ∀ (d : Bool) (t : TypeRef), Steady2 (validateInputValue S d l t)
  | .variable pos name, d, t => by
    intro k st
    simp only [validateInputValue]
    split
    · rfl
    · exact validateVariable_steady _ _ _ _ _
  | .null, d, t => by
    intro k st
    simp only [validateInputValue]
    split
    · rfl
    · cases t <;> simp only <;> try rfl
      split <;> rfl
  | .list values, d, t => by
    intro k st
    simp only [validateInputValue]
    split
    · rfl
    · cases unwrapNonNull S t with
      | none => rfl
      | some t =>
        cases t with
        | named name => exact validateNamed_steady _ _ _ _
        | nonNull _ => exact validateNamed_steady _ _ _ _
        | list of =>
          simp only
          split
          · rfl
          · exact validateList_steady values of k st
  | .object values, d, t => by
    intro k st
    simp only [validateInputValue]
    split
    · rfl
    · cases unwrapNonNull S t with
      | none => rfl
      | some t =>
        cases t with
        | nonNull _ => exact validateNamed_steady _ _ _ _
        | list _ => exact validateNamed_steady _ _ _ _
        | named name =>
          simp only
          cases S.find name with
          | none => rfl
          | some def_ =>
            simp only
            cases def_.kind with
            | inputObject =>
              simp only
              split
              · rfl
              · rw [validateMembers_steady name def_.inputFields values k st]
                rcases validateMembers S name def_.inputFields values st with ⟨st', b⟩
                cases b
                · rfl
                · exact check_steady _ k st'
            | enum => exact validateNamed_steady _ _ _ _
            | scalar => exact validateNamed_steady _ _ _ _
            | object => exact validateNamed_steady _ _ _ _
            | interface => exact validateNamed_steady _ _ _ _
            | union => exact validateNamed_steady _ _ _ _
  | .int n, d, t => by intro k st; simp only [validateInputValue]; exact plain_steady t _ k st
  | .float n, d, t => by intro k st; simp only [validateInputValue]; exact plain_steady t _ k st
  | .string n, d, t => by intro k st; simp only [validateInputValue]; exact plain_steady t _ k st
  | .boolean n, d, t => by intro k st; simp only [validateInputValue]; exact plain_steady t _ k st
  | .enumValue n, d, t => by intro k st; simp only [validateInputValue]; exact plain_steady t _ k st
theorem validateList_steady : (ls : List Lit) → ∀ t : TypeRef, Steady2 (validateList S ls t)
  | [], t => fun k st => rfl
  | l :: ls, t => by
    intro k st
    simp only [validateList]
    rw [validateInputValue_steady l false t k st]
    rcases validateInputValue S false l t st with ⟨st', b⟩
    cases b
    · rfl
    · exact validateList_steady ls t k st'
theorem validateMembers_steady (type : Str) (fields : List InputValue) : (ms : List (Str × Lit)) →
    Steady2 (validateMembers S type fields ms)
  | [] => fun k st => rfl
  | (name, l) :: ms => by
    intro k st
    simp only [validateMembers]
    cases findArgument fields name with
    | none => rfl
    | some field =>
      simp only
      split
      · rw [validateInputValue_steady l field.nonNullDefaultValue field.type k st]
        rcases validateInputValue S field.nonNullDefaultValue l field.type st with ⟨st', b⟩
        cases b
        · rfl
        · exact validateMembers_steady type fields ms k st'
      · exact validateMembers_steady type fields ms k st
end

theorem requiredFail_steady (a : Argument) (m : Str) : Steady (requiredFail a m) := by
  intro k st
  unfold requiredFail
  split
  · rfl
  · split <;> rfl

theorem checkDefined_steady (what : Str) (defs : List InputValue) (given : List (Str × Lit)) (names : List Str) :
    Steady (checkDefined S what defs given names) := by
  induction names with
  | nil => exact fun k st => rfl
  | cons name names ih =>
    intro k st
    cases ha : findArgument defs name with
    | none => simp only [checkDefined, ha]; exact ih k st
    | some a =>
      rw [checkDefined_cons _ _ _ _ _ _ _ a ha, checkDefined_cons _ _ _ _ _ _ _ a ha, ← ih]
      congr 1
      have hother : ∀ v, (match validateInputValue S a.nonNullDefaultValue v a.type (st.shift k) with
          | (st, true) => st
          | (st, false) => st.fail (str "Incompatible argument " ++ what ++ str " name: " ++ name)) =
          (match validateInputValue S a.nonNullDefaultValue v a.type st with
          | (st, true) => st
          | (st, false) => st.fail (str "Incompatible argument " ++ what ++ str " name: " ++ name)).shift k := by
        intro v
        rw [validateInputValue_steady v a.nonNullDefaultValue a.type k st]
        rcases validateInputValue S a.nonNullDefaultValue v a.type st with ⟨st', b⟩
        cases b <;> rfl
      cases findValue given name with
      | none => exact requiredFail_steady _ _ k st
      | some v =>
        cases v with
        | null => exact requiredFail_steady _ _ k st
        | _ => exact hother _

theorem failAll_steady (ms : List Str) : Steady fun st => st.failAll ms := fun _ _ => rfl

theorem checkArguments_steady (what : Str) (defs : List InputValue) (given : List (Str × Lit)) :
    Steady (checkArguments S what defs given) :=
  fun k st => checkDefined_steady what defs given _ k (st.failAll _)

theorem visitDirectiveList_steady (location : Location) (ds : List Directive) (seen : List Str) :
    Steady (visitDirectiveList S location ds seen) := by
  induction ds generalizing seen with
  | nil => exact fun k st => rfl
  | cons d ds ih =>
    intro k st
    simp only [visitDirectiveList]
    split
    · exact ih seen k (st.fail _)
    · cases S.findDirective d.name with
      | none => exact ih _ k (st.fail _)
      | some def_ =>
        simp only
        split
        · exact ih _ k (st.fail _)
        · cases d.arguments with
          | none => exact ih _ k st
          | some args =>
            simp only
            have := checkArguments_steady (S := S) (str "directive: " ++ d.name) def_.arguments
              (collectArguments (str "directive: " ++ d.name) args []).2 k
              (st.failAll (collectArguments (str "directive: " ++ d.name) args []).1)
            rw [← ih, ← this]
            rfl

theorem visitDirectives_steady (location : Location) (ds : Option (List Directive)) : Steady (visitDirectives S location ds) := by
  intro k st
  cases ds with
  | none => rfl
  | some ds => exact visitDirectiveList_steady location ds [] k st

theorem visitFieldSub_steady (key : Str) (def_ : FieldDef) (selected : SelectedField) (sub : Option (State → State)) :
    Steady (visitFieldSub S key def_ selected sub) := by
  intro k st
  unfold visitFieldSub
  have hkey : ∀ (c : Bool) (m : Str) (st : State),
      (if c then (st.shift k).fail m else { st.shift k with fieldCount := (st.shift k).fieldCount + 1 }) =
        State.shift k (if c then st.fail m else { st with fieldCount := st.fieldCount + 1 }) := by
    intro c m st
    cases c
    · simp only [Bool.false_eq_true, if_false, State.shift, Nat.add_right_comm]
    · rfl
  cases sub with
  | none =>
    exact hkey (S.isComposite (baseName def_.type)) _ { st with selectionFields :=
      if (findSelected st.selectionFields key).isSome then st.selectionFields
      else st.selectionFields ++ [(key, selected)] }
  | some g =>
    let fields := if (findSelected st.selectionFields key).isSome then st.selectionFields
      else st.selectionFields ++ [(key, selected)]
    let inside := g { st with selectionFields := [], fieldCount := 0, scopedType := baseName def_.type }
    exact hkey (inside.fieldCount = 0 && S.isComposite (baseName def_.type)) _ { inside with
      scopedType := st.scopedType, selectionFields := fields, fieldCount := st.fieldCount }

theorem visitFieldBody_steady (key : Str) (def_ : FieldDef) (selected : SelectedField) (sub : Option (State → State)) :
    Steady (visitFieldBody S key def_ selected sub) := by
  intro k st
  unfold visitFieldBody
  have : (st.shift k).scopedType = st.scopedType := rfl
  rw [this, checkArguments_steady, visitFieldSub_steady]

theorem visitSelected_steady (f : Field) (def_ : FieldDef) (selected : SelectedField) (sub : Option (State → State)) :
    Steady (visitSelected S ov f def_ selected sub) := by
  intro k st
  unfold visitSelected
  have : (st.shift k).selectionFields = st.selectionFields := rfl
  rw [this]
  cases findSelected st.selectionFields (Exec.responseName f) with
  | none => exact visitFieldBody_steady _ _ _ _ _ _
  | some previous =>
    simp only
    split
    · rfl
    · exact visitFieldBody_steady _ _ _ _ k (st.fail _)

theorem visitField_steady (f : Field) (sub : Option (State → State)) : Steady (visitField S ov f sub) := by
  intro k st
  unfold visitField
  rw [visitDirectives_steady]
  generalize visitDirectives S .field f.directives st = st1
  have : (st1.shift k).scopedType = st1.scopedType := rfl
  simp only [this]
  split
  · rfl
  · split
    · rfl
    · cases S.findField st1.scopedType f.name with
      | none => rfl
      | some def_ =>
        simp only
        split
        · rfl
        · exact visitSelected_steady f def_ _ sub k (st1.failAll _)

theorem visitSpread_steady {enter : List Selection → State → State} (henter : ∀ ss, Steady (enter ss)) (name : Str)
    (ds : Option (List Directive)) : Steady (visitSpread S fragments enter name ds) := by
  intro k st
  unfold visitSpread
  rw [visitDirectives_steady]
  generalize visitDirectives S .fragmentSpread ds st = st1
  simp only
  cases fragments.find? (fun f => f.name == name) with
  | none => rfl
  | some fragment =>
    simp only
    have h1 : (st1.shift k).fragmentStack = st1.fragmentStack := rfl
    have h2 : (st1.shift k).fragmentCycles = st1.fragmentCycles := rfl
    have h3 : (st1.shift k).scopedType = st1.scopedType := rfl
    rw [h1, h2, h3]
    split
    · split <;> rfl
    · split
      · rfl
      · have := henter fragment.sub k
          { st1 with fragmentStack := name :: st1.fragmentStack, scopedType := fragment.typeCondition }
        exact congrArg (fun inside : State => ({ inside with
          scopedType := st1.scopedType
          fragmentStack := inside.fragmentStack.erase name
          referencedFragments := inside.referencedFragments.insert name } : State)) this

theorem visitInline_steady (t : Option Str) (ds : Option (List Directive)) {visit : State → State} (hvisit : Steady visit) :
    Steady (visitInline S t ds visit) := by
  intro k st
  unfold visitInline
  rw [visitDirectives_steady]
  generalize visitDirectives S .inlineFragment ds st = st1
  simp only
  have h3 : (st1.shift k).scopedType = st1.scopedType := rfl
  rw [h3]
  split
  · rw [hvisit k st1]; rfl
  · split
    · rfl
    · split
      · rfl
      · split
        · rfl
        · exact congrArg (fun inside : State => ({ inside with scopedType := st1.scopedType } : State))
            (hvisit k { st1 with scopedType := t.getD [] })

mutual
theorem visitOne_steady {enter : List Selection → State → State} (henter : ∀ ss, Steady (enter ss)) :
    (s : Selection) → Steady (visitOne S ov fragments enter s)
  | .leaf f => fun k st => visitField_steady f none k st
  | .node f _ sub => fun k st => visitField_steady f _ k st
  | .spread _ name ds => fun k st => visitSpread_steady henter name ds k st
  | .inline _ t ds sub => fun k st => visitInline_steady t ds (visitAll_steady henter sub) k st
theorem visitAll_steady {enter : List Selection → State → State} (henter : ∀ ss, Steady (enter ss)) :
    (ss : List Selection) → Steady (visitAll S ov fragments enter ss)
  | [] => fun k st => rfl
  | s :: ss => fun k st => by
    simp only [visitAll]
    rw [visitOne_steady henter s k st, visitAll_steady henter ss k]
end

theorem visitSelection_steady (depth : Nat) (ss : List Selection) : Steady (visitSelection S ov fragments depth ss) := by
  induction depth generalizing ss with
  | zero => exact visitAll_steady (fun _ _ _ => rfl) ss
  | succ depth ih => exact visitAll_steady ih ss

/-! ## Termination -/

theorem visitVariableDefinition_exhausted (opName : Str) (d : VarDef) (st : State) :
    (visitVariableDefinition S opName d st).exhausted = st.exhausted ∧
    (visitVariableDefinition S opName d st).fragmentStack = st.fragmentStack := by
  unfold visitVariableDefinition
  simp only
  split
  · exact ⟨rfl, rfl⟩
  · split
    · exact ⟨rfl, rfl⟩
    · split
      · exact ⟨rfl, rfl⟩
      · rename_i type _ _ default _
        have hq := validateInputValue_quiet S (visitValue default).2 false type (st.failAll (visitValue default).1)
        have h1 := hq.exhausted
        have h2 := hq.fragmentStack
        split
        · rename_i hst
          rw [hst] at h1 h2
          exact ⟨h1, h2⟩
        · rename_i hst
          rw [hst] at h1 h2
          exact ⟨h1, h2⟩

theorem visitVariableDefinitions_exhausted (opName : Str) (ds : List VarDef) (st : State) :
    (visitVariableDefinitions S opName ds st).exhausted = st.exhausted ∧
    (visitVariableDefinitions S opName ds st).fragmentStack = st.fragmentStack := by
  induction ds generalizing st with
  | nil => exact ⟨rfl, rfl⟩
  | cons d ds ih =>
    have h1 := visitVariableDefinition_exhausted (S := S) opName d st
    have h2 := ih (visitVariableDefinition S opName d st)
    exact ⟨h2.1.trans h1.1, h2.2.trans h1.2⟩

theorem finishOperation_exhausted (type name : Str) (st : State) :
    (finishOperation type name st).exhausted = st.exhausted ∧ (finishOperation type name st).fragmentStack = [] := by
  unfold finishOperation
  refine ⟨?_, rfl⟩
  simp only
  split <;> rfl

theorem visitOperation_exhausted (op : Operation) (st : State) (h : st.fragmentStack = []) :
    (visitOperationDefinition S ov fragments op st).exhausted = st.exhausted ∧
    (visitOperationDefinition S ov fragments op st).fragmentStack = [] := by
  unfold visitOperationDefinition
  have h1 := visitVariableDefinitions_exhausted (S := S) (op.name.getD []) op.variables { st with operationVariables := some [] }
  simp only at h1 ⊢
  generalize visitVariableDefinitions S (op.name.getD []) op.variables { st with operationVariables := some [] } = st1 at h1
  have h2 := visitDirectives_quiet S (operationLocation (op.type.getD (str "query"))) op.directives st1
  generalize visitDirectives S (operationLocation (op.type.getD (str "query"))) op.directives st1 = st2 at h2
  have he : st2.exhausted = st.exhausted := h2.exhausted.trans h1.1
  have hs : st2.fragmentStack = [] := (h2.fragmentStack.trans h1.2).trans h
  unfold visitRoot
  split
  · exact ⟨he, hs⟩
  · rename_i object _
    have h3 := visitSelection_exhausted S ov fragments fragments.length op.sub { st2 with scopedType := object, fieldCount := 0 }
      (by simp only [hs]; exact .operation fragments)
    have h4 := finishOperation_exhausted (op.type.getD (str "query")) (op.name.getD []) (visitSelection S ov fragments
      fragments.length op.sub { st2 with scopedType := object, fieldCount := 0 })
    exact ⟨h4.1.trans (h3.trans he), h4.2⟩

theorem visitFragment_exhausted {f : FragmentDef} (hf : f ∈ fragments) (st : State) (h : st.fragmentStack = []) :
    (visitFragmentDefinition S ov fragments f st).exhausted = st.exhausted ∧
    (visitFragmentDefinition S ov fragments f st).fragmentStack = [] := by
  unfold visitFragmentDefinition
  have h2 := visitDirectives_quiet S .fragmentDefinition f.directives st
  simp only
  generalize visitDirectives S .fragmentDefinition f.directives st = st2 at h2
  have hs : st2.fragmentStack = [] := h2.fragmentStack.trans h
  split
  · exact ⟨h2.exhausted, hs⟩
  · split
    · exact ⟨h2.exhausted, hs⟩
    · have h3 := visitSelection_exhausted S ov fragments fragments.length f.sub
        { st2 with fragmentStack := st2.fragmentStack.insert f.name, scopedType := f.typeCondition }
        (by simp only [hs]; exact .fragment hf)
      exact ⟨h3.trans h2.exhausted, rfl⟩

theorem visitDefinitions_exhausted (ds : List Definition) (hf : ∀ f, .fragment f ∈ ds → f ∈ fragments) (st : State)
    (h : st.fragmentStack = []) :
    (visitDefinitions S ov fragments ds st).exhausted = st.exhausted ∧
    (visitDefinitions S ov fragments ds st).fragmentStack = [] := by
  induction ds generalizing st with
  | nil => exact ⟨rfl, h⟩
  | cons d ds ih =>
    have ih' := ih (fun f hm => hf f (List.mem_cons_of_mem _ hm))
    cases d with
    | operation op =>
      have h1 := visitOperation_exhausted (S := S) (ov := ov) (fragments := fragments) op st h
      have h2 := ih' _ h1.2
      exact ⟨h2.1.trans h1.1, h2.2⟩
    | fragment f =>
      have h1 := visitFragment_exhausted (S := S) (ov := ov) (hf f (by simp)) st h
      have h2 := ih' _ h1.2
      exact ⟨h2.1.trans h1.1, h2.2⟩
    | other pos => exact ih' (st.fail _) h

/-! ## The state after a document -/

/-- Only the number of fields differs. -/
def Eqv (a b : State) : Prop := ({ a with fieldCount := 0 } : State) = { b with fieldCount := 0 }

theorem Eqv.refl (a : State) : Eqv a a := rfl
theorem Eqv.trans {a b c : State} (h : Eqv a b) (h' : Eqv b c) : Eqv a c := Eq.trans h h'
theorem Eqv.shift (k : Nat) (a : State) : Eqv (a.shift k) a := rfl

theorem Steady.eqv {f : State → State} (hf : Steady f) {a b : State} (h : Eqv a b) : Eqv (f a) (f b) := by
  have h1 : ∀ s : State, Eqv (f s) (f { s with fieldCount := 0 }) := by
    intro s
    have hs : State.shift s.fieldCount { s with fieldCount := 0 } = s := by simp [State.shift]
    have := hf s.fieldCount { s with fieldCount := 0 }
    rw [hs] at this
    rw [this]
    exact .shift _ _
  have h2 : Eqv (f { a with fieldCount := 0 }) (f { b with fieldCount := 0 }) := by rw [h]; exact .refl _
  exact ((h1 a).trans h2).trans (h1 b).symm

theorem visitVariableDefinition_steady (opName : Str) (d : VarDef) : Steady (visitVariableDefinition S opName d) := by
  intro k st
  unfold visitVariableDefinition
  simp only
  rw [show (st.shift k).operationVariables = st.operationVariables from rfl]
  split
  · rfl
  · cases variableType S d.type with
    | none => rfl
    | some type =>
      simp only
      cases d.default with
      | none => rfl
      | some default =>
        simp only
        rw [show (st.shift k).failAll (visitValue default).1 = (st.failAll (visitValue default).1).shift k from rfl,
          validateInputValue_steady (visitValue default).2 false type k (st.failAll (visitValue default).1)]
        rcases validateInputValue S false (visitValue default).2 type (st.failAll (visitValue default).1) with ⟨st', b⟩
        cases b <;> rfl

theorem visitVariableDefinitions_steady (opName : Str) (ds : List VarDef) : Steady (visitVariableDefinitions S opName ds) := by
  induction ds with
  | nil => exact fun k st => rfl
  | cons d ds ih =>
    intro k st
    simp only [visitVariableDefinitions]
    rw [visitVariableDefinition_steady opName d k st, ih]

theorem visitOperation_eqv (op : Operation) {a b : State} (h : Eqv a b) :
    Eqv (visitOperationDefinition S ov fragments op a) (visitOperationDefinition S ov fragments op b) := by
  unfold visitOperationDefinition
  simp only
  have h0 : Eqv { a with operationVariables := some [] } { b with operationVariables := some [] } := by
    have : ({ ({ a with fieldCount := 0 } : State) with operationVariables := some [] } : State) =
      { ({ b with fieldCount := 0 } : State) with operationVariables := some [] } := by rw [h]
    exact this
  have h1 := (visitDirectives_steady (S := S) (operationLocation (op.type.getD (str "query"))) op.directives).eqv
    ((visitVariableDefinitions_steady (S := S) (op.name.getD []) op.variables).eqv h0)
  generalize visitDirectives S _ op.directives (visitVariableDefinitions S _ op.variables { a with operationVariables := some [] }) = a2 at h1
  generalize visitDirectives S _ op.directives (visitVariableDefinitions S _ op.variables { b with operationVariables := some [] }) = b2 at h1
  unfold visitRoot
  cases S.operationType (op.type.getD (str "query")) with
  | none =>
    have : Steady fun st => st.fail (str "Unsupported operation type: " ++ op.type.getD (str "query")) := fun _ _ => rfl
    exact this.eqv h1
  | some object =>
    simp only
    have : ({ a2 with scopedType := object, fieldCount := 0 } : State) = { b2 with scopedType := object, fieldCount := 0 } := by
      have : ({ ({ a2 with fieldCount := 0 } : State) with scopedType := object } : State) =
        { ({ b2 with fieldCount := 0 } : State) with scopedType := object } := by rw [h1]
      exact this
    rw [this]
    exact .refl _

theorem visitFragment_steady (f : FragmentDef) : Steady (visitFragmentDefinition S ov fragments f) := by
  intro k st
  unfold visitFragmentDefinition
  rw [visitDirectives_steady]
  generalize visitDirectives S .fragmentDefinition f.directives st = st1
  simp only
  split
  · rfl
  · split
    · rfl
    · exact congrArg (fun inside : State => ({ inside with scopedType := [], fragmentStack := [], selectionFields := [] } : State))
        (visitSelection_steady fragments.length f.sub k
          { st1 with fragmentStack := st1.fragmentStack.insert f.name, scopedType := f.typeCondition })

theorem visitDefinitions_eqv (ds : List Definition) {a b : State} (h : Eqv a b) :
    Eqv (visitDefinitions S ov fragments ds a) (visitDefinitions S ov fragments ds b) := by
  induction ds generalizing a b with
  | nil => exact h
  | cons d ds ih =>
    cases d with
    | operation op => exact ih (visitOperation_eqv op h)
    | fragment f => exact ih ((visitFragment_steady f).eqv h)
    | other pos =>
      have : Steady fun st => st.fail (str "Unexpected type definition") := fun _ _ => rfl
      exact ih (this.eqv h)

theorem Eqv.errors {a b : State} (h : Eqv a b) : a.errors = b.errors := by
  have := congrArg State.errors h
  exact this

theorem Eqv.referencedFragments {a b : State} (h : Eqv a b) : a.referencedFragments = b.referencedFragments := by
  have := congrArg State.referencedFragments h
  exact this

theorem visit_eqv (doc : Document) {a b : State} (h : Eqv a b) : Eqv (visit S ov doc a) (visit S ov doc b) := by
  unfold visit
  simp only
  have h1 := (failAll_steady (duplicates "Duplicate fragment name: " (doc.fragments.map (·.name)) [])).eqv h
  have h2 := (failAll_steady (duplicates "Duplicate operation name: " (doc.operations.map operationName) [])).eqv h1
  have h3 := (failAll_steady (anonymousErrors doc.operations)).eqv h2
  have h4 := visitDefinitions_eqv (S := S) (ov := ov) (fragments := doc.fragments) doc.definitions h3
  rw [h4.referencedFragments]
  exact (failAll_steady _).eqv h4

/-- Everything which is only used inside of one definition is reset. -/
structure Rest (st : State) : Prop where
  vars : st.operationVariables = none
  defs : st.variableDefinitions = []
  refs : st.referencedVariables = []
  stack : st.fragmentStack = []
  fields : st.selectionFields = []
  type : st.scopedType = []

theorem finishOperation_rest (type name : Str) (st : State) : Rest (finishOperation type name st) := by
  unfold finishOperation
  simp only
  split <;> exact ⟨rfl, rfl, rfl, rfl, rfl, rfl⟩

theorem visitOperation_rest {op : Operation} (hop : (S.operationType (op.type.getD (str "query"))).isSome) (st : State) :
    Rest (visitOperationDefinition S ov fragments op st) := by
  unfold visitOperationDefinition visitRoot
  simp only
  cases h : S.operationType (op.type.getD (str "query")) with
  | none => rw [h] at hop; cases hop
  | some object => exact finishOperation_rest _ _ _

theorem visitFragment_rest {f : FragmentDef} {st : State} (h : Rest st) :
    Rest (visitFragmentDefinition S ov fragments f st) := by
  unfold visitFragmentDefinition
  have hq := visitDirectives_quiet S .fragmentDefinition f.directives st
  simp only
  generalize visitDirectives S .fragmentDefinition f.directives st = st1 at hq
  have h1 : Rest st1 := ⟨hq.operationVariables.trans h.vars, hq.variableDefinitions.trans h.defs,
    (hq.noVariables h.vars).trans h.refs, hq.fragmentStack.trans h.stack, hq.selectionFields.trans h.fields,
    hq.scopedType.trans h.type⟩
  split
  · exact ⟨h1.vars, h1.defs, h1.refs, h1.stack, h1.fields, h1.type⟩
  · split
    · exact ⟨h1.vars, h1.defs, h1.refs, h1.stack, h1.fields, h1.type⟩
    · have hw := visitSelection_wide S ov fragments fragments.length f.sub
        { st1 with fragmentStack := st1.fragmentStack.insert f.name, scopedType := f.typeCondition }
      exact ⟨hw.operationVariables.trans h1.vars, hw.variableDefinitions.trans h1.defs, (hw.noVariables h1.vars).trans h1.refs,
        rfl, rfl, rfl⟩

/-- The schema has the root types of all the operations. -/
def Supported (S : Schema) (doc : Document) : Prop :=
  ∀ op ∈ doc.operations, (S.operationType (op.type.getD (str "query"))).isSome

theorem visitDefinitions_rest {ds : List Definition}
    (hs : ∀ op, .operation op ∈ ds → (S.operationType (op.type.getD (str "query"))).isSome) {st : State} (h : Rest st) :
    Rest (visitDefinitions S ov fragments ds st) := by
  induction ds generalizing st with
  | nil => exact h
  | cons d ds ih =>
    have ih' := fun {st : State} (h : Rest st) => ih (fun op hm => hs op (List.mem_cons_of_mem _ hm)) h
    cases d with
    | operation op => exact ih' (visitOperation_rest (hs op (by simp)) st)
    | fragment f => exact ih' (visitFragment_rest h)
    | other pos => exact ih' ⟨h.vars, h.defs, h.refs, h.stack, h.fields, h.type⟩

theorem validate_ready {doc : Document} (hs : Supported S doc) {st : State} (h : Eqv st {}) :
    Eqv (validate S ov doc st).2 {} := by
  have hr : Rest st := by
    have h' : st = { ({} : State) with fieldCount := st.fieldCount } := by
      have := h
      unfold Eqv at this
      cases st
      simp only [State.mk.injEq] at this ⊢
      simp [this]
    rw [h']
    exact ⟨rfl, rfl, rfl, rfl, rfl, rfl⟩
  have hst : st.exhausted = false := by
    have := congrArg State.exhausted h
    exact this
  unfold validate getStructuredErrors visit
  have h1 : Rest (((st.failAll (duplicates "Duplicate fragment name: " (doc.fragments.map (·.name)) [])).failAll
      (duplicates "Duplicate operation name: " (doc.operations.map operationName) [])).failAll (anonymousErrors doc.operations)) :=
    ⟨hr.vars, hr.defs, hr.refs, hr.stack, hr.fields, hr.type⟩
  have h2 := visitDefinitions_rest (S := S) (ov := ov) (fragments := doc.fragments) (ds := doc.definitions)
    (fun op hop => hs op (mem_operations.mpr hop)) h1
  have h3 := visitDefinitions_exhausted (S := S) (ov := ov) (fragments := doc.fragments) doc.definitions
    (fun f hf => mem_fragments.mpr hf) _ h1.stack
  have h4 := h3.1.trans (show _ = false from hst)
  simp only
  generalize visitDefinitions S ov doc.fragments doc.definitions _ = st2 at h2 h4
  obtain ⟨a, b, c, d, e, f⟩ := h2
  unfold Eqv State.failAll
  simp only [a, b, c, d, e, f, h4]

/-- The visitor after these documents. -/
def visitorAfter (S : Schema) (ov : Int → Int) (documents : List Document) : State :=
  documents.foldl (fun st doc => (validate S ov doc st).2) {}

theorem visitorAfter_ready {documents : List Document} (hs : ∀ doc ∈ documents, Supported S doc) :
    Eqv (visitorAfter S ov documents) {} := by
  unfold visitorAfter
  have : ∀ st : State, Eqv st {} → Eqv (documents.foldl (fun st doc => (validate S ov doc st).2) st) {} := by
    induction documents with
    | nil => exact fun st h => h
    | cons d ds ih =>
      intro st h
      exact ih (fun doc hm => hs doc (List.mem_cons_of_mem _ hm)) _ (validate_ready (hs d (by simp)) h)
  exact this _ (.refl _)

/-- **C31** The errors reported for a document do not depend on the documents which were validated before, whether these
were valid or not, as long as the schema has the root types of their operations. -/
theorem C31_errors_independent_of_history {documents : List Document} (hs : ∀ doc ∈ documents, Supported S doc)
    (doc : Document) :
    (validate S ov doc (visitorAfter S ov documents)).1 = (validate S ov doc {}).1 :=
  (visit_eqv doc (visitorAfter_ready hs)).errors

/-- **C20** The validation of a document ends: the recursion never goes deeper than the number of fragments, whatever
was validated before. -/
theorem C20_validation_terminates (documents : List Document) (doc : Document) :
    (validate S ov doc (visitorAfter S ov documents)).2.exhausted = false ∧
    (visit S ov doc (visitorAfter S ov documents)).exhausted = false := by
  have hone : ∀ (doc : Document) (st : State), st.fragmentStack = [] → st.exhausted = false →
      (visit S ov doc st).exhausted = false ∧ (visit S ov doc st).fragmentStack = [] := by
    intro doc st h1 h2
    have := visitDefinitions_exhausted (S := S) (ov := ov) (fragments := doc.fragments) doc.definitions
      (fun f hf => mem_fragments.mpr hf) (((st.failAll (duplicates "Duplicate fragment name: " (doc.fragments.map (·.name)) [])).failAll
      (duplicates "Duplicate operation name: " (doc.operations.map operationName) [])).failAll (anonymousErrors doc.operations)) h1
    exact ⟨this.1.trans h2, this.2⟩
  have hall : ∀ st : State, st.fragmentStack = [] → st.exhausted = false →
      (documents.foldl (fun st doc => (validate S ov doc st).2) st).fragmentStack = [] ∧
      (documents.foldl (fun st doc => (validate S ov doc st).2) st).exhausted = false := by
    induction documents with
    | nil => exact fun st h1 h2 => ⟨h1, h2⟩
    | cons d ds ih => exact fun st h1 h2 => ih _ (hone d st h1 h2).2 (hone d st h1 h2).1
  have h := hall {} rfl rfl
  have := (hone doc (visitorAfter S ov documents) h.1 h.2).1
  exact ⟨this, this⟩

end Verif.Validation
