import Verif.ClientText.Moves
import Verif.Validation.Model

/-!
# Validation does not depend on places
-/
namespace Verif.Validation
open Verif.Value Verif.Errors Verif.Ast

variable {f : Loc → Loc}

/-- The arguments of a field, in other places. -/
def SelectedField.relocate (f : Loc → Loc) (x : SelectedField) : SelectedField :=
  { x with arguments := Args.relocate f x.arguments }

/-- The state of the visitor, with the arguments in other places. -/
def State.relocate (f : Loc → Loc) (st : State) : State :=
  { st with selectionFields := st.selectionFields.map fun e => (e.1, e.2.relocate f) }

/-- What a check gives, with the state in other places. -/
def moved2 (f : Loc → Loc) (r : State × Bool) : State × Bool := (r.1.relocate f, r.2)

theorem fields_relocate (xs : List (Str × Lit)) : Lit.relocateFields f xs = Args.relocate f xs :=
  ClientText.relocateFields_eq f xs

theorem args_cons (n : Str) (x : Lit) (xs : List (Str × Lit)) :
    Args.relocate f ((n, x) :: xs) = (n, x.relocate f) :: Args.relocate f xs := rfl

theorem args_append (xs ys : List (Str × Lit)) :
    Args.relocate f (xs ++ ys) = Args.relocate f xs ++ Args.relocate f ys := List.map_append

theorem args_any (xs : List (Str × Lit)) (n : Str) :
    (Args.relocate f xs).any (fun e => e.1 == n) = xs.any (fun e => e.1 == n) := by
  unfold Args.relocate
  rw [List.any_map]; rfl

theorem args_names (xs : List (Str × Lit)) : (Args.relocate f xs).map (·.1) = xs.map (·.1) := by
  unfold Args.relocate
  rw [List.map_map]; rfl

theorem findValue_relocate (xs : List (Str × Lit)) (n : Str) :
    findValue (Args.relocate f xs) n = (findValue xs n).map (Lit.relocate f) := by
  unfold findValue Args.relocate
  rw [List.find?_map, Option.map_map, Option.map_map]
  rfl

theorem isNull_relocate (x : Lit) : (x.relocate f).isNull = x.isNull := by
  cases x <;> simp [Lit.relocate, Lit.isNull]

mutual
theorem visitValue_relocate : (x : Lit) → visitValue (x.relocate f) = ((visitValue x).1, (visitValue x).2.relocate f)
  | .list xs => by
    rw [Lit.relocate, visitValue, visitValue, visitValues_relocate xs]
    simp only [Lit.relocate]
  | .object xs => by
    have := visitMembers_relocate xs []
    rw [Lit.relocate, visitValue, visitValue, fields_relocate]
    rw [show ([] : List (Str × Lit)) = Args.relocate f [] from rfl, this]
    simp only [Lit.relocate, fields_relocate]
    rfl
  | .variable _ _ => by simp [Lit.relocate, visitValue]
  | .int _ => by simp [Lit.relocate, visitValue]
  | .float _ => by simp [Lit.relocate, visitValue]
  | .string _ => by simp [Lit.relocate, visitValue]
  | .boolean _ => by simp [Lit.relocate, visitValue]
  | .null => by simp [Lit.relocate, visitValue]
  | .enumValue _ => by simp [Lit.relocate, visitValue]
theorem visitValues_relocate : (xs : List Lit) →
    visitValues (Lit.relocateAll f xs) = ((visitValues xs).1, Lit.relocateAll f (visitValues xs).2)
  | [] => by simp [Lit.relocateAll, visitValues]
  | x :: xs => by
    rw [Lit.relocateAll, visitValues, visitValues, visitValue_relocate x, visitValues_relocate xs]
    simp only [Lit.relocateAll]
theorem visitMembers_relocate : (xs acc : List (Str × Lit)) →
    visitMembers (Args.relocate f xs) (Args.relocate f acc) = ((visitMembers xs acc).1, Args.relocate f (visitMembers xs acc).2)
  | [], acc => by simp [Args.relocate, visitMembers]
  | (n, x) :: xs, acc => by
    rw [args_cons, visitMembers, visitMembers, args_any]
    split
    · rw [visitMembers_relocate xs acc]
    · rw [visitValue_relocate x]
      have := visitMembers_relocate xs (acc ++ [(n, (visitValue x).2)])
      rw [args_append] at this
      dsimp only
      rw [show Args.relocate f [(n, (visitValue x).2)] = [(n, (visitValue x).2.relocate f)] from rfl] at this
      rw [this]
end

mutual
theorem sameValue_relocate {o : Int → Int} : (a b : Lit) → sameValue o (a.relocate f) (b.relocate f) = sameValue o a b
  | .list xs, b => by
    cases b <;> simp only [Lit.relocate, sameValue]
    exact sameList_relocate xs _
  | .object xs, b => by
    cases b <;> simp only [Lit.relocate, sameValue]
    rw [fields_relocate, fields_relocate, sameMembers_relocate xs _]
    simp [Args.relocate]
  | .variable _ _, b => by cases b <;> simp only [Lit.relocate, sameValue]
  | .int _, b => by cases b <;> simp only [Lit.relocate, sameValue]
  | .float _, b => by cases b <;> simp only [Lit.relocate, sameValue]
  | .string _, b => by cases b <;> simp only [Lit.relocate, sameValue]
  | .boolean _, b => by cases b <;> simp only [Lit.relocate, sameValue]
  | .null, b => by cases b <;> simp only [Lit.relocate, sameValue]
  | .enumValue _, b => by cases b <;> simp only [Lit.relocate, sameValue]
theorem sameList_relocate {o : Int → Int} : (as bs : List Lit) →
    sameList o (Lit.relocateAll f as) (Lit.relocateAll f bs) = sameList o as bs
  | [], [] => by simp only [Lit.relocateAll, sameList]
  | [], b :: bs => by simp only [Lit.relocateAll, sameList]
  | a :: as, [] => by simp only [Lit.relocateAll, sameList]
  | a :: as, b :: bs => by
    simp only [Lit.relocateAll, sameList]
    rw [sameValue_relocate a b, sameList_relocate as bs]
theorem sameMembers_relocate {o : Int → Int} : (as bs : List (Str × Lit)) →
    sameMembers o (Args.relocate f as) (Args.relocate f bs) = sameMembers o as bs
  | [], bs => by simp [Args.relocate, sameMembers]
  | (n, a) :: as, bs => by
    rw [args_cons, sameMembers, sameMembers, sameMembers_relocate as bs, findValue_relocate]
    cases h : findValue bs n with
    | none => rfl
    | some b =>
      simp only [Option.map_some]
      rw [sameValue_relocate a b]
end

theorem same_relocate {o : Int → Int} (a b : SelectedField) : (a.relocate f).same o (b.relocate f) = a.same o b := by
  unfold SelectedField.same sameArguments SelectedField.relocate
  dsimp only
  rw [sameMembers_relocate]
  simp [Args.relocate]

/-! ## Values -/

theorem scalarError_relocate (n : Str) (x : Lit) : scalarError n (x.relocate f) = scalarError n x := by
  cases x <;> simp only [Lit.relocate, scalarError]

theorem enumError_relocate (n : Str) (vs : List Str) (x : Lit) : enumError n vs (x.relocate f) = enumError n vs x := by
  cases x <;> simp only [Lit.relocate, enumError]

theorem check_relocate (st : State) (m : Option Str) : (st.relocate f).check m = moved2 f (st.check m) := by
  cases m <;> rfl

theorem validateNamed_relocate (S : Schema) (t : TypeRef) (x : Lit) (st : State) :
    validateNamed S t (x.relocate f) (st.relocate f) = moved2 f (validateNamed S t x st) := by
  unfold validateNamed
  cases t with
  | list => rfl
  | nonNull => rfl
  | named n =>
    dsimp only
    cases S.find n with
    | none => rfl
    | some t =>
      dsimp only
      cases t.kind <;> dsimp only
      · rw [scalarError_relocate, check_relocate]
      · rfl
      · rfl
      · rfl
      · rw [enumError_relocate, check_relocate]
      · split <;> rfl

theorem validateVariable_relocate (S : Schema) (b : Bool) (n : Str) (t : TypeRef) (st : State) :
    validateVariable S b n t (st.relocate f) = moved2 f (validateVariable S b n t st) := by
  unfold validateVariable
  rw [show (st.relocate f).operationVariables = st.operationVariables from rfl]
  cases st.operationVariables with
  | none => rfl
  | some vars =>
    dsimp only
    cases findVariable vars n with
    | none => rfl
    | some var =>
      dsimp only
      cases variableTypeError S (b || var.nonNullDefaultValue) var.type t <;> rfl

/-- A failure, or what comes next. -/
theorem moved2_match (r : State × Bool) (k k' : State → State × Bool) (h : ∀ st, k' (st.relocate f) = moved2 f (k st)) :
    (match moved2 f r with | (st, false) => (st, false) | (st, true) => k' st) =
      moved2 f (match r with | (st, false) => (st, false) | (st, true) => k st) := by
  obtain ⟨st, b⟩ := r
  cases b
  · rfl
  · exact h st

mutual
theorem validateInputValue_relocate (S : Schema) : (b : Bool) → (x : Lit) → (t : TypeRef) → (st : State) →
    validateInputValue S b (x.relocate f) t (st.relocate f) = moved2 f (validateInputValue S b x t st)
  | b, .variable p n, t, st => by
    simp only [Lit.relocate, validateInputValue]
    split
    · rfl
    · exact validateVariable_relocate S b n t st
  | b, .null, t, st => by
    simp only [Lit.relocate, validateInputValue]
    split
    · rfl
    · cases t <;> dsimp only <;> first | rfl | (split <;> rfl)
  | b, .list xs, t, st => by
    simp only [Lit.relocate, validateInputValue]
    split
    · rfl
    · cases unwrapNonNull S t with
      | none => rfl
      | some u =>
        cases u with
        | named n => simpa only [Lit.relocate] using validateNamed_relocate S (.named n) (.list xs) st
        | nonNull n => simpa only [Lit.relocate] using validateNamed_relocate S (.nonNull n) (.list xs) st
        | list of =>
          dsimp only
          split
          · rfl
          · exact validateList_relocate S xs of st
  | b, .object xs, t, st => by
    simp only [Lit.relocate, validateInputValue]
    split
    · rfl
    · cases unwrapNonNull S t with
      | none => rfl
      | some u =>
        cases u with
        | list n => simpa only [Lit.relocate] using validateNamed_relocate S (.list n) (.object xs) st
        | nonNull n => simpa only [Lit.relocate] using validateNamed_relocate S (.nonNull n) (.object xs) st
        | named n =>
          dsimp only
          cases S.find n with
          | none => rfl
          | some td =>
            dsimp only
            have other := validateNamed_relocate (f := f) S (.named n) (.object xs) st
            simp only [Lit.relocate] at other
            cases td.kind <;> dsimp only <;> try exact other
            split
            · rfl
            · rw [fields_relocate, args_names]
              have := validateMembers_relocate S n td.inputFields xs st
              rw [this]
              exact moved2_match _ _ _ fun st => check_relocate st _
  | b, .int _, t, st => by
    have := fun u => validateNamed_relocate (f := f) S u (.int ‹_›) st
    simp only [Lit.relocate] at this
    simp only [Lit.relocate, validateInputValue]
    split
    · rfl
    · cases unwrapNonNull S t with
      | none => rfl
      | some u => exact this u
  | b, .float _, t, st => by
    have := fun u => validateNamed_relocate (f := f) S u (.float ‹_›) st
    simp only [Lit.relocate] at this
    simp only [Lit.relocate, validateInputValue]
    split
    · rfl
    · cases unwrapNonNull S t with
      | none => rfl
      | some u => exact this u
  | b, .string _, t, st => by
    have := fun u => validateNamed_relocate (f := f) S u (.string ‹_›) st
    simp only [Lit.relocate] at this
    simp only [Lit.relocate, validateInputValue]
    split
    · rfl
    · cases unwrapNonNull S t with
      | none => rfl
      | some u => exact this u
  | b, .boolean v, t, st => by
    have := fun u => validateNamed_relocate (f := f) S u (.boolean v) st
    simp only [Lit.relocate] at this
    simp only [Lit.relocate, validateInputValue]
    split
    · rfl
    · cases unwrapNonNull S t with
      | none => rfl
      | some u => exact this u
  | b, .enumValue _, t, st => by
    have := fun u => validateNamed_relocate (f := f) S u (.enumValue ‹_›) st
    simp only [Lit.relocate] at this
    simp only [Lit.relocate, validateInputValue]
    split
    · rfl
    · cases unwrapNonNull S t with
      | none => rfl
      | some u => exact this u
theorem validateList_relocate (S : Schema) : (xs : List Lit) → (t : TypeRef) → (st : State) →
    validateList S (Lit.relocateAll f xs) t (st.relocate f) = moved2 f (validateList S xs t st)
  | [], t, st => by simp only [Lit.relocateAll, validateList]; rfl
  | x :: xs, t, st => by
    simp only [Lit.relocateAll, validateList]
    rw [validateInputValue_relocate S false x t st]
    exact moved2_match _ _ _ fun st => validateList_relocate S xs t st
theorem validateMembers_relocate (S : Schema) (type : Str) (fields : List InputValue) : (xs : List (Str × Lit)) → (st : State) →
    validateMembers S type fields (Args.relocate f xs) (st.relocate f) = moved2 f (validateMembers S type fields xs st)
  | [], st => by simp only [Args.relocate, List.map_nil, validateMembers]; rfl
  | (n, x) :: xs, st => by
    rw [args_cons, validateMembers, validateMembers]
    cases findArgument fields n with
    | none => rfl
    | some field =>
      dsimp only
      rw [isNull_relocate]
      split
      · rw [validateInputValue_relocate S field.nonNullDefaultValue x field.type st]
        exact moved2_match _ _ _ fun st => validateMembers_relocate S type fields xs st
      · exact validateMembers_relocate S type fields xs st
end

/-! ## Arguments and directives -/

theorem collectArguments_relocate (what : Str) (xs acc : List (Str × Lit)) :
    collectArguments what (Args.relocate f xs) (Args.relocate f acc) =
      ((collectArguments what xs acc).1, Args.relocate f (collectArguments what xs acc).2) := by
  induction xs generalizing acc with
  | nil => rfl
  | cons x xs ih =>
    obtain ⟨n, x⟩ := x
    rw [args_cons, collectArguments, collectArguments, args_any]
    split
    · rw [ih acc]
    · rw [visitValue_relocate x]
      have := ih (acc ++ [(n, (visitValue x).2)])
      rw [args_append, show Args.relocate f [(n, (visitValue x).2)] = [(n, (visitValue x).2.relocate f)] from rfl] at this
      dsimp only
      rw [this]

theorem undefinedArguments_relocate (what : Str) (defs : List InputValue) (xs : List (Str × Lit)) :
    undefinedArguments what defs (Args.relocate f xs) = undefinedArguments what defs xs := by
  unfold undefinedArguments Args.relocate
  rw [List.filterMap_map]
  rfl

theorem checkDefined_relocate (S : Schema) (what : Str) (defs : List InputValue) (given : List (Str × Lit)) (names : List Str)
    (st : State) :
    checkDefined S what defs (Args.relocate f given) names (st.relocate f) = (checkDefined S what defs given names st).relocate f := by
  induction names generalizing st with
  | nil => rfl
  | cons name names ih =>
    rw [checkDefined, checkDefined]
    cases findArgument defs name with
    | none => exact ih st
    | some argument =>
      dsimp only
      rw [findValue_relocate]
      cases findValue given name with
      | none =>
        dsimp only [Option.map_none]
        split
        · exact ih st
        · cases argument.type with
          | nonNull _ => exact ih (st.fail _)
          | _ => exact ih st
      | some value =>
        have inner : (match validateInputValue S argument.nonNullDefaultValue (value.relocate f) argument.type (st.relocate f) with
            | (st, true) => checkDefined S what defs (Args.relocate f given) names st
            | (st, false) => checkDefined S what defs (Args.relocate f given) names
                (st.fail (str "Incompatible argument " ++ what ++ str " name: " ++ name))) =
            (match validateInputValue S argument.nonNullDefaultValue value argument.type st with
            | (st, true) => checkDefined S what defs given names st
            | (st, false) => checkDefined S what defs given names
                (st.fail (str "Incompatible argument " ++ what ++ str " name: " ++ name))).relocate f := by
          rw [validateInputValue_relocate]
          obtain ⟨st', b⟩ := validateInputValue S argument.nonNullDefaultValue value argument.type st
          cases b
          · exact ih (st'.fail _)
          · exact ih st'
        cases value with
        | null =>
          simp only [Option.map_some, Lit.relocate]
          split
          · exact ih st
          · cases argument.type with
            | nonNull _ => exact ih (st.fail _)
            | _ => exact ih st
        | _ =>
          simp only [Option.map_some, Lit.relocate] at inner ⊢
          exact inner

theorem checkArguments_relocate (S : Schema) (what : Str) (defs : List InputValue) (given : List (Str × Lit)) (st : State) :
    checkArguments S what defs (Args.relocate f given) (st.relocate f) = (checkArguments S what defs given st).relocate f := by
  unfold checkArguments
  rw [undefinedArguments_relocate]
  exact checkDefined_relocate S what defs given _ (st.failAll _)

theorem visitDirectiveList_relocate (S : Schema) (location : Location) (ds : List Directive) (seen : List Str) (st : State) :
    visitDirectiveList S location (ds.map (Directive.relocate f)) seen (st.relocate f) =
      (visitDirectiveList S location ds seen st).relocate f := by
  induction ds generalizing seen st with
  | nil => rfl
  | cons d ds ih =>
    rw [List.map_cons, visitDirectiveList, visitDirectiveList, show (d.relocate f).name = d.name from rfl]
    split
    · exact ih seen (st.fail _)
    · dsimp only
      cases S.findDirective d.name with
      | none => exact ih (d.name :: seen) (st.fail _)
      | some def_ =>
        dsimp only
        split
        · exact ih (d.name :: seen) (st.fail _)
        · rw [show (d.relocate f).arguments = d.arguments.map (Args.relocate f) from rfl]
          cases d.arguments with
          | none => exact ih (d.name :: seen) st
          | some args =>
            dsimp only [Option.map_some]
            have := collectArguments_relocate (f := f) (str "directive: " ++ d.name) args []
            rw [show Args.relocate f [] = [] from rfl] at this
            rw [this]
            dsimp only
            rw [show (st.relocate f).failAll (collectArguments (str "directive: " ++ d.name) args []).1 =
              (st.failAll (collectArguments (str "directive: " ++ d.name) args []).1).relocate f from rfl,
              checkArguments_relocate]
            exact ih (d.name :: seen) _

theorem visitDirectives_relocate (S : Schema) (location : Location) (ds : Option (List Directive)) (st : State) :
    visitDirectives S location (ds.map (·.map (Directive.relocate f))) (st.relocate f) =
      (visitDirectives S location ds st).relocate f := by
  cases ds with
  | none => rfl
  | some ds => exact visitDirectiveList_relocate S location ds [] st

/-! ## Selections -/

theorem findSelected_relocate (xs : List (Str × SelectedField)) (key : Str) :
    findSelected (xs.map fun e => (e.1, e.2.relocate f)) key = (findSelected xs key).map (SelectedField.relocate f) := by
  unfold findSelected
  rw [List.find?_map, Option.map_map, Option.map_map]
  rfl

/-- What is done with selections, and with the same selections in other places. -/
def SameVisit (f : Loc → Loc) (k k' : State → State) : Prop := ∀ st, k' (st.relocate f) = (k st).relocate f

/-- The same for what is below a field. -/
inductive SameSub (f : Loc → Loc) : Option (State → State) → Option (State → State) → Prop where
  | none : SameSub f none none
  | some {k k'} : SameVisit f k k' → SameSub f (some k) (some k')

/-- What `visitFieldSub` does once the field has been noted. -/
def visitNoted (S : Schema) (def_ : FieldDef) (sub : Option (State → State)) (st : State) : State :=
  match sub with
  | none =>
    if S.isComposite (baseName def_.type) then st.fail (str "Missing fields on non-scalar type: " ++ baseName def_.type)
    else { st with fieldCount := st.fieldCount + 1 }
  | some sub =>
    let inside := sub { st with fieldCount := 0, selectionFields := [], scopedType := baseName def_.type }
    let after := { inside with
      scopedType := st.scopedType, selectionFields := st.selectionFields, fieldCount := st.fieldCount }
    if inside.fieldCount = 0 && S.isComposite (baseName def_.type) then
      after.fail (str "Missing fields on non-scalar type: " ++ baseName def_.type)
    else { after with fieldCount := after.fieldCount + 1 }

theorem visitFieldSub_noted (S : Schema) (key : Str) (def_ : FieldDef) (selected : SelectedField)
    (sub : Option (State → State)) (st : State) :
    visitFieldSub S key def_ selected sub st = visitNoted S def_ sub
      { st with selectionFields :=
          if (findSelected st.selectionFields key).isSome then st.selectionFields
          else st.selectionFields ++ [(key, selected)] } := by
  cases sub <;> rfl

theorem visitNoted_relocate (S : Schema) (def_ : FieldDef) {sub sub' : Option (State → State)}
    (h : SameSub f sub sub') (st1 : State) :
    visitNoted S def_ sub' (st1.relocate f) = (visitNoted S def_ sub st1).relocate f := by
  unfold visitNoted
  cases h with
  | none =>
    dsimp only
    split <;> rfl
  | @some k k' hk =>
    dsimp only
    have := hk { st1 with fieldCount := 0, selectionFields := [], scopedType := baseName def_.type }
    rw [show ({ st1.relocate f with fieldCount := 0, selectionFields := [], scopedType := baseName def_.type } : State) =
      ({ st1 with fieldCount := 0, selectionFields := [], scopedType := baseName def_.type } : State).relocate f from rfl, this]
    generalize k { st1 with fieldCount := 0, selectionFields := [], scopedType := baseName def_.type } = inside
    rw [show (inside.relocate f).fieldCount = inside.fieldCount from rfl]
    split <;> rfl

theorem visitFieldSub_relocate (S : Schema) (key : Str) (def_ : FieldDef) (selected : SelectedField) {sub sub' : Option (State → State)}
    (h : SameSub f sub sub') (st : State) :
    visitFieldSub S key def_ (selected.relocate f) sub' (st.relocate f) = (visitFieldSub S key def_ selected sub st).relocate f := by
  rw [visitFieldSub_noted, visitFieldSub_noted, ← visitNoted_relocate S def_ h]
  congr 1
  unfold State.relocate
  dsimp only
  rw [findSelected_relocate, Option.isSome_map]
  split <;> simp

theorem visitFieldBody_relocate (S : Schema) (key : Str) (def_ : FieldDef) (selected : SelectedField) {sub sub' : Option (State → State)}
    (h : SameSub f sub sub') (st : State) :
    visitFieldBody S key def_ (selected.relocate f) sub' (st.relocate f) = (visitFieldBody S key def_ selected sub st).relocate f := by
  unfold visitFieldBody
  rw [show (st.relocate f).scopedType = st.scopedType from rfl, show (selected.relocate f).fieldName = selected.fieldName from rfl,
    show (selected.relocate f).arguments = Args.relocate f selected.arguments from rfl, checkArguments_relocate,
    visitFieldSub_relocate S key def_ selected h]

theorem givenArguments_relocate (type : Str) (x : Field) :
    givenArguments type (x.relocate f) = ((givenArguments type x).1, Args.relocate f (givenArguments type x).2) := by
  unfold givenArguments
  rw [show (x.relocate f).arguments = x.arguments.map (Args.relocate f) from rfl, show (x.relocate f).name = x.name from rfl]
  cases x.arguments with
  | none => rfl
  | some args => exact collectArguments_relocate _ args []

theorem responseName_relocate (x : Field) : Exec.responseName (x.relocate f) = Exec.responseName x := rfl

theorem visitSelected_relocate (S : Schema) (o : Int → Int) (x : Field) (def_ : FieldDef) (selected : SelectedField)
    {sub sub' : Option (State → State)} (h : SameSub f sub sub') (st : State) :
    visitSelected S o (x.relocate f) def_ (selected.relocate f) sub' (st.relocate f) =
      (visitSelected S o x def_ selected sub st).relocate f := by
  unfold visitSelected
  rw [responseName_relocate, show (st.relocate f).selectionFields = st.selectionFields.map fun e => (e.1, e.2.relocate f) from rfl,
    findSelected_relocate]
  cases findSelected st.selectionFields (Exec.responseName x) with
  | none => exact visitFieldBody_relocate S _ def_ selected h st
  | some previous =>
    dsimp only [Option.map_some]
    rw [same_relocate]
    split
    · rfl
    · exact visitFieldBody_relocate S _ def_ selected h (st.fail _)

theorem visitField_relocate (S : Schema) (o : Int → Int) (x : Field) {sub sub' : Option (State → State)} (h : SameSub f sub sub')
    (st : State) :
    visitField S o (x.relocate f) sub' (st.relocate f) = (visitField S o x sub st).relocate f := by
  unfold visitField
  rw [show (x.relocate f).directives = x.directives.map (·.map (Directive.relocate f)) from rfl, visitDirectives_relocate]
  generalize visitDirectives S .field x.directives st = st1
  dsimp only
  rw [show (st1.relocate f).scopedType = st1.scopedType from rfl, show (x.relocate f).name = x.name from rfl]
  split
  · rfl
  · split
    · rfl
    · cases S.findField st1.scopedType x.name with
      | none => rfl
      | some def_ =>
        dsimp only
        split
        · rfl
        · rw [givenArguments_relocate]
          exact visitSelected_relocate S o x def_ ⟨def_.type, _, x.name, (givenArguments st1.scopedType x).2⟩ h (st1.failAll _)

theorem fragments_find (fragments : List FragmentDef) (name : Str) :
    (fragments.map (FragmentDef.relocate f)).find? (fun x => x.name == name) =
      (fragments.find? fun x => x.name == name).map (FragmentDef.relocate f) := by
  rw [List.find?_map]
  rfl

/-- The same for the selections of a fragment. -/
def SameEnter (f : Loc → Loc) (k k' : List Selection → State → State) : Prop :=
  ∀ sub, SameVisit f (k sub) (k' (Selection.relocateAll f sub))

theorem visitSpread_relocate (S : Schema) (fragments : List FragmentDef) {enter enter' : List Selection → State → State}
    (h : SameEnter f enter enter') (name : Str) (ds : Option (List Directive)) (st : State) :
    visitSpread S (fragments.map (FragmentDef.relocate f)) enter' name (ds.map (·.map (Directive.relocate f))) (st.relocate f) =
      (visitSpread S fragments enter name ds st).relocate f := by
  unfold visitSpread
  rw [visitDirectives_relocate, fragments_find]
  generalize visitDirectives S .fragmentSpread ds st = st1
  dsimp only
  cases fragments.find? (fun x => x.name == name) with
  | none => rfl
  | some fragment =>
    dsimp only [Option.map_some]
    have inside : enter' (fragment.relocate f).sub
        { st1.relocate f with
          fragmentStack := name :: (st1.relocate f).fragmentStack, scopedType := (fragment.relocate f).typeCondition } =
        (enter fragment.sub
          { st1 with fragmentStack := name :: st1.fragmentStack, scopedType := fragment.typeCondition }).relocate f :=
      h fragment.sub { st1 with fragmentStack := name :: st1.fragmentStack, scopedType := fragment.typeCondition }
    rw [inside]
    by_cases c : st1.fragmentStack.contains name = true
    · rw [if_pos c, if_pos (show (st1.relocate f).fragmentStack.contains name = true from c)]
      by_cases c' : st1.fragmentCycles.contains name = true
      · rw [if_pos c', if_pos (show (st1.relocate f).fragmentCycles.contains name = true from c')]
      · rw [if_neg c', if_neg (show ¬ (st1.relocate f).fragmentCycles.contains name = true from c')]
        rfl
    · rw [if_neg c, if_neg (show ¬ (st1.relocate f).fragmentStack.contains name = true from c)]
      by_cases c' : ((S.find fragment.typeCondition).isNone || !S.overlap st1.scopedType fragment.typeCondition) = true
      · rw [if_pos c', if_pos (show ((S.find (fragment.relocate f).typeCondition).isNone ||
          !S.overlap (st1.relocate f).scopedType (fragment.relocate f).typeCondition) = true from c')]
        rfl
      · rw [if_neg c', if_neg (show ¬ ((S.find (fragment.relocate f).typeCondition).isNone ||
          !S.overlap (st1.relocate f).scopedType (fragment.relocate f).typeCondition) = true from c')]
        rfl

theorem visitInline_relocate (S : Schema) (t : Option Str) (ds : Option (List Directive)) {k k' : State → State}
    (h : SameVisit f k k') (st : State) :
    visitInline S t (ds.map (·.map (Directive.relocate f))) k' (st.relocate f) = (visitInline S t ds k st).relocate f := by
  unfold visitInline
  rw [visitDirectives_relocate]
  generalize visitDirectives S .inlineFragment ds st = st1
  dsimp only
  rw [show (st1.relocate f).scopedType = st1.scopedType from rfl]
  split
  · rw [h]; rfl
  · split
    · rfl
    · split
      · rfl
      · split
        · rfl
        · have := h { st1 with scopedType := t.getD [] }
          rw [show ({ st1.relocate f with scopedType := t.getD [] } : State) =
            ({ st1 with scopedType := t.getD [] } : State).relocate f from rfl, this]
          rfl

mutual
theorem visitOne_relocate (S : Schema) (o : Int → Int) (fragments : List FragmentDef) {enter enter' : List Selection → State → State}
    (h : SameEnter f enter enter') : (x : Selection) → (st : State) →
    visitOne S o (fragments.map (FragmentDef.relocate f)) enter' (x.relocate f) (st.relocate f) =
      (visitOne S o fragments enter x st).relocate f
  | .leaf x, st => by
    simp only [Selection.relocate, visitOne]
    exact visitField_relocate S o x .none st
  | .node x p sub, st => by
    simp only [Selection.relocate, visitOne]
    exact visitField_relocate S o x (.some fun st => visitAll_relocate S o fragments h sub st) st
  | .spread p n ds, st => by
    simp only [Selection.relocate, visitOne]
    exact visitSpread_relocate S fragments h n ds st
  | .inline p t ds sub, st => by
    simp only [Selection.relocate, visitOne]
    exact visitInline_relocate S t ds (fun st => visitAll_relocate S o fragments h sub st) st
theorem visitAll_relocate (S : Schema) (o : Int → Int) (fragments : List FragmentDef) {enter enter' : List Selection → State → State}
    (h : SameEnter f enter enter') : (xs : List Selection) → (st : State) →
    visitAll S o (fragments.map (FragmentDef.relocate f)) enter' (Selection.relocateAll f xs) (st.relocate f) =
      (visitAll S o fragments enter xs st).relocate f
  | [], st => by simp only [Selection.relocateAll, visitAll]
  | x :: xs, st => by
    simp only [Selection.relocateAll, visitAll]
    rw [visitOne_relocate S o fragments h x st, visitAll_relocate S o fragments h xs]
end

theorem visitSelection_relocate (S : Schema) (o : Int → Int) (fragments : List FragmentDef) (depth : Nat) (xs : List Selection)
    (st : State) :
    visitSelection S o (fragments.map (FragmentDef.relocate f)) depth (Selection.relocateAll f xs) (st.relocate f) =
      (visitSelection S o fragments depth xs st).relocate f := by
  induction depth generalizing xs st with
  | zero => exact visitAll_relocate S o fragments (fun _ _ => rfl) xs st
  | succ depth ih => exact visitAll_relocate S o fragments (fun xs st => ih xs st) xs st

/-! ## Definitions -/

theorem visitFragmentDefinition_relocate (S : Schema) (o : Int → Int) (fragments : List FragmentDef) (x : FragmentDef) (st : State) :
    visitFragmentDefinition S o (fragments.map (FragmentDef.relocate f)) (x.relocate f) (st.relocate f) =
      (visitFragmentDefinition S o fragments x st).relocate f := by
  unfold visitFragmentDefinition
  rw [show (x.relocate f).directives = x.directives.map (·.map (Directive.relocate f)) from rfl, visitDirectives_relocate]
  generalize visitDirectives S .fragmentDefinition x.directives st = st1
  dsimp only
  rw [show (x.relocate f).typeCondition = x.typeCondition from rfl, show (x.relocate f).name = x.name from rfl, List.length_map]
  split
  · rfl
  · split
    · rfl
    · have := visitSelection_relocate (f := f) S o fragments fragments.length x.sub
        { st1 with fragmentStack := st1.fragmentStack.insert x.name, scopedType := x.typeCondition }
      rw [show ({ st1.relocate f with fragmentStack := (st1.relocate f).fragmentStack.insert x.name, scopedType := x.typeCondition } : State) =
        ({ st1 with fragmentStack := st1.fragmentStack.insert x.name, scopedType := x.typeCondition } : State).relocate f from rfl,
        show (x.relocate f).sub = Selection.relocateAll f x.sub from rfl, this]
      rfl

theorem visitVariableDefinition_relocate (S : Schema) (name : Str) (d : VarDef) (st : State) :
    visitVariableDefinition S name (d.relocate f) (st.relocate f) = (visitVariableDefinition S name d st).relocate f := by
  unfold visitVariableDefinition
  dsimp only
  rw [show (d.relocate f).name = d.name from rfl, show (d.relocate f).type = d.type from rfl,
    show (d.relocate f).default = d.default.map (Lit.relocate f) from rfl,
    show (st.relocate f).operationVariables = st.operationVariables from rfl]
  split
  · rfl
  · cases variableType S d.type with
    | none => rfl
    | some type =>
      dsimp only
      cases d.default with
      | none => rfl
      | some default =>
        dsimp only [Option.map_some]
        rw [visitValue_relocate]
        dsimp only
        rw [show (st.relocate f).failAll (visitValue default).1 = (st.failAll (visitValue default).1).relocate f from rfl,
          validateInputValue_relocate, isNull_relocate]
        obtain ⟨st', b⟩ := validateInputValue S false (visitValue default).2 type (st.failAll (visitValue default).1)
        cases b <;> rfl

theorem visitVariableDefinitions_relocate (S : Schema) (name : Str) (ds : List VarDef) (st : State) :
    visitVariableDefinitions S name (ds.map (VarDef.relocate f)) (st.relocate f) =
      (visitVariableDefinitions S name ds st).relocate f := by
  induction ds generalizing st with
  | nil => rfl
  | cons d ds ih =>
    rw [List.map_cons, visitVariableDefinitions, visitVariableDefinitions, visitVariableDefinition_relocate, ih]

theorem finishOperation_relocate (type name : Str) (st : State) :
    finishOperation type name (st.relocate f) = (finishOperation type name st).relocate f := by
  unfold finishOperation
  dsimp only
  rw [show (st.relocate f).fieldCount = st.fieldCount from rfl]
  split <;> rfl

theorem visitOperationDefinition_relocate (S : Schema) (o : Int → Int) (fragments : List FragmentDef) (op : Operation) (st : State) :
    visitOperationDefinition S o (fragments.map (FragmentDef.relocate f)) (op.relocate f) (st.relocate f) =
      (visitOperationDefinition S o fragments op st).relocate f := by
  unfold visitOperationDefinition visitRoot
  dsimp only
  rw [show (op.relocate f).type = op.type from rfl, show (op.relocate f).name = op.name from rfl,
    show (op.relocate f).directives = op.directives.map (·.map (Directive.relocate f)) from rfl,
    show (op.relocate f).variables = op.variables.map (VarDef.relocate f) from rfl,
    show ({ st.relocate f with operationVariables := some [] } : State) =
      ({ st with operationVariables := some [] } : State).relocate f from rfl, visitVariableDefinitions_relocate,
    visitDirectives_relocate]
  generalize visitDirectives S _ op.directives _ = st1
  cases S.operationType (op.type.getD (str "query")) with
  | none => rfl
  | some object =>
    dsimp only
    have := visitSelection_relocate (f := f) S o fragments fragments.length op.sub { st1 with scopedType := object, fieldCount := 0 }
    rw [List.length_map, show ({ st1.relocate f with scopedType := object, fieldCount := 0 } : State) =
      ({ st1 with scopedType := object, fieldCount := 0 } : State).relocate f from rfl,
      show (op.relocate f).sub = Selection.relocateAll f op.sub from rfl, this, finishOperation_relocate]

theorem visitDefinitions_relocate (S : Schema) (o : Int → Int) (fragments : List FragmentDef) (ds : List Definition) (st : State) :
    visitDefinitions S o (fragments.map (FragmentDef.relocate f)) (ds.map (Definition.relocate f)) (st.relocate f) =
      (visitDefinitions S o fragments ds st).relocate f := by
  induction ds generalizing st with
  | nil => rfl
  | cons d ds ih =>
    cases d with
    | operation op =>
      simp only [List.map_cons, Definition.relocate, visitDefinitions]
      rw [visitOperationDefinition_relocate, ih]
    | fragment x =>
      simp only [List.map_cons, Definition.relocate, visitDefinitions]
      rw [visitFragmentDefinition_relocate, ih]
    | other p =>
      simp only [List.map_cons, Definition.relocate, visitDefinitions]
      exact ih (st.fail _)

theorem operations_relocate (d : Document) : (d.relocate f).operations = d.operations.map (Operation.relocate f) := by
  unfold Document.operations Document.relocate
  dsimp only
  rw [List.filterMap_map, List.map_filterMap]
  congr 1
  funext x
  cases x <;> rfl

theorem fragments_relocate (d : Document) : (d.relocate f).fragments = d.fragments.map (FragmentDef.relocate f) := by
  unfold Document.fragments Document.relocate
  dsimp only
  rw [List.filterMap_map, List.map_filterMap]
  congr 1
  funext x
  cases x <;> rfl

/-- The errors of a document are those of the document in another place. -/
theorem validate_relocate (S : Schema) (o : Int → Int) (d : Document) : (validate S o (d.relocate f) {}).1 = (validate S o d {}).1 := by
  unfold validate getStructuredErrors visit
  dsimp only
  rw [operations_relocate, fragments_relocate]
  have h1 : (d.fragments.map (FragmentDef.relocate f)).map (·.name) = d.fragments.map (·.name) := by
    rw [List.map_map]; rfl
  have h2 : (d.operations.map (Operation.relocate f)).map operationName = d.operations.map operationName := by
    rw [List.map_map]; rfl
  have h3 : anonymousErrors (d.operations.map (Operation.relocate f)) = anonymousErrors d.operations := by
    unfold anonymousErrors; rw [h2]
  rw [h1, h2, h3]
  have key := fun st0 => visitDefinitions_relocate (f := f) S o d.fragments d.definitions st0
  rw [show (d.relocate f).definitions = d.definitions.map (Definition.relocate f) from rfl]
  have key0 := key ((({ } : State).failAll (duplicates "Duplicate fragment name: " (d.fragments.map (·.name)) [])).failAll
    (duplicates "Duplicate operation name: " (d.operations.map operationName) []) |>.failAll (anonymousErrors d.operations))
  rw [show State.relocate f ((({ } : State).failAll (duplicates "Duplicate fragment name: " (d.fragments.map (·.name)) [])).failAll
    (duplicates "Duplicate operation name: " (d.operations.map operationName) []) |>.failAll (anonymousErrors d.operations)) =
    ((({ } : State).failAll (duplicates "Duplicate fragment name: " (d.fragments.map (·.name)) [])).failAll
    (duplicates "Duplicate operation name: " (d.operations.map operationName) []) |>.failAll (anonymousErrors d.operations))
    from rfl] at key0
  rw [key0]
  rfl

end Verif.Validation
