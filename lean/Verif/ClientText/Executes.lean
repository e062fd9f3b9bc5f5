import Verif.ClientText.AnswerSpec
import Verif.ClientText.Validates

/-!
# Execution does not depend on places
-/
namespace Verif.ClientText
open Verif.Value Verif.Resp Verif.Errors Verif.Ast Verif.Exec Verif.Request

variable {f : Loc → Loc} {E O : Type}

theorem SameError.refl (e : SchemaError) : SameError e e := ⟨rfl, rfl⟩

theorem sameErrors_refl (es : List SchemaError) : List.Forall₂ SameError es es := List.forall₂_same.2 fun e _ => .refl e

theorem SameExn.refl : (e : Exn) → SameExn e e
  | .schema es => .schema (sameErrors_refl es)
  | .other w => .other w

theorem SameExn.one {e e' : SchemaError} (h : SameError e e') : SameExn (.schema [e]) (.schema [e']) :=
  .schema (.cons h .nil)

theorem ExceptRel.refl {α : Type} {R : α → α → Prop} (h : ∀ a, R a a) : (x : Except Exn α) → ExceptRel R x x
  | .ok a => .ok (h a)
  | .error e => .error (.refl e)

namespace RunRel
variable {α α' β β' : Type} {R : α → α' → Prop} {Q : β → β' → Prop}

theorem pure {a : α} {b : α'} (h : R a b) : RunRel (E := E) R (.pure a) (.pure b) := ⟨rfl, .ok h⟩

theorem throw {e e' : Exn} (h : SameExn e e') : RunRel (E := E) R (.throw e) (.throw e') := ⟨rfl, .error h⟩

theorem lift {x : Except Exn α} {y : Except Exn α'} (h : ExceptRel R x y) : RunRel (E := E) R (.lift x) (.lift y) := ⟨rfl, h⟩

theorem refl {R : α → α → Prop} (h : ∀ a, R a a) (x : Run E α) : RunRel R x x := ⟨rfl, .refl h _⟩

theorem bind {x : Run E α} {y : Run E α'} {k : α → Run E β} {k' : α' → Run E β'} (h : RunRel R x y)
    (hk : ∀ a b, R a b → RunRel Q (k a) (k' b)) : RunRel Q (x.bind k) (y.bind k') := by
  obtain ⟨t, r⟩ := x
  obtain ⟨t', r'⟩ := y
  obtain ⟨h1, h2⟩ := h
  cases h1
  cases h2 with
  | ok hr =>
    have := hk _ _ hr
    exact ⟨congrArg (t ++ ·) this.trace, this.result⟩
  | error he => exact ⟨rfl, .error he⟩

theorem handle {x : Run E α} {y : Run E α'} {k : Exn → α} {k' : Exn → α'} (h : RunRel R x y)
    (hk : ∀ e e', SameExn e e' → R (k e) (k' e')) : RunRel R (x.handle k) (y.handle k') := by
  obtain ⟨t, r⟩ := x
  obtain ⟨t', r'⟩ := y
  obtain ⟨h1, h2⟩ := h
  cases h1
  cases h2 with
  | ok hr => exact ⟨rfl, .ok hr⟩
  | error he => exact ⟨rfl, .ok (hk _ _ he)⟩

end RunRel

/-! ## Values and directives -/

mutual
theorem evalLit_relocate (env : Env) : (x : Lit) → ExceptRel Eq (evalLit env x) (evalLit env (x.relocate f))
  | .variable p n => by
    simp only [Lit.relocate, evalLit, visitVariable]
    cases env.variables.find n with
    | some v => exact .ok rfl
    | none => exact .error (.one ⟨rfl, rfl⟩)
  | .int _ | .float _ | .string _ | .boolean _ | .null | .enumValue _ => by
    simp only [Lit.relocate, evalLit]; exact .ok rfl
  | .list xs => by
    simp only [Lit.relocate, evalLit]
    have := evalList_relocate env xs []
    revert this
    generalize evalList env xs [] = a
    generalize evalList env (Lit.relocateAll f xs) [] = b
    rintro (⟨rfl⟩ | h)
    · exact .ok rfl
    · exact .error h
  | .object xs => by
    simp only [Lit.relocate, evalLit]
    have := evalFields_relocate env xs []
    revert this
    generalize evalArgs env xs [] = a
    generalize evalArgs env (Lit.relocateFields f xs) [] = b
    rintro (⟨rfl⟩ | h)
    · exact .ok rfl
    · exact .error h
theorem evalList_relocate (env : Env) : (xs : List Lit) → (acc : List Resp) →
    ExceptRel Eq (evalList env xs acc) (evalList env (Lit.relocateAll f xs) acc)
  | [], acc => by simp only [Lit.relocateAll, evalList]; exact .ok rfl
  | x :: xs, acc => by
    simp only [Lit.relocateAll, evalList]
    have := evalLit_relocate env x
    revert this
    generalize evalLit env x = a
    generalize evalLit env (x.relocate f) = b
    rintro (⟨rfl⟩ | h)
    · exact evalList_relocate env xs _
    · exact .error h
theorem evalFields_relocate (env : Env) : (xs : List (Str × Lit)) → (acc : Members) →
    ExceptRel Eq (evalArgs env xs acc) (evalArgs env (Lit.relocateFields f xs) acc)
  | [], acc => by simp only [Lit.relocateFields, evalArgs]; exact .ok rfl
  | (n, x) :: xs, acc => by
    simp only [Lit.relocateFields, evalArgs]
    have := evalLit_relocate env x
    revert this
    generalize evalLit env x = a
    generalize evalLit env (x.relocate f) = b
    rintro (⟨rfl⟩ | h)
    · exact evalFields_relocate env xs _
    · exact .error h
end

theorem evalOptArgs_relocate (env : Env) (args : Option Args) :
    ExceptRel Eq (evalOptArgs env args) (evalOptArgs env (args.map (Args.relocate f))) := by
  cases args with
  | none => exact .ok rfl
  | some args =>
    have := evalFields_relocate (f := f) env args []
    rw [relocateFields_eq] at this
    exact this

theorem visitDirectives_same (env : Env) (ds : List Directive) (acc : Members) :
    ExceptRel Eq (visitDirectives env ds acc) (visitDirectives env (ds.map (Directive.relocate f)) acc) := by
  induction ds generalizing acc with
  | nil => exact .ok rfl
  | cons d ds ih =>
    simp only [List.map_cons, visitDirectives]
    rw [show (d.relocate f).name = d.name from rfl, show (d.relocate f).arguments = d.arguments.map (Args.relocate f) from rfl]
    split
    · exact ih acc
    · have := evalOptArgs_relocate (f := f) env d.arguments
      revert this
      generalize evalOptArgs env d.arguments = a
      generalize evalOptArgs env (d.arguments.map (Args.relocate f)) = b
      rintro (⟨rfl⟩ | h)
      · exact ih _
      · exact .error h

theorem evalDirectives_relocate (env : Env) (ds : Option (List Directive)) :
    ExceptRel Eq (evalDirectives env ds) (evalDirectives env (ds.map (·.map (Directive.relocate f)))) := by
  cases ds with
  | none => exact .ok rfl
  | some ds => exact visitDirectives_same env ds []

/-! ## Results -/

/-- The same data, and the same errors apart from places. -/
structure SameResult (r r' : Result) : Prop where
  data : r.data = r'.data
  errors : List.Forall₂ SameError r.errors r'.errors

theorem SameResult.refl (r : Result) : SameResult r r := ⟨rfl, sameErrors_refl _⟩

/-- Two futures. -/
abbrev SameFut (x y : Fut E) : Prop := RunRel SameResult x y

/-- The same names, and futures for them. -/
structure SameSt (s s' : St E) : Prop where
  names : s.names = s'.names
  values : List.Forall₂ (fun a b => a.1 = b.1 ∧ SameFut a.2 b.2) s.values s'.values

/-- Two visitors which do the same. -/
def SameVisitor (v v' : SetVisitor E O) : Prop := ∀ o params st st', SameSt st st' → RunRel SameSt (v o params st) (v' o params st')

/-- Two parameters of a resolver. -/
structure SameParams (p p' : ResolverParams E O) : Prop where
  set : p.set = p'.set
  fieldName : p.fieldName = p'.fieldName
  selection : Option.Rel (fun a b => SameVisitor a.2 b.2) p.selection p'.selection

theorem SameParams.atIndex {p p' : ResolverParams E O} (h : SameParams p p') (i : Nat) : SameParams (p.atIndex i) (p'.atIndex i) := by
  refine ⟨?_, h.fieldName, h.selection⟩
  unfold ResolverParams.atIndex
  rw [h.set]

theorem append_same {a b c d : List SchemaError} (h : List.Forall₂ SameError a b) (h' : List.Forall₂ SameError c d) :
    List.Forall₂ SameError (a ++ c) (b ++ d) := List.rel_append h h'

theorem collectField_same (ms : Members) {errors errors' : List SchemaError} (name : Str) {x y : Except Exn Result}
    (he : List.Forall₂ SameError errors errors') (h : ExceptRel SameResult x y) :
    (collectField ms errors name x).1 = (collectField ms errors' name y).1 ∧
      List.Forall₂ SameError (collectField ms errors name x).2 (collectField ms errors' name y).2 := by
  cases h with
  | ok h =>
    simp only [collectField]
    exact ⟨by rw [h.data], append_same (append_same he (sameErrors_refl _)) h.errors⟩
  | error h =>
    cases h with
    | schema h => exact ⟨rfl, append_same he h⟩
    | other w => exact ⟨rfl, append_same he (sameErrors_refl _)⟩

theorem collectFields_same {vs vs' : List (Str × Fut E)} (h : List.Forall₂ (fun a b => a.1 = b.1 ∧ SameFut a.2 b.2) vs vs')
    (ms : Members) {errors errors' : List SchemaError} (he : List.Forall₂ SameError errors errors') :
    SameFut (collectFields vs ms errors) (collectFields vs' ms errors') := by
  induction h generalizing ms errors errors' with
  | nil => exact .pure ⟨rfl, he⟩
  | @cons a b l l' hab _ ih =>
    obtain ⟨n, x⟩ := a
    obtain ⟨n', y⟩ := b
    obtain ⟨hn, hx⟩ := hab
    cases hn
    simp only [collectFields]
    have h := collectField_same ms n he hx.result
    rw [hx.trace, h.1]
    exact .bind (.refl (R := fun _ _ => True) (fun _ => trivial) _) fun _ _ _ => ih _ h.2

theorem resolveObject_same (I : Impl E O) {v v' : SetVisitor E O} (h : SameVisitor v v') (o : O) (params : SetParams) :
    RunRel SameFut (resolveObject I v o params) (resolveObject I v' o params) := by
  unfold resolveObject
  refine .bind (R := fun _ _ => True) (.refl (fun _ => trivial) _) fun _ _ _ => ?_
  refine .bind (h o _ _ _ ⟨rfl, .nil⟩) fun st st' hst => ?_
  refine .bind (R := fun _ _ => True) (.refl (fun _ => trivial) _) fun _ _ _ => ?_
  exact .pure (collectFields_same hst.values [] .nil)

theorem blockSubFields_same {p p' : ResolverParams E O} (h : SameParams p p') :
    RunRel (fun _ _ => True) (blockSubFields p) (blockSubFields p') := by
  obtain ⟨h1, h2, h3⟩ := h
  unfold blockSubFields
  rw [h1, h2]
  revert h3
  generalize p.selection = a
  generalize p'.selection = b
  rintro (_ | _)
  · exact .throw (.one ⟨rfl, rfl⟩)
  · exact .pure trivial

theorem leafResult_same {p p' : ResolverParams E O} (h : SameParams p p') (x : Except Exn (Out O)) :
    SameResult (leafResult p x) (leafResult p' x) := by
  cases x with
  | ok x => cases x <;> exact .refl _
  | error e =>
    cases e with
    | schema es => exact .refl _
    | other w =>
      simp only [leafResult, h.set, h.fieldName]
      exact ⟨rfl, .cons ⟨rfl, rfl⟩ .nil⟩

theorem resolveLeaf_same {p p' : ResolverParams E O} (h : SameParams p p') (r : FieldResult E O) :
    RunRel SameFut (resolveLeaf p r) (resolveLeaf p' r) := by
  cases r with
  | value x => exact .pure (.pure (leafResult_same h _))
  | future later outcome => exact .pure ⟨rfl, .ok (leafResult_same h outcome)⟩

theorem objectResult_same (I : Impl E O) {p p' : ResolverParams E O} (h : SameParams p p') {v v' : SetVisitor E O} (hv : SameVisitor v v')
    (r : FieldResult E O) : SameFut (objectResult I p v r) (objectResult I p' v' r) := by
  unfold objectResult
  refine .bind (R := Eq) (.refl (fun _ => rfl) _) ?_
  rintro x _ rfl
  split
  · rw [h.set]
    exact .bind (resolveObject_same I hv _ _) fun _ _ h => h
  · exact .pure (.refl _)

theorem convertObject_same (I : Impl E O) (direct : Bool) {p p' : ResolverParams E O} (h : SameParams p p') (r : FieldResult E O) :
    RunRel SameFut (convertObject I direct p r) (convertObject I direct p' r) := by
  have h3 := h.selection
  unfold convertObject
  revert h3
  generalize p.selection = a
  generalize p'.selection = b
  rintro (@⟨⟨_, v⟩, ⟨_, v'⟩, hv⟩ | _)
  · dsimp only
    split
    · exact .bind (objectResult_same I h hv r) fun _ _ h => .pure (.pure h)
    · exact .pure (objectResult_same I h hv r)
  · refine .throw (.one ⟨?_, ?_⟩)
    · dsimp only; rw [h.fieldName]
    · dsimp only; rw [h.set]

theorem convertElements_same {c : ResolverParams E O → FieldResult E O → Run E (Fut E)}
    (hc : ∀ p p', SameParams p p' → ∀ r, RunRel SameFut (c p r) (c p' r)) {p p' : ResolverParams E O} (h : SameParams p p') (i : Nat)
    (xs : List (Out O)) : RunRel (List.Forall₂ SameFut) (convertElements c p i xs) (convertElements c p' i xs) := by
  induction xs generalizing i with
  | nil => exact .pure .nil
  | cons x xs ih =>
    simp only [convertElements]
    exact .bind (hc _ _ (h.atIndex i) _) fun _ _ h1 => .bind (ih (i + 1)) fun _ _ h2 => .pure (.cons h1 h2)

theorem collectElements_same {p p' : ResolverParams E O} (h : SameParams p p') {fs fs' : List (Fut E)} (hf : List.Forall₂ SameFut fs fs')
    (i : Nat) (data : List Resp) {errors errors' : List SchemaError} (he : List.Forall₂ SameError errors errors') :
    SameFut (collectElements p i fs data errors) (collectElements p' i fs' data errors') := by
  induction hf generalizing i data errors errors' with
  | nil => exact .pure ⟨rfl, he⟩
  | @cons x y l l' hx _ ih =>
    obtain ⟨t, r⟩ := x
    obtain ⟨t', r'⟩ := y
    obtain ⟨h1, h2⟩ := hx
    cases h1
    simp only [collectElements]
    cases h2 with
    | ok h2 =>
      dsimp only
      rw [h2.data]
      exact .bind (.refl (R := fun _ _ => True) (fun _ => trivial) _) fun _ _ _ => ih _ _ (append_same he h2.errors)
    | error h2 =>
      cases h2 with
      | schema h2 =>
        exact .bind (.refl (R := fun _ _ => True) (fun _ => trivial) _) fun _ _ _ => ih _ _ (append_same he h2)
      | other w =>
        refine .bind (.refl (R := fun _ _ => True) (fun _ => trivial) _) fun _ _ _ => ih _ _ (append_same he ?_)
        refine .cons ⟨?_, ?_⟩ .nil
        · dsimp only; rw [h.fieldName]
        · dsimp only; rw [(h.atIndex i).set]

theorem convert_same (I : Impl E O) (t : OutType) : ∀ {p p' : ResolverParams E O}, SameParams p p' → ∀ r : FieldResult E O,
    RunRel SameFut (convert I t p r) (convert I t p' r) := by
  induction t with
  | leaf => intro p p' h r; exact .bind (blockSubFields_same h) fun _ _ _ => resolveLeaf_same h r
  | enum => intro p p' h r; exact resolveLeaf_same h r
  | object direct => intro p p' h r; exact convertObject_same I direct h r
  | nullable t ih =>
    intro p p' h r
    simp only [convert]
    refine .pure (.bind (R := Eq) (.refl (fun _ => rfl) _) ?_)
    rintro x _ rfl
    split
    · exact .bind (ih h _) fun _ _ h => h
    · exact .pure (.refl _)
  | list t ih =>
    intro p p' h r
    simp only [convert]
    refine .pure (.bind (R := Eq) (.refl (fun _ => rfl) _) ?_)
    rintro x _ rfl
    exact .bind (convertElements_same (fun p p' h r => ih h r) h 0 _) fun _ _ hf => collectElements_same h hf 0 [] .nil

/-! ## Selections -/

theorem fieldException_same (pos pos' : Loc) (name : Str) (path : List Seg) {e e' : Exn} (h : SameExn e e') :
    SameExn (fieldException pos name path e) (fieldException pos' name path e') := by
  cases h with
  | other w => exact .one ⟨rfl, rfl⟩
  | schema h =>
    refine .schema ?_
    refine List.rel_map (R := SameError) ?_ h
    intro a b hab
    obtain ⟨m, l, q⟩ := a
    obtain ⟨m', l', q'⟩ := b
    obtain ⟨h1, h2⟩ := hab
    dsimp only at h1 h2
    subst h1 h2
    dsimp only
    split <;> split <;> split <;> simp_all [SameError]

theorem visitField_same (I : Impl E O) (env : Env) (x : Field) {sub sub' : Option (Loc × SetVisitor E O)}
    (h : Option.Rel (fun a b => SameVisitor a.2 b.2) sub sub') :
    SameVisitor (visitField I env x sub) (visitField I env (x.relocate f) sub') := by
  intro o params st st' hst
  obtain ⟨names, values⟩ := st
  obtain ⟨names', values'⟩ := st'
  obtain ⟨h1, h2⟩ := hst
  cases h1
  unfold visitField
  rw [Validation.responseName_relocate, show (x.relocate f).name = x.name from rfl, show (x.relocate f).pos = f x.pos from rfl,
    show (x.relocate f).arguments = x.arguments.map (Args.relocate f) from rfl,
    show (x.relocate f).directives = x.directives.map (·.map (Directive.relocate f)) from rfl]
  dsimp only
  split
  · exact .pure ⟨rfl, h2⟩
  · cases I.resolver o x.name with
    | none => exact .pure ⟨rfl, List.rel_append h2 (.cons ⟨rfl, .throw (.one ⟨rfl, rfl⟩)⟩ .nil)⟩
    | some resolver =>
      dsimp only
      refine .bind (.lift (evalDirectives_relocate env x.directives)) ?_
      rintro ds _ rfl
      refine .bind (R := Eq) (.refl (fun _ => rfl) _) ?_
      rintro skip _ rfl
      split
      · exact .pure ⟨rfl, h2⟩
      · refine .bind (.lift (evalOptArgs_relocate env x.arguments)) ?_
        rintro arguments _ rfl
        refine .bind (.handle (R := SameFut) (.bind (R := Eq) (.refl (fun _ => rfl) _) ?_) ?_) fun _ _ hf =>
          .pure ⟨rfl, List.rel_append h2 (.cons ⟨rfl, hf⟩ .nil)⟩
        · rintro r _ rfl
          refine convert_same I resolver.type ?_ r
          exact ⟨rfl, rfl, h⟩
        · intro e e' he
          exact .throw (fieldException_same _ _ _ _ he)

mutual
/-- The same selections in other places. -/
def XSelection.moved (f : Loc → Loc) : XSelection → XSelection
  | .leaf x => .leaf (x.relocate f)
  | .node x p sub => .node (x.relocate f) (f p) (XSelection.movedAll f sub)
  | .unknownSpread p n => .unknownSpread (f p) n
  | .spread i ds sub => .spread i (ds.map (·.map (Directive.relocate f))) (XSelection.movedAll f sub)
  | .inline t ds sub => .inline t (ds.map (·.map (Directive.relocate f))) (XSelection.movedAll f sub)
def XSelection.movedAll (f : Loc → Loc) : List XSelection → List XSelection
  | [] => []
  | x :: xs => XSelection.moved f x :: XSelection.movedAll f xs
end

mutual
theorem visit_same (I : Impl E O) (env : Env) : (x : XSelection) → SameVisitor (visit I env x) (visit I env (XSelection.moved f x))
  | .leaf x => by
    intro o params st st' h
    simp only [XSelection.moved, visit]
    exact visitField_same I env x .none o params st st' h
  | .node x p sub => by
    intro o params st st' h
    simp only [XSelection.moved, visit]
    exact visitField_same I env x (.some (visitAll_same I env sub)) o params st st' h
  | .unknownSpread p n => by
    intro o params st st' h
    simp only [XSelection.moved, visit]
    exact .throw (.one ⟨rfl, rfl⟩)
  | .spread i ds sub => by
    intro o params st st' h
    simp only [XSelection.moved, visit]
    split
    · exact .pure h
    · refine .bind (.lift (evalDirectives_relocate env ds)) ?_
      rintro ds _ rfl
      refine .bind (R := Eq) (.refl (fun _ => rfl) _) ?_
      rintro skip _ rfl
      split
      · exact .pure h
      · exact visitAll_same I env sub o _ st st' h
  | .inline t ds sub => by
    intro o params st st' h
    simp only [XSelection.moved, visit]
    refine .bind (.lift (evalDirectives_relocate env ds)) ?_
    rintro ds _ rfl
    refine .bind (R := Eq) (.refl (fun _ => rfl) _) ?_
    rintro skip _ rfl
    split
    · exact .pure h
    · split
      · exact visitAll_same I env sub o _ st st' h
      · exact .pure h
theorem visitAll_same (I : Impl E O) (env : Env) : (xs : List XSelection) →
    SameVisitor (visitAll I env xs) (visitAll I env (XSelection.movedAll f xs))
  | [] => by
    intro o params st st' h
    simp only [XSelection.movedAll, visitAll]
    exact .pure h
  | x :: xs => by
    intro o params st st' h
    simp only [XSelection.movedAll, visitAll]
    exact .bind (visit_same I env x o params st st' h) fun a b h => visitAll_same I env xs o params a b h
end

theorem execute_same (I : Impl E O) (env : Env) (o : O) (params : SetParams) (xs : List XSelection) :
    SameFut (execute I env o params xs) (execute I env o params (XSelection.movedAll f xs)) :=
  .bind (resolveObject_same I (visitAll_same I env xs) o params) fun _ _ h => h

/-! ## Fragments -/

/-- A fragment in another place. -/
def movedFragment (f : Loc → Loc) (x : Fragment) : Fragment := ⟨x.info, Selection.relocateAll f x.sub⟩

/-- Fragments in other places. -/
def movedMap (f : Loc → Loc) (m : FragmentMap) : FragmentMap := m.map fun e => (e.1, movedFragment f e.2)

theorem find_moved (m : FragmentMap) (n : Str) : (movedMap f m).find n = (m.find n).map (movedFragment f) := by
  unfold FragmentMap.find movedMap
  rw [List.find?_map, Option.map_map, Option.map_map]
  rfl

theorem emplace_moved (m : FragmentMap) (n : Str) (x : Fragment) :
    (movedMap f m).emplace n (movedFragment f x) = movedMap f (m.emplace n x) := by
  unfold FragmentMap.emplace
  rw [find_moved, Option.isSome_map]
  split
  · rfl
  · simp [movedMap]

theorem collectFragments_same (env : Env) (fs : List FragmentDef) (acc : FragmentMap) :
    ExceptRel (fun m m' => m' = movedMap f m) (collectFragments env fs acc)
      (collectFragments env (fs.map (FragmentDef.relocate f)) (movedMap f acc)) := by
  induction fs generalizing acc with
  | nil => exact .ok rfl
  | cons x fs ih =>
    simp only [List.map_cons, collectFragments, makeFragment]
    rw [show (x.relocate f).directives = x.directives.map (·.map (Directive.relocate f)) from rfl,
      show (x.relocate f).typeCondition = x.typeCondition from rfl, show (x.relocate f).name = x.name from rfl,
      show (x.relocate f).sub = Selection.relocateAll f x.sub from rfl]
    have := evalDirectives_relocate (f := f) env x.directives
    revert this
    generalize evalDirectives env x.directives = a
    generalize evalDirectives env (x.directives.map (·.map (Directive.relocate f))) = b
    rintro (@⟨ds, _, rfl⟩ | h)
    · dsimp only
      have := ih (acc.emplace x.name ⟨⟨x.typeCondition, ds⟩, x.sub⟩)
      rw [← emplace_moved] at this
      exact this
    · exact .error h

/-- What is found, in other places. -/
def movedFound (f : Loc → Loc) (x : Option Found) : Option Found := x.map (·.map fun e => (e.1, XSelection.movedAll f e.2))

mutual
theorem expandSel_moved {find find' : Str → Option Found} (h : ∀ n, find' n = movedFound f (find n)) : (x : Selection) →
    expandSel find' (x.relocate f) = (expandSel find x).map (XSelection.moved f)
  | .leaf x => by simp only [Selection.relocate, expandSel, Option.map_some, XSelection.moved]
  | .node x p sub => by
    simp only [Selection.relocate, expandSel]
    rw [expandAll_moved h sub]
    cases expandAll find sub with
    | none => rfl
    | some xs => simp only [Option.map_some, XSelection.moved]
  | .spread p n ds => by
    simp only [Selection.relocate, expandSel]
    rw [h]
    cases find n with
    | none => rfl
    | some x =>
      cases x with
      | none => simp only [movedFound, Option.map_some, Option.map_none, XSelection.moved]
      | some x => simp only [movedFound, Option.map_some, XSelection.moved]
  | .inline p t ds sub => by
    simp only [Selection.relocate, expandSel]
    rw [expandAll_moved h sub]
    cases expandAll find sub with
    | none => rfl
    | some xs => simp only [Option.map_some, XSelection.moved]
theorem expandAll_moved {find find' : Str → Option Found} (h : ∀ n, find' n = movedFound f (find n)) : (xs : List Selection) →
    expandAll find' (Selection.relocateAll f xs) = (expandAll find xs).map (XSelection.movedAll f)
  | [] => by simp only [Selection.relocateAll, expandAll, Option.map_some, XSelection.movedAll]
  | x :: xs => by
    simp only [Selection.relocateAll, expandAll]
    rw [expandSel_moved h x, expandAll_moved h xs]
    cases expandSel find x with
    | none => rfl
    | some y =>
      cases expandAll find xs with
      | none => rfl
      | some ys => simp only [Option.map_some, XSelection.movedAll]
end

theorem expandFragment_moved (m : FragmentMap) (depth : Nat) (n : Str) :
    expandFragment (movedMap f m) depth n = movedFound f (expandFragment m depth n) := by
  induction depth generalizing n with
  | zero =>
    simp only [expandFragment, find_moved]
    cases m.find n <;> rfl
  | succ depth ih =>
    simp only [expandFragment, find_moved]
    cases m.find n with
    | none => rfl
    | some x =>
      dsimp only [Option.map_some]
      rw [show (movedFragment f x).sub = Selection.relocateAll f x.sub from rfl, expandAll_moved ih]
      cases expandAll (expandFragment m depth) x.sub <;> rfl

theorem expand_moved (m : FragmentMap) (sub : List Selection) :
    expand (movedMap f m) (Selection.relocateAll f sub) = (expand m sub).map (XSelection.movedAll f) := by
  unfold expand
  rw [expandAll_moved (expandFragment_moved m _), movedMap, List.length_map]

/-! ## Operations -/

theorem findOperation_moved (name : Str) (ops : List Operation) :
    findOperation name (ops.map (Operation.relocate f)) = (findOperation name ops).map (Operation.relocate f) := by
  induction ops with
  | nil => rfl
  | cons op ops ih =>
    simp only [List.map_cons, findOperation]
    rw [show (op.relocate f).name = op.name from rfl, ih]
    split <;> rfl

theorem operationVariables_same (env : Env) (ds : List VarDef) (acc : Members) :
    ExceptRel Eq (operationVariables env ds acc) (operationVariables env (ds.map (VarDef.relocate f)) acc) := by
  induction ds generalizing acc with
  | nil => exact .ok rfl
  | cons d ds ih =>
    simp only [List.map_cons, operationVariables]
    rw [show (d.relocate f).name = d.name from rfl, show (d.relocate f).default = d.default.map (Lit.relocate f) from rfl]
    cases env.variables.find d.name with
    | some v => exact ih _
    | none =>
      cases d.default with
      | none => exact ih _
      | some l =>
        dsimp only [Option.map_some]
        have := evalLit_relocate (f := f) env l
        revert this
        generalize evalLit env l = a
        generalize evalLit env (l.relocate f) = b
        rintro (⟨rfl⟩ | h)
        · exact ih _
        · exact .error h

/-- Two operations ready to run. -/
structure SameReady (f : Loc → Loc) (r r' : Ready) : Prop where
  op : r'.op = r.op.relocate f
  fragments : r'.fragments = movedMap f r.fragments
  «variables» : r'.variables = r.variables
  directives : r'.directives = r.directives

theorem prepare_same (S : Service E O) (validated : Bool) (doc : Document) (name : Str) (supplied : Members)
    (hv : List.Forall₂ SameError (S.validate doc) (S.validate (doc.relocate f))) :
    ExceptRel (SameReady f) (prepare S validated doc name supplied) (prepare S validated (doc.relocate f) name supplied) := by
  unfold prepare
  dsimp only
  rw [Validation.fragments_relocate, Validation.operations_relocate]
  have := collectFragments_same (f := f) ⟨supplied, S.atoiOverflow⟩ doc.fragments []
  rw [show movedMap f [] = [] from rfl] at this
  revert this
  generalize collectFragments ⟨supplied, S.atoiOverflow⟩ doc.fragments [] = a
  generalize collectFragments ⟨supplied, S.atoiOverflow⟩ (doc.fragments.map (FragmentDef.relocate f)) [] = b
  rintro (@⟨m, _, rfl⟩ | h)
  swap
  · exact .error h
  dsimp only
  have hval : List.Forall₂ SameError (Request.validate S doc validated).1 (Request.validate S (doc.relocate f) validated).1 := by
    unfold Request.validate
    split
    · exact .nil
    · exact hv
  revert hval
  generalize Request.validate S doc validated = a
  generalize Request.validate S (doc.relocate f) validated = b
  obtain ⟨a, a'⟩ := a
  obtain ⟨b, b'⟩ := b
  intro hval
  dsimp only at hval
  cases hval with
  | cons h t => exact .error (.schema (.cons h t))
  | nil =>
    dsimp only
    rw [findOperation_moved]
    cases findOperation name doc.operations with
    | none => exact .error (.refl _)
    | some op =>
      dsimp only [Option.map_some]
      rw [show operationType (op.relocate f) = operationType op from rfl]
      split
      · exact .error (.one ⟨rfl, rfl⟩)
      · rw [show (op.relocate f).variables = op.variables.map (VarDef.relocate f) from rfl]
        have := operationVariables_same (f := f) ⟨supplied, S.atoiOverflow⟩ op.variables []
        revert this
        generalize operationVariables ⟨supplied, S.atoiOverflow⟩ op.variables [] = a
        generalize operationVariables ⟨supplied, S.atoiOverflow⟩ (op.variables.map (VarDef.relocate f)) [] = b
        rintro (@⟨vars, _, rfl⟩ | h)
        swap
        · exact .error h
        dsimp only
        rw [show (op.relocate f).directives = op.directives.map (·.map (Directive.relocate f)) from rfl]
        have := evalDirectives_relocate (f := f) ⟨vars, S.atoiOverflow⟩ op.directives
        revert this
        generalize evalDirectives ⟨vars, S.atoiOverflow⟩ op.directives = a
        generalize evalDirectives ⟨vars, S.atoiOverflow⟩ (op.directives.map (·.map (Directive.relocate f))) = b
        rintro (@⟨ds, _, rfl⟩ | h)
        · exact .ok ⟨rfl, rfl, rfl, rfl⟩
        · exact .error h

/-! ## The response -/

theorem errorWithoutPlaces_value (e : SchemaError) :
    errorWithoutPlaces (.map (addErrorPath e.path (addErrorLocation e.location (addErrorMessage e.message [])))) =
      .map (addErrorPath e.path (addErrorMessage e.message [])) := by
  have h1 : (str "message" : Str) ≠ str "locations" := by decide +kernel
  have h2 : (str "path" : Str) ≠ str "locations" := by decide +kernel
  have h3 : (str "message" : Str) ≠ str "path" := by decide +kernel
  unfold addErrorPath addErrorLocation addErrorMessage
  by_cases c : e.path.isEmpty = true <;> by_cases c' : (e.location.line == 0) = true <;>
    simp [c, c', Members.emplace, errorWithoutPlaces, h1, h2, h3, h2.symm]

theorem errorsWithoutPlaces_same {es es' : List SchemaError} (h : List.Forall₂ SameError es es') :
    errorsWithoutPlaces (buildErrorValues es) = errorsWithoutPlaces (buildErrorValues es') := by
  unfold buildErrorValues errorsWithoutPlaces
  dsimp only
  congr 1
  induction h with
  | nil => rfl
  | cons h _ ih =>
    simp only [List.map_cons]
    rw [ih, errorWithoutPlaces_value, errorWithoutPlaces_value, h.1, h.2]

theorem errorDocument_same {es es' : List SchemaError} (h : List.Forall₂ SameError es es') :
    withoutPlaces (errorDocument es) = withoutPlaces (errorDocument es') := by
  have h1 : (str "data" : Str) ≠ str "errors" := by decide +kernel
  simp [errorDocument, Members.emplace, withoutPlaces, h1, errorsWithoutPlaces_same h]

theorem document_same {r r' : Result} (h : SameResult r r') : withoutPlaces (document r) = withoutPlaces (document r') := by
  have h1 : (str "data" : Str) ≠ str "errors" := by decide +kernel
  obtain ⟨d, es⟩ := r
  obtain ⟨d', es'⟩ := r'
  obtain ⟨rfl, he⟩ := h
  dsimp only at he
  cases he with
  | nil => rfl
  | cons a b => simp [document, Members.emplace, withoutPlaces, h1, errorsWithoutPlaces_same (.cons a b)]

theorem resolve_same (S : Service E O) (validated : Bool) (doc : Document) (name : Str) (supplied : Members)
    (hv : List.Forall₂ SameError (S.validate doc) (S.validate (doc.relocate f))) :
    SameAnswer (resolve S validated doc name supplied) (resolve S validated (doc.relocate f) name supplied) := by
  have := prepare_same (f := f) S validated doc name supplied hv
  unfold resolve
  revert this
  generalize prepare S validated doc name supplied = a
  generalize prepare S validated (doc.relocate f) name supplied = b
  rintro (@⟨⟨op, m, vars, ds⟩, ⟨_, _, _, _⟩, ⟨h1, h2, h3, h4⟩⟩ | h)
  · dsimp only at h1 h2 h3 h4 ⊢
    subst h1 h2 h3 h4
    rw [show operationType (op.relocate f) = operationType op from rfl, show contextOf (op.relocate f) = contextOf op from rfl,
      show (op.relocate f).sub = Selection.relocateAll f op.sub from rfl, expand_moved]
    cases S.operations (operationType op) with
    | none => exact .undefined
    | some root =>
      cases root with
      | none => exact .undefined
      | some root =>
        dsimp only
        cases expand m op.sub with
        | none => exact .undefined
        | some xs => exact .done (.bind (execute_same S.impl _ root _ xs) fun _ _ h => .pure (document_same h))
  · cases h with
    | schema h => exact .done (.pure (errorDocument_same h))
    | other w => exact .done (.throw (.other w))

end Verif.ClientText
