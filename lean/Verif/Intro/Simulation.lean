import Verif.Exec.Lemmas
import Verif.Request.Props

/-!
# Services which cannot be told apart

If the objects of two services are related so that related objects have the same type names, the same callbacks, and accessors which
do the same and return related results, then every request has the same events and the same response with both of them.
-/
namespace Verif.Intro
open Verif.Value Verif.Resp Verif.Errors Verif.Ast Verif.Exec
open Verif.Request (Service Outcome resolve prepare)

variable {E O O' : Type}

/-- The same results, up to related objects. -/
inductive OutRel (R : O → O' → Prop) : Out O → Out O' → Prop where
  | leaf {v} : OutRel R (.leaf v) (.leaf v)
  | null : OutRel R (.object none) (.object none)
  | object {o o'} (h : R o o') : OutRel R (.object (some o)) (.object (some o'))
  | absent : OutRel R .absent .absent
  | present {x y} (h : OutRel R x y) : OutRel R (.present x) (.present y)
  | list {xs ys} (h : List.Forall₂ (OutRel R) xs ys) : OutRel R (.list xs) (.list ys)

/-- The same outcome. -/
inductive ExceptRel {α β : Type} (R : α → β → Prop) : Except Exn α → Except Exn β → Prop where
  | ok {a b} (h : R a b) : ExceptRel R (.ok a) (.ok b)
  | error {e} : ExceptRel R (.error e) (.error e)

/-- The same value, or the same future. -/
inductive FieldRel (R : O → O' → Prop) : FieldResult E O → FieldResult E O' → Prop where
  | value {x y} (h : OutRel R x y) : FieldRel R (.value x) (.value y)
  | future {later x y} (h : ExceptRel (OutRel R) x y) : FieldRel R (.future later x) (.future later y)

/-- The same events, and the same outcome. -/
structure RunRel {α β : Type} (R : α → β → Prop) (x : Run E α) (y : Run E β) : Prop where
  trace : x.trace = y.trace
  result : ExceptRel R x.result y.result

/-- The same accessor. -/
structure ResolverRel (R : O → O' → Prop) (r : Resolver E O) (r' : Resolver E O') : Prop where
  type : r.type = r'.type
  access : ∀ params, RunRel (FieldRel R) (r.access params) (r'.access params)

/-- Related objects cannot be told apart. -/
structure Similar (R : O → O' → Prop) (I : Impl E O) (I' : Impl E O') : Prop where
  typeNames : ∀ {o o'}, R o o' → I.typeNames o = I'.typeNames o'
  resolver : ∀ {o o'}, R o o' → ∀ name, Option.Rel (ResolverRel R) (I.resolver o name) (I'.resolver o' name)
  beginSet : ∀ {o o'}, R o o' → I.beginSet o = I'.beginSet o'
  endSet : ∀ {o o'}, R o o' → I.endSet o = I'.endSet o'

variable {R : O → O' → Prop}

theorem RunRel.bind_eq {α β γ : Type} {S : α → β → Prop} {x : Run E α} {y : Run E β} (h : RunRel S x y) {f : α → Run E γ}
    {g : β → Run E γ} (hf : ∀ a b, S a b → f a = g b) : x.bind f = y.bind g := by
  obtain ⟨t, r⟩ := x
  obtain ⟨t', r'⟩ := y
  obtain ⟨h1, h2⟩ := h
  cases h1
  cases h2 with
  | error => rfl
  | ok h => simp only [Run.bind, hf _ _ h]

theorem runRel_get {r : FieldResult E O} {r' : FieldResult E O'} (h : FieldRel R r r') : RunRel (OutRel R) r.get r'.get := by
  cases h with
  | value h => exact ⟨rfl, .ok h⟩
  | future h => exact ⟨rfl, h⟩

/-- Visitors which do the same. -/
def VisitRel (R : O → O' → Prop) (v : SetVisitor E O) (v' : SetVisitor E O') : Prop :=
  ∀ o o', R o o' → ∀ params st, v o params st = v' o' params st

/-- The same parameters. -/
structure ParamsRel (R : O → O' → Prop) (p : ResolverParams E O) (p' : ResolverParams E O') : Prop where
  set : p.set = p'.set
  pos : p.pos = p'.pos
  fieldName : p.fieldName = p'.fieldName
  selection : Option.Rel (fun s s' => s.1 = s'.1 ∧ VisitRel R s.2 s'.2) p.selection p'.selection

section
variable {I : Impl E O} {I' : Impl E O'}

theorem resolveObject_eq (h : Similar R I I') {v : SetVisitor E O} {v' : SetVisitor E O'} (hv : VisitRel R v v') {o : O} {o' : O'}
    (ho : R o o') (params : SetParams) : resolveObject I v o params = resolveObject I' v' o' params := by
  unfold resolveObject
  rw [h.beginSet ho, h.endSet ho, hv o o' ho]

theorem leafResult_eq {p : ResolverParams E O} {p' : ResolverParams E O'} (hp : ParamsRel R p p') {x : Except Exn (Out O)}
    {y : Except Exn (Out O')} (h : ExceptRel (OutRel R) x y) : leafResult p x = leafResult p' y := by
  cases h with
  | ok h => cases h <;> rfl
  | @error e => cases e <;> simp only [leafResult, hp.set, hp.pos, hp.fieldName]

theorem convertLeaf_eq {p : ResolverParams E O} {p' : ResolverParams E O'} (hp : ParamsRel R p p') {r : FieldResult E O}
    {r' : FieldResult E O'} (h : FieldRel R r r') : convertLeaf p r = convertLeaf p' r' := by
  have hb : blockSubFields p = blockSubFields p' := by
    unfold blockSubFields
    have := hp.selection
    revert this
    cases p.selection <;> cases p'.selection <;> intro h <;> cases h
    · rfl
    · rename_i h
      simp only [h.1, hp.set, hp.fieldName]
  unfold convertLeaf
  rw [hb]
  congr 1
  funext _
  cases h with
  | value h => simp only [resolveLeaf, leafResult_eq hp (.ok h)]
  | future h => simp only [resolveLeaf, leafResult_eq hp h]

theorem resolveLeaf_eq {p : ResolverParams E O} {p' : ResolverParams E O'} (hp : ParamsRel R p p') {r : FieldResult E O}
    {r' : FieldResult E O'} (h : FieldRel R r r') : resolveLeaf p r = resolveLeaf p' r' := by
  cases h with
  | value h => simp only [resolveLeaf, leafResult_eq hp (.ok h)]
  | future h => simp only [resolveLeaf, leafResult_eq hp h]

theorem objectResult_eq (h : Similar R I I') {p : ResolverParams E O} {p' : ResolverParams E O'} (hp : ParamsRel R p p')
    {v : SetVisitor E O} {v' : SetVisitor E O'} (hv : VisitRel R v v') {r : FieldResult E O} {r' : FieldResult E O'}
    (hr : FieldRel R r r') : objectResult I p v r = objectResult I' p' v' r' := by
  unfold objectResult
  refine (runRel_get hr).bind_eq fun a b hab => ?_
  cases hab with
  | object ho => simp only [resolveObject_eq h hv ho, hp.set]
  | _ => rfl

theorem convertObject_eq (h : Similar R I I') (direct : Bool) {p : ResolverParams E O} {p' : ResolverParams E O'}
    (hp : ParamsRel R p p') {r : FieldResult E O} {r' : FieldResult E O'} (hr : FieldRel R r r') :
    convertObject I direct p r = convertObject I' direct p' r' := by
  unfold convertObject
  have hf : r.isFuture = r'.isFuture := by cases hr <;> rfl
  have hm : missingSubFields p = missingSubFields p' := by simp only [missingSubFields, hp.set, hp.pos, hp.fieldName]
  have := hp.selection
  revert this
  cases p.selection <;> cases p'.selection <;> intro hs <;> cases hs
  · simp only [hm]
  · rename_i hs
    simp only [hf, objectResult_eq h hp hs.2 hr]

theorem paramsRel_at {p : ResolverParams E O} {p' : ResolverParams E O'} (hp : ParamsRel R p p') (i : Nat) :
    ParamsRel R (p.atIndex i) (p'.atIndex i) :=
  ⟨by simp only [ResolverParams.atIndex, hp.set], hp.pos, hp.fieldName, hp.selection⟩

theorem convertElements_eq {c : ResolverParams E O → FieldResult E O → Run E (Fut E)}
    {c' : ResolverParams E O' → FieldResult E O' → Run E (Fut E)}
    (hc : ∀ p p' r r', ParamsRel R p p' → FieldRel R r r' → c p r = c' p' r') {p : ResolverParams E O} {p' : ResolverParams E O'}
    (hp : ParamsRel R p p') {xs : List (Out O)} {ys : List (Out O')} (h : List.Forall₂ (OutRel R) xs ys) (i : Nat) :
    convertElements c p i xs = convertElements c' p' i ys := by
  induction h generalizing i with
  | nil => rfl
  | cons h _ ih => simp only [convertElements, hc _ _ _ _ (paramsRel_at hp i) (.value h), ih]

theorem collectElements_eq {p : ResolverParams E O} {p' : ResolverParams E O'} (hp : ParamsRel R p p') (children : List (Fut E))
    (i : Nat) (data : List Resp) (errors : List SchemaError) :
    collectElements p i children data errors = collectElements p' i children data errors := by
  induction children generalizing i data errors with
  | nil => rfl
  | cons c cs ih =>
    have hset := (paramsRel_at hp i).set
    cases c.result with
    | ok v => simp only [collectElements, ih, hset, hp.pos, hp.fieldName]
    | error e => cases e <;> simp only [collectElements, ih, hset, hp.pos, hp.fieldName]

theorem convert_eq (h : Similar R I I') (t : OutType) : ∀ {p : ResolverParams E O} {p' : ResolverParams E O'},
    ParamsRel R p p' → ∀ {r : FieldResult E O} {r' : FieldResult E O'}, FieldRel R r r' → convert I t p r = convert I' t p' r' := by
  induction t with
  | leaf => exact fun hp _ _ hr => convertLeaf_eq hp hr
  | enum => exact fun hp _ _ hr => resolveLeaf_eq hp hr
  | object direct => exact fun hp _ _ hr => convertObject_eq h direct hp hr
  | nullable t ih =>
    intro p p' hp r r' hr
    simp only [convert]
    congr 1
    refine (runRel_get hr).bind_eq fun a b hab => ?_
    cases hab with
    | present hx => simp only [ih hp (.future (.ok hx))]
    | _ => rfl
  | list t ih =>
    intro p p' hp r r' hr
    simp only [convert]
    congr 1
    refine (runRel_get hr).bind_eq fun a b hab => ?_
    have he : List.Forall₂ (OutRel R) a.elements b.elements := by
      cases hab with
      | list h => exact h
      | _ => exact .nil
    rw [convertElements_eq (fun p p' r r' hp hr => ih hp hr) hp he 0]
    simp only [collectElements_eq hp]

theorem visitField_eq (h : Similar R I I') (env : Env) (f : Field) {sub : Option (Loc × SetVisitor E O)}
    {sub' : Option (Loc × SetVisitor E O')} (hs : Option.Rel (fun s s' => s.1 = s'.1 ∧ VisitRel R s.2 s'.2) sub sub') :
    VisitRel R (visitField I env f sub) (visitField I' env f sub') := by
  intro o o' ho params st
  have hr := h.resolver ho f.name
  unfold visitField
  revert hr
  cases I.resolver o f.name <;> cases I'.resolver o' f.name <;> intro hr <;> cases hr
  · rfl
  · rename_i r r' hr
    have key : ∀ (set : SetParams) (ds args : Members),
        ((r.access { set := set, fieldDirectives := ds, arguments := args }).bind fun x =>
          convert I r.type { set := set, pos := f.pos, fieldName := responseName f, selection := sub } x) =
        ((r'.access { set := set, fieldDirectives := ds, arguments := args }).bind fun x =>
          convert I' r'.type { set := set, pos := f.pos, fieldName := responseName f, selection := sub' } x) := by
      intro set ds args
      rw [← hr.type]
      exact (hr.access _).bind_eq fun a b hab => convert_eq h r.type ⟨rfl, rfl, rfl, hs⟩ hab
    simp only [key]

mutual
theorem visit_eq (h : Similar R I I') (env : Env) : (s : XSelection) → VisitRel R (visit I env s) (visit I' env s)
  | .leaf f => by
    intro o o' ho params st
    simp only [visit]
    exact visitField_eq h env f .none o o' ho params st
  | .node f pos sub => by
    intro o o' ho params st
    simp only [visit]
    exact visitField_eq h env f (.some ⟨rfl, visitAll_eq h env sub⟩) o o' ho params st
  | .unknownSpread pos name => by
    intro o o' ho params st
    simp only [visit]
  | .spread fragment directives sub => by
    intro o o' ho params st
    have ih := visitAll_eq h env sub o o' ho
    have hm : matchesType I o = matchesType I' o' := by funext n; simp only [matchesType, h.typeNames ho]
    simp only [visit, hm, ih]
  | .inline condition directives sub => by
    intro o o' ho params st
    have ih := visitAll_eq h env sub o o' ho
    have hm : matchesType I o = matchesType I' o' := by funext n; simp only [matchesType, h.typeNames ho]
    simp only [visit, hm, ih]
theorem visitAll_eq (h : Similar R I I') (env : Env) : (sub : List XSelection) → VisitRel R (visitAll I env sub) (visitAll I' env sub)
  | [] => by
    intro o o' ho params st
    simp only [visitAll]
  | s :: rest => by
    intro o o' ho params st
    have h1 := visit_eq h env s o o' ho params st
    have h2 := visitAll_eq h env rest o o' ho params
    simp only [visitAll, h1, h2]
end

/-- The same selections on related objects have the same events and the same result. -/
theorem execute_eq (h : Similar R I I') (env : Env) {o : O} {o' : O'} (ho : R o o') (params : SetParams) (sub : List XSelection) :
    execute I env o params sub = execute I' env o' params sub := by
  unfold execute
  rw [resolveObject_eq h (visitAll_eq h env sub) ho]

end

/-- Services which cannot be told apart. -/
structure SimilarService (R : O → O' → Prop) (s : Service E O) (s' : Service E O') : Prop where
  impl : Similar R s.impl s'.impl
  operations : ∀ type, Option.Rel (Option.Rel R) (s.operations type) (s'.operations type)
  validate : s.validate = s'.validate
  atoiOverflow : s.atoiOverflow = s'.atoiOverflow

/-- Every request has the same events and the same response. -/
theorem resolve_eq {s : Service E O} {s' : Service E O'} (h : SimilarService R s s') (validated : Bool) (doc : Document)
    (name : Str) (supplied : Members) : resolve s validated doc name supplied = resolve s' validated doc name supplied := by
  have hp : prepare s validated doc name supplied = prepare s' validated doc name supplied := by
    simp only [prepare, h.atoiOverflow, Request.validate, h.validate]
  unfold resolve
  rw [hp]
  cases prepare s' validated doc name supplied with
  | error e => cases e <;> rfl
  | ok ready =>
    have ho := h.operations (Request.operationType ready.op)
    simp only [h.atoiOverflow]
    revert ho
    cases s.operations (Request.operationType ready.op) <;> cases s'.operations (Request.operationType ready.op) <;>
      intro ho <;> cases ho
    · rfl
    · rename_i ho
      cases ho with
      | none => rfl
      | some ho => simp only [execute_eq h.impl _ ho]

end Verif.Intro
