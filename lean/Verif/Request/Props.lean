import Verif.Request.Spec
import Verif.Exec.PathProps

/-!
# C22 and C23: which operation runs, and with which variables
-/
namespace Verif.Request
open Verif.Value Verif.Resp Verif.Errors Verif.Ast Verif.Exec Verif.Request.Spec

variable {E O : Type}

/-! ## Expansion -/

/-- What was found under a name is right. -/
def FoundOk (frags : FragmentMap) (name : Str) : Found → Prop
  | none => frags.find name = none
  | some (info, xs) => ∃ f, frags.find name = some f ∧ info = f.info ∧ ExpandsAll frags f.sub xs

mutual
theorem expandSel_sound (frags : FragmentMap) (find : Str → Option Found)
    (hf : ∀ name r, find name = some r → FoundOk frags name r) :
    (s : Selection) → (x : XSelection) → expandSel find s = some x → Expands frags s x
  | .leaf f, x, h => by
    simp only [expandSel, Option.some.injEq] at h; subst h; exact .leaf f
  | .node f pos sub, x, h => by
    simp only [expandSel] at h
    cases hx : expandAll find sub with
    | none => simp [hx] at h
    | some xs =>
      simp only [hx, Option.some.injEq] at h; subst h
      have := expandAll_sound frags find hf sub xs hx
      exact .node f pos sub xs this.1 this.2
  | .spread pos name ds, x, h => by
    simp only [expandSel] at h
    cases hx : find name with
    | none => simp [hx] at h
    | some r =>
      have := hf name r hx
      cases r with
      | none =>
        simp only [hx, Option.some.injEq] at h; subst h
        exact .unknown pos name ds this
      | some r =>
        obtain ⟨info, xs⟩ := r
        obtain ⟨f, h1, rfl, h2⟩ := this
        simp only [hx, Option.some.injEq] at h; subst h
        exact .spread pos name ds f xs h1 h2.1 h2.2
  | .inline pos t ds sub, x, h => by
    simp only [expandSel] at h
    cases hx : expandAll find sub with
    | none => simp [hx] at h
    | some xs =>
      simp only [hx, Option.some.injEq] at h; subst h
      have := expandAll_sound frags find hf sub xs hx
      exact .inline pos t ds sub xs this.1 this.2
theorem expandAll_sound (frags : FragmentMap) (find : Str → Option Found)
    (hf : ∀ name r, find name = some r → FoundOk frags name r) :
    (ss : List Selection) → (xs : List XSelection) → expandAll find ss = some xs → ExpandsAll frags ss xs
  | [], xs, h => by
    simp only [expandAll, Option.some.injEq] at h; subst h; simp [ExpandsAll]
  | s :: ss, xs, h => by
    simp only [expandAll] at h
    cases h1 : expandSel find s with
    | none => simp [h1] at h
    | some y =>
      cases h2 : expandAll find ss with
      | none => simp [h1, h2] at h
      | some ys =>
        simp only [h1, h2, Option.some.injEq] at h; subst h
        have i1 := expandSel_sound frags find hf s y h1
        have i2 := expandAll_sound frags find hf ss ys h2
        refine ⟨by simp [i2.1], ?_⟩
        intro i s' x hs hx
        cases i with
        | zero => simp at hs hx; subst hs; subst hx; exact i1
        | succ i => simp at hs hx; exact i2.2 i s' x hs hx
end

theorem expandFragment_sound (frags : FragmentMap) (depth : Nat) (name : Str) (r : Found)
    (h : expandFragment frags depth name = some r) : FoundOk frags name r := by
  induction depth generalizing name r with
  | zero =>
    simp only [expandFragment] at h
    cases hf : frags.find name with
    | none => simp only [hf, Option.some.injEq] at h; subst h; exact hf
    | some f => simp [hf] at h
  | succ n ih =>
    simp only [expandFragment] at h
    cases hf : frags.find name with
    | none => simp only [hf, Option.some.injEq] at h; subst h; exact hf
    | some f =>
      simp only [hf] at h
      cases hx : expandAll (expandFragment frags n) f.sub with
      | none => simp [hx] at h
      | some xs =>
        simp only [hx, Option.some.injEq] at h; subst h
        exact ⟨f, hf, rfl, expandAll_sound frags _ (fun name r => ih name r) f.sub xs hx⟩

/-- What the executor sees of an operation is the operation with every spread replaced by its fragment. -/
theorem expand_sound (frags : FragmentMap) (sub : List Selection) (xs : List XSelection) (h : expand frags sub = some xs) :
    ExpandsAll frags sub xs :=
  expandAll_sound frags _ (fun name r => expandFragment_sound frags _ name r) sub xs h

/-- There is only one expansion. -/
theorem Expands_unique (frags : FragmentMap) (s : Selection) (x y : XSelection) (hx : Expands frags s x)
    (hy : Expands frags s y) : x = y := by
    induction hx generalizing y with
    | leaf f => cases hy; rfl
    | node f pos sub xs hlen _ ih =>
      cases hy
      rename_i ys hlen' h'
      congr 1
      apply List.ext_getElem (by omega)
      intro i h1 h2
      exact ih i (sub[i]'(by omega)) (xs[i]) (by simp) (by simp) _
        (h' i (sub[i]'(by omega)) (ys[i]) (by simp) (by simp))
    | unknown pos name ds h =>
      cases hy
      · rfl
      · rename_i h2; rw [h] at h2; cases h2
    | spread pos name ds f xs hf hlen _ ih =>
      cases hy
      · rename_i h2; rw [hf] at h2; cases h2
      · rename_i f' ys hlen' h' hf'
        rw [hf] at hf'; cases hf'
        congr 1
        apply List.ext_getElem (by omega)
        intro i h1 h2
        exact ih i (f.sub[i]'(by omega)) (xs[i]) (by simp) (by simp) _
          (h' i (f.sub[i]'(by omega)) (ys[i]) (by simp) (by simp))
    | inline pos t ds sub xs hlen _ ih =>
      cases hy
      rename_i ys hlen' h'
      congr 1
      apply List.ext_getElem (by omega)
      intro i h1 h2
      exact ih i (sub[i]'(by omega)) (xs[i]) (by simp) (by simp) _
        (h' i (sub[i]'(by omega)) (ys[i]) (by simp) (by simp))

/-! ## Selecting the operation -/

theorem findOperation_some {name : Str} {ops : List Operation} {op : Operation} :
    findOperation name ops = some op ↔ Selects ops name op := by
  induction ops with
  | nil => simp [findOperation, Selects]
  | cons o ops ih =>
    rw [findOperation]
    by_cases hn : name = []
    · subst hn
      simp only [List.isEmpty_nil, Bool.true_or, if_true, Option.some.injEq, Selects]
      constructor
      · rintro rfl; exact ⟨[], ops, rfl, .inl ⟨trivial, rfl⟩⟩
      · rintro ⟨b, a, h, (⟨_, rfl⟩ | ⟨h', _⟩)⟩
        · simp at h; exact h.1
        · exact absurd rfl h'
    · have he : name.isEmpty = false := by cases name <;> simp_all
      have hd : (o.name.getD [] == name) = true ↔ o.name = some name := by
        cases ho : o.name with
        | none => simp [hn]
        | some m => simp
      simp only [he, Bool.false_or]
      by_cases hc : o.name = some name
      · rw [if_pos (hd.mpr hc)]
        simp only [Option.some.injEq]
        constructor
        · rintro rfl; exact ⟨[], ops, rfl, .inr ⟨hn, hc, by simp⟩⟩
        · rintro ⟨b, a, h, (⟨h', _⟩ | ⟨_, _, h3⟩)⟩
          · exact absurd h' hn
          · cases b with
            | nil => simp at h; exact h.1
            | cons x b => simp at h; exact absurd (h.1 ▸ hc) (h3 x (by simp))
      · rw [if_neg (by rw [hd]; exact hc), ih]
        constructor
        · rintro ⟨b, a, h, (⟨h', _⟩ | ⟨_, h2, h3⟩)⟩
          · exact absurd h' hn
          · refine ⟨o :: b, a, by simp [h], .inr ⟨hn, h2, ?_⟩⟩
            intro x hx; simp at hx; rcases hx with rfl | hx
            · exact hc
            · exact h3 x hx
        · rintro ⟨b, a, h, (⟨h', _⟩ | ⟨_, h2, h3⟩)⟩
          · exact absurd h' hn
          · cases b with
            | nil => simp at h; exact absurd (h.1 ▸ h2) hc
            | cons x b => simp at h; exact ⟨b, a, h.2, .inr ⟨hn, h2, fun y hy => h3 y (by simp [hy])⟩⟩

theorem findOperation_none {name : Str} {ops : List Operation} :
    findOperation name ops = none ↔ ∀ op, ¬Selects ops name op := by
  constructor
  · intro h op hs
    rw [← findOperation_some] at hs; rw [h] at hs; cases hs
  · intro h
    cases hf : findOperation name ops with
    | none => rfl
    | some op => exact absurd (findOperation_some.mp hf) (h op)

/-! ## Everything before the operation throws only `schema_exception` -/

/-- A `schema_exception` with at least one error. -/
def IsSchema (e : Exn) : Prop := ∃ es, es ≠ [] ∧ e = .schema es

mutual
theorem evalLit_schema (env : Env) : (l : Lit) → ∀ x, evalLit env l = .error x → IsSchema x
  | .variable pos name, x, h => by
    simp only [evalLit, visitVariable] at h
    split at h
    · simp at h
    · simp only [Except.error.injEq] at h; subst h; exact ⟨_, by simp, rfl⟩
  | .int n, x, h => by simp [evalLit] at h
  | .float n, x, h => by simp [evalLit] at h
  | .string n, x, h => by simp [evalLit] at h
  | .boolean n, x, h => by simp [evalLit] at h
  | .null, x, h => by simp [evalLit] at h
  | .enumValue n, x, h => by simp [evalLit] at h
  | .list xs, x, h => by
    simp only [evalLit] at h
    cases hl : evalList env xs [] with
    | ok vs => rw [hl] at h; simp at h
    | error e =>
      rw [hl] at h
      simp only [Except.error.injEq] at h
      subst h
      exact evalList_schema env xs [] e hl
  | .object fields, x, h => by
    simp only [evalLit] at h
    cases hl : evalArgs env fields [] with
    | ok vs => rw [hl] at h; simp at h
    | error e =>
      rw [hl] at h
      simp only [Except.error.injEq] at h
      subst h
      exact evalArgs_schema env fields [] e hl
theorem evalList_schema (env : Env) : (xs : List Lit) → (acc : List Resp) → ∀ x, evalList env xs acc = .error x →
    IsSchema x
  | [], acc, x, h => by simp [evalList] at h
  | l :: xs, acc, x, h => by
    simp only [evalList] at h
    cases hl : evalLit env l with
    | error e =>
      rw [hl] at h
      simp only [Except.error.injEq] at h
      subst h
      exact evalLit_schema env l e hl
    | ok v => rw [hl] at h; exact evalList_schema env xs _ x h
theorem evalArgs_schema (env : Env) : (xs : List (Str × Lit)) → (acc : Members) → ∀ x, evalArgs env xs acc = .error x →
    IsSchema x
  | [], acc, x, h => by simp [evalArgs] at h
  | (n, l) :: xs, acc, x, h => by
    simp only [evalArgs] at h
    cases hl : evalLit env l with
    | error e =>
      rw [hl] at h
      simp only [Except.error.injEq] at h
      subst h
      exact evalLit_schema env l e hl
    | ok v => rw [hl] at h; exact evalArgs_schema env xs _ x h
end

theorem evalOptArgs_schema (env : Env) (a : Option Args) (x : Exn) (h : evalOptArgs env a = .error x) : IsSchema x := by
  cases a with
  | none => simp [evalOptArgs] at h
  | some args => exact evalArgs_schema env args [] x h

theorem visitDirectives_schema (env : Env) (ds : List Directive) (acc : Members) (x : Exn)
    (h : visitDirectives env ds acc = .error x) : IsSchema x := by
  induction ds generalizing acc with
  | nil => simp [visitDirectives] at h
  | cons d ds ih =>
    simp only [visitDirectives] at h
    split at h
    · exact ih _ h
    · cases ha : evalOptArgs env d.arguments with
      | error e =>
        rw [ha] at h
        simp only [Except.error.injEq] at h
        subst h
        exact evalOptArgs_schema env _ _ ha
      | ok args => rw [ha] at h; exact ih _ h

theorem evalDirectives_schema (env : Env) (ds : Option (List Directive)) (x : Exn)
    (h : evalDirectives env ds = .error x) : IsSchema x := by
  cases ds with
  | none => simp [evalDirectives] at h
  | some ds => exact visitDirectives_schema env ds [] x h

theorem collectFragments_schema (env : Env) (fs : List FragmentDef) (acc : FragmentMap) (x : Exn)
    (h : collectFragments env fs acc = .error x) : IsSchema x := by
  induction fs generalizing acc with
  | nil => simp [collectFragments] at h
  | cons f fs ih =>
    simp only [collectFragments, makeFragment] at h
    cases hd : evalDirectives env f.directives with
    | error e => simp only [hd, Except.error.injEq] at h; subst h; exact evalDirectives_schema _ _ _ hd
    | ok ds => simp only [hd] at h; exact ih _ h

theorem operationVariables_schema (env : Env) (ds : List VarDef) (acc : Members) (x : Exn)
    (h : operationVariables env ds acc = .error x) : IsSchema x := by
  induction ds generalizing acc with
  | nil => simp [operationVariables] at h
  | cons d ds ih =>
    simp only [operationVariables] at h
    cases hv : env.variables.find d.name with
    | some v => simp only [hv] at h; exact ih _ h
    | none =>
      simp only [hv] at h
      cases hd : d.default with
      | none => simp only [hd] at h; exact ih _ h
      | some l =>
        simp only [hd] at h
        cases hl : evalLit env l with
        | error e => simp only [hl, Except.error.injEq] at h; subst h; exact evalLit_schema _ _ _ hl
        | ok v => simp only [hl] at h; exact ih _ h

/-- Whatever is wrong before the operation runs is reported as a `schema_exception` with at least one error. -/
theorem prepare_schema {S : Service E O} {validated : Bool} {doc : Document} {name : Str} {supplied : Members} {e : Exn}
    (h : prepare S validated doc name supplied = .error e) : IsSchema e := by
  unfold prepare at h
  cases hf : collectFragments ⟨supplied, S.atoiOverflow⟩ doc.fragments [] with
  | error x => simp only [hf, Except.error.injEq] at h; subst h; exact collectFragments_schema _ _ _ _ hf
  | ok frags =>
    simp only [hf] at h
    rcases hv : validate S doc validated with ⟨_ | ⟨x, es⟩, w⟩
    · simp only [hv] at h
      cases ho : findOperation name doc.operations with
      | none => simp only [ho, Except.error.injEq] at h; subst h; exact ⟨_, by simp, rfl⟩
      | some op =>
        simp only [ho] at h
        split at h
        · simp only [Except.error.injEq] at h; subst h; exact ⟨_, by simp, rfl⟩
        · cases hvar : operationVariables ⟨supplied, S.atoiOverflow⟩ op.variables [] with
          | error x => simp only [hvar, Except.error.injEq] at h; subst h; exact operationVariables_schema _ _ _ _ hvar
          | ok vars =>
            simp only [hvar] at h
            cases hd : evalDirectives ⟨vars, S.atoiOverflow⟩ op.directives with
            | error x => simp only [hd, Except.error.injEq] at h; subst h; exact evalDirectives_schema _ _ _ hd
            | ok ds => simp [hd] at h
    · simp only [hv, Except.error.injEq] at h; subst h; exact ⟨_, by simp, rfl⟩

theorem prepare_ok {S : Service E O} {validated : Bool} {doc : Document} {name : Str} {supplied : Members} {r : Ready}
    (h : prepare S validated doc name supplied = .ok r) :
    collectFragments ⟨supplied, S.atoiOverflow⟩ doc.fragments [] = .ok r.fragments ∧
    (validated = true ∨ S.validate doc = []) ∧ findOperation name doc.operations = some r.op ∧
    operationType r.op ≠ str "subscription" ∧
    operationVariables ⟨supplied, S.atoiOverflow⟩ r.op.variables [] = .ok r.variables ∧
    evalDirectives ⟨r.variables, S.atoiOverflow⟩ r.op.directives = .ok r.directives := by
  unfold prepare at h
  cases hf : collectFragments ⟨supplied, S.atoiOverflow⟩ doc.fragments [] with
  | error x => simp [hf] at h
  | ok frags =>
    simp only [hf] at h
    rcases hv : validate S doc validated with ⟨_ | ⟨x, es⟩, w⟩
    · simp only [hv] at h
      have hval : validated = true ∨ S.validate doc = [] := by
        unfold validate at hv
        cases validated with
        | true => exact .inl rfl
        | false => simp at hv; exact .inr hv.1
      cases ho : findOperation name doc.operations with
      | none => simp [ho] at h
      | some op =>
        simp only [ho] at h
        split at h
        · simp at h
        · rename_i hs
          cases hvar : operationVariables ⟨supplied, S.atoiOverflow⟩ op.variables [] with
          | error x => simp [hvar] at h
          | ok vars =>
            simp only [hvar] at h
            cases hd : evalDirectives ⟨vars, S.atoiOverflow⟩ op.directives with
            | error x => simp [hd] at h
            | ok ds => simp only [hd, Except.ok.injEq] at h; subst h; exact ⟨rfl, hval, rfl, hs, hvar, hd⟩
    · simp [hv] at h

/-- A response which only reports errors: `{ data: null, errors: [...] }` -/
def failed (errors : List SchemaError) : Resp :=
  .map [(str "data", .null), (str "errors", buildErrorValues errors)]

theorem errorDocument_eq (errors : List SchemaError) : errorDocument errors = failed errors := rfl

/-- The response of an executed operation. -/
def response (r : Result) : Resp :=
  .map ((str "data", r.data) :: if r.errors = [] then [] else [(str "errors", buildErrorValues r.errors)])

theorem document_eq (r : Result) : document r = response r := by
  unfold document response
  cases h : r.errors with
  | nil => rfl
  | cons e es => rfl

/-- C22: whatever `resolve` does, either it executes the operation with the requested name, which is not a subscription,
on the root object of its type, with its variables (C23) and all of its selections; or it runs no resolver at all and
the response is `{ data: null, errors: [...] }` with at least one error. -/
theorem C22_selected_or_failed {S : Service E O} {validated : Bool} {doc : Document} {name : Str} {supplied : Members}
    {run : Run E Resp} (h : resolve S validated doc name supplied = .done run) :
    (∃ errors, errors ≠ [] ∧ run = .pure (failed errors)) ∨
    ∃ op root fragments vars directives xs,
      Selects doc.operations name op ∧ operationType op ≠ str "subscription" ∧
      S.operations (operationType op) = some (some root) ∧
      collectFragments ⟨supplied, S.atoiOverflow⟩ doc.fragments [] = .ok fragments ∧
      ExpandsAll fragments op.sub xs ∧
      operationVariables ⟨supplied, S.atoiOverflow⟩ op.variables [] = .ok vars ∧
      evalDirectives ⟨vars, S.atoiOverflow⟩ op.directives = .ok directives ∧
      run = (execute S.impl ⟨vars, S.atoiOverflow⟩ root
        { context := if operationType op = str "mutation" then .mutation else .query
          operationDirectives := directives, fragmentDirectives := {}, errorPath := none } xs).bind
            fun r => .pure (response r) := by
  unfold resolve at h
  cases hp : prepare S validated doc name supplied with
  | error e =>
    obtain ⟨es, hes, rfl⟩ := prepare_schema hp
    simp only [hp, Outcome.done.injEq] at h
    exact .inl ⟨es, hes, h.symm⟩
  | ok ready =>
    obtain ⟨h1, _, h3, h4, h5, h6⟩ := prepare_ok hp
    simp only [hp] at h
    rcases ho : S.operations (operationType ready.op) with _ | _ | root
    · simp [ho] at h
    · simp [ho] at h
    · simp only [ho] at h
      cases hx : expand ready.fragments ready.op.sub with
      | none => simp [hx] at h
      | some xs =>
        simp only [hx, Outcome.done.injEq] at h
        right
        refine ⟨ready.op, root, ready.fragments, ready.variables, ready.directives, xs, findOperation_some.mp h3, h4, ho,
          h1, expand_sound _ _ _ hx, h5, h6, ?_⟩
        rw [← h]
        simp only [document_eq]
        rfl

/-- C22: when nothing is wrong with the document, its variables and directives, the operation is executed. -/
theorem C22_executes {S : Service E O} {validated : Bool} {doc : Document} {name : Str} {supplied : Members}
    {op : Operation} {root : O} {fragments : FragmentMap} {vars directives : Members} {xs : List XSelection}
    (hv : validated = true ∨ S.validate doc = [])
    (hs : Selects doc.operations name op) (ht : operationType op ≠ str "subscription")
    (hr : S.operations (operationType op) = some (some root))
    (hf : collectFragments ⟨supplied, S.atoiOverflow⟩ doc.fragments [] = .ok fragments)
    (hx : expand fragments op.sub = some xs)
    (hvar : operationVariables ⟨supplied, S.atoiOverflow⟩ op.variables [] = .ok vars)
    (hd : evalDirectives ⟨vars, S.atoiOverflow⟩ op.directives = .ok directives) :
    resolve S validated doc name supplied = .done ((execute S.impl ⟨vars, S.atoiOverflow⟩ root
        { context := if operationType op = str "mutation" then .mutation else .query
          operationDirectives := directives, fragmentDirectives := {}, errorPath := none } xs).bind
            fun r => .pure (response r)) := by
  have hp : prepare S validated doc name supplied = .ok ⟨op, fragments, vars, directives⟩ := by
    unfold prepare validate
    simp only [hf]
    rcases hv with rfl | hv
    · simp [findOperation_some.mpr hs, ht, hvar, hd]
    · cases validated <;> simp [hv, findOperation_some.mpr hs, ht, hvar, hd]
  unfold resolve
  simp only [hp, hr, hx, document_eq]
  rfl

theorem resolve_error {S : Service E O} {validated : Bool} {doc : Document} {name : Str} {supplied : Members} {e : Exn}
    (h : prepare S validated doc name supplied = .error e) :
    ∃ errors, errors ≠ [] ∧ e = .schema errors ∧ resolve S validated doc name supplied = .done (.pure (failed errors)) := by
  obtain ⟨es, hes, rfl⟩ := prepare_schema h
  exact ⟨es, hes, rfl, by simp [resolve, h, errorDocument_eq]⟩

/-- C22: if there is no operation with the requested name, no resolver runs and the response is an error; if the document
is valid the message says which name is missing. -/
theorem C22_missing {S : Service E O} {validated : Bool} {doc : Document} {name : Str} {supplied : Members}
    (h : ∀ op, ¬Selects doc.operations name op) :
    ∃ errors, errors ≠ [] ∧ resolve S validated doc name supplied = .done (.pure (failed errors)) ∧
      ((validated = true ∨ S.validate doc = []) →
        (∃ fragments, collectFragments ⟨supplied, S.atoiOverflow⟩ doc.fragments [] = .ok fragments) →
        errors = [{ message := if name = [] then str "Missing operation" else str "Missing operation name: " ++ name }]) := by
  have hn := findOperation_none.mpr h
  cases hp : prepare S validated doc name supplied with
  | ok r => rw [(prepare_ok hp).2.2.1] at hn; cases hn
  | error e =>
    obtain ⟨es, h1, rfl, h2⟩ := resolve_error hp
    refine ⟨es, h1, h2, ?_⟩
    rintro hv ⟨fs, hf⟩
    unfold prepare validate at hp
    simp only [hf, hn] at hp
    have : Exn.message (str "Missing operation" ++ nameSuffix name) = Exn.schema es := by
      rcases hv with rfl | hv
      · simpa using hp
      · cases validated <;> simpa [hv] using hp
    simp only [Exn.message, Exn.schema.injEq] at this
    rw [← this]
    cases name <;> rfl

/-- C22: a subscription is not executed by `resolve`. -/
theorem C22_subscription {S : Service E O} {validated : Bool} {doc : Document} {name : Str} {supplied : Members}
    {op : Operation} (hs : Selects doc.operations name op) (ht : operationType op = str "subscription") :
    ∃ errors, errors ≠ [] ∧ resolve S validated doc name supplied = .done (.pure (failed errors)) ∧
      ((validated = true ∨ S.validate doc = []) →
        (∃ fragments, collectFragments ⟨supplied, S.atoiOverflow⟩ doc.fragments [] = .ok fragments) →
        errors = [{
          message := if name = [] then str "Unexpected subscription" else str "Unexpected subscription name: " ++ name
          location := op.pos }]) := by
  have hn := findOperation_some.mpr hs
  cases hp : prepare S validated doc name supplied with
  | ok r =>
    have := prepare_ok hp
    rw [this.2.2.1] at hn; cases hn
    exact absurd ht this.2.2.2.1
  | error e =>
    obtain ⟨es, h1, rfl, h2⟩ := resolve_error hp
    refine ⟨es, h1, h2, ?_⟩
    rintro hv ⟨fs, hf⟩
    unfold prepare validate at hp
    simp only [hf, hn, ht, if_true] at hp
    have : Exn.schema [{ message := str "Unexpected subscription" ++ nameSuffix name, location := op.pos }] = Exn.schema es := by
      rcases hv with rfl | hv
      · simpa using hp
      · cases validated <;> simpa [hv] using hp
    simp only [Exn.schema.injEq] at this
    rw [← this]
    cases name <;> rfl

/-- C22: a document the validator rejects is not executed; the response has the validator's errors. -/
theorem C22_invalid {S : Service E O} {doc : Document} {name : Str} {supplied : Members}
    (hv : S.validate doc ≠ []) :
    ∃ errors, errors ≠ [] ∧ resolve S false doc name supplied = .done (.pure (failed errors)) ∧
      ((∃ fragments, collectFragments ⟨supplied, S.atoiOverflow⟩ doc.fragments [] = .ok fragments) →
        errors = S.validate doc) := by
  cases hp : prepare S false doc name supplied with
  | ok r => exact absurd ((prepare_ok hp).2.1.resolve_left (by simp)) hv
  | error e =>
    obtain ⟨es, h1, rfl, h2⟩ := resolve_error hp
    refine ⟨es, h1, h2, ?_⟩
    rintro ⟨fs, hf⟩
    unfold prepare validate at hp
    simp only [hf] at hp
    cases hd : S.validate doc with
    | nil => exact absurd hd hv
    | cons x xs => simp [hd] at hp; exact hp.symm

/-- The answers to calls of `validate` one after the other with the same parsed document, which remembers whether it is
validated; the calls can be to different services. -/
def validations (doc : Document) : List (Service E O) → Bool → List (List SchemaError)
  | [], _ => []
  | S :: rest, validated => (validate S doc validated).1 :: validations doc rest (validate S doc validated).2

theorem validations_validated (doc : Document) (calls : List (Service E O)) :
    validations doc calls true = List.replicate calls.length [] := by
  induction calls with
  | nil => rfl
  | cons S rest ih => simp [validations, validate, ih, List.replicate_succ]

theorem validations_rejected (doc : Document) (calls : List (Service E O)) (h : ∀ S ∈ calls, S.validate doc ≠ []) :
    validations doc calls false = calls.map fun S => S.validate doc := by
  induction calls with
  | nil => rfl
  | cons S rest ih =>
    have hs : (S.validate doc).isEmpty = false := by
      have := h S (by simp)
      cases hv : S.validate doc with
      | nil => exact absurd hv this
      | cons _ _ => rfl
    simp [validations, validate, hs, ih fun T hT => h T (by simp [hT])]

/-- C31: a parsed document is validated until the first time that nothing is wrong with it, and never again: calls before
that report what is wrong with it, and that call and all later ones report nothing. -/
theorem C31_validate_again {doc : Document} {rejecting : List (Service E O)} {S : Service E O} {later : List (Service E O)}
    (hr : ∀ T ∈ rejecting, T.validate doc ≠ []) (hs : S.validate doc = []) :
    validations doc (rejecting ++ S :: later) false =
      (rejecting.map fun T => T.validate doc) ++ List.replicate (later.length + 1) [] := by
  induction rejecting with
  | nil => simp [validations, validate, hs, validations_validated, List.replicate_succ]
  | cons T rest ih =>
    have ht : (T.validate doc).isEmpty = false := by
      have := hr T (by simp)
      cases hv : T.validate doc with
      | nil => exact absurd hv this
      | cons _ _ => rfl
    simp [validations, validate, ht, ih fun U hU => hr U (by simp [hU])]

/-- C31: what `resolve` and `subscribe` leave in the document. -/
theorem C31_validated_flag (S : Service E O) (doc : Document) (validated : Bool) :
    (validate S doc validated).2 = true ↔ validated = true ∨ S.validate doc = [] := by
  cases validated <;> simp [validate]

theorem FragmentMap.find_emplace (m : FragmentMap) (n : Str) (f : Fragment) (name : Str) :
    (m.emplace n f).find name = if (m.find name).isSome then m.find name else if n = name then some f else none := by
  unfold FragmentMap.emplace
  split
  · rename_i h
    split
    · rfl
    · rename_i h2
      split
      · rename_i h3; subst h3; exact absurd h h2
      · simpa using h2
  · unfold FragmentMap.find
    rw [List.find?_append]
    cases hf : List.find? (fun e => e.1 == name) m with
    | some x => simp
    | none =>
      by_cases hnm : n = name
      · simp [hnm]
      · simp [hnm]

theorem collectFragments_find (env : Env) (fs : List FragmentDef) (acc m : FragmentMap)
    (h : collectFragments env fs acc = .ok m) (name : Str) :
    match acc.find name with
    | some f => m.find name = some f
    | none =>
      match firstFragment fs name with
      | none => m.find name = none
      | some f => ∃ ds, evalDirectives env f.directives = .ok ds ∧ m.find name = some ⟨⟨f.typeCondition, ds⟩, f.sub⟩ := by
  induction fs generalizing acc with
  | nil =>
    simp only [collectFragments, Except.ok.injEq] at h; subst h
    cases ha : acc.find name <;> simp [firstFragment]
  | cons f fs ih =>
    simp only [collectFragments, makeFragment] at h
    cases hd : evalDirectives env f.directives with
    | error e => simp [hd] at h
    | ok ds =>
      simp only [hd] at h
      have := ih _ h
      rw [FragmentMap.find_emplace] at this
      cases ha : acc.find name with
      | some w => simpa [ha] using this
      | none =>
        simp only [ha, Option.isSome_none, Bool.false_eq_true, if_false] at this
        by_cases hn : f.name = name
        · simp only [hn, if_true] at this
          simp only [firstFragment, List.find?_cons, hn, beq_self_eq_true]
          exact ⟨ds, hd, this⟩
        · simp only [hn, if_false] at this
          have hnb : (f.name == name) = false := by simpa using hn
          simpa [firstFragment, List.find?_cons, hnb] using this

/-- C22: the fragments the operation is executed with are those of the document: under each name the first definition of
that name, with its type condition and its selections. -/
theorem C22_fragments {env : Env} {fs : List FragmentDef} {m : FragmentMap} (h : collectFragments env fs [] = .ok m)
    (name : Str) :
    match firstFragment fs name with
    | none => m.find name = none
    | some f => ∃ ds, evalDirectives env f.directives = .ok ds ∧ m.find name = some ⟨⟨f.typeCondition, ds⟩, f.sub⟩ := by
  have := collectFragments_find env fs [] m h name
  rwa [show FragmentMap.find [] name = none from rfl] at this

/-! ## C23: variables -/

theorem Members.find_emplace (ms : Members) (n : Str) (v : Resp) (m : Str) :
    (ms.emplace n v).find m = if (ms.find m).isSome then ms.find m else if n = m then some v else none := by
  unfold Members.emplace Members.find
  split
  · rename_i h
    split
    · rfl
    · rename_i h2
      split
      · rename_i h3
        subst h3
        simp only [Option.isSome_map, Bool.not_eq_true, Option.isSome_eq_false_iff, Option.isNone_iff_eq_none] at h2
        rw [List.find?_eq_none] at h2
        simp only [List.any_eq_true] at h
        obtain ⟨x, hx, hh⟩ := h
        exact absurd hh (h2 x hx)
      · simp only [Bool.not_eq_true, Option.isSome_eq_false_iff, Option.isNone_iff_eq_none] at h2; exact h2
  · rename_i h
    rw [List.find?_append]
    cases hf : List.find? (fun e => e.1 == m) ms with
    | some x => simp
    | none =>
      by_cases hnm : n = m
      · simp [hnm]
      · simp [hnm]

theorem operationVariables_find (env : Env) (ds : List VarDef) (acc vars : Members)
    (h : operationVariables env ds acc = .ok vars) (name : Str) :
    match acc.find name with
    | some v => vars.find name = some v
    | none =>
      match declaration ds name with
      | none => vars.find name = none
      | some d => ∃ v, vars.find name = some v ∧
          (∀ w, env.variables.find name = some w → v = w) ∧
          (env.variables.find name = none → ∀ l, d.default = some l → evalLit env l = .ok v) ∧
          (env.variables.find name = none → d.default = none → v = .null) := by
  induction ds generalizing acc with
  | nil =>
    simp only [operationVariables, Except.ok.injEq] at h; subst h
    cases ha : acc.find name <;> simp [declaration]
  | cons d ds ih =>
    -- the value this declaration contributes
    have key : ∃ v, operationVariables env ds (acc.emplace d.name v) = .ok vars ∧
        (∀ w, env.variables.find d.name = some w → v = w) ∧
        (env.variables.find d.name = none → ∀ l, d.default = some l → evalLit env l = .ok v) ∧
        (env.variables.find d.name = none → d.default = none → v = .null) := by
      simp only [operationVariables] at h
      cases hv : env.variables.find d.name with
      | some v =>
        simp only [hv] at h
        exact ⟨v, h, by simp, by simp, by simp⟩
      | none =>
        simp only [hv] at h
        cases hd : d.default with
        | none => simp only [hd] at h; exact ⟨.null, h, by simp, by simp, by simp⟩
        | some l =>
          simp only [hd] at h
          cases hl : evalLit env l with
          | error e => simp [hl] at h
          | ok v => simp only [hl] at h; exact ⟨v, h, by simp, by simp [hl], by simp⟩
    obtain ⟨v, hk, k1, k2, k3⟩ := key
    have := ih (acc.emplace d.name v) hk
    rw [Members.find_emplace] at this
    cases ha : acc.find name with
    | some w => simpa [ha] using this
    | none =>
      simp only [ha, Option.isSome_none, Bool.false_eq_true, if_false] at this
      by_cases hn : d.name = name
      · simp only [hn, if_true] at this
        subst hn
        simp only [declaration, List.find?_cons, beq_self_eq_true]
        exact ⟨v, this, k1, k2, k3⟩
      · simp only [hn, if_false] at this
        have hnb : (d.name == name) = false := by simpa using hn
        simpa [declaration, List.find?_cons, hnb] using this

/-- C23: the resolvers see exactly the declared variables: the supplied value if there is one, otherwise the declared
default, otherwise null; a variable which the operation does not declare is not visible. (By C22_selected_or_failed
these are the variables the operation is executed with.) -/
theorem C23_variables {env : Env} {ds : List VarDef} {vars : Members} (h : operationVariables env ds [] = .ok vars)
    (name : Str) :
    match declaration ds name with
    | none => vars.find name = none
    | some d => ∃ v, vars.find name = some v ∧
        (∀ w, env.variables.find name = some w → v = w) ∧
        (env.variables.find name = none → ∀ l, d.default = some l → evalLit env l = .ok v) ∧
        (env.variables.find name = none → d.default = none → v = .null) := by
  have := operationVariables_find env ds [] vars h name
  rwa [show Members.find [] name = none from rfl] at this

/-- C23: the variables cannot be determined only if a default which is needed cannot be evaluated. -/
theorem C23_fails {env : Env} {ds : List VarDef} {e : Exn} (h : operationVariables env ds [] = .error e) :
    ∃ d ∈ ds, env.variables.find d.name = none ∧ ∃ l, d.default = some l ∧ evalLit env l = .error e := by
  generalize ([] : Members) = acc at h
  induction ds generalizing acc with
  | nil => simp [operationVariables] at h
  | cons d ds ih =>
    have next : ∀ acc, operationVariables env ds acc = .error e → ∃ d' ∈ d :: ds, env.variables.find d'.name = none ∧
        ∃ l, d'.default = some l ∧ evalLit env l = .error e := by
      intro acc h
      obtain ⟨d', hd', h'⟩ := ih acc h
      exact ⟨d', by simp [hd'], h'⟩
    simp only [operationVariables] at h
    cases hv : env.variables.find d.name with
    | some v => simp only [hv] at h; exact next _ h
    | none =>
      simp only [hv] at h
      cases hd : d.default with
      | none => simp only [hd] at h; exact next _ h
      | some l =>
        simp only [hd] at h
        cases hl : evalLit env l with
        | error x => simp only [hl, Except.error.injEq] at h; subst h; exact ⟨d, by simp, hv, l, hd, hl⟩
        | ok v => simp only [hl] at h; exact next _ h

end Verif.Request
