import Verif.Sound.Execute
import Verif.Gen.ParseClaims
import Verif.Json.Props
import Verif.Errors.Props

/-!
# C60: accepted requests only fail where the service does; C61: what the service answers, the client reads
-/
namespace Verif.Sound
open Verif.Value Verif.Resp Verif.Errors Verif.Ast Verif.Exec
open Verif.Validation (Schema FieldDef InputValue baseName findArgument findValue VariableTypes findVariable)
open Verif.Validation.Spec
open Verif.Request (FragmentMap Service resolve response operationVariables collectFragments)
open Verif.Gen.Client (NoDuplicates Answers)
open Verif.Json.Spec (normalize normalizeEntries normalizeList)

variable {E O : Type} {S : Schema} {P : Str → Prop}

/-! ## Variables -/

mutual
theorem evalLit_constant {env env' : Env} (h : env.atoiOverflow = env'.atoiOverflow) :
    (l : Lit) → (∀ v, ¬ InLit l v) → evalLit env l = evalLit env' l
  | .variable pos name, hl => absurd .variable (hl name)
  | .int n, _ => by simp [evalLit, Env.atoi, h]
  | .float d, _ => rfl
  | .string s, _ => rfl
  | .boolean b, _ => rfl
  | .null, _ => rfl
  | .enumValue s, _ => rfl
  | .list xs, hl => by
    rw [evalLit, evalLit, evalList_constant h xs (fun x hx v hv => hl v (.list hx hv)) []]
  | .object fields, hl => by
    rw [evalLit, evalLit, evalArgs_constant h fields (fun x hx v hv => hl v (.object hx hv)) []]
theorem evalList_constant {env env' : Env} (h : env.atoiOverflow = env'.atoiOverflow) :
    (xs : List Lit) → (∀ x ∈ xs, ∀ v, ¬ InLit x v) → (acc : List Resp) → evalList env xs acc = evalList env' xs acc
  | [], _, _ => rfl
  | x :: xs, hl, acc => by
    simp only [evalList, evalLit_constant h x (hl x List.mem_cons_self)]
    cases evalLit env' x with
    | error e => rfl
    | ok v => exact evalList_constant h xs (fun x hx => hl x (List.mem_cons_of_mem _ hx)) _
theorem evalArgs_constant {env env' : Env} (h : env.atoiOverflow = env'.atoiOverflow) :
    (xs : List (Str × Lit)) → (∀ x ∈ xs, ∀ v, ¬ InLit x.2 v) → (acc : Members) → evalArgs env xs acc = evalArgs env' xs acc
  | [], _, _ => rfl
  | (n, x) :: xs, hl, acc => by
    simp only [evalArgs, evalLit_constant h x (hl (n, x) List.mem_cons_self)]
    cases evalLit env' x with
    | error e => rfl
    | ok v => exact evalArgs_constant h xs (fun x hx => hl x (List.mem_cons_of_mem _ hx)) _
end

theorem evalLit_null {env : Env} {l : Lit} (hl : ∀ v, ¬ InLit l v) (h : evalLit env l = .ok .null) : l = .null := by
  cases l with
  | «variable» pos name => exact absurd .variable (hl name)
  | null => rfl
  | list xs =>
    rw [evalLit] at h
    cases hx : evalList env xs [] <;> simp [hx] at h
  | object fs =>
    rw [evalLit] at h
    cases hx : evalArgs env fs [] <;> simp [hx] at h
  | _ => simp [evalLit] at h

theorem findVariable_declared {ds : List VarDef} {name : Str} {a : Validation.Argument}
    (h : findVariable (declared ds) name = some a) : ∃ before d after, ds = before ++ d :: after ∧ d.name = name ∧
      Request.Spec.declaration ds name = some d ∧
      a = { type := d.type, defaultValue := d.default.isSome, nonNullDefaultValue := d.default.any fun l => !l.isNull } := by
  induction ds with
  | nil => simp [findVariable, declared] at h
  | cons d ds ih =>
    unfold findVariable declared Request.Spec.declaration at *
    simp only [List.map_cons, List.find?_cons] at h ⊢
    by_cases hn : d.name = name
    · simp only [hn, beq_self_eq_true, Option.map_some, Option.some.injEq] at h
      exact ⟨[], d, ds, rfl, hn, by simp [hn], h.symm⟩
    · have hnb : (d.name == name) = false := by simpa using hn
      simp only [hnb] at h ⊢
      obtain ⟨before, d', after, rfl, h1, h2, h3⟩ := ih h
      exact ⟨d :: before, d', after, rfl, h1, h2, h3⟩

/-- The values of the variables when the operation runs. -/
theorem assigned {doc : Document} {op : Operation} (hok : VariablesOk S op.variables) {supplied : Members}
    (hs : Supplied S doc op supplied) {overflow : Int → Int} {vars : Members}
    (h : operationVariables ⟨supplied, overflow⟩ op.variables [] = .ok vars) :
    Assigned S doc op vars ∧ ∀ v, InDirectives op.directives v → (vars.find v).isSome := by
  have hfound : ∀ v, v ∈ op.variables.map (·.name) → (vars.find v).isSome := by
    intro v hv
    have := Request.C23_variables h v
    cases hd : Request.Spec.declaration op.variables v with
    | none =>
      unfold Request.Spec.declaration at hd
      rw [List.find?_eq_none] at hd
      obtain ⟨d, hd', rfl⟩ := List.mem_map.mp hv
      exact absurd (beq_self_eq_true _) (hd d hd')
    | some d =>
      rw [hd] at this
      obtain ⟨w, hw, _⟩ := this
      rw [hw]
      rfl
  refine ⟨⟨fun v hv => hfound v (hs.declared v (.inl hv)), ?_⟩, fun v hv => hfound v (hs.declared v (.inr hv))⟩
  intro name a v ha hv
  obtain ⟨before, d, after, hsplit, rfl, hdecl, rfl⟩ := findVariable_declared ha
  have hmem : d ∈ op.variables := by rw [hsplit]; simp
  have := Request.C23_variables h d.name
  rw [hdecl] at this
  obtain ⟨w, hw, h1, h2, h3⟩ := this
  rw [hw] at hv
  cases hv
  have hdef : (d.default.any fun l => !l.isNull) = true → ∃ l, d.default = some l ∧ l ≠ .null := by
    intro hany
    cases hd : d.default with
    | none => rw [hd] at hany; simp at hany
    | some l =>
      rw [hd] at hany
      refine ⟨l, rfl, ?_⟩
      rintro rfl
      simp [Lit.isNull] at hany
  cases hsup : supplied.find d.name with
  | some u =>
    have e := h1 u hsup
    subst e
    obtain ⟨k1, k2⟩ := hs.values d hmem _ hsup
    exact ⟨k1, fun hany => k2 (hdef hany)⟩
  | none =>
    cases hd : d.default with
    | none =>
      rw [h3 hsup hd]
      refine ⟨.null fun hr => ?_, by simp⟩
      have := hs.required d hmem hr hd
      rw [hsup] at this
      cases this
    | some l =>
      have hev := h2 hsup l hd
      have hconst := hs.constants d hmem l hd
      obtain ⟨hu, hfits⟩ := hok.defaults before d after hsplit l hd
      have hev' := hev
      rw [evalLit_constant (env := ⟨supplied, overflow⟩) (env' := ⟨[], overflow⟩) rfl l hconst] at hev'
      refine ⟨Validation.C29_accepted_literals_inhabit (env := ⟨[], overflow⟩) (fun _ _ _ _ h => nomatch h) hfits hu hev', ?_⟩
      intro hany hnull
      rw [hnull] at hev
      rw [evalLit_null hconst hev] at hany
      simp [Lit.isNull] at hany

theorem operationVariables_exists {doc : Document} {op : Operation} {supplied : Members} (hs : Supplied S doc op supplied)
    (overflow : Int → Int) : ∃ vars, operationVariables ⟨supplied, overflow⟩ op.variables [] = .ok vars := by
  cases h : operationVariables ⟨supplied, overflow⟩ op.variables [] with
  | ok vars => exact ⟨vars, rfl⟩
  | error e =>
    obtain ⟨d, hd, _, l, hl, he⟩ := Request.C23_fails h
    obtain ⟨r, hr⟩ := evalLit_exists (env := ⟨supplied, overflow⟩) l (fun v hv => absurd hv (hs.constants d hd l hl v))
    rw [hr] at he
    cases he

theorem collectFragments_exists {env : Env} (fs : List FragmentDef)
    (h : ∀ f ∈ fs, ∀ v, InDirectives f.directives v → (env.variables.find v).isSome) :
    ∀ acc, ∃ m, collectFragments env fs acc = .ok m := by
  induction fs with
  | nil => exact fun acc => ⟨acc, rfl⟩
  | cons f fs ih =>
    intro acc
    obtain ⟨ds, hd, _⟩ := evalDirectives_exists (h f List.mem_cons_self)
    obtain ⟨m, hm⟩ := ih (fun f hf => h f (List.mem_cons_of_mem _ hf)) (acc.emplace f.name ⟨⟨f.typeCondition, ds⟩, f.sub⟩)
    exact ⟨m, by simp only [collectFragments, Request.makeFragment, hd]; exact hm⟩

/-! ## C60 -/

/-- A service for the schema: it validates with it, its objects implement it, and the root objects are of the right
types. -/
structure ServiceFor (S : Schema) (service : Service E O) (typeOf : O → Str) (P : Str → Prop) : Prop where
  validates : ∀ doc, (service.validate doc).map (·.message) = (Validation.validate S service.atoiOverflow doc {}).1
  serves : Serves S service.impl typeOf P
  roots : ∀ type root, S.operationType type = some root →
    ∃ o, service.operations type = some (some o) ∧ typeOf o ∈ S.matching root

/-- **C60** A selection set of an accepted operation, executed on an object of its type by a service for the schema: all
errors are those of the service; if there are none, the data is an answer to the selections. -/
theorem C60_execution {overflow : Int → Int} {doc : Document} {op : Operation} {root : Str}
    (h : Accepted S overflow doc op root) {env : Env} (hv : Assigned S doc op env.variables)
    {I : Impl E O} {typeOf : O → Str} (hI : Serves S I typeOf P) {env' : Env} {m : FragmentMap}
    (hm : collectFragments env' doc.fragments [] = .ok m) {xs : List XSelection}
    (hx : Request.expand m op.sub = some xs) (o : O) (ho : typeOf o ∈ S.matching root) (params : SetParams) :
    match (execute I env o params xs).result with
    | .ok r => (∀ e ∈ r.errors, P e.message) ∧
        (r.errors = [] → Answers S doc.fragments (.named root) (some op.sub) r.data ∧ NoDuplicates r.data ∧ r.data ≠ .null)
    | .error x => Throws P x := by
  have := execute_yields h hv hI (collected_defines hm) (sizeOf xs + 1) xs (Nat.lt_succ_self _) .self
    (Request.expand_sound _ _ _ hx) o params ho
  unfold Yields at this
  split
  · rename_i r hr
    rw [hr] at this
    refine ⟨this.1, fun he => ?_⟩
    obtain ⟨⟨h1, h2, _⟩, h3⟩ := this.2 he
    exact ⟨h1, h2, fun hn => h3 (by rw [hn]; rfl)⟩
  · rename_i x hr
    rw [hr] at this
    exact this

/-- The request runs, with all that is known of its data. -/
theorem request_yields {service : Service E O} {typeOf : O → Str} (hS : ServiceFor S service typeOf P) {doc : Document}
    {op : Operation} {root : Str} (h : Accepted S service.atoiOverflow doc op root)
    (hfr : ∀ f ∈ doc.fragments, Consistent S doc.fragments f.typeCondition f.sub) {supplied : Members}
    (hsup : Supplied S doc op supplied) {name : Str} (hname : Request.Spec.Selects doc.operations name op)
    (hsub : op.type.getD (str "query") ≠ str "subscription") (validated : Bool) :
    ∃ fut : Fut E, resolve service validated doc name supplied = .done (fut.bind fun r => .pure (response r)) ∧
      Yields P (fun v => Good S doc.fragments (.named root) (some op.sub) v ∧ normalize v ≠ .null) fut.result := by
  have hv := (Validation.C48_accepts_iff_valid h.closed h.wellFormed).mp h.accepted
  obtain ⟨_, hvars, _⟩ := hv.operations op h.operation
  obtain ⟨vars, hvar⟩ := operationVariables_exists hsup service.atoiOverflow
  obtain ⟨hassigned, hdirs⟩ := assigned hvars hsup hvar
  obtain ⟨m, hm⟩ := collectFragments_exists (env := ⟨supplied, service.atoiOverflow⟩) doc.fragments hsup.definitions []
  obtain ⟨xs, hx⟩ := Validation.C20_accepted_documents_expand h.closed h.wellFormed h.accepted hfr hm op.sub
  obtain ⟨ds, hd, _⟩ := evalDirectives_exists (env := ⟨vars, service.atoiOverflow⟩) hdirs
  obtain ⟨o, ho, hmatch⟩ := hS.roots _ _ h.rootType
  refine ⟨_, Request.C22_executes (.inr (List.map_eq_nil_iff.mp ((hS.validates doc).trans h.accepted))) hname hsub ho hm hx hvar hd, ?_⟩
  exact execute_yields h (env := ⟨vars, service.atoiOverflow⟩) hassigned hS.serves (collected_defines hm) (sizeOf xs + 1) xs
    (Nat.lt_succ_self _) .self (Request.expand_sound _ _ _ hx) o _ hmatch

/-- **C60** A request with an operation which the validator accepts and the values of its variables, made to a service for
the schema: every error of the response has a message of the service; if there is none, the data is an answer to the
operation. The response is an exception only if the service throws one around a selection set. -/
theorem C60_request {service : Service E O} {typeOf : O → Str} (hS : ServiceFor S service typeOf P) {doc : Document}
    {op : Operation} {root : Str} (h : Accepted S service.atoiOverflow doc op root)
    (hfr : ∀ f ∈ doc.fragments, Consistent S doc.fragments f.typeCondition f.sub) {supplied : Members}
    (hsup : Supplied S doc op supplied) {name : Str} (hname : Request.Spec.Selects doc.operations name op)
    (hsub : op.type.getD (str "query") ≠ str "subscription") (validated : Bool) :
    ∃ run, resolve service validated doc name supplied = .done run ∧
      match run.result with
      | .ok answer => ∃ data errors, answer = response ⟨data, errors⟩ ∧ (∀ e ∈ errors, P e.message) ∧
          (errors = [] → Answers S doc.fragments (.named root) (some op.sub) data ∧ NoDuplicates data ∧ data ≠ .null)
      | .error x => Throws P x := by
  obtain ⟨fut, h1, h2⟩ := request_yields hS h hfr hsup hname hsub validated
  refine ⟨_, h1, ?_⟩
  cases hr : fut.result with
  | error x =>
    rw [hr] at h2
    simp only [Run.bind, hr]
    exact h2
  | ok r =>
    rw [hr] at h2
    rw [(Run.bind_result_ok hr).1]
    refine ⟨r.data, r.errors, rfl, h2.1, fun he => ?_⟩
    obtain ⟨⟨k1, k2, _⟩, k3⟩ := h2.2 he
    exact ⟨k1, k2, fun hn => k3 (by rw [hn]; rfl)⟩

/-- With a service which never fails. -/
theorem no_errors {service : Service E O} {typeOf : O → Str} (hS : ServiceFor S service typeOf fun _ => False)
    {doc : Document} {op : Operation} {root : Str} (h : Accepted S service.atoiOverflow doc op root)
    (hfr : ∀ f ∈ doc.fragments, Consistent S doc.fragments f.typeCondition f.sub) {supplied : Members}
    (hsup : Supplied S doc op supplied) {name : Str} (hname : Request.Spec.Selects doc.operations name op)
    (hsub : op.type.getD (str "query") ≠ str "subscription") (validated : Bool) :
    ∃ run data, resolve service validated doc name supplied = .done run ∧ run.result = .ok (.map [(str "data", data)]) ∧
      Good S doc.fragments (.named root) (some op.sub) data ∧ normalize data ≠ .null := by
  obtain ⟨fut, h1, h2⟩ := request_yields hS h hfr hsup hname hsub validated
  cases hr : fut.result with
  | error x =>
    rw [hr] at h2
    exfalso
    cases x with
    | schema es =>
      obtain ⟨hne, hall⟩ := h2
      obtain ⟨e, rest, rfl⟩ := List.exists_cons_of_ne_nil hne
      exact hall e List.mem_cons_self
    | other what => exact (h2 []).1
  | ok r =>
    rw [hr] at h2
    have hnil : r.errors = [] := List.eq_nil_iff_forall_not_mem.mpr fun e he => h2.1 e he
    refine ⟨_, r.data, h1, ?_, h2.2 hnil⟩
    rw [(Run.bind_result_ok hr).1]
    simp [Run.pure, response, hnil]

/-- **C60** If the service never fails, there are no errors, and the data is an answer to the operation. -/
theorem C60_no_errors {service : Service E O} {typeOf : O → Str} (hS : ServiceFor S service typeOf fun _ => False)
    {doc : Document} {op : Operation} {root : Str} (h : Accepted S service.atoiOverflow doc op root)
    (hfr : ∀ f ∈ doc.fragments, Consistent S doc.fragments f.typeCondition f.sub) {supplied : Members}
    (hsup : Supplied S doc op supplied) {name : Str} (hname : Request.Spec.Selects doc.operations name op)
    (hsub : op.type.getD (str "query") ≠ str "subscription") (validated : Bool) :
    ∃ run data, resolve service validated doc name supplied = .done run ∧ run.result = .ok (.map [(str "data", data)]) ∧
      Answers S doc.fragments (.named root) (some op.sub) data ∧ NoDuplicates data ∧ data ≠ .null := by
  obtain ⟨run, data, h1, h2, ⟨h3, h4, _⟩, h5⟩ := no_errors hS h hfr hsup hname hsub validated
  exact ⟨run, data, h1, h2, h3, h4, fun hn => h5 (by rw [hn]; rfl)⟩

/-! ## C61 -/

mutual
/-- JSON has no two members of a name in an object. -/
theorem noDuplicates_json : (v : Value) → v.WF → NoDuplicates (normalize (tree v))
  | .map entries members, h => by
    simp only [Value.WF] at h
    rw [tree, normalize]
    obtain ⟨h1, h2⟩ := noDuplicates_entries entries h.2
    exact .map (by rw [h1]; exact h.1.nodup) h2
  | .list elements, h => by
    simp only [Value.WF] at h
    rw [tree, normalize]
    exact .list (noDuplicates_list elements h)
  | .string s j, _ => by rw [tree, normalize]; exact .other nofun nofun
  | .null, _ => by rw [tree, normalize]; exact .other nofun nofun
  | .boolean b, _ => by rw [tree, normalize]; exact .other nofun nofun
  | .int i, _ => by rw [tree, normalize]; exact .other nofun nofun
  | .float d, _ => by rw [tree, normalize]; exact .other nofun nofun
  | .enumValue s, _ => by rw [tree, normalize]; exact .other nofun nofun
  | .scalar (some v), h => by
    simp only [Value.WF] at h
    rw [tree, normalize]
    exact noDuplicates_json v h
  | .scalar none, _ => by rw [tree, normalize]; exact .other nofun nofun
theorem noDuplicates_entries : (entries : List (Str × Value)) → Value.WFEntries entries →
    (normalizeEntries (treeEntries entries)).map (·.1) = entries.map (·.1) ∧
    ∀ m ∈ normalizeEntries (treeEntries entries), NoDuplicates m.2
  | [], _ => by simp [treeEntries, normalizeEntries]
  | (n, v) :: rest, h => by
    simp only [Value.WFEntries] at h
    obtain ⟨h1, h2⟩ := noDuplicates_entries rest h.2
    have h3 := noDuplicates_json v h.1
    rw [treeEntries, normalizeEntries]
    refine ⟨by simp [h1], fun m hm => ?_⟩
    rcases List.mem_cons.mp hm with rfl | hm
    · exact h3
    · exact h2 m hm
theorem noDuplicates_list : (elements : List Value) → Value.WFList elements →
    ∀ w ∈ normalizeList (treeList elements), NoDuplicates w
  | [], _ => by simp [treeList, normalizeList]
  | v :: rest, h => by
    simp only [Value.WFList] at h
    have h2 := noDuplicates_list rest h.2
    have h3 := noDuplicates_json v h.1
    rw [treeList, normalizeList]
    intro w hw
    rcases List.mem_cons.mp hw with rfl | hw
    · exact h3
    · exact h2 w hw
end

/-- **C61** A request to a service which never fails, from a client which is generated for the operation from the same
schema: the response is written as JSON, which the client reads, and there are no errors in it; the generated
`parseResponse` reads its data, and nothing of it is lost. -/
theorem C61_end_to_end {service : Service E O} {typeOf : O → Str} (hS : ServiceFor S service typeOf fun _ => False)
    {doc : Document} {op : Operation} {root : Str} (h : Accepted S service.atoiOverflow doc op root)
    (hfr : ∀ f ∈ doc.fragments, Consistent S doc.fragments f.typeCondition f.sub) {supplied : Members}
    (hsup : Supplied S doc op supplied) {name : Str} (hname : Request.Spec.Selects doc.operations name op)
    (hsub : op.type.getD (str "query") ≠ str "subscription") (validated : Bool)
    (hready : Gen.Client.Ready S) (henums : Gen.Client.EnumsSafe S) {overflow : Int → Int} {clientName : Str} {depth : Nat}
    {client : Gen.Client.Request} (hload : Gen.Client.loadRequest S overflow clientName depth doc = .ok client)
    (hop : client.operation = op) :
    ∃ run data, resolve service validated doc name supplied = .done run ∧ run.result = .ok (.map [(str "data", data)]) ∧
      ∀ value, Value.Built value → tree value = .map [(str "data", data)] → Json.Spec.Representable (tree value) →
      ∃ calls received, Json.write value = .ok calls ∧ Json.parseEvents (calls.map Json.reread) = .ok received ∧
        (parseServiceResponse (tree received)).errors = [] ∧
        ∃ d, Gen.Client.parseResponse S client.fields (parseServiceResponse (tree received)).data = .ok d ∧
          Gen.Client.Represents S client.root client.fields [] (normalize data) (.leaf d) := by
  obtain ⟨run, data, h1, h2, ⟨_, _, h3⟩, h4⟩ := no_errors hS h hfr hsup hname hsub validated
  refine ⟨run, data, h1, h2, fun value hb ht hr => ?_⟩
  obtain ⟨calls, received, hw, hp, hn⟩ := Json.C07_json_roundtrip value hb hr
  have hnd := noDuplicates_json value (Value.built_wf hb)
  rw [ht] at hnd
  rw [ht, normalize] at hn
  simp only [normalizeEntries] at hn
  have hdata : NoDuplicates (normalize data) := by
    rw [normalize] at hnd
    simp only [normalizeEntries] at hnd
    cases hnd with
    | map _ h => exact h _ List.mem_cons_self
    | other hm _ => exact absurd rfl (hm _)
  obtain ⟨e1, e2⟩ := Errors.C39_split_response [(str "data", normalize data)] (by simp)
  have hf1 : Members.find [(str "data", normalize data)] (str "data") = some (normalize data) := rfl
  have hf2 : Members.find [(str "data", normalize data)] (str "errors") = none := rfl
  rw [hf1] at e1
  rw [hf2] at e2
  obtain ⟨hvalid, _, hroot, _⟩ := Gen.Client.C56_response hready h.closed h.wellFormed hload
  rw [hop, h.rootType] at hroot
  cases hroot
  obtain ⟨d, hd1, hd2⟩ := Gen.Client.C57_answers hready h.closed henums h.wellFormed hload (accepted_composite h .self)
    (by rw [hop]; exact h.consistent) hdata (by rw [hop]; exact h3) h4
  refine ⟨calls, received, hw, hp, by rw [hn, e2], d, ?_, hd2⟩
  rw [hn, e1]
  exact hd1

end Verif.Sound
