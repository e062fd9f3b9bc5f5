import Verif.Validation.Expansion
import Verif.Validation.InputValues

/-!
# Properties of validation

Consequences of the fact (C48) that exactly the documents which are `Valid` are accepted.
-/
namespace Verif.Validation
open Verif.Value Verif.Resp Verif.Errors Verif.Ast Verif.Validation.Spec

variable {S : Schema} {ov : Int → Int}

/-- The visitor, after any documents whose operations the schema supports, reports no errors for exactly the valid
documents. -/
theorem C48_accepts_iff_valid_after (hS : Schema.Closed S) {documents : List Document}
    (hs : ∀ doc ∈ documents, Supported S doc) {doc : Document} (hw : WellFormedDocument doc) :
    (validate S ov doc (visitorAfter S ov documents)).1 = [] ↔ Valid S ov doc := by
  rw [C31_errors_independent_of_history hs doc]
  exact C48_accepts_iff_valid hS hw

/-! ## Input values -/

/-- **C28** In an operation with the variables `vs`, a variable is accepted where a value of type `t` is expected exactly
if the operation declares it and its use there is allowed. -/
theorem C28_variable_usage (hS : Schema.Closed S) {vs : VariableTypes}
    (hv : ∀ name d, findVariable vs name = some d → ∃ k, S.kind (baseName d.type) = some k ∧ k.isInput = true)
    {t : TypeRef} (hk : (S.find (baseName t)).isSome) (hw : WellFormed t) (hasDefault : Bool) (pos : Loc) (name : Str)
    {st : State} (hst : st.operationVariables = some vs) :
    (validateInputValue S hasDefault (.variable pos name) t st).2 = true ↔
      ∃ d, findVariable vs name = some d ∧ Allowed (hasDefault || d.nonNullDefaultValue) d.type t := by
  have h := (validateInputValue_input hS.names (SchemaOk.of hS).inputs (.variable pos name) hasDefault t st ⟨hk, hw⟩
    (by rw [hst]; rintro _ ⟨⟩; exact hv)).result
  rw [hst] at h
  rw [h]
  constructor
  · intro h
    cases h with
    | declared hv hd ha => cases hv; exact ⟨_, hd, ha⟩
    | any hv => cases hv
    | scalar hp => exact absurd rfl (hp.1 _ _)
  · rintro ⟨d, hd, ha⟩
    exact .declared rfl hd ha

/-- In the definition of a fragment every variable is accepted: it is checked where the fragment is spread. -/
theorem C28_variable_in_fragment {t : TypeRef} (hk : (S.find (baseName t)).isSome) (hasDefault : Bool) (pos : Loc)
    (name : Str) {st : State} (hst : st.operationVariables = none) :
    validateInputValue S hasDefault (.variable pos name) t st = (st, true) := by
  simp [validateInputValue, validateVariable, hst, valid_isNone hk]

/-- **C29** A literal is accepted where a value of type `t` is expected exactly if it fits the type. -/
theorem C29_literal_accepted_iff (hS : Schema.Closed S) {st : State}
    (hv : ∀ vs, st.operationVariables = some vs → ∀ name d, findVariable vs name = some d →
      ∃ k, S.kind (baseName d.type) = some k ∧ k.isInput = true)
    {t : TypeRef} (hk : (S.find (baseName t)).isSome) (hw : WellFormed t) (hasDefault : Bool) (l : Lit) :
    (validateInputValue S hasDefault l t st).2 = true ↔ Fits S st.operationVariables hasDefault l t :=
  (validateInputValue_input hS.names (SchemaOk.of hS).inputs l hasDefault t st ⟨hk, hw⟩ hv).result

/-- **C29** The value of a literal which fits a type is one of that type, whenever the values of the variables are of
theirs. -/
theorem C29_accepted_literals_inhabit {vs : VariableTypes} {env : Exec.Env} (henv : VariablesInhabit S vs env.variables)
    {hasDefault : Bool} {l : Lit} {t : TypeRef} (h : Fits S (some vs) hasDefault l t) (hu : Unique l) {v : Resp}
    (hv : Exec.evalLit env l = .ok v) : Inhabits S hasDefault v t :=
  Fits.inhabits henv h hu v hv

/-- **C29** The same for the arguments of a field or directive: those which a resolver gets are known and of their types,
and all the required ones are there. -/
theorem C29_accepted_arguments_inhabit {vs : VariableTypes} {env : Exec.Env} (henv : VariablesInhabit S vs env.variables)
    {defs : List InputValue} {args : Args} (h : ArgumentsOk S (some vs) defs args) {ms : Members}
    (hms : Exec.evalArgs env args [] = .ok ms) :
    (∀ m ∈ ms, ∃ a, findArgument defs m.1 = some a ∧ Inhabits S a.defaultValue m.2 a.type) ∧
    (∀ name a, findArgument defs name = some a → Required a.type → a.defaultValue = false → name ∈ ms.map (·.1)) := by
  obtain ⟨new, hnew, hf⟩ := evalArgs_ok _ _ _ hms h.unique (by simp)
  simp only [List.nil_append] at hnew
  subst hnew
  have hnames : ms.map (·.1) = args.map (·.1) := by
    clear h hms
    induction hf with
    | nil => rfl
    | cons h _ ih => simp [h.1, ih]
  constructor
  · intro m hm
    obtain ⟨i, hi, rfl⟩ := List.getElem_of_mem hm
    have hi' : i < args.length := hf.length_eq ▸ hi
    obtain ⟨hn, hev⟩ := (List.forall₂_iff_get.mp hf).2 i hi' hi
    simp only [List.get_eq_getElem] at hn hev
    obtain ⟨a, ha⟩ := Option.isSome_iff_exists.mp (h.known args[i] (List.getElem_mem _))
    rw [hn]
    refine ⟨a, ha, ?_⟩
    by_cases hnull : args[i].2 = .null
    · rw [hnull] at hev
      unfold Exec.evalLit at hev
      rw [← Except.ok.inj hev]
      refine .null fun hr => ?_
      cases hd : a.defaultValue with
      | true => rfl
      | false =>
        obtain ⟨e, he, hen, henull⟩ := h.required _ _ ha hr hd
        obtain ⟨j, hj, rfl⟩ := List.getElem_of_mem he
        have : j = i := by
          have := h.unique
          rw [List.nodup_iff_injective_get] at this
          have := @this ⟨j, by simpa using hj⟩ ⟨i, by simpa using hi'⟩ (by simpa using hen)
          simpa using this
        subst this
        exact absurd hnull henull
    · exact (Fits.inhabits henv (h.values _ (List.getElem_mem _) a ha hnull) (h.uniqueMembers _ (List.getElem_mem _)) _ hev).mono
        (defaultValue_of_nonNull ha)
  · intro name a ha hr hd
    obtain ⟨e, he, hen, _⟩ := h.required _ _ ha hr hd
    rw [hnames]
    exact List.mem_map.mpr ⟨e, he, hen⟩

/-! ## Documents -/

/-- **C30** The structure of an accepted document. -/
theorem C30_document_structure (hS : Schema.Closed S) {doc : Document} (hw : WellFormedDocument doc)
    (h : (validate S ov doc {}).1 = []) :
    (∀ pos, .other pos ∉ doc.definitions) ∧
    (doc.operations.map operationName).Nodup ∧
    (doc.fragments.map (·.name)).Nodup ∧
    (∀ op ∈ doc.operations, operationName op = [] → doc.operations = [op]) ∧
    (∀ f ∈ doc.fragments, (∃ op ∈ doc.operations, Reaches doc.fragments op.sub f.name) ∨
      ∃ g ∈ doc.fragments, g.name ≠ f.name ∧ Reaches doc.fragments g.sub f.name) ∧
    (∀ op ∈ doc.operations, (op.variables.map (·.name)).Nodup ∧
      ∀ d ∈ op.variables, InOperation doc.fragments op d.name) := by
  have hv := (C48_accepts_iff_valid hS hw).mp h
  refine ⟨hv.executable, hv.uniqueOperations, hv.uniqueFragments, hv.loneAnonymous, ?_, ?_⟩
  · intro f hf
    rcases hv.used f hf with ⟨g, hg, used, ⟨_, _, _, _, hc, rfl⟩, hm⟩ | ⟨op, hop, used, ⟨_, _, _, _, _, _, hc, _, _, rfl⟩, hm⟩
    · have := hc.uses_reaches hm
      exact .inr ⟨g, hg, fun e => this.2 (by simp [e]), this.1⟩
    · exact .inl ⟨op, hop, (hc.uses_reaches hm).1⟩
  · intro op hop
    obtain ⟨used, hvars, _, _, _, uses, _, hc, _, hu, _⟩ := hv.operations op hop
    refine ⟨hvars.unique, fun d hd => ?_⟩
    rcases hu d hd with (hu | hu) | hu
    · exact .inl (hc.uses_variables hu)
    · exact .inr (.inl (inDirectives hu))
    · obtain ⟨d', hd', l, hl, hm⟩ := hu
      exact .inr (.inr ⟨d', hd', l, hl, hm.inLit⟩)

/-- The variables of an operation, as the specification sees them. -/
def operationScope (op : Operation) : Option VariableTypes := some (declared op.variables)

/-- The selection sets of accepted operations are checked. -/
theorem accepted_operation (hS : Schema.Closed S) {doc : Document} (hw : WellFormedDocument doc)
    (h : (validate S ov doc {}).1 = []) {op : Operation} (hop : op ∈ doc.operations) :
    ∃ root, S.operationType (op.type.getD (str "query")) = some root ∧
      Entered S ov doc.fragments (operationScope op) [] root op.sub := by
  have hv := (C48_accepts_iff_valid hS hw).mp h
  obtain ⟨used, _, _, root, fields, uses, hroot, hc, _⟩ := hv.operations op hop
  exact ⟨root, hroot, [], fields, uses, List.Subset.refl _, hc⟩

theorem Spec.Checked.nodup {fragments : List FragmentDef} {vars : Option VariableTypes} {stack : List Str} {type : Str}
    {sel : List Selection} {before after : List (Str × Occurrence)} {uses : Uses}
    (h : Checked S ov fragments vars stack type sel before after uses) (hb : (before.map (·.1)).Nodup) : (after.map (·.1)).Nodup := by
  have hadd : ∀ (fields : List (Str × Occurrence)) (e : Str × Occurrence), (fields.map (·.1)).Nodup → (∀ o, (e.1, o) ∉ fields) →
      ((fields ++ [e]).map (·.1)).Nodup := by
    intro fields e hn hnew
    rw [List.map_append, List.nodup_append]
    refine ⟨hn, by simp, ?_⟩
    intro a ha b hb hab
    simp only [List.map_cons, List.map_nil, List.mem_singleton] at hb
    obtain ⟨x, hx, rfl⟩ := List.mem_map.mp ha
    exact hnew x.2 (by rw [← hb, ← hab]; exact hx)
  induction h with
  | nil => exact hb
  | leaf hf hnew _ _ _ ih => exact ih (hadd _ _ hb hnew)
  | node hf hnew _ _ _ _ _ ih => exact ih (hadd _ _ hb hnew)
  | leafAgain _ _ _ _ ih => exact ih hb
  | nodeAgain _ _ _ _ ih => exact ih hb
  | spread _ _ _ _ _ _ _ ih1 ih2 => exact ih2 (ih1 hb)
  | inline _ _ _ _ ih1 ih2 => exact ih2 (ih1 hb)

/-- **C33** In every selection set of an accepted operation there is one field for each response name, with valid
arguments, with which all the others of this response name agree. -/
theorem C33_fields_agree (hS : Schema.Closed S) {doc : Document} (hw : WellFormedDocument doc)
    (h : (validate S ov doc {}).1 = []) {op : Operation} (hop : op ∈ doc.operations) {root : Str}
    (hroot : S.operationType (op.type.getD (str "query")) = some root) {type : Str} {sel : List Selection}
    (hb : Below S doc.fragments root op.sub type sel) :
    ∃ first : Str → Occurrence, ∀ on f sub, Selects doc.fragments type sel on f sub →
      ∃ def_, S.findField on f.name = some def_ ∧
        (first (Exec.responseName f) = ⟨on, f, def_.type⟩ ∨ Agree S ov (first (Exec.responseName f)) ⟨on, f, def_.type⟩) ∧
        let o := first (Exec.responseName f)
        Exec.responseName o.field = Exec.responseName f ∧
        (∃ sub', Selects doc.fragments type sel o.parent o.field sub') ∧
        ∃ def', S.findField o.parent o.field.name = some def' ∧ o.type = def'.type ∧
          ArgumentsOk S (operationScope op) def'.arguments (o.field.arguments.getD []) := by
  obtain ⟨root', hroot', he⟩ := accepted_operation hS hw h hop
  rw [hroot] at hroot'
  cases hroot'
  obtain ⟨stack, fields, uses, hs, hc⟩ := entered_below he hb
  have hnd := hc.nodup (by simp)
  refine ⟨fun name => ((fields.find? fun e => e.1 == name).map (·.2)).getD ⟨[], ⟨{}, none, [], none, none⟩, .named []⟩, ?_⟩
  intro on f sub hsel
  obtain ⟨def_, hfine⟩ := hc.selects hsel
  obtain ⟨first, hm, hfirst⟩ := hfine.first
  have hr := hc.recorded (rootType := type) (root := sel) hs (fun _ _ _ h => h) (fun e he => by cases he)
  obtain ⟨hn, sub1, def1, hs1, hf1, ht1, ha1, _, _⟩ := hr _ hm
  have hfind : (fields.find? fun e => e.1 == Exec.responseName f) = some (Exec.responseName f, first) := by
    have := find_nodup hnd hm
    exact this
  refine ⟨def_, hfine.ok.exists_.found, ?_⟩
  simp only [hfind, Option.map_some, Option.getD_some]
  exact ⟨hfirst, hn.symm, ⟨sub1, hs1⟩, def1, hf1.exists_.found, ht1, ha1⟩

/-! ## Fields -/

theorem overlap_composite {a b : Str} (h : S.overlap a b = true) (hb : S.isComposite b = true) : S.isComposite a = true := by
  unfold Schema.overlap at h
  rw [Bool.or_eq_true] at h
  rcases h with h | h
  · rw [beq_iff_eq] at h
    exact h ▸ hb
  · rw [List.any_eq_true] at h
    obtain ⟨t, ht, _⟩ := h
    unfold Schema.matching at ht
    unfold Schema.isComposite Schema.kind
    cases hf : S.find a with
    | none => rw [hf] at ht; cases ht
    | some d =>
      rw [hf] at ht
      cases hk : d.kind <;> simp [hk] at ht <;> simp [hk, Kind.isComposite]

/-- Selection sets which are not empty are on composite types. -/
theorem entered_composite {fragments : List FragmentDef} {vars : Option VariableTypes}
    (hfr : ∀ f ∈ fragments, S.isComposite f.typeCondition = true) {sel : List Selection} (hne : NonEmpty sel) :
    ∀ {stack : List Str} {type : Str} {before after : List (Str × Occurrence)} {uses : Uses},
    Checked S ov fragments vars stack type sel before after uses → S.isComposite type = true := by
  induction hne with
  | @mk sel h hn hi ihn ihi =>
    intro stack type before after uses hc
    obtain ⟨s, rest, rfl⟩ := List.exists_cons_of_ne_nil h
    cases s with
    | leaf f =>
      obtain ⟨d, hd⟩ := hc.selects (Selects.cons_iff.mpr (.inl (Selects.leaf_iff.mpr ⟨rfl, rfl, rfl⟩)))
      exact hd.ok.exists_.composite
    | node f pos sub =>
      obtain ⟨d, hd⟩ := hc.selects (Selects.cons_iff.mpr (.inl (Selects.node_iff.mpr ⟨rfl, rfl, rfl⟩)))
      exact hd.ok.exists_.composite
    | spread pos name ds =>
      obtain ⟨_, _, fragment, hf, ho, _⟩ := hc.mem_spread List.mem_cons_self
      exact overlap_composite ho (hfr _ (List.mem_of_find?_eq_some hf))
    | inline pos t ds sub =>
      obtain ⟨_, ht, _, _, _, hsub⟩ := hc.mem_inline List.mem_cons_self
      by_cases he : t.getD [] = []
      · rw [if_pos he] at hsub
        exact ihi pos t ds sub List.mem_cons_self hsub
      · cases t with
        | none => exact absurd rfl he
        | some name => exact overlap_composite (ht name rfl he).2 (ht name rfl he).1

theorem NonEmpty.part {fragments : List FragmentDef} (hfr : ∀ f ∈ fragments, NonEmpty f.sub) {type type' : Str}
    {sel sel' : List Selection} (h : Part fragments type sel type' sel') (hn : NonEmpty sel) : NonEmpty sel' := by
  induction h with
  | self => exact hn
  | inline hm _ ih =>
    cases hn with
    | mk _ _ hi => exact ih (hi _ _ _ _ hm)
  | spread hm hf _ ih => exact ih (hfr _ (List.mem_of_find?_eq_some hf))

theorem NonEmpty.below {fragments : List FragmentDef} (hfr : ∀ f ∈ fragments, NonEmpty f.sub) {type type' : Str}
    {sel sel' : List Selection} (hn : NonEmpty sel) (h : Below S fragments type sel type' sel') : NonEmpty sel' := by
  induction h with
  | self => exact hn
  | field hb hf ha hd ih =>
    obtain ⟨sel1, hp, ⟨e, _⟩ | ⟨pos, below, e, hm⟩⟩ := hf
    · cases e
    · cases e
      cases NonEmpty.part hfr hp ih with
      | mk _ hn _ => exact hn _ _ _ hm

/-- **C32** In every selection set of an accepted operation each field is one of the type it is selected on; and if it does
not share its response name with a field with other selections, it has selections exactly if its type is composite. -/
theorem C32_fields_exist (hS : Schema.Closed S) {doc : Document} (hw : WellFormedDocument doc)
    (hne : ∀ op ∈ doc.operations, NonEmpty op.sub) (hnf : ∀ f ∈ doc.fragments, NonEmpty f.sub)
    (h : (validate S ov doc {}).1 = []) {op : Operation} (hop : op ∈ doc.operations) {root : Str}
    (hroot : S.operationType (op.type.getD (str "query")) = some root) {type : Str} {sel : List Selection}
    (hb : Below S doc.fragments root op.sub type sel) {on : Str} {f : Field} {sub : Option (List Selection)}
    (hsel : Selects doc.fragments type sel on f sub) :
    ∃ def_, S.findField on f.name = some def_ ∧ S.isComposite on = true ∧ (S.kind on = some .union → f.name = str "__typename") ∧
      (Alike doc.fragments type sel f sub → (sub.isSome ↔ S.isComposite (baseName def_.type) = true)) := by
  have hv := (C48_accepts_iff_valid hS hw).mp h
  obtain ⟨root', hroot', he⟩ := accepted_operation hS hw h hop
  rw [hroot] at hroot'
  cases hroot'
  have he1 := entered_below he hb
  obtain ⟨stack, fields, uses, hs, hc⟩ := he1
  obtain ⟨def_, hfine⟩ := hc.selects hsel
  refine ⟨def_, hfine.ok.exists_.found, hfine.ok.exists_.composite, hfine.ok.exists_.union, fun ha => ?_⟩
  obtain ⟨first, hm, hfirst⟩ := hfine.first
  have hr := hc.recorded (rootType := type) (root := sel) hs (fun _ _ _ h => h) (fun e he => by cases he)
  obtain ⟨hn, sub1, def1, hs1, hf1, ht1, _, hl1, hb1⟩ := hr _ hm
  have hsame : sub1 = sub := ha _ _ _ hs1 hn.symm
  have htype : def1.type = def_.type := by
    rw [← ht1]
    rcases hfirst with e | e
    · rw [e]
    · exact e.1
  subst hsame
  cases sub1 with
  | none =>
    have := hl1 rfl
    rw [htype] at this
    simp [this]
  | some below =>
    simp only [Option.isSome_some, true_iff]
    have hb2 : Below S doc.fragments root op.sub (baseName def_.type) below := .field hb hsel ha hfine.ok.exists_.found
    obtain ⟨_, _, _, _, hc2⟩ := entered_below he hb2
    refine entered_composite (fun f hf => ?_) (NonEmpty.below hnf (hne op hop) hb2) hc2
    obtain ⟨used, hok⟩ := hv.fragments f hf
    exact hok.2.1

/-! ## Cycles of fragments -/

/-- **C20** In an accepted document no fragment reaches itself, unless somewhere below it a selection set selects two
fields with the same response name but different selections. -/
theorem C20_no_cycles (hS : Schema.Closed S) {doc : Document} (hw : WellFormedDocument doc)
    (h : (validate S ov doc {}).1 = []) {f : FragmentDef} (hf : f ∈ doc.fragments)
    (hc : Consistent S doc.fragments f.typeCondition f.sub) : ¬ Reaches doc.fragments f.sub f.name := by
  have hv := (C48_accepts_iff_valid hS hw).mp h
  obtain ⟨used, _, _, fields, uses, hch, _⟩ := hv.fragments f hf
  exact not_reaches (vars := none) (ov := ov) ⟨[f.name], fields, uses, List.Subset.refl _, hch⟩ hc (by simp)

/-- **C20** If an accepted document has no such selection sets, all its spreads can be replaced by what they stand for:
the execution of its operations only visits a finite tree of selections. -/
theorem C20_accepted_documents_expand (hS : Schema.Closed S) {doc : Document} (hw : WellFormedDocument doc)
    (h : (validate S ov doc {}).1 = []) (hc : ∀ f ∈ doc.fragments, Consistent S doc.fragments f.typeCondition f.sub)
    {env : Exec.Env} {m : Request.FragmentMap} (hm : Request.collectFragments env doc.fragments [] = .ok m)
    (sub : List Selection) : ∃ tree, Request.expand m sub = some tree := by
  refine Option.isSome_iff_exists.mp (expand_isSome hm ?_ sub)
  intro name f hf
  have hmem := List.mem_of_find?_eq_some hf
  have hname : f.name = name := by simpa using List.find?_some hf
  rw [← hname]
  exact C20_no_cycles hS hw h hmem (hc f hmem)

end Verif.Validation
