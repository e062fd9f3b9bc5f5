import Verif.Validation.Document

/-!
# Exactly the valid documents are accepted
-/
namespace Verif.Validation
open Verif.Value Verif.Resp Verif.Errors Verif.Ast Spec

variable {S : Schema} {ov : Int → Int} {fragments : List FragmentDef}

theorem visitDefinitions_grows (ds : List Definition) (st : State) :
    Grows st (visitDefinitions S ov fragments ds st) := by
  induction ds generalizing st with
  | nil => exact ⟨[], by simp [visitDefinitions]⟩
  | cons d ds ih =>
    cases d with
    | operation op => exact .trans (visitOperationDefinition_grows op st) (ih _)
    | fragment f => exact .trans (visitFragmentDefinition_grows f st) (ih _)
    | other pos => exact .trans ⟨[_], rfl⟩ (ih _)

/-- Each of these definitions is fine. -/
structure DefinitionsOk (S : Schema) (ov : Int → Int) (fragments : List FragmentDef) (ds : List Definition) : Prop where
  other : ∀ pos, .other pos ∉ ds
  fragment : ∀ f, .fragment f ∈ ds → ∃ new, FragmentOk S ov fragments f new
  operation : ∀ op, .operation op ∈ ds → ∃ new, OperationOk S ov fragments op new

/-- One of these definitions uses the fragment. -/
def UsedIn (S : Schema) (ov : Int → Int) (fragments : List FragmentDef) (ds : List Definition) (name : Str) : Prop :=
  (∃ f, .fragment f ∈ ds ∧ ∃ new, FragmentOk S ov fragments f new ∧ name ∈ new) ∨
  (∃ op, .operation op ∈ ds ∧ ∃ new, OperationOk S ov fragments op new ∧ name ∈ new)

theorem visitDefinitions_sound (hS : SchemaOk S) {used : Set Str} {st : State} (h : Idle used st) {ds : List Definition}
    (hf : ∀ f, .fragment f ∈ ds → f ∈ fragments) (hw : ∀ op, .operation op ∈ ds → ∀ d ∈ op.variables, WellFormed d.type) :
    ((visitDefinitions S ov fragments ds st).errors = [] → DefinitionsOk S ov fragments ds) ∧
    (DefinitionsOk S ov fragments ds →
      Idle (used ∪ {name | UsedIn S ov fragments ds name}) (visitDefinitions S ov fragments ds st)) := by
  induction ds generalizing used st with
  | nil =>
    refine ⟨fun _ => ⟨by simp, by simp, by simp⟩, fun _ => ?_⟩
    have : {name | UsedIn S ov fragments [] name} = ∅ := by ext; simp [UsedIn]
    rw [this, Set.union_empty]
    exact h
  | cons d ds ih =>
    have ih' := fun {used : Set Str} {st : State} (h : Idle used st) => ih h
      (fun f hm => hf f (List.mem_cons_of_mem _ hm)) (fun op hm => hw op (List.mem_cons_of_mem _ hm))
    cases d with
    | other pos =>
      refine ⟨fun he => ?_, fun hok => absurd List.mem_cons_self (hok.other pos)⟩
      have := (visitDefinitions_grows ds _).nil he
      simp [State.fail] at this
    | fragment f =>
      have h1 := visitFragment_sound (ov := ov) hS h (hf f (by simp))
      simp only [visitDefinitions]
      constructor
      · intro he
        have he1 := (visitDefinitions_grows ds _).nil he
        obtain ⟨new, hnew⟩ := h1.1 he1
        have h2 := (ih' (h1.2 new hnew)).1 he
        refine ⟨?_, ?_, ?_⟩
        · intro pos; simpa using h2.other pos
        · intro g hg
          simp only [List.mem_cons, Definition.fragment.injEq] at hg
          rcases hg with rfl | hg
          · exact ⟨new, hnew⟩
          · exact h2.fragment g hg
        · intro op hop
          exact h2.operation op (by simpa using hop)
      · intro hok
        obtain ⟨new, hnew⟩ := hok.fragment f (by simp)
        have hi := h1.2 new hnew
        have h2 := (ih' hi).2 ⟨fun pos => by have := hok.other pos; simpa using this,
          fun g hg => hok.fragment g (List.mem_cons_of_mem _ hg), fun op hop => hok.operation op (List.mem_cons_of_mem _ hop)⟩
        refine ⟨h2.errors, h2.cycles, h2.vars, h2.stack, h2.fields, h2.defs, h2.refs, fun name => ?_⟩
        rw [h2.used]
        simp only [Set.mem_union, Set.mem_ofPred_eq, or_assoc]
        constructor
        · rintro (h3 | h3 | ⟨g, hg, h3⟩ | ⟨op, hop, h3⟩)
          · exact .inl h3
          · exact .inr (.inl ⟨f, by simp, new, hnew, h3⟩)
          · exact .inr (.inl ⟨g, List.mem_cons_of_mem _ hg, h3⟩)
          · exact .inr (.inr ⟨op, List.mem_cons_of_mem _ hop, h3⟩)
        · rintro (h3 | ⟨g, hg, new', hnew', h3⟩ | ⟨op, hop, h3⟩)
          · exact .inl h3
          · simp only [List.mem_cons, Definition.fragment.injEq] at hg
            rcases hg with rfl | hg
            · have h4 := (h1.2 new' hnew').used name
              rw [hi.used] at h4
              rcases h4.mpr (.inr h3) with h5 | h5
              · exact .inl h5
              · exact .inr (.inl h5)
            · exact .inr (.inr (.inl ⟨g, hg, new', hnew', h3⟩))
          · exact .inr (.inr (.inr ⟨op, by simpa using hop, h3⟩))
    | operation op =>
      have h1 := visitOperation_sound (ov := ov) (fragments := fragments) hS h (hw op (by simp))
      simp only [visitDefinitions]
      constructor
      · intro he
        have he1 := (visitDefinitions_grows ds _).nil he
        obtain ⟨new, hnew⟩ := h1.1 he1
        have h2 := (ih' (h1.2 new hnew)).1 he
        refine ⟨?_, ?_, ?_⟩
        · intro pos; simpa using h2.other pos
        · intro g hg
          exact h2.fragment g (by simpa using hg)
        · intro op' hop
          simp only [List.mem_cons, Definition.operation.injEq] at hop
          rcases hop with rfl | hop
          · exact ⟨new, hnew⟩
          · exact h2.operation op' hop
      · intro hok
        obtain ⟨new, hnew⟩ := hok.operation op (by simp)
        have hi := h1.2 new hnew
        have h2 := (ih' hi).2 ⟨fun pos => by have := hok.other pos; simpa using this,
          fun g hg => hok.fragment g (List.mem_cons_of_mem _ hg), fun op hop => hok.operation op (List.mem_cons_of_mem _ hop)⟩
        refine ⟨h2.errors, h2.cycles, h2.vars, h2.stack, h2.fields, h2.defs, h2.refs, fun name => ?_⟩
        rw [h2.used]
        simp only [Set.mem_union, Set.mem_ofPred_eq, or_assoc]
        constructor
        · rintro (h3 | h3 | ⟨g, hg, h3⟩ | ⟨op', hop, h3⟩)
          · exact .inl h3
          · exact .inr (.inr ⟨op, by simp, new, hnew, h3⟩)
          · exact .inr (.inl ⟨g, List.mem_cons_of_mem _ hg, h3⟩)
          · exact .inr (.inr ⟨op', List.mem_cons_of_mem _ hop, h3⟩)
        · rintro (h3 | ⟨g, hg, h3⟩ | ⟨op', hop, new', hnew', h3⟩)
          · exact .inl h3
          · exact .inr (.inr (.inl ⟨g, by simpa using hg, h3⟩))
          · simp only [List.mem_cons, Definition.operation.injEq] at hop
            rcases hop with rfl | hop
            · have h4 := (h1.2 new' hnew').used name
              rw [hi.used] at h4
              rcases h4.mpr (.inr h3) with h5 | h5
              · exact .inl h5
              · exact .inr (.inl h5)
            · exact .inr (.inr (.inr ⟨op', hop, new', hnew', h3⟩))

/-! ## Names -/

theorem duplicates_nil (label : String) (names seen : List Str) :
    duplicates label names seen = [] ↔ names.Nodup ∧ ∀ n ∈ names, n ∉ seen := by
  induction names generalizing seen with
  | nil => simp [duplicates]
  | cons n names ih =>
    unfold duplicates
    by_cases h : n ∈ seen
    · rw [if_pos (by simpa using h)]
      simp only [reduceCtorEq, false_iff]
      rintro ⟨_, h2⟩
      exact h2 n (by simp) h
    · rw [if_neg (by simpa using h), ih, List.nodup_cons]
      constructor
      · rintro ⟨h1, h2⟩
        refine ⟨⟨fun hc => h2 n hc (by simp), h1⟩, ?_⟩
        intro m hm
        rcases List.mem_cons.mp hm with rfl | hm
        · exact h
        · intro hc; exact h2 m hm (by simp [hc])
      · rintro ⟨⟨h1, h2⟩, h3⟩
        refine ⟨h2, ?_⟩
        intro m hm hc
        rcases List.mem_append.mp hc with hc | hc
        · exact h3 m (by simp [hm]) hc
        · simp only [List.mem_singleton] at hc
          exact h1 (hc ▸ hm)

theorem anonymousErrors_nil {ops : List Operation} (hn : (ops.map operationName).Nodup) :
    anonymousErrors ops = [] ↔ ∀ op ∈ ops, operationName op = [] → ops = [op] := by
  unfold anonymousErrors
  simp only
  rw [List.Nodup.dedup hn, List.length_map]
  constructor
  · intro h op hop he
    have hm : [] ∈ ops.map operationName := List.mem_map.mpr ⟨op, hop, he⟩
    have hl : ¬ ops.length > 1 := by
      intro hl
      rw [if_pos (by simp [hl]; exact ⟨op, hop, he⟩)] at h
      cases h
    match ops, hop, hl with
    | [a], hop, _ => simp only [List.mem_singleton] at hop; rw [hop]
    | a :: b :: l, _, hl => simp at hl
  · intro h
    rw [if_neg]
    simp only [Bool.and_eq_true, decide_eq_true_eq, List.contains_eq_mem, List.mem_map, not_and, not_exists]
    intro hl op hop he
    have := h op hop he
    rw [this] at hl
    simp at hl

theorem mem_fragments {doc : Document} {f : FragmentDef} : f ∈ doc.fragments ↔ .fragment f ∈ doc.definitions := by
  unfold Document.fragments
  simp only [List.mem_filterMap]
  constructor
  · rintro ⟨d, hd, h⟩
    cases d with
    | fragment g => simp only [Option.some.injEq] at h; rw [← h]; exact hd
    | operation _ => cases h
    | other _ => cases h
  · intro h; exact ⟨_, h, rfl⟩

theorem mem_operations {doc : Document} {op : Operation} : op ∈ doc.operations ↔ .operation op ∈ doc.definitions := by
  unfold Document.operations
  simp only [List.mem_filterMap]
  constructor
  · rintro ⟨d, hd, h⟩
    cases d with
    | operation g => simp only [Option.some.injEq] at h; rw [← h]; exact hd
    | fragment _ => cases h
    | other _ => cases h
  · intro h; exact ⟨_, h, rfl⟩

/-! ## Documents -/

/-- The visitor before a document. -/
theorem visit_iff (hS : SchemaOk S) {doc : Document} (hw : WellFormedDocument doc) {st : State} (h : Idle ∅ st) :
    (visit S ov doc st).errors = [] ↔ Valid S ov doc := by
  unfold visit
  simp only
  have h1 : ∀ ms1 ms2 ms3, ms1 = [] → ms2 = [] → ms3 = [] → ((st.failAll ms1).failAll ms2).failAll ms3 = st := by
    rintro _ _ _ rfl rfl rfl; simp [State.failAll]
  have hfrag : ∀ f, .fragment f ∈ doc.definitions → f ∈ doc.fragments := fun f hf => mem_fragments.mpr hf
  have hops : ∀ op, .operation op ∈ doc.definitions → ∀ d ∈ op.variables, WellFormed d.type :=
    fun op hop => hw op (mem_operations.mpr hop)
  have h2 := visitDefinitions_sound (ov := ov) hS h hfrag hops
  rw [Set.empty_union] at h2
  have hset : ∀ (r : List Str), ((doc.fragments.map (·.name)).dedup.filter fun name => !r.contains name) = [] ↔
      ∀ f ∈ doc.fragments, f.name ∈ r := by
    intro r
    rw [List.filter_eq_nil_iff]
    simp
  constructor
  · intro he
    simp only [State.failAll] at he
    rw [List.append_eq_nil_iff, List.map_eq_nil_iff, hset] at he
    obtain ⟨he, hused⟩ := he
    have he1 := (visitDefinitions_grows doc.definitions _).nil he
    simp only [List.append_eq_nil_iff] at he1
    obtain ⟨⟨⟨_, hd1⟩, hd2⟩, hd3⟩ := he1
    rw [hd1, hd2, hd3] at he hused
    simp only [List.append_nil] at he hused
    rw [duplicates_nil] at hd1 hd2
    have hok := h2.1 he
    have hidle := h2.2 hok
    refine ⟨hok.other, hd1.1, hd2.1, (anonymousErrors_nil hd2.1).mp hd3, fun f hf => hok.fragment f (mem_fragments.mp hf),
      fun op hop => hok.operation op (mem_operations.mp hop), ?_⟩
    intro f hf
    have := (hidle.used f.name).mp (hused f hf)
    rcases this with ⟨g, hg, h⟩ | ⟨op, hop, h⟩
    · exact .inl ⟨g, mem_fragments.mpr hg, h⟩
    · exact .inr ⟨op, mem_operations.mpr hop, h⟩
  · intro hv
    rw [h1 _ _ _ ((duplicates_nil _ _ _).mpr ⟨hv.uniqueFragments, by simp⟩)
      ((duplicates_nil _ _ _).mpr ⟨hv.uniqueOperations, by simp⟩) ((anonymousErrors_nil hv.uniqueOperations).mpr hv.loneAnonymous)]
    have hok : DefinitionsOk S ov doc.fragments doc.definitions :=
      ⟨hv.executable, fun f hf => hv.fragments f (mem_fragments.mpr hf), fun op hop => hv.operations op (mem_operations.mpr hop)⟩
    have hidle := h2.2 hok
    simp only [State.failAll]
    rw [hidle.errors, List.nil_append, List.map_eq_nil_iff, hset]
    intro f hf
    rw [hidle.used]
    rcases hv.used f hf with ⟨g, hg, h⟩ | ⟨op, hop, h⟩
    · exact .inl ⟨g, mem_fragments.mp hg, h⟩
    · exact .inr ⟨op, mem_operations.mp hop, h⟩

/-- **C48** A new visitor reports no errors for exactly the valid documents. -/
theorem C48_accepts_iff_valid (hS : Schema.Closed S) {doc : Document} (hw : WellFormedDocument doc) :
    (validate S ov doc {}).1 = [] ↔ Valid S ov doc := by
  unfold validate getStructuredErrors
  exact visit_iff (.of hS) hw ⟨rfl, rfl, rfl, rfl, rfl, rfl, rfl, by simp⟩

end Verif.Validation
