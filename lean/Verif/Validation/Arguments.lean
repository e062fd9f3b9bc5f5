import Verif.Validation.Inputs

/-!
# Arguments and directives
-/
namespace Verif.Validation
open Verif.Value Verif.Resp Verif.Errors Verif.Ast Spec

theorem collectArguments_ok (what : Str) (xs : Args) (acc : List (Str × Lit)) :
    ((collectArguments what xs acc).1 = [] ↔ FreshMembers (acc.map (·.1)) xs) ∧
      ((collectArguments what xs acc).1 = [] → (collectArguments what xs acc).2 = acc ++ xs) := by
  induction xs generalizing acc with
  | nil => simp [collectArguments, FreshMembers]
  | cons x xs ih =>
    obtain ⟨name, x⟩ := x
    rw [FreshMembers.cons]
    simp only [collectArguments]
    by_cases h : (acc.any fun e => e.1 == name) = true
    · rw [if_pos h]
      have := any_name.mp h
      simp [this]
    · rw [if_neg h]
      have hn : name ∉ acc.map (·.1) := fun hc => h (any_name.mpr hc)
      have h1 := visitValue_ok x
      have h2 := ih (acc ++ [(name, (visitValue x).2)])
      simp only [List.map_append, List.map_cons, List.map_nil] at h2
      simp only [List.append_eq_nil_iff]
      refine ⟨?_, ?_⟩
      · rw [h1.1, h2.1]; exact ⟨fun h => ⟨hn, h⟩, fun h => h.2⟩
      · intro h; rw [h2.2 h.2, h1.2 h.1]; simp

/-- No argument is written twice, nor a member inside of one. -/
def UniqueArgs (given : Args) : Prop := (given.map (·.1)).Nodup ∧ ∀ e ∈ given, Unique e.2

theorem collectArguments_nil (what : Str) (xs : Args) : (collectArguments what xs []).1 = [] ↔ UniqueArgs xs := by
  rw [(collectArguments_ok what xs []).1]; simp [FreshMembers, UniqueArgs]

theorem collectArguments_eq (what : Str) (xs : Args) (h : UniqueArgs xs) : (collectArguments what xs []).2 = xs := by
  simpa using (collectArguments_ok what xs []).2 ((collectArguments_nil what xs).mpr h)

theorem undefinedArguments_nil (what : Str) (defs : List InputValue) (given : List (Str × Lit)) :
    undefinedArguments what defs given = [] ↔ ∀ e ∈ given, (findArgument defs e.1).isSome := by
  unfold undefinedArguments
  rw [List.filterMap_eq_nil_iff]
  refine forall₂_congr fun e _ => ?_
  cases findArgument defs e.1 <;> simp

theorem findValue_mem {given : List (Str × Lit)} {name : Str} {l : Lit} (h : findValue given name = some l) :
    (name, l) ∈ given := by
  unfold findValue at h
  cases hf : given.find? (fun e => e.1 == name) with
  | none => simp [hf] at h
  | some e =>
    simp only [hf, Option.map_some, Option.some.injEq] at h
    have h1 := List.mem_of_find?_eq_some hf
    have h2 := List.find?_some hf
    simp only [beq_iff_eq] at h2
    subst h2 h
    exact h1

theorem find_nodup {α β : Type} [BEq α] [LawfulBEq α] {l : List (α × β)} (hn : (l.map (·.1)).Nodup) {a : α} {b : β}
    (h : (a, b) ∈ l) : l.find? (fun e => e.1 == a) = some (a, b) := by
  induction l with
  | nil => simp at h
  | cons e l ih =>
    simp only [List.map_cons, List.nodup_cons] at hn
    rcases List.mem_cons.mp h with rfl | h
    · simp
    · have : e.1 ≠ a := by
        rintro rfl; exact hn.1 (List.mem_map.mpr ⟨_, h, rfl⟩)
      simp [this, ih hn.2 h]

theorem findValue_iff {given : List (Str × Lit)} (hn : (given.map (·.1)).Nodup) {name : Str} {l : Lit} :
    findValue given name = some l ↔ (name, l) ∈ given :=
  ⟨findValue_mem, fun h => by unfold findValue; rw [find_nodup hn h]; rfl⟩

/-- What is checked for one defined argument. -/
def DefOk (S : Schema) (vars : Option VariableTypes) (given : List (Str × Lit)) (name : Str) (a : Argument) : Prop :=
  (∀ l, findValue given name = some l → l ≠ .null → Fits S vars a.nonNullDefaultValue l a.type) ∧
  (Required a.type → a.defaultValue = false → ∃ l, findValue given name = some l ∧ l ≠ .null)

def definedVariables (S : Schema) (vars : Option VariableTypes) (defs : List InputValue) (given : List (Str × Lit))
    (names : List Str) : Set Str :=
  {v | ∃ name ∈ names, ∃ a, findArgument defs name = some a ∧ ∃ l, findValue given name = some l ∧
    v ∈ litVariables S vars l a.type}

/-- The local function of `checkDefined`. -/
def requiredFail (argument : Argument) (m : Str) (st : State) : State :=
  if argument.defaultValue then st
  else match argument.type with
    | .nonNull _ => st.fail m
    | _ => st

theorem requiredFail_quiet (a : Argument) (m : Str) (st : State) : Quiet st (requiredFail a m st) := by
  unfold requiredFail
  split
  · exact .refl _
  · split
    · exact .fail _ _
    · exact .refl _

theorem requiredFail_step (a : Argument) (m : Str) (st : State) :
    Step (Required a.type → a.defaultValue = true) ∅ st (requiredFail a m st) := by
  unfold requiredFail
  cases hd : a.defaultValue with
  | true => exact (Step.refl st).congr (by simp) (by simp)
  | false =>
    simp only [Bool.false_eq_true, if_false]
    cases ht : a.type with
    | nonNull of => exact .fail _ _ _ (by intro h; exact absurd (h ⟨of, rfl⟩) (by simp))
    | named n => exact (Step.refl st).congr (by simp [Required]) (by simp)
    | list n => exact (Step.refl st).congr (by simp [Required]) (by simp)

theorem checkDefined_cons (S : Schema) (what : Str) (defs : List InputValue) (given : List (Str × Lit)) (name : Str)
    (names : List Str) (st : State) (a : Argument) (ha : findArgument defs name = some a) :
    checkDefined S what defs given (name :: names) st = checkDefined S what defs given names
      (match findValue given name with
        | none => requiredFail a (str "Missing argument " ++ what ++ str " name: " ++ name) st
        | some .null => requiredFail a (str "Required non-null argument " ++ what ++ str " name: " ++ name) st
        | some value =>
          match validateInputValue S a.nonNullDefaultValue value a.type st with
          | (st, true) => st
          | (st, false) => st.fail (str "Incompatible argument " ++ what ++ str " name: " ++ name)) := by
  simp only [checkDefined, ha]
  cases findValue given name with
  | none => rfl
  | some l =>
    cases l with
    | null => rfl
    | _ =>
      dsimp only
      generalize validateInputValue S _ _ _ _ = r
      rcases r with ⟨st', _ | _⟩ <;> rfl

theorem checkDefined_quiet (S : Schema) (what : Str) (defs : List InputValue) (given : List (Str × Lit)) (names : List Str)
    (st : State) : Quiet st (checkDefined S what defs given names st) := by
  induction names generalizing st with
  | nil => exact .refl _
  | cons name names ih =>
    cases ha : findArgument defs name with
    | none => simp only [checkDefined, ha]; exact ih st
    | some a =>
      rw [checkDefined_cons _ _ _ _ _ _ _ a ha]
      refine .trans ?_ (ih _)
      split
      · exact requiredFail_quiet _ _ _
      · exact requiredFail_quiet _ _ _
      · rename_i l _ _
        have := validateInputValue_quiet S l a.nonNullDefaultValue a.type st
        split
        · rename_i h; rw [h] at this; exact this
        · rename_i h; rw [h] at this; exact .trans this (.fail _ _)

theorem checkDefined_step {S : Schema} (he : S.find [] = none) (hin : KnownInputs S) (what : Str) {defs : List InputValue}
    (hk : KnownArgs S defs) (given : List (Str × Lit)) (names : List Str) (st : State)
    (hv : VarsOk S st.operationVariables) :
    Step (∀ name ∈ names, ∀ a, findArgument defs name = some a → DefOk S st.operationVariables given name a)
      (definedVariables S st.operationVariables defs given names) st (checkDefined S what defs given names st) := by
  induction names generalizing st with
  | nil =>
    refine (Step.refl st).congr (by simp) fun _ => ?_
    ext v; simp [definedVariables]
  | cons name names ih =>
    cases ha : findArgument defs name with
    | none =>
      simp only [checkDefined, ha]
      refine (ih st hv).congr (by simp [ha]) fun _ => ?_
      ext v; simp [definedVariables, ha]
    | some a =>
      rw [checkDefined_cons _ _ _ _ _ _ _ a ha]
      -- the check of this one
      have one : ∀ (U : Set Str) (st' : State),
          Step (DefOk S st.operationVariables given name a) U st st' →
          (DefOk S st.operationVariables given name a →
            U = {v | ∃ l, findValue given name = some l ∧ v ∈ litVariables S st.operationVariables l a.type}) →
          Step (∀ n ∈ name :: names, ∀ a, findArgument defs n = some a → DefOk S st.operationVariables given n a)
            (definedVariables S st.operationVariables defs given (name :: names)) st
            (checkDefined S what defs given names st') := by
        intro U st' h hU
        have hov := h.operationVariables
        have h2 := ih st' (by rw [hov]; exact hv)
        rw [hov] at h2
        refine (h.trans h2).congr ?_ ?_
        · simp only [List.mem_cons, forall_eq_or_imp, ha, Option.some.injEq, forall_eq']
        · rintro ⟨hd, _⟩
          rw [hU hd]
          ext v
          simp [definedVariables, ha]
      cases hf : findValue given name with
      | none =>
        refine one ∅ _ ((requiredFail_step a _ st).congr ?_ fun _ => rfl) ?_
        · simp only [DefOk, hf]; simp
        · intro _; ext v; simp [hf]
      | some l =>
        by_cases hl : l = .null
        · subst hl
          refine one ∅ _ ((requiredFail_step a _ st).congr ?_ fun _ => rfl) ?_
          · simp only [DefOk, hf]; simp
          · intro _; ext v
            simp only [hf, Option.some.injEq, exists_eq_left', Set.mem_ofPred_eq, Set.mem_empty_iff_false, false_iff]
            rintro ⟨_, h⟩; cases h
        · have h1 := validateInputValue_input he hin l a.nonNullDefaultValue a.type st (hk.find ha) hv
          have hd : Fits S st.operationVariables a.nonNullDefaultValue l a.type ↔ DefOk S st.operationVariables given name a := by
            unfold DefOk
            simp only [hf, Option.some.injEq, forall_eq']
            exact ⟨fun h => ⟨fun _ => h, fun _ _ => ⟨l, rfl, hl⟩⟩, fun h => h.1 hl⟩
          have hm : (match some l with
              | none => requiredFail a (str "Missing argument " ++ what ++ str " name: " ++ name) st
              | some .null => requiredFail a (str "Required non-null argument " ++ what ++ str " name: " ++ name) st
              | some value =>
                match validateInputValue S a.nonNullDefaultValue value a.type st with
                | (st, true) => st
                | (st, false) => st.fail (str "Incompatible argument " ++ what ++ str " name: " ++ name)) =
              match validateInputValue S a.nonNullDefaultValue l a.type st with
                | (st, true) => st
                | (st, false) => st.fail (str "Incompatible argument " ++ what ++ str " name: " ++ name) := by
            cases l with
            | null => exact absurd rfl hl
            | _ => rfl
          rw [hm]
          refine one (litVariables S st.operationVariables l a.type) _ ?_ ?_
          · cases hr : validateInputValue S a.nonNullDefaultValue l a.type st with
            | mk st' b =>
              rw [hr] at h1
              cases b with
              | true => exact h1.step.congr hd fun _ => rfl
              | false =>
                have hno : ¬ Fits S st.operationVariables a.nonNullDefaultValue l a.type := by rw [← h1.result]; simp
                exact h1.step.bad hno (.fail _ _) (fun h => hno (hd.mpr h))
          · intro _; ext v; simp [hf]

theorem checkArguments_quiet (S : Schema) (what : Str) (defs : List InputValue) (given : List (Str × Lit)) (st : State) :
    Quiet st (checkArguments S what defs given st) :=
  .trans (.failAll _ _) (checkDefined_quiet _ _ _ _ _ _)

theorem checkArguments_step {S : Schema} (he : S.find [] = none) (hin : KnownInputs S) (what : Str) {defs : List InputValue}
    (hk : KnownArgs S defs) {given : Args} (hu : UniqueArgs given) (st : State) (hv : VarsOk S st.operationVariables) :
    Step (ArgumentsOk S st.operationVariables defs given) (argumentVariables S st.operationVariables defs given) st
      (checkArguments S what defs given st) := by
  refine ((Step.failAll st (undefinedArguments what defs given)).trans
    (checkDefined_step he hin what hk given (argumentNames defs) (st.failAll _) hv)).congr ?_ ?_
  · rw [undefinedArguments_nil]
    constructor
    · rintro ⟨h1, h2⟩
      have h2' : ∀ name a, findArgument defs name = some a → DefOk S st.operationVariables given name a :=
        fun name a h => h2 name (by rw [mem_argumentNames, h]; rfl) a h
      refine ⟨hu.1, hu.2, h1, ?_, ?_⟩
      · intro e he a ha hne
        exact (h2' e.1 a ha).1 e.2 ((findValue_iff hu.1).mpr he) hne
      · intro name a ha hr hd
        obtain ⟨l, hl, hne⟩ := (h2' name a ha).2 hr hd
        exact ⟨(name, l), findValue_mem hl, rfl, hne⟩
    · intro h
      refine ⟨h.known, fun name _ a ha => ⟨?_, ?_⟩⟩
      · intro l hl hne; exact h.values (name, l) (findValue_mem hl) a ha hne
      · intro hr hd
        obtain ⟨⟨n, l⟩, he, rfl, hne⟩ := h.required name a ha hr hd
        exact ⟨l, (findValue_iff hu.1).mpr he, hne⟩
  · intro _
    rw [Set.empty_union]
    ext v
    constructor
    · rintro ⟨name, _, a, ha, l, hl, hs, hm⟩
      exact ⟨hs, (name, l), findValue_mem hl, a, ha, hm⟩
    · rintro ⟨hs, ⟨n, l⟩, he, a, ha, hm⟩
      exact ⟨n, by rw [mem_argumentNames, ha]; rfl, a, ha, l, (findValue_iff hu.1).mpr he, hs, hm⟩

/-- Collecting the arguments and checking them. -/
theorem collect_check_step {S : Schema} (he : S.find [] = none) (hin : KnownInputs S) (what : Str) {defs : List InputValue}
    (hk : KnownArgs S defs) (given : Args) (st : State) (hv : VarsOk S st.operationVariables) :
    Step (ArgumentsOk S st.operationVariables defs given) (argumentVariables S st.operationVariables defs given) st
      (checkArguments S what defs (collectArguments what given []).2 (st.failAll (collectArguments what given []).1)) := by
  by_cases hu : UniqueArgs given
  · rw [collectArguments_eq what given hu, (collectArguments_nil what given).mpr hu]
    have h := checkArguments_step he hin what hk hu (st.failAll []) hv
    refine ((Step.failAll st []).trans h).congr (by simp; rfl) fun _ => ?_
    rw [Set.empty_union]; rfl
  · refine (Step.failAll st _).bad (by rw [collectArguments_nil]; exact hu) (checkArguments_quiet _ _ _ _ _) ?_
    intro h; exact hu ⟨h.unique, h.uniqueMembers⟩

/-! ## Directives -/

/-- Every directive has known arguments. -/
def KnownDirectives (S : Schema) : Prop := ∀ d ∈ S.directives, KnownArgs S d.arguments

theorem findDirective_mem {S : Schema} {name : Str} {d : DirectiveDef} (h : S.findDirective name = some d) :
    d ∈ S.directives := List.mem_reverse.mp (List.mem_of_find?_eq_some h)

theorem visitDirectiveList_quiet (S : Schema) (location : Location) (ds : List Directive) (seen : List Str) (st : State) :
    Quiet st (visitDirectiveList S location ds seen st) := by
  induction ds generalizing seen st with
  | nil => exact .refl _
  | cons d ds ih =>
    simp only [visitDirectiveList]
    split
    · exact .trans (.fail _ _) (ih _ _)
    · split
      · exact .trans (.fail _ _) (ih _ _)
      · split
        · exact .trans (.fail _ _) (ih _ _)
        · split
          · exact ih _ _
          · exact .trans (.trans (.failAll _ _) (checkArguments_quiet _ _ _ _ _)) (ih _ _)

theorem visitDirectives_quiet (S : Schema) (location : Location) (ds : Option (List Directive)) (st : State) :
    Quiet st (visitDirectives S location ds st) := by
  unfold visitDirectives
  split
  · exact .refl _
  · exact visitDirectiveList_quiet _ _ _ _ _

/-- One directive. -/
def DirectiveOk (S : Schema) (vars : Option VariableTypes) (location : Location) (d : Directive) : Prop :=
  ∃ def_, S.findDirective d.name = some def_ ∧ location ∈ def_.locations ∧
    ∀ args, d.arguments = some args → ArgumentsOk S vars def_.arguments args

theorem visitDirectiveList_step {S : Schema} (he : S.find [] = none) (hin : KnownInputs S) (hds : KnownDirectives S)
    (location : Location) (ds : List Directive) (seen : List Str) (st : State) (hv : VarsOk S st.operationVariables) :
    Step ((ds.map (·.name)).Nodup ∧ (∀ d ∈ ds, d.name ∉ seen) ∧ ∀ d ∈ ds, DirectiveOk S st.operationVariables location d)
      (directiveVariables S st.operationVariables (some ds)) st (visitDirectiveList S location ds seen st) := by
  induction ds generalizing seen st with
  | nil =>
    refine (Step.refl st).congr (by simp) fun _ => ?_
    ext v; simp [directiveVariables]
  | cons d ds ih =>
    -- the first one is wrong
    have wrong : ∀ m seen', (d.name ∉ seen → ¬ DirectiveOk S st.operationVariables location d) →
        Step (((d :: ds).map (·.name)).Nodup ∧ (∀ x ∈ d :: ds, x.name ∉ seen) ∧
            ∀ x ∈ d :: ds, DirectiveOk S st.operationVariables location x)
          (directiveVariables S st.operationVariables (some (d :: ds))) st
          (visitDirectiveList S location ds seen' (st.fail m)) := by
      intro m seen' hno
      refine (Step.fail (P := False) ∅ st m (by simp)).bad (by simp) (visitDirectiveList_quiet _ _ _ _ _) ?_
      rintro ⟨_, h2, h3⟩
      exact hno (h2 d (by simp)) (h3 d (by simp))
    simp only [visitDirectiveList]
    split
    · rename_i hs
      refine wrong _ _ fun h => ?_
      exact absurd (by simpa using hs) h
    · rename_i hs
      have hs' : d.name ∉ seen := by simpa using hs
      -- the rest
      have rest : ∀ (U : Set Str) (st' : State), Step (DirectiveOk S st.operationVariables location d) U st st' →
          (DirectiveOk S st.operationVariables location d → U = directiveVariables S st.operationVariables (some [d])) →
          Step (((d :: ds).map (·.name)).Nodup ∧ (∀ x ∈ d :: ds, x.name ∉ seen) ∧
              ∀ x ∈ d :: ds, DirectiveOk S st.operationVariables location x)
            (directiveVariables S st.operationVariables (some (d :: ds))) st
            (visitDirectiveList S location ds (d.name :: seen) st') := by
        intro U st' h hU
        have hov := h.operationVariables
        have h2 := ih (d.name :: seen) st' (by rw [hov]; exact hv)
        rw [hov] at h2
        refine (h.trans h2).congr ?_ ?_
        · simp only [List.map_cons, List.nodup_cons, List.mem_cons, forall_eq_or_imp, not_or]
          constructor
          · rintro ⟨h1, h2, h3, h4⟩
            refine ⟨⟨?_, h2⟩, ⟨hs', fun x hx => (h3 x hx).2⟩, h1, h4⟩
            intro hm
            obtain ⟨x, hx, hxn⟩ := List.mem_map.mp hm
            exact (h3 x hx).1 hxn
          · rintro ⟨⟨h1, h2⟩, ⟨_, h3⟩, h4, h5⟩
            refine ⟨h4, h2, fun x hx => ⟨?_, h3 x hx⟩, h5⟩
            intro hxn; exact h1 (List.mem_map.mpr ⟨x, hx, hxn⟩)
        · rintro ⟨hd, _⟩
          rw [hU hd]
          ext v; simp [directiveVariables]
      split
      · rename_i hnone
        refine wrong _ _ fun _ ⟨def_, h, _⟩ => ?_
        rw [hnone] at h; cases h
      · rename_i def_ hdef
        split
        · rename_i hloc
          refine wrong _ _ fun _ ⟨def_', h, hl, _⟩ => ?_
          rw [hdef] at h; cases h
          simp [hl] at hloc
        · rename_i hloc
          have hloc' : location ∈ def_.locations := by simpa using hloc
          split
          · rename_i hargs
            refine rest ∅ st ((Step.refl st).congr ?_ fun _ => rfl) ?_
            · simp only [true_iff]
              exact ⟨def_, hdef, hloc', by simp [hargs]⟩
            · intro _; ext v; simp [directiveVariables, hargs]
          · rename_i args hargs
            have h1 := collect_check_step he hin (str "directive: " ++ d.name) (hds def_ (findDirective_mem hdef)) args st hv
            refine rest _ _ (h1.congr ?_ fun _ => rfl) ?_
            · constructor
              · intro h; exact ⟨def_, hdef, hloc', by rw [hargs]; rintro _ ⟨⟩; exact h⟩
              · rintro ⟨def_', h, _, h'⟩; rw [hdef] at h; cases h; exact h' args hargs
            · intro _; ext v; simp [directiveVariables, hargs, hdef]

theorem visitDirectives_step {S : Schema} (he : S.find [] = none) (hin : KnownInputs S) (hds : KnownDirectives S)
    (location : Location) (ds : Option (List Directive)) (st : State) (hv : VarsOk S st.operationVariables) :
    Step (DirectivesOk S st.operationVariables location ds) (directiveVariables S st.operationVariables ds) st
      (visitDirectives S location ds st) := by
  unfold visitDirectives
  cases ds with
  | none =>
    refine (Step.refl st).congr ?_ fun _ => ?_
    · simp only [true_iff]; exact ⟨by simp, by simp⟩
    · ext v; simp [directiveVariables]
  | some ds =>
    refine (visitDirectiveList_step he hin hds location ds [] st hv).congr ?_ fun _ => rfl
    constructor
    · rintro ⟨h1, _, h3⟩; exact ⟨h1, h3⟩
    · rintro ⟨h1, h2⟩; exact ⟨h1, by simp, h2⟩

end Verif.Validation
