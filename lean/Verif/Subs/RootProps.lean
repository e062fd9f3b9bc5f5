import Verif.Subs.Deliver

/-!
# C47: what `subscribe` registers
-/
namespace Verif.Subs
open Verif.Value Verif.Resp Verif.Errors Verif.Ast Verif.Exec Verif.Request Verif.Request.Spec

variable {E O C : Type}

/-! ## Specification -/

/-- The field of a selection which is not a fragment. -/
def fieldOf : Selection → Option Field
  | .leaf f => some f
  | .node f _ _ => some f
  | .spread .. => none
  | .inline .. => none

/-- The field is skipped by its directives. -/
def Skipped (env : Env) (f : Field) : Prop :=
  ∃ ds, evalDirectives env f.directives = .ok ds ∧ shouldSkip ds = .ok true

/-- `f` is the only field of the selections which is not skipped, and its arguments and directives have these values. -/
def OnlyField (env : Env) (ss : List Selection) (f : Field) (arguments directives : Members) : Prop :=
  ∃ before s after, ss = before ++ s :: after ∧ fieldOf s = some f ∧
    evalDirectives env f.directives = .ok directives ∧ shouldSkip directives = .ok false ∧
    evalOptArgs env f.arguments = .ok arguments ∧
    (∀ s' ∈ before, ∀ g, fieldOf s' = some g → Skipped env g) ∧ (∀ s' ∈ after, fieldOf s' = none)

/-- Every field is skipped. -/
def NoField (env : Env) (ss : List Selection) : Prop := ∀ s ∈ ss, ∀ g, fieldOf s = some g → Skipped env g

/-! ## Proof -/

theorem visitRootField_taken {env : Env} {f : Field} {v v' : Visited} (hv : v.field ≠ [])
    (h : visitRootField env f v = .ok v') : False := by
  unfold visitRootField at h
  cases hf : v.field with
  | nil => exact hv hf
  | cons a l => simp [hf] at h

theorem visitRootField_free {env : Env} {f : Field} {v' : Visited} (h : visitRootField env f {} = .ok v') :
    (v' = {} ∧ Skipped env f) ∨
    ∃ ds args, evalDirectives env f.directives = .ok ds ∧ shouldSkip ds = .ok false ∧
      evalOptArgs env f.arguments = .ok args ∧ v' = ⟨f.name, some args, some ds⟩ := by
  unfold visitRootField at h
  simp only [List.isEmpty_nil, Bool.not_true, Bool.false_eq_true, if_false] at h
  split at h
  · simp at h
  · rename_i ds hd
    split at h
    · simp at h
    · rename_i hs
      simp only [Except.ok.injEq] at h
      exact .inl ⟨h.symm, ds, hd, hs⟩
    · rename_i hs
      split at h
      · simp at h
      · rename_i args ha
        simp only [Except.ok.injEq] at h
        exact .inr ⟨ds, args, hd, hs, ha, h.symm⟩

/-- A fragment changes nothing. -/
theorem visitRoot_fragment {types : Option (Str → Bool)} {env : Env} {fragments : FragmentMap} {s : Selection}
    {ss : List Selection} {v v' : Visited} (hs : fieldOf s = none) (h : visitRoot types env fragments (s :: ss) v = .ok v') :
    visitRoot types env fragments ss v = .ok v' := by
  cases s with
  | leaf f => simp [fieldOf] at hs
  | node f pos sub => simp [fieldOf] at hs
  | spread pos name ds =>
    simp only [visitRoot] at h
    cases hf : fragments.find name with
    | none => simp [hf] at h
    | some fragment =>
      simp only [hf] at h
      cases types with
      | none => simp at h
      | some types =>
        simp only at h
        cases hr : visitRootFragment (types fragment.info.type) env ds v with
        | error e => simp [hr] at h
        | ok w =>
          simp only [hr] at h
          have : w = v := by
            unfold visitRootFragment at hr
            split at hr
            · simp only [Except.ok.injEq] at hr; exact hr.symm
            · split at hr
              · simp at hr
              · split at hr
                · simp at hr
                · simp only [Except.ok.injEq] at hr; exact hr.symm
                · simp at hr
          subst this
          exact h
  | inline pos t ds sub =>
    simp only [visitRoot] at h
    cases hd : evalDirectives env ds with
    | error e => simp [hd] at h
    | ok evaluated =>
      simp only [hd] at h
      cases hs : shouldSkip evaluated with
      | error e => simp [hs] at h
      | ok b =>
        cases b with
        | true => simp only [hs] at h; exact h
        | false =>
          simp only [hs] at h
          cases t with
          | none => simp at h
          | some t =>
            cases types with
            | none => simp at h
            | some types =>
              simp only at h
              split at h
              · simp at h
              · exact h

theorem visitRoot_fieldOf {types : Option (Str → Bool)} {env : Env} {fragments : FragmentMap} {s : Selection} {f : Field}
    {ss : List Selection} {v v' : Visited} (hs : fieldOf s = some f)
    (h : visitRoot types env fragments (s :: ss) v = .ok v') :
    ∃ w, visitRootField env f v = .ok w ∧ visitRoot types env fragments ss w = .ok v' := by
  cases s with
  | leaf g =>
    simp only [fieldOf, Option.some.injEq] at hs; subst hs
    simp only [visitRoot] at h
    split at h
    · simp at h
    · exact ⟨_, ‹_›, h⟩
  | node g pos sub =>
    simp only [fieldOf, Option.some.injEq] at hs; subst hs
    simp only [visitRoot] at h
    split at h
    · simp at h
    · exact ⟨_, ‹_›, h⟩
  | spread pos name ds => simp [fieldOf] at hs
  | inline pos t ds sub => simp [fieldOf] at hs

theorem visitRoot_taken {types : Option (Str → Bool)} {env : Env} {fragments : FragmentMap} (ss : List Selection)
    {v v' : Visited} (hv : v.field ≠ []) (h : visitRoot types env fragments ss v = .ok v') :
    v' = v ∧ ∀ s ∈ ss, fieldOf s = none := by
  induction ss with
  | nil => simp only [visitRoot, Except.ok.injEq] at h; exact ⟨h.symm, by simp⟩
  | cons s ss ih =>
    cases hs : fieldOf s with
    | none =>
      have := ih (visitRoot_fragment hs h)
      exact ⟨this.1, by simpa [hs] using this.2⟩
    | some f =>
      obtain ⟨w, hw, _⟩ := visitRoot_fieldOf hs h
      exact (visitRootField_taken hv hw).elim

theorem visitRoot_free {types : Option (Str → Bool)} {env : Env} {fragments : FragmentMap} (ss : List Selection)
    {v' : Visited} (hn : ∀ s ∈ ss, ∀ f, fieldOf s = some f → f.name ≠ [])
    (h : visitRoot types env fragments ss {} = .ok v') :
    (v' = {} ∧ NoField env ss) ∨ ∃ f args ds, OnlyField env ss f args ds ∧ v' = ⟨f.name, some args, some ds⟩ := by
  induction ss with
  | nil => simp only [visitRoot, Except.ok.injEq] at h; exact .inl ⟨h.symm, by simp [NoField]⟩
  | cons s ss ih =>
    have hn' : ∀ s ∈ ss, ∀ f, fieldOf s = some f → f.name ≠ [] := fun s hs => hn s (List.mem_cons_of_mem _ hs)
    have step : (∀ g, fieldOf s = some g → Skipped env g) → visitRoot types env fragments ss {} = .ok v' →
        (v' = {} ∧ NoField env (s :: ss)) ∨
        ∃ f args ds, OnlyField env (s :: ss) f args ds ∧ v' = ⟨f.name, some args, some ds⟩ := by
      intro hsk h
      rcases ih hn' h with ⟨rfl, hno⟩ | ⟨f, args, ds, ⟨b, s', a, rfl, h1, h2, h3, h4, h5, h6⟩, rfl⟩
      · exact .inl ⟨rfl, by intro s' hs'; rcases List.mem_cons.mp hs' with rfl | h'; exacts [hsk, hno s' h']⟩
      · refine .inr ⟨f, args, ds, ⟨s :: b, s', a, rfl, h1, h2, h3, h4, ?_, h6⟩, rfl⟩
        intro s'' hs''; rcases List.mem_cons.mp hs'' with rfl | h'; exacts [hsk, h5 s'' h']
    cases hs : fieldOf s with
    | none => exact step (by simp [hs]) (visitRoot_fragment hs h)
    | some f =>
      obtain ⟨w, hw, hr⟩ := visitRoot_fieldOf hs h
      rcases visitRootField_free hw with ⟨rfl, hsk⟩ | ⟨ds, args, h1, h2, h3, rfl⟩
      · exact step (by rw [hs]; rintro g ⟨⟩; exact hsk) hr
      · have := visitRoot_taken ss (hn s (by simp) f hs) hr
        exact .inr ⟨f, args, ds, ⟨[], s, ss, rfl, hs, h1, h2, h3, by simp, this.2⟩, this.1⟩

/-- C47: `subscribe` registers something only for a valid document whose single operation is the requested one and a
subscription. It is registered with the supplied variables and the callback, under the name of the only root field which
is not skipped, with the values of its arguments and directives; or under the empty name if every field is skipped. -/
theorem C47_registered {S : Service E O} {p : Params C} {r : Registration C} (h : registration S p = .ok r)
    (hn : ∀ op ∈ p.doc.operations, ∀ s ∈ op.sub, ∀ f, fieldOf s = some f → f.name ≠ []) :
    (p.validated = true ∨ S.validate p.doc = []) ∧
    ∃ op fragments, p.doc.operations = [op] ∧ (p.operationName = [] ∨ op.name = some p.operationName) ∧
      operationType op = str "subscription" ∧
      collectFragments ⟨p.supplied, S.atoiOverflow⟩ p.doc.fragments [] = .ok fragments ∧
      ExpandsAll fragments op.sub r.selection ∧
      evalDirectives ⟨p.supplied, S.atoiOverflow⟩ op.directives = .ok r.directives ∧
      r.callback = p.callback ∧ r.variables = p.supplied ∧
      ((NoField ⟨p.supplied, S.atoiOverflow⟩ op.sub ∧ r.field = [] ∧ r.arguments = none ∧ r.fieldDirectives = none) ∨
       ∃ f args ds, OnlyField ⟨p.supplied, S.atoiOverflow⟩ op.sub f args ds ∧
         r.field = f.name ∧ r.arguments = some args ∧ r.fieldDirectives = some ds) := by
  unfold registration at h
  split at h
  · simp at h
  · rename_i hval
    have hv : p.validated = true ∨ S.validate p.doc = [] := by
      unfold validate at hval
      cases hp : p.validated with
      | true => exact .inl rfl
      | false =>
        right
        cases hd : S.validate p.doc with
        | nil => rfl
        | cons e es => simp [hp, hd] at hval
    refine ⟨hv, ?_⟩
    simp only at h
    split at h
    · simp at h
    · rename_i fragments hfr
      split at h
      · simp at h
      · rename_i op hop
        split at h
        · simp at h
        · rename_i hty
          split at h
          · simp at h
          · unfold register at h
            split at h
            · simp at h
            · rename_i op' more hops
              split at h
              · simp at h
              · rename_i v hvis
                split at h
                · simp at h
                · rename_i ds hds
                  split at h
                  · simp at h
                  · split at h
                    · simp at h
                    · rename_i xs hx
                      simp only [Except.ok.injEq] at h
                      subst h
                      obtain ⟨b, a, hab, hsel⟩ := findOperation_some.mp hop
                      rw [hops] at hab
                      have hb : b = [] ∧ op' = op := by
                        cases b with
                        | nil => simp only [List.nil_append, List.cons.injEq] at hab; exact ⟨rfl, hab.1⟩
                        | cons x b => simp at hab
                      obtain ⟨rfl, rfl⟩ := hb
                      refine ⟨op', fragments, hops, ?_, by simpa using hty, hfr, expand_sound _ _ _ hx, hds, rfl, rfl, ?_⟩
                      · rcases hsel with ⟨h, _⟩ | ⟨_, h, _⟩
                        · exact .inl h
                        · exact .inr h
                      · rcases visitRoot_free op'.sub (hn op' (by rw [hops]; simp)) hvis with ⟨rfl, h⟩ | ⟨f, args, ds, h, rfl⟩
                        · exact .inl ⟨h, rfl, rfl, rfl⟩
                        · exact .inr ⟨f, args, ds, h, rfl, rfl, rfl⟩

end Verif.Subs
