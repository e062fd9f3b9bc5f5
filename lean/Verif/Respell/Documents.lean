import Verif.Respell.Moves

/-!
# The same document, written with ignored text between all tokens
-/
namespace Verif.Respell
open Verif.Value Verif.Errors Verif.Text Verif.ClientText

variable {pos pos' : Nat → Loc} {atof : Str → Double}

theorem Respells.weaken {n : Nat} {P : Str → Prop} {α β : Type} {f : α → β} {item item' : Str → α → Str → Prop}
    (h : Respells n (fun _ => True) f item item') : Respells n P f item item' :=
  fun s x t hl hi _ => h s x t hl hi trivial

theorem between_follow {α : Type} {o c : Byte} {item : Str → α → Str → Prop} (ho : numberByte o = false) {s x t}
    (h : Between o c item s x t) : Follow s := by
  cases h
  exact follow_cons ho

theorem arguments_respells (n : Nat) :
    Respells n (fun _ => True) (Ast.Args.relocate nowhere) (ArgumentsText pos atof) (ArgumentsText pos' atof) :=
  (between_respells (by decide +kernel) (by decide +kernel) (by decide +kernel) (consumes_pair consumes_value)
    (pair_respells (value_respells n))).mono (Nat.le_succ n)

theorem opt_arguments (n : Nat) : RespellsOpt n Follow (Option.map (Ast.Args.relocate nowhere))
    (Opt (ArgumentsText pos atof)) (Opt (ArgumentsText pos' atof)) :=
  opt_respells (fun _ _ _ h => between_follow (by decide +kernel) h) (fun _ _ => follow_skip) (arguments_respells n).weaken

theorem directive_respells (n : Nat) :
    Respells n Follow (Ast.Directive.relocate nowhere) (DirectiveText pos atof) (DirectiveText pos' atof) := by
  rintro s x t hl ⟨hm, h⟩ hp ts ht
  rename_i m u args
  obtain ⟨hu, k⟩ := opt_arguments (pos' := pos') n _ _ _ (by simp only [List.length_cons, List.length_append] at hl; omega) h hp
  obtain ⟨us, k1, k2⟩ := k ts ht
  refine ⟨.directive m :: us, by simp, ⟨u, .directive hm (follow_name hu), k1⟩, fun s' hs => ?_⟩
  obtain ⟨u', rfl, _, hs1⟩ := heads_directive hs
  obtain ⟨x', t', a, b, c⟩ := k2 u' hs1
  exact ⟨⟨m, x'⟩, t', a, by simp only [Ast.Directive.relocate]; rw [b], .mk hm c⟩

theorem directives_respells (n : Nat) :
    Respells n Follow (List.map (Ast.Directive.relocate nowhere)) (DirectivesText pos atof) (DirectivesText pos' atof) :=
  sep_respells (fun _ _ h => ⟨h.skip, follow_space h⟩) (fun _ _ h => h) consumes_directive (directive_respells n)

theorem directives_follow {s x t} (h : DirectivesText pos atof s x t) : Follow s := by
  cases h with
  | one h => cases h; exact follow_cons (by decide +kernel)
  | more h _ _ => cases h; exact follow_cons (by decide +kernel)

theorem opt_directives (n : Nat) : RespellsOpt n Follow (Option.map (List.map (Ast.Directive.relocate nowhere)))
    (Opt (DirectivesText pos atof)) (Opt (DirectivesText pos' atof)) :=
  opt_respells (fun _ _ _ h => directives_follow h) (fun _ _ => follow_skip) (directives_respells n)

/-! ## Types and variables -/

theorem type_respells (n : Nat) : Respells n Follow id TypeText TypeText := by
  intro s x t _ h
  induction h with
  | @named s m t h =>
    intro hp ts ht
    refine ⟨[.name m], by simp, name_heads h hp ht, fun s' hs => ?_⟩
    obtain ⟨t', h1, h2⟩ := heads_name hs
    exact ⟨_, t', h2, rfl, .named h1⟩
  | @list u v x w t h1 h2 h3 ih =>
    intro hp ts ht
    obtain ⟨us, k1, k2, k3⟩ := ih (by
      obtain ⟨p, rfl⟩ := h1.app
      rename_i hl
      simp only [List.length_cons, List.length_append] at hl; omega) (follow_skip h3 (follow_cons (by decide +kernel))) _
      (.more h3 (.punct (by decide +kernel)) ht)
    refine ⟨.punct (ch '[') :: (us ++ [.punct (ch ']')]), by simp, ⟨_, .punct (by decide +kernel), ?_⟩, fun s' hs => ?_⟩
    · show Tokens _ (us ++ [.punct (ch ']')] ++ ts)
      rw [List.append_assoc]
      exact tokens_of_heads h1 k2
    · obtain ⟨u', rfl, hs1⟩ := heads_punct hs
      have hs2 : Spaced u' (us ++ [.punct (ch ']')] ++ ts) := hs1
      rw [List.append_assoc] at hs2
      obtain ⟨v', e1, e2⟩ := spaced_heads hs2 (heads_ne k2)
      obtain ⟨x', w', a, b, d⟩ := k3 v' e2
      obtain ⟨t', e3, e4⟩ := spaced_punct a
      cases b
      exact ⟨_, t', e4, rfl, .list e1.skip d e3.skip⟩
  | @nonNull s x t u h1 h2 h3 ih =>
    intro hp ts ht
    obtain ⟨us, k1, k2, k3⟩ := ih (by assumption) (follow_skip h3 (follow_cons (by decide +kernel))) _
      (.more h3 (.punct (by decide +kernel)) ht)
    refine ⟨us ++ [.punct (ch '!')], by simp, by rw [List.append_assoc]; exact k2, fun s' hs => ?_⟩
    rw [List.append_assoc] at hs
    obtain ⟨x', w', a, b, d⟩ := k3 s' hs
    obtain ⟨t', e3, e4⟩ := spaced_punct a
    cases b
    exact ⟨_, t', e4, rfl, .nonNull d h2 e3.skip⟩

theorem default_respells (n : Nat) :
    Respells n Follow (Ast.Lit.relocate nowhere) (DefaultText pos atof) (DefaultText pos' atof) := by
  rintro s x t hl ⟨h1, h2⟩ hp ts ht
  rename_i u v
  obtain ⟨g, rfl⟩ := h1.app
  obtain ⟨us, k1, k2, k3⟩ := value_respells (pos' := pos') n _ _ _
    (by simp only [List.length_cons, List.length_append] at hl; omega) h2 hp ts ht
  refine ⟨.punct (ch '=') :: us, by simp, ⟨_, .punct (by decide +kernel), tokens_of_heads h1 k2⟩, fun s' hs => ?_⟩
  obtain ⟨u', rfl, hs1⟩ := heads_punct hs
  obtain ⟨v', e1, e2⟩ := spaced_heads hs1 (heads_ne k2)
  obtain ⟨x', t', a, b, d⟩ := k3 v' e2
  exact ⟨x', t', a, b, .mk e1.skip d⟩

theorem opt_default (n : Nat) : RespellsOpt n Follow (Option.map (Ast.Lit.relocate nowhere))
    (Opt (DefaultText pos atof)) (Opt (DefaultText pos' atof)) :=
  opt_respells (fun _ _ _ h => by cases h; exact follow_cons (by decide +kernel)) (fun _ _ => follow_skip) (default_respells n)

theorem variable_respells (n : Nat) :
    Respells n Follow (Ast.VarDef.relocate nowhere) (VariableText pos atof) (VariableText pos' atof) := by
  rintro s x t hl ⟨hm, h1, h2, h3, h4⟩ hp ts ht
  rename_i m u v w type y dflt
  obtain ⟨g, rfl⟩ := h1.app
  obtain ⟨g', rfl⟩ := h2.app
  obtain ⟨q, -, rfl⟩ := consumes_type _ _ _ h3
  obtain ⟨hy, k⟩ := opt_default (pos' := pos') n _ _ _ (by simp only [List.length_cons, List.length_append] at hl; omega) h4 hp
  obtain ⟨us, k1, k2⟩ := k ts ht
  obtain ⟨vs, l1, l2, l3⟩ := type_respells n _ _ _ (by simp only [List.length_cons, List.length_append] at hl ⊢; omega) h3 hy _ k1
  refine ⟨.variable m :: .punct (ch ':') :: (vs ++ us), by simp,
    ⟨_, .variable hm (follow_name (follow_skip h1 (follow_cons (by decide +kernel)))), .more h1 (.punct (by decide +kernel)) ?_⟩,
    fun s' hs => ?_⟩
  · show Tokens _ (vs ++ us ++ ts)
    rw [List.append_assoc]
    exact tokens_of_heads h2 l2
  · obtain ⟨u', rfl, _, hs1⟩ := heads_variable hs
    obtain ⟨v', e1, hs2⟩ := spaced_punct hs1
    have hs3 : Spaced v' (vs ++ us ++ ts) := hs2
    rw [List.append_assoc] at hs3
    obtain ⟨w', e2, hs4⟩ := spaced_heads hs3 (heads_ne l2)
    obtain ⟨type', y', a, b, d⟩ := l3 w' hs4
    obtain ⟨x', t', a', b', d'⟩ := k2 y' a
    cases b
    exact ⟨⟨m, type, x'⟩, t', a', by simp only [Ast.VarDef.relocate]; rw [b'], .mk hm e1.skip e2.skip d d'⟩

/-! ## Selections -/

theorem alias_respells {s als u} (h : AliasText s als u) {l : List Token} (hl : Heads Tokens u l) :
    ∃ pre, Heads Tokens s (pre ++ l) ∧ ∀ s', Heads Spaced s' (pre ++ l) → ∃ u', Heads Spaced u' l ∧ AliasText s' als u' := by
  cases h with
  | none => exact ⟨[], hl, fun s' hs => ⟨s', hs, .none⟩⟩
  | @some _ m v w _ h1 h2 h3 =>
    refine ⟨[.name m, .punct (ch ':')], ?_, fun s' hs => ?_⟩
    · exact name_heads h1 (follow_skip h2 (follow_cons (by decide +kernel)))
        (.more h2 (.punct (by decide +kernel)) (tokens_of_heads h3 hl))
    · obtain ⟨v', e1, hs1⟩ := heads_name hs
      obtain ⟨w', e2, hs2⟩ := spaced_punct hs1
      obtain ⟨u', e3, hs3⟩ := spaced_heads hs2 (heads_ne hl)
      exact ⟨u', hs3, .some e1 e2.skip e3.skip⟩

theorem field_respells (n : Nat) :
    Respells n Follow (Ast.Field.relocate nowhere) (FieldText pos atof) (FieldText pos' atof) := by
  rintro s x t hl ⟨h1, h2, h3, h4⟩ hp ts ht
  rename_i als u name v args w dirs
  obtain ⟨g, rfl⟩ := alias_app h1
  obtain ⟨hn, rfl⟩ := h2
  obtain ⟨g', rfl⟩ := opt_app consumes_arguments h3
  simp only [List.length_cons, List.length_append] at hl
  obtain ⟨hw, k⟩ := opt_directives (pos' := pos') n _ _ _ (by omega) h4 hp
  obtain ⟨us, k1, k2⟩ := k ts ht
  obtain ⟨hv, l⟩ := opt_arguments (pos' := pos') n _ _ _ (by simp only [List.length_append]; omega) h3 hw
  obtain ⟨vs, l1, l2⟩ := l _ k1
  obtain ⟨pre, m1, m2⟩ := alias_respells h1 (name_heads ⟨hn, rfl⟩ hv l1)
  have e : pre ++ .name name :: (vs ++ us) ++ ts = pre ++ .name name :: (vs ++ (us ++ ts)) := by simp
  refine ⟨pre ++ .name name :: (vs ++ us), by simp, by rw [e]; exact m1, fun s' hs => ?_⟩
  rw [e] at hs
  obtain ⟨u', a1, a2⟩ := m2 s' hs
  obtain ⟨v', b1, b2⟩ := heads_name a1
  obtain ⟨args', w', c1, c2, c3⟩ := l2 v' b2
  obtain ⟨dirs', t', d1, d2, d3⟩ := k2 w' c1
  exact ⟨⟨pos' s'.length, als, name, args', dirs'⟩, t', d1, by
    simp only [Ast.Field.relocate]
    rw [c2]
    congr 1, .mk a2 b1 c3 d3⟩

theorem condition_respells (n : Nat) : Respells n Follow id ConditionText ConditionText := by
  rintro s x t - ⟨h1, h2⟩ hp ts ht
  rename_i u v
  refine ⟨[.name (str "on"), .name x], by simp, ?_, fun s' hs => ?_⟩
  · exact name_heads ⟨⟨_, _, rfl, by decide +kernel, by decide +kernel⟩, rfl⟩ (follow_space h1)
      (tokens_of_heads h1.skip (name_heads h2 hp ht))
  · obtain ⟨u', ⟨_, rfl⟩, hs1⟩ := heads_name hs
    obtain ⟨v', e1, hs2⟩ := spaced_heads hs1 (by simp)
    obtain ⟨t', e2, hs3⟩ := heads_name hs2
    exact ⟨x, t', hs3, rfl, .mk e1 e2⟩

theorem opt_condition {s x t} (h : Opt ConditionText s x t) (hp : Follow t) {ts} (ht : Tokens t ts) :
    ∃ us, Tokens s (us ++ ts) ∧ ∀ s', Spaced s' (us ++ ts) → ∃ t', Spaced t' ts ∧ Opt ConditionText s' x t' := by
  cases h with
  | none => exact ⟨[], ht, fun s' hs => ⟨s', hs, .none⟩⟩
  | @some _ u x _ h1 h2 =>
    obtain ⟨us, k1, k2, k3⟩ := condition_respells (u.length + 1) _ _ _ (by omega) h2 hp ts ht
    refine ⟨us, tokens_of_heads h1 k2, fun s' hs => ?_⟩
    obtain ⟨u', a, b⟩ := spaced_heads hs (heads_ne k2)
    obtain ⟨x', t', a', b', c'⟩ := k3 u' b
    cases b'
    exact ⟨t', a', .some a.skip c'⟩

theorem selection_respells (n : Nat) :
    Respells n Follow (Ast.Selection.relocate nowhere) (SelectionText pos atof) (SelectionText pos' atof) := by
  induction n with
  | zero => intro s x t h; omega
  | succ n ih =>
  intro s x t hl h hp ts ht
  have sub := between_respells (o := ch '{') (c := ch '}') (by decide +kernel) (by decide +kernel) (by decide +kernel)
    consumes_selection ih
  cases h with
  | leaf h =>
    obtain ⟨us, k1, k2, k3⟩ := field_respells (pos' := pos') (n + 1) _ _ _ hl h hp ts ht
    refine ⟨us, k1, k2, fun s' hs => ?_⟩
    obtain ⟨x', t', a, b, c⟩ := k3 s' hs
    exact ⟨.leaf x', t', a, by rw [Ast.Selection.relocate, Ast.Selection.relocate, b], .leaf c⟩
  | @node _ fd u v xs _ h1 h2 h3 =>
    obtain ⟨p, hp', rfl⟩ := consumes_field _ _ _ h1
    obtain ⟨q, rfl⟩ := h2.app
    obtain ⟨us, k1, k2, k3⟩ := sub _ _ _ (by simp only [List.length_append] at hl; omega) h3 trivial ts ht
    obtain ⟨vs, l1, l2, l3⟩ := field_respells (pos' := pos') (n + 1) _ _ _ hl h1
      (follow_skip h2 (between_follow (by decide +kernel) h3)) _ (tokens_of_heads h2 k2)
    refine ⟨vs ++ us, by simp [l1], by rw [List.append_assoc]; exact l2, fun s' hs => ?_⟩
    rw [List.append_assoc] at hs
    obtain ⟨f', u', a, b, c⟩ := l3 s' hs
    obtain ⟨v', a1, a2⟩ := spaced_heads a (heads_ne k2)
    obtain ⟨xs', t', d1, d2, d3⟩ := k3 v' a2
    refine ⟨.node f' (pos' v'.length) xs', t', d1, ?_, .node c a1.skip d3⟩
    rw [Ast.Selection.relocate, Ast.Selection.relocate, b, selectionsAll_eq, selectionsAll_eq, d2]
    rfl
  | @spread u v m w dirs _ h1 h2 h3 h4 =>
    obtain ⟨q, rfl⟩ := h1.app
    obtain ⟨hm, rfl⟩ := h2
    simp only [List.length_append] at hl
    obtain ⟨hw, k⟩ := opt_directives (pos' := pos') n _ _ _ (by have : (str "...").length = 3 := rfl; omega) h4 hp
    obtain ⟨us, k1, k2⟩ := k ts ht
    refine ⟨.spread :: .name m :: us, by simp, ⟨_, .spread, tokens_of_heads h1 (name_heads ⟨hm, rfl⟩ hw k1)⟩, fun s' hs => ?_⟩
    obtain ⟨u', rfl, hs1⟩ := heads_spread hs
    obtain ⟨v', a1, a2⟩ := spaced_heads hs1 (by simp)
    obtain ⟨w', b1, b2⟩ := heads_name a2
    obtain ⟨dirs', t', d1, d2, d3⟩ := k2 w' b2
    refine ⟨.spread (pos' u'.length) m dirs', t', d1, ?_, .spread a1.skip b1 h3 d3⟩
    rw [Ast.Selection.relocate, Ast.Selection.relocate]
    exact congrArg _ d2
  | @inline u cond v dirs w y xs _ h1 h2 h3 h4 =>
    obtain ⟨p, rfl⟩ := opt_app consumes_condition h1
    obtain ⟨q, rfl⟩ := opt_app consumes_directives h2
    obtain ⟨r, rfl⟩ := h3.app
    have l3 : (str "...").length = 3 := rfl
    simp only [List.length_append] at hl
    obtain ⟨us, k1, k2, k3⟩ := sub _ _ _ (by omega) h4 trivial ts ht
    obtain ⟨hv, l⟩ := opt_directives (pos' := pos') n _ _ _ (by simp only [List.length_append]; omega) h2
      (follow_skip h3 (between_follow (by decide +kernel) h4))
    obtain ⟨vs, l1, l2⟩ := l _ (tokens_of_heads h3 k2)
    obtain ⟨ws, m1, m2⟩ := opt_condition h1 hv l1
    have e : Token.spread :: (ws ++ (vs ++ us)) ++ ts = .spread :: (ws ++ (vs ++ (us ++ ts))) := by simp
    refine ⟨.spread :: (ws ++ (vs ++ us)), by simp, ?_, fun s' hs => ?_⟩
    · rw [e]
      exact ⟨_, .spread, m1⟩
    · rw [e] at hs
      obtain ⟨u', rfl, hs1⟩ := heads_spread hs
      obtain ⟨v', a1, a2⟩ := m2 u' hs1
      obtain ⟨dirs', w', b1, b2, b3⟩ := l2 v' a1
      obtain ⟨y', c1, c2⟩ := spaced_heads b1 (heads_ne k2)
      obtain ⟨xs', t', d1, d2, d3⟩ := k3 y' c2
      refine ⟨.inline (pos' u'.length) cond dirs' xs', t', d1, ?_, .inline a2 b3 c1.skip d3⟩
      rw [Ast.Selection.relocate, Ast.Selection.relocate, selectionsAll_eq, selectionsAll_eq, d2]
      exact congrArg (fun z => Ast.Selection.inline _ _ z _) b2

theorem set_respells (n : Nat) : Respells n (fun _ => True) (Ast.Selection.relocateAll nowhere)
    (SelectionSetText pos atof) (SelectionSetText pos' atof) := by
  intro s x t hl h hp ts ht
  obtain ⟨us, k1, k2, k3⟩ := between_respells (o := ch '{') (c := ch '}') (by decide +kernel) (by decide +kernel)
    (by decide +kernel) consumes_selection (selection_respells (pos' := pos') n) _ _ _ (by omega) h trivial ts ht
  refine ⟨us, k1, k2, fun s' hs => ?_⟩
  obtain ⟨x', t', a, b, c⟩ := k3 s' hs
  exact ⟨x', t', a, by rw [selectionsAll_eq, selectionsAll_eq, b], c⟩

/-! ## Definitions -/

theorem operation_name_respells {s x t} (h : OperationNameText s x t) (hp : Follow t) {ts} (ht : Tokens t ts) :
    Follow s ∧ ∃ us, Tokens s (us ++ ts) ∧ ∀ s', Spaced s' (us ++ ts) → ∃ t', Spaced t' ts ∧ OperationNameText s' x t' := by
  cases h with
  | none => exact ⟨hp, [], ht, fun s' hs => ⟨s', hs, .none⟩⟩
  | @some _ u m _ h1 h2 =>
    refine ⟨follow_space h1, [.name m], tokens_of_heads h1.skip (name_heads h2 hp ht), fun s' hs => ?_⟩
    obtain ⟨u', a, b⟩ := spaced_heads hs (by simp)
    obtain ⟨t', c, d⟩ := heads_name b
    exact ⟨t', d, .some a c⟩

theorem variables_respells {s x t} (h : VariablesText pos atof s x t) (hp : Follow t) {ts} (ht : Tokens t ts) :
    Follow s ∧ ∃ us, Tokens s (us ++ ts) ∧ ∀ s', Spaced s' (us ++ ts) → ∃ x' t', Spaced t' ts ∧
      x'.map (Ast.VarDef.relocate nowhere) = x.map (Ast.VarDef.relocate nowhere) ∧ VariablesText pos' atof s' x' t' := by
  cases h with
  | none => exact ⟨hp, [], ht, fun s' hs => ⟨[], s', hs, rfl, .none⟩⟩
  | @some _ u xs _ h1 h2 =>
    obtain ⟨us, k1, k2, k3⟩ := between_respells (o := ch '(') (c := ch ')') (by decide +kernel) (by decide +kernel)
      (by decide +kernel) consumes_variable (variable_respells (pos' := pos') u.length) _ _ _ (by omega) h2 trivial ts ht
    refine ⟨follow_skip h1 (between_follow (by decide +kernel) h2), us, tokens_of_heads h1 k2, fun s' hs => ?_⟩
    obtain ⟨u', a, b⟩ := spaced_heads hs (heads_ne k2)
    obtain ⟨x', t', c, d, e⟩ := k3 u' b
    exact ⟨x', t', c, d, .some a.skip e⟩

theorem operation_respells (n : Nat) : Respells n (fun _ => True) (Ast.Operation.relocate nowhere)
    (OperationText pos atof) (OperationText pos' atof) := by
  intro s x t hl h hp ts ht
  cases h with
  | anonymous h =>
    obtain ⟨us, k1, k2, k3⟩ := set_respells (pos' := pos') n _ _ _ hl h trivial ts ht
    refine ⟨us, k1, k2, fun s' hs => ?_⟩
    obtain ⟨x', t', a, b, c⟩ := k3 s' hs
    exact ⟨_, t', a, by simp only [Ast.Operation.relocate]; rw [b]; rfl, .anonymous c⟩
  | @keyword _ kind u name v vars w dirs y z sub _ hk hs0 h1 h2 h3 h4 h5 =>
    subst hs0
    have hname : IsName kind := by
      rcases hk with rfl | rfl | rfl <;> exact ⟨_, _, rfl, by decide +kernel, by decide +kernel⟩
    obtain ⟨us, k1, k2, k3⟩ := set_respells (pos' := pos') (z.length + 1) _ _ _ (by omega) h5 trivial ts ht
    obtain ⟨hw, l⟩ := opt_directives (pos' := pos') (w.length + 1) _ _ _ (by omega) h3
      (follow_skip h4 (between_follow (by decide +kernel) h5))
    obtain ⟨vs, l1, l2⟩ := l _ (tokens_of_heads h4 k2)
    obtain ⟨hv, ws, m1, m2⟩ := variables_respells (pos' := pos') h2 hw l1
    obtain ⟨hu, ys, o1, o2⟩ := operation_name_respells h1 hv m1
    have e : Token.name kind :: (ys ++ (ws ++ (vs ++ us))) ++ ts = .name kind :: (ys ++ (ws ++ (vs ++ (us ++ ts)))) := by simp
    refine ⟨.name kind :: (ys ++ (ws ++ (vs ++ us))), by simp, by rw [e]; exact name_heads ⟨hname, rfl⟩ hu o1, fun s' hs => ?_⟩
    rw [e] at hs
    obtain ⟨u', ⟨_, rfl⟩, a2⟩ := heads_name hs
    obtain ⟨v', b1, b2⟩ := o2 u' a2
    obtain ⟨vars', w', c1, c2, c3⟩ := m2 v' b1
    obtain ⟨dirs', y', d1, d2, d3⟩ := l2 w' c1
    obtain ⟨z', f1, f2⟩ := spaced_heads d1 (heads_ne k2)
    obtain ⟨sub', t', g1, g2, g3⟩ := k3 z' f2
    refine ⟨_, t', g1, ?_, .keyword hk rfl b2 c3 d3 f1.skip g3⟩
    simp only [Ast.Operation.relocate]
    rw [g2, c2]
    exact congrArg (fun ds => ({
      pos := _, type := _, name := _, «variables» := _, directives := ds, sub := _ } : Ast.Operation)) d2

theorem fragment_respells (n : Nat) : Respells n (fun _ => True) (Ast.FragmentDef.relocate nowhere)
    (FragmentText pos atof) (FragmentText pos' atof) := by
  intro s x t hl h hp ts ht
  cases h with
  | @mk _ a b m c d cond e dirs f g sub _ hs0 h1 h2 h3 h4 h5 h6 h7 h8 =>
    subst hs0
    have hname : IsName (str "fragment") := ⟨_, _, rfl, by decide +kernel, by decide +kernel⟩
    obtain ⟨us, k1, k2, k3⟩ := set_respells (pos' := pos') (g.length + 1) _ _ _ (by omega) h8 trivial ts ht
    obtain ⟨he, l⟩ := opt_directives (pos' := pos') (e.length + 1) _ _ _ (by omega) h6
      (follow_skip h7 (between_follow (by decide +kernel) h8))
    obtain ⟨vs, l1, l2⟩ := l _ (tokens_of_heads h7 k2)
    obtain ⟨ws, m1, m2, m3⟩ := condition_respells (d.length + 1) _ _ _ (by omega) h5 he _ l1
    have eq : Token.name (str "fragment") :: .name m :: (ws ++ (vs ++ us)) ++ ts =
        .name (str "fragment") :: .name m :: (ws ++ (vs ++ (us ++ ts))) := by simp
    refine ⟨.name (str "fragment") :: .name m :: (ws ++ (vs ++ us)), by simp, ?_, fun s' hs => ?_⟩
    · rw [eq]
      exact name_heads ⟨hname, rfl⟩ (follow_space h1) (tokens_of_heads h1.skip
        (name_heads h2 (follow_space h4) (tokens_of_heads h4.skip m2)))
    · rw [eq] at hs
      obtain ⟨a', ⟨_, rfl⟩, a2⟩ := heads_name hs
      obtain ⟨b', b1, b2⟩ := spaced_heads a2 (by simp)
      obtain ⟨c', c1, c2⟩ := heads_name b2
      obtain ⟨d', d1, d2⟩ := spaced_heads c2 (heads_ne m2)
      obtain ⟨cond', e', e1, e2, e3⟩ := m3 d' d2
      cases e2
      obtain ⟨dirs', f', f1, f2, f3⟩ := l2 e' e1
      obtain ⟨g', g1, g2⟩ := spaced_heads f1 (heads_ne k2)
      obtain ⟨sub', t', i1, i2, i3⟩ := k3 g' g2
      refine ⟨_, t', i1, ?_, .mk rfl b1 c1 h3 d1 e3 f3 g1.skip i3⟩
      simp only [Ast.FragmentDef.relocate]
      rw [i2]
      exact congrArg (fun ds => ({
        pos := _, name := _, typeCondition := _, directives := ds, sub := _ } : Ast.FragmentDef)) f2

theorem definition_respells (n : Nat) : Respells n (fun _ => True) (Ast.Definition.relocate nowhere)
    (DefinitionText pos atof) (DefinitionText pos' atof) := by
  intro s x t hl h hp ts ht
  cases h with
  | operation h =>
    obtain ⟨us, k1, k2, k3⟩ := operation_respells (pos' := pos') n _ _ _ hl h trivial ts ht
    refine ⟨us, k1, k2, fun s' hs => ?_⟩
    obtain ⟨x', t', a, b, c⟩ := k3 s' hs
    exact ⟨_, t', a, by rw [Ast.Definition.relocate, Ast.Definition.relocate, b], .operation c⟩
  | fragment h =>
    obtain ⟨us, k1, k2, k3⟩ := fragment_respells (pos' := pos') n _ _ _ hl h trivial ts ht
    refine ⟨us, k1, k2, fun s' hs => ?_⟩
    obtain ⟨x', t', a, b, c⟩ := k3 s' hs
    exact ⟨_, t', a, by rw [Ast.Definition.relocate, Ast.Definition.relocate, b], .fragment c⟩

end Verif.Respell
