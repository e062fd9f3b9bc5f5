import Verif.Grammar.Selections
import Verif.Grammar.Fallback

/-!
# Operations, fragment definitions and documents (C52)
-/
namespace Verif.Peg
open Verif.Value Verif.Text Rule

variable {sel : R → Sel} {rd : Read}

theorem firstChild_skip {k : R} {xs : List (Node R)} (h : ∀ x ∈ xs, x.rule ≠ k) (ys : List (Node R)) :
    firstChild k (xs ++ ys) = firstChild k ys := by
  induction xs with
  | nil => rfl
  | cons x xs ih => rw [List.cons_append, firstChild_cons, if_neg (h x (by simp)), ih (fun y hy => h y (by simp [hy]))]

/-! ## Operations -/

/-- The keywords of operations. -/
def IsKind (k : Str) : Prop := k = str "query" ∨ k = str "mutation" ∨ k = str "subscription"

theorem operation_type_ok {s t : Str} {xs : List (Node R)} : eval executableSelector (.ref .operation_type) s = .ok xs t ↔
    ∃ k, IsKind k ∧ s = k ++ t ∧ Ends nameCont t ∧ xs = [.mk .operation_type s.length k []] := by
  rw [ref_store_ok rfl]
  constructor
  · rintro ⟨ys, h, rfl⟩
    have key : ∃ k, IsKind k ∧ ys = [] ∧ s = k ++ t ∧ Ends nameCont t := by
      rcases sor_ok.1 h with h | ⟨_, h⟩
      · exact ⟨_, .inl rfl, keyword_ok.1 h⟩
      · rcases sor_ok.1 h with h | ⟨_, h⟩
        · exact ⟨_, .inr (.inl rfl), keyword_ok.1 h⟩
        · exact ⟨_, .inr (.inr rfl), keyword_ok.1 h⟩
    obtain ⟨k, hk, rfl, rfl, he⟩ := key
    exact ⟨k, hk, rfl, he, by rw [consumed_append]⟩
  · rintro ⟨k, hk, rfl, he, rfl⟩
    refine ⟨[], ?_, by rw [consumed_append]⟩
    rcases hk with rfl | rfl | rfl
    · exact sor_ok.2 (.inl (keyword_ok.2 ⟨rfl, rfl, he⟩))
    · exact sor_next (dead_append (by decide +kernel)) (sor_ok.2 (.inl (keyword_ok.2 ⟨rfl, rfl, he⟩)))
    · exact sor_next (dead_append (by decide +kernel)) (sor_next (dead_append (by decide +kernel))
        (keyword_ok.2 ⟨rfl, rfl, he⟩))

/-- The node stands for the name of the operation. -/
def IsOpName (x : Node R) (a : Str) : Prop := x.rule = .operation_name ∧ x.content = a

theorem opName_sound {s t : Str} {ns : List (Node R)}
    (h : eval executableSelector (.opt (.seq (Rule.plus (.ref .ignored)) (.ref .operation_name))) s = .ok ns t) :
    ∃ o, OperationNameText s o t ∧ OptNode IsOpName ns o := by
  rcases opt_ok.1 h with h1 | ⟨_, rfl, rfl⟩
  · obtain ⟨_, u, _, h2, h3, rfl⟩ := seq_ok.1 h1
    obtain ⟨rfl, hk, _⟩ := plus_space exec_sels h2
    obtain ⟨n, hn, _, rfl⟩ := (nameText_ok (k := .operation_name) rfl rfl).1 h3
    exact ⟨some n, .some hk hn, .some ⟨rfl, rfl⟩⟩
  · exact ⟨none, .none, .none⟩

theorem opName_complete {s t : Str} {o : Option Str} (h : OperationNameText s o t) (hF : Follow nameCont nameStart t) :
    ∃ ns, eval executableSelector (.opt (.seq (Rule.plus (.ref .ignored)) (.ref .operation_name))) s = .ok ns t ∧
      OptNode IsOpName ns o := by
  cases h with
  | none =>
    refine ⟨[], opt_ok.2 (.inr ⟨?_, rfl, rfl⟩), .none⟩
    by_cases hg : Ends gapStart s
    · exact seq_fail.2 (.inl ((plus_ignored_fail exec_sels).2 hg))
    · obtain ⟨g, u, e, hgap, hu, _⟩ := star_ignored exec_sels s
      have hne : g ≠ [] := by
        rintro rfl
        exact hg (by rw [e]; exact hu)
      exact seq_fail.2 (.inr ⟨[], u, (plus_ignored_ok exec_sels).2 ⟨rfl, g, hne, e, hgap, hu⟩,
        needs_of (p := nameStart) (by decide +kernel) (by decide +kernel) u (hF.2 u ⟨g, e, hgap⟩ hu)⟩)
  | @some _ u n _ hk hn =>
    exact ⟨_, opt_ok.2 (.inl (seq_ok.2 ⟨[], u, _, space_plus exec_sels hk (name_starts.ends nameStart_gap hn),
      (nameText_ok (k := .operation_name) rfl rfl).2 ⟨n, hn, hF.1, rfl⟩, rfl⟩)), .some ⟨rfl, rfl⟩⟩

theorem operationOf_keyword {nn vs ds : List (Node R)} {name : Option Str} {xs : List Ast.VarDef} {k : Str} {l l' : Nat}
    {dirs : Option (List Ast.Directive)} {x : Node R} {a : Nat × List Ast.Selection} (hn : OptNode IsOpName nn name)
    (hv : List.Forall₂ (IsVar rd) vs xs) (hd : OptNode (IsDirectives rd) ds dirs) (hx : IsSet rd x a) :
    operationOf rd l ([.mk .operation_type l' k []] ++ (nn ++ (vs ++ (ds ++ [x])))) =
      some { pos := rd.pos l, type := some k, name := name, «variables» := xs, directives := dirs, sub := a.2 } := by
  obtain ⟨c, cs, rfl, hsub⟩ := hx
  have vrule : ∀ y ∈ vs, y.rule = .«variable» := mem_forall₂_left (fun _ _ h => h.1) hv
  have vskip : ∀ {k : R}, k ≠ .«variable» → ∀ y ∈ vs, y.rule ≠ k := fun hk y hy => by rw [vrule y hy]; exact Ne.symm hk
  have e1 : (([.mk .operation_type l' k []] : List (Node R)) ++ (nn ++ (vs ++ (ds ++ [Node.mk .selection_set a.1 c cs])))).filter
      (fun x : Node R => x.rule == R.«variable») = vs := by
    have hv' : vs.filter (·.rule == .«variable») = vs := List.filter_eq_self.2 (by simpa using vrule)
    cases hn with
    | none =>
      cases hd with
      | none => simp [hv', rule_mk]
      | some h => simp [hv', rule_mk, h.1]
    | some h' =>
      cases hd with
      | none => simp [hv', rule_mk, h'.1]
      | some h => simp [hv', rule_mk, h.1, h'.1]
  have e2 : vs.mapM (varOf rd) = some xs := mapM_of (hv.imp fun _ _ h => h.2)
  have e3 : directivesOf rd ([.mk .operation_type l' k []] ++ (nn ++ (vs ++ (ds ++ [Node.mk .selection_set a.1 c cs])))) =
      some dirs := by
    have : firstChild .directives ([.mk .operation_type l' k []] ++ (nn ++ (vs ++ (ds ++ [Node.mk .selection_set a.1 c cs])))) =
        firstChild .directives (ds ++ [Node.mk .selection_set a.1 c cs]) := by
      cases hn with
      | none => rw [firstChild_skip (by simp [rule_mk]), List.nil_append, firstChild_skip (vskip (by decide))]
      | some h => rw [firstChild_skip (by simp [rule_mk]), firstChild_skip (by simp [h.1]), firstChild_skip (vskip (by decide))]
    unfold directivesOf optChild
    rw [this]
    cases hd with
    | none => simp [firstChild_cons, firstChild_nil, rule_mk]
    | some h => simp [firstChild_cons, h.1, h.2]
  have e4 : (firstChild .operation_name ([.mk .operation_type l' k []] ++ (nn ++ (vs ++ (ds ++
      [Node.mk .selection_set a.1 c cs]))))).map Node.content = name := by
    cases hn with
    | none =>
      rw [firstChild_skip (by simp [rule_mk]), List.nil_append, firstChild_skip (vskip (by decide))]
      cases hd with
      | none => simp [firstChild_cons, firstChild_nil, rule_mk]
      | some h => simp [firstChild_cons, firstChild_nil, rule_mk, h.1]
    | some h => simp [firstChild_cons, rule_mk, h.1, h.2]
  have e5 : (([.mk .operation_type l' k []] : List (Node R)) ++ (nn ++ (vs ++ (ds ++ [Node.mk .selection_set a.1 c cs])))).getLast? =
      some (.mk .selection_set a.1 c cs) := by
    simp only [← List.append_assoc]
    exact List.getLast?_concat
  unfold operationOf
  rw [e1, e2, e3, e4, e5]
  simp [firstChild_cons, rule_mk, content_mk, children_mk, hsub]

theorem operationOf_anonymous {x : Node R} {a : Nat × List Ast.Selection} {l : Nat} (hx : IsSet rd x a) :
    operationOf rd l [x] = some { pos := rd.pos l, sub := a.2 } := by
  obtain ⟨c, cs, rfl, hsub⟩ := hx
  simp [operationOf, firstChild_cons, firstChild_nil, rule_mk, children_mk, directivesOf, optChild, hsub]

/-- The node stands for the definition. -/
def IsDefinition (rd : Read) (x : Node R) (a : Ast.Definition) : Prop :=
  (x.rule = .operation_definition ∨ x.rule = .fragment_definition) ∧ definitionOf rd x = some a

theorem operation_sound (rd : Read) (n : Nat) : Sound n executableSelector (.ref .operation_definition)
    (DefinitionText rd.pos rd.atof) (IsDefinition rd) := by
  intro s ns t hl he
  obtain ⟨cs, h1, rfl⟩ := (ref_store_ok rfl).1 he
  rcases sor_ok.1 h1 with h2 | ⟨_, h2⟩
  · obtain ⟨_, u, _, h3, h4, rfl⟩ := seq_ok.1 h2
    obtain ⟨k, hk, rfl, _, rfl⟩ := operation_type_ok.1 h3
    have h5 := (ref_discard_ok (n := .operation_definition_operation_type_content) rfl).1 (need_ok.1 h4)
    obtain ⟨nn, v, _, h6, h7, rfl⟩ := seq_ok.1 h5
    obtain ⟨vs, w, _, h8, h9, rfl⟩ := seq_ok.1 h7
    obtain ⟨ds, x, _, h10, h11, rfl⟩ := seq_ok.1 h9
    obtain ⟨_, y, zs, h12, h13, rfl⟩ := seq_ok.1 h11
    have l1 := rest_le h3
    have l2 := rest_le h6
    have l3 := rest_le h8
    have l4 := rest_le h10
    have l5 := rest_le h12
    obtain ⟨name, hn, hn'⟩ := opName_sound h6
    obtain ⟨xs, hv, hv'⟩ := variables_sound rd n (by omega) h8
    obtain ⟨dirs, hd, hd'⟩ := optNode_sound exec_sels (directives_sound exec_sels rd n) (by omega) h10
    obtain ⟨rfl, hsk, _⟩ := star_skip exec_sels h12
    obtain ⟨z, ⟨lz, sub⟩, rfl, ⟨rfl, hS⟩, hW⟩ := set_sound rd n y zs t (by omega) h13
    refine ⟨_, _, rfl, .operation (.keyword hk rfl hn hv hd hsk hS), .inl rfl, ?_⟩
    have := operationOf_keyword (l := (k ++ u).length) (l' := (k ++ u).length) (k := k) hn' hv' hd' hW
    simp only [definitionOf]
    exact congrArg (Option.map Ast.Definition.operation) this
  · obtain ⟨z, ⟨lz, sub⟩, rfl, ⟨rfl, hS⟩, hW⟩ := set_sound rd n s cs t (by omega) h2
    refine ⟨_, _, rfl, .operation (.anonymous hS), .inl rfl, ?_⟩
    simp only [definitionOf]
    exact congrArg (Option.map Ast.Definition.operation) (operationOf_anonymous hW)

theorem variables_follow {p q : Byte → Bool} (hgap : ∀ c, gapStart c = true → p c = false) (hp : p (ch '(') = false)
    (hq : q (ch '(') = false) {s t : Str} {xs : List Ast.VarDef} (h : VariablesText rd.pos rd.atof s xs t)
    (hF : Follow p q t) : Follow p q s := by
  cases h with
  | none => exact hF
  | some hk hb =>
    obtain ⟨u, rfl⟩ := between_starts hb
    exact follow_skip hk hgap (ends_cons hp) (ends_cons (by decide)) (ends_cons hq)

theorem operation_complete (rd : Read) (n : Nat) {s t : Str} {op : Ast.Operation} (hl : s.length < n)
    (h : OperationText rd.pos rd.atof s op t) :
    ∃ x, eval executableSelector (.ref .operation_definition) s = .ok [x] t ∧ IsDefinition rd x (.operation op) := by
  cases h with
  | @anonymous _ sub _ hS =>
    obtain ⟨x, he, hW⟩ := set_complete rd n s (s.length, sub) t (by omega) ⟨rfl, hS⟩ trivial
    refine ⟨_, (ref_store_ok rfl).2 ⟨[x], sor_next ?_ he, rfl⟩, .inl rfl, ?_⟩
    · obtain ⟨u, rfl⟩ := between_starts hS
      exact dead_cons (by decide +kernel)
    · simp only [definitionOf]
      exact congrArg (Option.map Ast.Definition.operation) (operationOf_anonymous hW)
  | @keyword _ k u name v vars w dirs x y sub _ hk hs hn hv hd hsk hS =>
    subst hs
    have hy : SetText rd y (y.length, sub) t := ⟨rfl, hS⟩
    have hyg := set_starts.ends isBrace_gap hy
    have hx : Follow nameCont (fun c => nameStart c || dirNext c) x :=
      follow_skip hsk nameCont_gap (set_starts.ends (by decide +kernel) hy) hyg (set_starts.ends (by decide +kernel) hy)
    have hw : Follow nameCont (fun c => nameStart c || isParen c) w := opt_follow directives_starts nameCont_gap
      (by decide +kernel) hd (hx.weaken (fun _ => id) (by decide +kernel))
    have hv0 : Follow nameCont nameStart v := variables_follow nameCont_gap (by decide) (by decide) hv
      (hw.weaken (fun _ => id) (by decide +kernel))
    have hu : Ends nameCont u := by
      cases hn with
      | none => exact hv0.1
      | some hk' _ =>
        obtain ⟨c, z, rfl, hc⟩ := space_first hk'
        exact ends_cons (nameCont_gap c hc)
    have r1 := operation_type_ok.2 ⟨k, hk, rfl, hu, rfl⟩
    obtain ⟨nn, r2, hn'⟩ := opName_complete hn hv0
    have l1 := rest_le r1
    have l2 := rest_le r2
    obtain ⟨vs, r3, hv'⟩ := variables_complete rd n (by omega) hv
      (hw.weaken (p' := nameCont) (fun _ => id) (by decide +kernel)).2
    have l3 := rest_le r3
    obtain ⟨ds, r4, hd'⟩ := optNode_complete exec_sels (directives_complete exec_sels rd n) directives_starts isAt_gap
      directives_needs (by omega) hd (hx.weaken (fun _ => id) (by decide +kernel))
      (hx.weaken (p' := nameCont) (fun _ => id) (by decide +kernel)).2
    have l4 := rest_le r4
    have r5 := skip_star exec_sels hsk hyg
    have l5 := rest_le r5
    obtain ⟨z, r6, hW⟩ := set_complete rd n y _ t (by omega) hy trivial
    refine ⟨_, (ref_store_ok rfl).2 ⟨_, sor_ok.2 (.inl (seq_ok.2 ⟨_, u, _, r1, need_ok.2 ((ref_discard_ok
      (n := .operation_definition_operation_type_content) rfl).2 (seq_ok.2 ⟨nn, v, _, r2, seq_ok.2 ⟨vs, w, _, r3,
        seq_ok.2 ⟨ds, x, _, r4, seq_ok.2 ⟨[], y, [z], r5, r6, rfl⟩, rfl⟩, rfl⟩, rfl⟩)), rfl⟩)), rfl⟩, .inl rfl, ?_⟩
    have := operationOf_keyword (l := (k ++ u).length) (l' := (k ++ u).length) (k := k) hn' hv' hd' hW
    simp only [definitionOf]
    exact congrArg (Option.map Ast.Definition.operation) this

/-! ## Fragment definitions -/

theorem fragmentOf_nodes {ds : List (Node R)} {dirs : Option (List Ast.Directive)} {m cond : Str} {x y : Node R}
    {a : Nat × List Ast.Selection} {l l' : Nat} (hc : IsCondition y cond) (hd : OptNode (IsDirectives rd) ds dirs)
    (hx : IsSet rd x a) :
    fragmentOf rd l ([.mk .fragment_name l' m []] ++ ([y] ++ (ds ++ [x]))) =
      some { pos := rd.pos l, name := m, typeCondition := cond, directives := dirs, sub := a.2 } := by
  obtain ⟨c, cs, rfl, hsub⟩ := hx
  cases hd with
  | none =>
    simp [fragmentOf, frontText, directivesOf, optChild, firstChild_cons, firstChild_nil, rule_mk, content_mk, children_mk,
      hsub, hc.1, show List.head? y.children = _ from rfl]
    have := hc.2
    simp only [frontText, Option.map_eq_some_iff] at this
    obtain ⟨z, hz, rfl⟩ := this
    simp [hz]
  | some h =>
    simp [fragmentOf, frontText, directivesOf, optChild, firstChild_cons, rule_mk, content_mk, children_mk,
      hsub, hc.1, h.1, h.2]
    have := hc.2
    simp only [frontText, Option.map_eq_some_iff] at this
    obtain ⟨z, hz, rfl⟩ := this
    simp [hz]

theorem fragment_sound (rd : Read) (n : Nat) : Sound n executableSelector (.ref .fragment_definition)
    (DefinitionText rd.pos rd.atof) (IsDefinition rd) := by
  intro s ns t hl he
  obtain ⟨cs, h1, rfl⟩ := (ref_store_ok rfl).1 he
  obtain ⟨_, a, _, h2, h3, rfl⟩ := seq_ok.1 h1
  obtain ⟨rfl, rfl, _⟩ := keyword_ok.1 h2
  have h4 := (ref_discard_ok (n := .fragment_definition_content) rfl).1 (need_ok.1 h3)
  obtain ⟨_, b, _, h5, h6, rfl⟩ := seq_ok.1 h4
  obtain ⟨_, c, _, h7, h8, rfl⟩ := seq_ok.1 h6
  obtain ⟨_, d, _, h9, h10, rfl⟩ := seq_ok.1 h8
  obtain ⟨cn, e, _, h11, h12, rfl⟩ := seq_ok.1 h10
  obtain ⟨ds, f, _, h13, h14, rfl⟩ := seq_ok.1 h12
  obtain ⟨_, g, zs, h15, h16, rfl⟩ := seq_ok.1 h14
  have l1 := rest_le h2
  have l2 := rest_le h5
  have l3 := rest_le h7
  have l4 := rest_le h9
  have l5 := rest_le h11
  have l6 := rest_le h13
  have l7 := rest_le h15
  obtain ⟨rfl, k1, _⟩ := plus_space exec_sels h5
  obtain ⟨m, hm, hne, _, rfl⟩ := fragment_name_ok.1 h7
  obtain ⟨rfl, k2, _⟩ := plus_space exec_sels h9
  obtain ⟨y, cond, rfl, hc, hc'⟩ := condition_sound n d cn e (by omega) h11
  obtain ⟨dirs, hd, hd'⟩ := optNode_sound exec_sels (directives_sound exec_sels rd n) (by omega) h13
  obtain ⟨rfl, k3, _⟩ := star_skip exec_sels h15
  obtain ⟨z, ⟨lz, sub⟩, rfl, ⟨rfl, hS⟩, hW⟩ := set_sound rd n g zs t (by omega) h16
  refine ⟨_, _, rfl, .fragment (.mk rfl k1 hm hne k2 hc hd k3 hS), .inr rfl, ?_⟩
  have := fragmentOf_nodes (l := (str "fragment" ++ a).length) (l' := b.length) (m := m) hc' hd' hW
  simp only [definitionOf]
  exact congrArg (Option.map Ast.Definition.fragment) this

theorem fragment_complete (rd : Read) (n : Nat) {s t : Str} {fd : Ast.FragmentDef} (hl : s.length < n)
    (h : FragmentText rd.pos rd.atof s fd t) :
    ∃ x, eval executableSelector (.ref .fragment_definition) s = .ok [x] t ∧ IsDefinition rd x (.fragment fd) := by
  cases h with
  | @mk _ a b m c d cond e dirs f g sub _ hs k1 hm hne k2 hc hd k3 hS =>
    subst hs
    have hg : SetText rd g (g.length, sub) t := ⟨rfl, hS⟩
    have hgg := set_starts.ends isBrace_gap hg
    have hf : Follow nameCont dirNext f :=
      follow_skip k3 nameCont_gap (set_starts.ends (by decide +kernel) hg) hgg (set_starts.ends (by decide +kernel) hg)
    have hee : Follow nameCont (fun _ => false) e := opt_follow directives_starts nameCont_gap (by decide +kernel) hd
      (hf.weaken (fun _ => id) (by decide +kernel))
    have sp : ∀ {x y : Str}, Space x y → Ends nameCont x := by
      intro x y hk
      obtain ⟨c, z, rfl, hc⟩ := space_first hk
      exact ends_cons (nameCont_gap c hc)
    have r1 : eval executableSelector (Rule.keyword "fragment") (str "fragment" ++ a) = .ok [] a :=
      keyword_ok.2 ⟨rfl, rfl, sp k1⟩
    have r2 := space_plus exec_sels k1 (name_starts.ends nameStart_gap hm)
    have r3 := fragment_name_ok.2 ⟨m, hm, hne, sp k2, rfl⟩
    have r4 := space_plus exec_sels k2 (condition_starts.ends (by decide +kernel) hc)
    have l1 := rest_le r1
    have l2 := rest_le r2
    have l3 := rest_le r3
    have l4 := rest_le r4
    obtain ⟨y, r5, hc'⟩ := condition_complete n d cond e (by omega) hc hee.1
    have l5 := rest_le r5
    obtain ⟨ds, r6, hd'⟩ := optNode_complete exec_sels (directives_complete exec_sels rd n) directives_starts isAt_gap
      directives_needs (by omega) hd hf (hf.weaken (p' := nameCont) (fun _ => id) (by decide +kernel)).2
    have l6 := rest_le r6
    have r7 := skip_star exec_sels k3 hgg
    have l7 := rest_le r7
    obtain ⟨z, r8, hW⟩ := set_complete rd n g _ t (by omega) hg trivial
    refine ⟨_, (ref_store_ok rfl).2 ⟨_, seq_ok.2 ⟨[], a, _, r1, need_ok.2 ((ref_discard_ok
      (n := .fragment_definition_content) rfl).2 (seq_ok.2 ⟨[], b, _, r2, seq_ok.2 ⟨_, c, _, r3, seq_ok.2 ⟨[], d, _, r4,
        seq_ok.2 ⟨[y], e, _, r5, seq_ok.2 ⟨ds, f, _, r6, seq_ok.2 ⟨[], g, [z], r7, r8, rfl⟩, rfl⟩, rfl⟩, rfl⟩, rfl⟩, rfl⟩)),
      rfl⟩, rfl⟩, .inr rfl, ?_⟩
    have := fragmentOf_nodes (l := (str "fragment" ++ a).length) (l' := b.length) (m := m) hc' hd' hW
    simp only [definitionOf]
    exact congrArg (Option.map Ast.Definition.fragment) this

/-! ## Definitions -/

theorem definition_complete (rd : Read) (n : Nat) : Complete n executableSelector (.ref .mixed_definition)
    (DefinitionText rd.pos rd.atof) (IsDefinition rd) (fun _ => True) := by
  intro s a t hl h _
  cases h with
  | @operation _ op _ h =>
    obtain ⟨x, he, hW⟩ := operation_complete rd n hl h
    refine ⟨x, executable_mixed ((ref_discard_ok rfl).2 (sor_next ?_ he)), hW⟩
    cases h with
    | anonymous hS =>
      obtain ⟨u, rfl⟩ := between_starts hS
      exact dead_cons (by decide +kernel)
    | keyword hk hs _ _ _ _ _ =>
      subst hs
      rcases hk with rfl | rfl | rfl <;> exact dead_append (by decide +kernel)
  | @fragment _ f _ h =>
    obtain ⟨x, he, hW⟩ := fragment_complete rd n hl h
    exact ⟨x, executable_mixed ((ref_discard_ok rfl).2 (sor_ok.2 (.inl he))), hW⟩

/-- The definition is an operation or a fragment. -/
def Executable (x : Node R) : Prop := x.rule = .operation_definition ∨ x.rule = .fragment_definition

theorem sors_ok {l : List (Rule R)} {s t : Str} {xs : List (Node R)} (hl : l ≠ []) (h : eval sel (Rule.sors l) s = .ok xs t) :
    ∃ r ∈ l, eval sel r s = .ok xs t := by
  induction l with
  | nil => exact absurd rfl hl
  | cons r l ih =>
    cases l with
    | nil => exact ⟨r, by simp, h⟩
    | cons r' l =>
      rcases sor_ok.1 h with h | ⟨_, h⟩
      · exact ⟨r, by simp, h⟩
      · obtain ⟨q, hq, he⟩ := ih (by simp) h
        exact ⟨q, by simp [hq], he⟩

theorem other_definition {k : R} (hk : executableSelector k = .store) (hne : k ≠ .operation_definition ∧ k ≠ .fragment_definition)
    {s t : Str} {xs : List (Node R)} (h : eval executableSelector (.ref k) s = .ok xs t) : ¬ ∀ x ∈ xs, Executable x := by
  obtain ⟨ys, _, rfl⟩ := (ref_store_ok hk).1 h
  intro h
  rcases h _ (List.mem_singleton_self _) with h | h
  · exact hne.1 h
  · exact hne.2 h

theorem mixed_sound (rd : Read) (n : Nat) {s t : Str} {ns : List (Node R)} (hl : s.length < n)
    (he : eval executableSelector (.ref .mixed_definition) s = .ok ns t) (hx : ∀ x ∈ ns, Executable x) :
    ∃ x a, ns = [x] ∧ DefinitionText rd.pos rd.atof s a t ∧ IsDefinition rd x a := by
  rcases sor_ok.1 ((ref_discard_ok (n := .mixed_definition) rfl).1 he) with h | ⟨_, h⟩
  · rcases sor_ok.1 ((ref_discard_ok (n := .executable_definition) rfl).1 h) with h | ⟨_, h⟩
    · exact fragment_sound rd n s ns t hl h
    · exact operation_sound rd n s ns t hl h
  · exfalso
    rcases sor_ok.1 h with h | ⟨_, h⟩
    · obtain ⟨r, hr, h⟩ := sors_ok (by simp) ((ref_discard_ok (n := .type_system_definition) rfl).1 h)
      simp only [List.mem_cons, List.not_mem_nil, or_false] at hr
      rcases hr with rfl | rfl | rfl
      · exact other_definition rfl (by decide) h hx
      · obtain ⟨r, hr, h⟩ := sors_ok (by simp) ((ref_discard_ok (n := .type_definition) rfl).1 h)
        simp only [List.mem_cons, List.not_mem_nil, or_false] at hr
        rcases hr with rfl | rfl | rfl | rfl | rfl | rfl <;> exact other_definition rfl (by decide) h hx
      · exact other_definition rfl (by decide) h hx
    · obtain ⟨r, hr, h⟩ := sors_ok (by simp) ((ref_discard_ok (n := .type_system_extension) rfl).1 h)
      simp only [List.mem_cons, List.not_mem_nil, or_false] at hr
      rcases hr with rfl | rfl
      · exact other_definition rfl (by decide) h hx
      · obtain ⟨r, hr, h⟩ := sors_ok (by simp) ((ref_discard_ok (n := .type_extension) rfl).1 h)
        simp only [List.mem_cons, List.not_mem_nil, or_false] at hr
        rcases hr with rfl | rfl | rfl | rfl | rfl | rfl <;> exact other_definition rfl (by decide) h hx

/-- The first bytes of definitions. -/
def defStart (c : Byte) : Bool := nameStart c || isBrace c

theorem defStart_gap : ∀ c : Byte, defStart c = true → gapStart c = false := by decide +kernel

theorem definition_starts : Starts (DefinitionText rd.pos rd.atof) defStart := by
  intro s a t h
  cases h with
  | operation h =>
    cases h with
    | anonymous hS =>
      obtain ⟨u, rfl⟩ := between_starts hS
      exact ⟨_, _, rfl, by decide⟩
    | keyword hk hs _ _ _ _ _ =>
      subst hs
      rcases hk with rfl | rfl | rfl <;> exact ⟨_, _, rfl, by decide⟩
  | fragment h =>
    cases h with
    | mk hs _ _ _ _ _ _ _ _ =>
      subst hs
      exact ⟨_, _, rfl, by decide⟩

/-! ## Documents -/

theorem mixed_nullable : nullable nulTable (.seq (.star (.ref .ignored)) (.ref .mixed_definition)) = false := rfl

theorem definitions_sound (rd : Read) (n : Nat) {s t : Str} {ns : List (Node R)} (hl : s.length < n)
    (he : eval executableSelector (Rule.list (.ref .mixed_definition) (Rule.star (.ref .ignored))) s = .ok ns t)
    (hx : ∀ x ∈ ns, Executable x) :
    ∃ ds, Sep Skip (DefinitionText rd.pos rd.atof) s ds t ∧ List.Forall₂ (IsDefinition rd) ns ds := by
  have loop : ∀ {s ns t}, Iter executableSelector (.seq (.star (.ref .ignored)) (.ref .mixed_definition)) s ns t →
      (∀ x ∈ ns, Executable x) → ∀ {s0 a}, s.length < n → DefinitionText rd.pos rd.atof s0 a s →
      ∃ xs, Sep Skip (DefinitionText rd.pos rd.atof) s0 (a :: xs) t ∧ List.Forall₂ (IsDefinition rd) ns xs := by
    intro s ns t hi
    induction hi with
    | nil _ => intro _ s0 a _ hP; exact ⟨[], .one hP, .nil⟩
    | cons h1 _ ih =>
      intro hx s0 a hl hP
      obtain ⟨_, u, zs, h2, h3, rfl⟩ := seq_ok.1 h1
      obtain ⟨rfl, hk, _⟩ := star_skip exec_sels h2
      have l1 := rest_le h2
      have l2 := rest_le h3
      obtain ⟨x, b, rfl, hP', hW⟩ := mixed_sound rd n (by omega) h3 (fun x h => hx x (by simp [h]))
      obtain ⟨xs, hxs, hf⟩ := ih (fun x h => hx x (by simp [h])) (by omega) hP'
      exact ⟨b :: xs, .more hP hk hxs, .cons hW hf⟩
  obtain ⟨ys, u, zs, h1, h2, rfl⟩ := seq_ok.1 he
  obtain ⟨x, a, rfl, hP, hW⟩ := mixed_sound rd n hl h1 (fun x h => hx x (by simp [h]))
  obtain ⟨xs, hxs, hf⟩ := loop ((star_ok mixed_nullable).1 h2) (fun x h => hx x (by simp [h]))
    (by have := rest_le h1; omega) hP
  exact ⟨a :: xs, hxs, .cons hW hf⟩

theorem definitions_complete (rd : Read) (n : Nat) {s t : Str} {ds : List Ast.Definition} (hl : s.length < n)
    (hd : Sep Skip (DefinitionText rd.pos rd.atof) s ds t) (ht : Skip t []) :
    ∃ ns, eval executableSelector (Rule.list (.ref .mixed_definition) (Rule.star (.ref .ignored))) s = .ok ns t ∧
      List.Forall₂ (IsDefinition rd) ns ds := by
  have stop : eval executableSelector (.seq (.star (.ref .ignored)) (.ref .mixed_definition)) t = .fail :=
    seq_fail.2 (.inr ⟨[], [], skip_star exec_sels ht nofun, dead_nil (by decide +kernel)⟩)
  have key : ∀ {s ds}, Sep Skip (DefinitionText rd.pos rd.atof) s ds t → s.length < n →
      ∃ x ns u, eval executableSelector (.ref .mixed_definition) s = .ok [x] u ∧
        Iter executableSelector (.seq (.star (.ref .ignored)) (.ref .mixed_definition)) u ns t ∧
        List.Forall₂ (IsDefinition rd) (x :: ns) ds := by
    clear hd hl
    intro s ds hx
    generalize ht' : t = t' at hx
    induction hx with
    | one hP =>
      subst ht'
      intro hl
      obtain ⟨x, he, hW⟩ := definition_complete rd n _ _ _ hl hP trivial
      exact ⟨x, [], _, he, .nil stop, .cons hW .nil⟩
    | @more s a u v xs w hP hk hx ih =>
      intro hl
      have hv : Ends gapStart v := by
        cases hx with
        | one h' => exact definition_starts.ends defStart_gap h'
        | more h' _ _ => exact definition_starts.ends defStart_gap h'
      obtain ⟨x, he, hW⟩ := definition_complete rd n _ _ _ hl hP trivial
      have hr := skip_star exec_sels hk hv
      obtain ⟨y, ns, z, he', hi, hf⟩ := ih ht' (by have := rest_le he; have := rest_le hr; omega)
      exact ⟨x, [y] ++ ns, u, he, .cons (seq_ok.2 ⟨[], v, [y], hr, he', rfl⟩) hi, .cons hW hf⟩
  obtain ⟨x, ns, u, he, hi, hf⟩ := key hd hl
  exact ⟨[x] ++ ns, seq_ok.2 ⟨[x], u, ns, he, (star_ok mixed_nullable).2 hi, rfl⟩, hf⟩

theorem bom_ok {s t : Str} {xs : List (Node R)} : eval sel (Rule.bom) s = .ok xs t ↔ xs = [] ∧ s = utf8Encode 0xFEFF ++ t := by
  unfold Rule.bom
  rw [eval_utf8]
  constructor
  · intro h
    cases hp : peekUtf8 s with
    | none => simp [hp] at h
    | some cn =>
      obtain ⟨c, n⟩ := cn
      simp only [hp] at h
      split at h
      · rename_i hc
        obtain rfl : c = 0xFEFF := by omega
        injection h with h1 h2
        exact ⟨h1.symm, by rw [← h2]; exact (peek_decode hp (by decide)).1⟩
      · exact nomatch h
  · rintro ⟨rfl, rfl⟩
    rw [peek_encode (by decide) (by decide)]
    simp

theorem document_sound (rd : Read) {s : Str} {ns : List (Node R)} (h : ParseString s (.tree ns))
    (hx : ∀ x ∈ ns, Executable x) :
    ∃ d bom u v w, documentOf rd ns = some d ∧ s = bom ++ u ∧ (bom = [] ∨ bom = utf8Encode 0xFEFF) ∧ Skip u v ∧
      Sep Skip (DefinitionText rd.pos rd.atof) v d.definitions w ∧ Skip w [] := by
  obtain ⟨t, h⟩ := parse_tree_iff.1 ((parseString_mixed s _).1 h)
  have h1 := (ref_discard_ok (n := .mixed_document_content) rfl).1 (need_ok.1
    ((ref_discard_ok (n := .mixed_document) rfl).1 h))
  obtain ⟨_, s0, _, h0, k0, rfl⟩ := seq_ok.1 h1
  obtain ⟨rfl, rfl⟩ := empty_ok.1 h0
  obtain ⟨bs, u, _, h2, k1, rfl⟩ := seq_ok.1 k0
  obtain ⟨_, v, _, h3, k2, rfl⟩ := seq_ok.1 k1
  obtain ⟨ds, w, _, h4, k3, rfl⟩ := seq_ok.1 k2
  obtain ⟨_, z, _, h5, h6, rfl⟩ := seq_ok.1 k3
  obtain ⟨rfl, rfl, rfl⟩ := eof_ok.1 h6
  obtain ⟨rfl, hk, _⟩ := star_skip exec_sels h3
  obtain ⟨rfl, hk', _⟩ := star_skip exec_sels h5
  have hb : ∃ bom, s0 = bom ++ u ∧ (bom = [] ∨ bom = utf8Encode 0xFEFF) ∧ bs = [] := by
    rcases opt_ok.1 h2 with hb | ⟨_, hb, hu⟩
    · obtain ⟨hb', e⟩ := bom_ok.1 hb
      exact ⟨_, e, .inr rfl, hb'⟩
    · exact ⟨[], hb.symm, .inl rfl, hu⟩
  obtain ⟨bom, e, hb, rfl⟩ := hb
  simp only [List.nil_append, List.append_nil] at hx
  obtain ⟨xs, hs, hf⟩ := definitions_sound rd (v.length + 1) (by omega) h4 hx
  refine ⟨⟨xs⟩, bom, u, v, w, ?_, e, hb, hk, hs, hk'⟩
  simp [documentOf, mapM_of (hf.imp fun _ _ h => h.2)]

theorem document_complete (rd : Read) {s bom u v w : Str} {d : Ast.Document} (e : s = bom ++ u)
    (hb : bom = [] ∨ bom = utf8Encode 0xFEFF) (hk : Skip u v)
    (hd : Sep Skip (DefinitionText rd.pos rd.atof) v d.definitions w) (hk' : Skip w []) :
    ∃ ns, ParseString s (.tree ns) ∧ (∀ x ∈ ns, Executable x) ∧ documentOf rd ns = some d := by
  obtain ⟨ns, r3, hf⟩ := definitions_complete rd (v.length + 1) (by omega) hd hk'
  have hv : ∃ c z, v = c :: z ∧ defStart c = true := by
    obtain ⟨ds⟩ := d
    cases hd with
    | one h' => exact definition_starts _ _ _ h'
    | more h' _ _ => exact definition_starts _ _ _ h'
  have hvg : Ends gapStart v := by
    obtain ⟨c, z, rfl, hc⟩ := hv
    exact ends_cons (defStart_gap c hc)
  have r2 := skip_star exec_sels hk hvg
  have r4 := skip_star exec_sels hk' nofun
  have r1 : eval executableSelector (Rule.opt Rule.bom) s = .ok [] u := by
    rcases hb with rfl | rfl
    · refine opt_ok.2 (.inr ⟨?_, e.symm, rfl⟩)
      refine fail_of rfl fun xs t h => ?_
      obtain ⟨_, e'⟩ := bom_ok.1 h
      have hfirst : ∃ c z, u = c :: z ∧ (gapStart c = true ∨ defStart c = true) := by
        rcases skip_cases hk with rfl | h'
        · obtain ⟨c, z, e, hc⟩ := hv
          exact ⟨c, z, e, .inr hc⟩
        · obtain ⟨c, z, e, hc⟩ := space_first h'
          exact ⟨c, z, e, .inl hc⟩
      obtain ⟨c, z, rfl, hc⟩ := hfirst
      rw [e] at e'
      obtain ⟨rfl, _⟩ := List.cons.inj e'
      revert hc
      decide +kernel
    · exact opt_ok.2 (.inl (bom_ok.2 ⟨rfl, e⟩))
  refine ⟨ns, (parseString_mixed s _).2 (parse_tree_iff.2 ⟨[], ?_⟩), mem_forall₂_left (fun _ _ h => h.1) hf, ?_⟩
  · refine (ref_discard_ok rfl).2 (need_ok.2 ((ref_discard_ok (n := .mixed_document_content) rfl).2 ?_))
    exact seq_ok.2 ⟨[], s, _, empty_ok.2 ⟨rfl, rfl⟩, seq_ok.2 ⟨[], u, _, r1, seq_ok.2 ⟨[], v, _, r2, seq_ok.2 ⟨ns, w, _, r3,
      seq_ok.2 ⟨[], [], [], r4, eof_ok.2 ⟨rfl, rfl, rfl⟩, rfl⟩, by simp⟩, rfl⟩, rfl⟩, rfl⟩
  · simp [documentOf, mapM_of (hf.imp fun _ _ h => h.2)]

/-! ## C52 -/

/-- What the visitors read from the tree of a text: line and column are those of the text. -/
def readDocument (atof : Str → Double) (unescapeJ : Str → Str) (s : Str) (ns : List (Node R)) : Option Ast.Document :=
  documentOf ⟨position s, atof, unescapeJ⟩ ns

/-- C52: if a text is parsed, and it has no type system definitions, then it is the text of a document of the
specification, and this document is what the visitors read from the tree. -/
theorem C52_sound (atof : Str → Double) (unescapeJ : Str → Str) {s : Str} {ns : List (Node R)}
    (h : ParseString s (.tree ns)) (hx : ∀ x ∈ ns, Executable x) :
    ∃ d, DocumentText atof s d ∧ readDocument atof unescapeJ s ns = some d := by
  obtain ⟨d, bom, u, v, w, h1, h2⟩ := document_sound ⟨position s, atof, unescapeJ⟩ h hx
  exact ⟨d, ⟨bom, u, v, w, h2⟩, h1⟩

/-- C52: the text of every document of the specification is parsed, and the visitors read this document from the tree. -/
theorem C52_complete (atof : Str → Double) (unescapeJ : Str → Str) {s : Str} {d : Ast.Document}
    (h : DocumentText atof s d) :
    ∃ ns, ParseString s (.tree ns) ∧ (∀ x ∈ ns, Executable x) ∧ readDocument atof unescapeJ s ns = some d := by
  obtain ⟨bom, u, v, w, e, hb, hk, hd, hk'⟩ := h
  exact document_complete ⟨position s, atof, unescapeJ⟩ e hb hk hd hk'

/-- C52: a text is the text of at most one document. -/
theorem C52_unambiguous (atof : Str → Double) {s : Str} {d d' : Ast.Document} (h : DocumentText atof s d)
    (h' : DocumentText atof s d') : d = d' := by
  obtain ⟨ns, p, _, r⟩ := C52_complete atof id h
  obtain ⟨ns', p', _, r'⟩ := C52_complete atof id h'
  obtain ⟨x, _, hu⟩ := parseWith_total .executable_document .mixed_document executableSelector s
  have e1 := hu _ p
  have e2 := hu _ p'
  rw [← e2] at e1
  cases e1
  rw [r] at r'
  exact Option.some.inj r'

/-- C52: the text of a document of the specification is not rejected, and a text which is rejected is not the text of a
document. -/
theorem C52_rejected (atof : Str → Double) {s m : Str} (h : ParseString s (.error m)) : ¬ ∃ d, DocumentText atof s d := by
  rintro ⟨d, hd⟩
  obtain ⟨ns, p, _, _⟩ := C52_complete atof id hd
  obtain ⟨x, _, hu⟩ := parseWith_total .executable_document .mixed_document executableSelector s
  have e1 := hu _ p
  have e2 := hu _ h
  rw [← e2] at e1
  cases e1

end Verif.Peg
