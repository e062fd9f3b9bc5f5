import Verif.Grammar.TypeRefs

/-!
# Fields, fragments and selection sets
-/
namespace Verif.Peg
open Verif.Value Verif.Text Rule

variable {sel : R → Sel} {rd : Read}

theorem exec_sels : Sels executableSelector := .inl rfl

theorem eval_discard {n : R} (hn : sel n = .discard) (s : Str) : eval sel (.ref n) s = eval sel (grammar n) s := by
  rw [eval_ref, hn]
  cases h : eval sel (grammar n) s <;> simp [finish]

/-- The nodes for an optional child. -/
inductive OptNode {α : Type} (W : Node R → α → Prop) : List (Node R) → Option α → Prop where
  | none : OptNode W [] none
  | some {x a} : W x a → OptNode W [x] (some a)

theorem optNode_sound (hs : Sels sel) {n : Nat} {r : Rule R} {α : Type} {P : Str → α → Str → Prop} {W : Node R → α → Prop}
    (h : Sound n sel r P W) {s t : Str} {ns : List (Node R)} (hl : s.length < n)
    (he : eval sel (.opt (.seq (.star (.ref .ignored)) r)) s = .ok ns t) : ∃ o, Opt P s o t ∧ OptNode W ns o := by
  rcases opt_sound hs h hl he with ⟨rfl, _, ho⟩ | ⟨x, a, rfl, ho, hW⟩
  · exact ⟨none, ho, .none⟩
  · exact ⟨some a, ho, .some hW⟩

theorem optNode_complete (hs : Sels sel) {n : Nat} {r : Rule R} {α : Type} {P : Str → α → Str → Prop}
    {W : Node R → α → Prop} {F : Str → Prop} {p : Byte → Bool} (h : Complete n sel r P W F) (hst : Starts P p)
    (hp : ∀ c, p c = true → gapStart c = false) (hn : Needs sel r p) {s t : Str} {o : Option α} (hl : s.length < n)
    (ho : Opt P s o t) (hF : F t) (hnext : NotNext p t) :
    ∃ ns, eval sel (.opt (.seq (.star (.ref .ignored)) r)) s = .ok ns t ∧ OptNode W ns o := by
  rcases opt_complete hs h hst hp hn hl ho hF hnext with ⟨rfl, _, he⟩ | ⟨x, a, rfl, he, hW⟩
  · exact ⟨[], he, .none⟩
  · exact ⟨[x], he, .some hW⟩

theorem opt_follow {α : Type} {P : Str → α → Str → Prop} {st p q : Byte → Bool} (hst : Starts P st)
    (hgap : ∀ c, gapStart c = true → p c = false)
    (hok : ∀ c, st c = true → gapStart c = false ∧ p c = false ∧ q c = false) {s t : Str} {o : Option α} (ho : Opt P s o t)
    (h : Follow p q t) : Follow p q s := by
  cases ho with
  | none => exact h
  | some hk hP =>
    exact follow_skip hk hgap (hst.ends (fun c hc => (hok c hc).2.1) hP) (hst.ends (fun c hc => (hok c hc).1) hP)
      (hst.ends (fun c hc => (hok c hc).2.2) hP)

/-! ## The name of a field -/

/-- The nodes for the alias and the name of a field. -/
def startNodes (s : Str) (als : Option Str) (u name : Str) : List (Node R) :=
  (als.map fun a => Node.mk .alias_name s.length a []).toList ++ [.mk .field_name u.length name []]

/-- `:` -/
def isColon (c : Byte) : Bool := c == ch ':'

theorem alias_ok {s t : Str} {ns : List (Node R)} : eval executableSelector (.ref .«alias») s = .ok ns t ↔
    ∃ n u, Name s n u ∧ Skip u (ch ':' :: t) ∧ ns = [.mk .alias_name s.length n []] := by
  rw [ref_ok]
  constructor
  · rintro ⟨ys, h, rfl⟩
    obtain ⟨_, u, _, h1, h2, rfl⟩ := seq_ok.1 h
    obtain ⟨_, v, _, h3, h4, rfl⟩ := seq_ok.1 h2
    obtain ⟨n, hn, _, rfl⟩ := (nameText_ok (k := .alias_name) rfl rfl).1 h1
    obtain ⟨rfl, hk, _⟩ := star_skip exec_sels h3
    obtain ⟨rfl, rfl⟩ := chr_ok.1 h4
    exact ⟨n, u, hn, hk, rfl⟩
  · rintro ⟨n, u, hn, hk, rfl⟩
    have hc : Ends gapStart (ch ':' :: t) := ends_cons (by decide)
    have hu : Ends nameCont u := (follow_skip (q := fun _ => false) hk nameCont_gap (ends_cons (by decide)) hc
      (ends_cons rfl)).1
    exact ⟨_, seq_ok.2 ⟨_, u, [], (nameText_ok (k := .alias_name) rfl rfl).2 ⟨n, hn, hu, rfl⟩, seq_ok.2
      ⟨[], _, [], skip_star exec_sels hk hc, chr_ok.2 ⟨rfl, rfl⟩, rfl⟩, rfl⟩, rfl⟩

theorem start_sound {s t : Str} {ns : List (Node R)} (h : eval executableSelector (.ref .field_start) s = .ok ns t) :
    ∃ als u name, AliasText s als u ∧ Name u name t ∧ ns = startNodes s als u name := by
  have h0 := (ref_discard_ok (n := .field_start) rfl).1 h
  obtain ⟨_, u, _, h1, h2, rfl⟩ := seq_ok.1 h0
  obtain ⟨name, hname, _, rfl⟩ := (nameText_ok (k := .field_name) rfl rfl).1 h2
  rcases opt_ok.1 h1 with h3 | ⟨_, rfl, rfl⟩
  · obtain ⟨_, v, _, h4, h5, rfl⟩ := seq_ok.1 h3
    obtain ⟨n, w, hn, hk, rfl⟩ := alias_ok.1 h4
    obtain ⟨rfl, hk', _⟩ := star_skip exec_sels h5
    exact ⟨some n, u, name, .some hn hk hk', hname, rfl⟩
  · exact ⟨none, u, name, .none, hname, rfl⟩

theorem start_complete {s u t : Str} {als : Option Str} {name : Str} (ha : AliasText s als u) (hn : Name u name t)
    (hF : Follow nameCont isColon t) :
    eval executableSelector (.ref .field_start) s = .ok (startNodes s als u name) t := by
  have r1 := (nameText_ok (sel := executableSelector) (k := .field_name) rfl rfl).2 ⟨name, hn, hF.1, rfl⟩
  refine (ref_discard_ok rfl).2 ?_
  cases ha with
  | none =>
    refine seq_ok.2 ⟨[], s, _, opt_ok.2 (.inr ⟨seq_fail.2 (.inl ?_), rfl, rfl⟩), r1, rfl⟩
    refine ref_fail.2 (seq_fail.2 (.inr ⟨_, t, (nameText_ok (k := .alias_name) rfl rfl).2 ⟨name, hn, hF.1, rfl⟩, ?_⟩))
    obtain ⟨g, v, e, hg, hv, hr⟩ := star_ignored exec_sels t
    refine seq_fail.2 (.inr ⟨[], v, hr, chr_fail.2 ?_⟩)
    rintro w rfl
    exact absurd (hF.2 _ ⟨g, e, hg⟩ hv _ _ rfl) (by decide)
  | @some _ n v w _ h1 h2 h3 =>
    exact seq_ok.2 ⟨_, u, _, opt_ok.2 (.inl (seq_ok.2 ⟨_, w, [], alias_ok.2 ⟨n, v, h1, h2, rfl⟩,
      skip_star exec_sels h3 (name_starts.ends nameStart_gap hn), rfl⟩)), r1, rfl⟩

/-! ## Fields -/

/-- A selection set and its place. -/
def SetText (rd : Read) (s : Str) (a : Nat × List Ast.Selection) (t : Str) : Prop :=
  a.1 = s.length ∧ SelectionSetText rd.pos rd.atof s a.2 t

/-- The node stands for the selection set. -/
def IsSet (rd : Read) (x : Node R) (a : Nat × List Ast.Selection) : Prop :=
  ∃ c cs, x = .mk .selection_set a.1 c cs ∧ selsOf rd cs = some a.2

/-- The node stands for the selection. -/
def IsSel (rd : Read) (x : Node R) (a : Ast.Selection) : Prop := selOf rd x = some a

theorem set_starts : Starts (SetText rd) isBrace := by
  intro s a t h
  obtain ⟨u, rfl⟩ := between_starts h.2
  exact ⟨_, _, rfl, by decide⟩

theorem set_needs : Needs sel (.ref .selection_set) isBrace := needs_of (by decide +kernel) (by decide +kernel)

theorem subOf_set {a : Nat × List Ast.Selection} {x : Node R} (h : IsSet rd x a) :
    subOf rd [x] = some (some (rd.pos a.1, a.2)) := by
  obtain ⟨c, cs, rfl, h⟩ := h
  simp [subOf, h]

theorem subOf_skip {x : Node R} (h : x.rule ≠ .selection_set) (xs : List (Node R)) : subOf rd (x :: xs) = subOf rd xs := by
  obtain ⟨r, l, c, cs⟩ := x
  simp only [rule_mk] at h
  simp [subOf, h]

theorem isSet_rule {a : Nat × List Ast.Selection} {x : Node R} (h : IsSet rd x a) : x.rule = .selection_set := by
  obtain ⟨c, cs, rfl, _⟩ := h
  rfl

theorem startNodes_rule {s u name : Str} {als : Option Str} {x : Node R} (h : x ∈ startNodes s als u name) :
    x.rule = .alias_name ∨ x.rule = .field_name := by
  cases als <;> simp [startNodes] at h
  · exact .inr (by rw [h]; rfl)
  · rcases h with rfl | rfl
    · exact .inl rfl
    · exact .inr rfl

theorem subOf_start {s u name : Str} {als : Option Str} {as ds ns : List (Node R)} {args : Option Ast.Args}
    {dirs : Option (List Ast.Directive)} (ha : OptNode (IsArgs rd) as args) (hd : OptNode (IsDirectives rd) ds dirs) :
    subOf rd (startNodes s als u name ++ (as ++ (ds ++ ns))) = subOf rd ns := by
  have key : ∀ (xs ys : List (Node R)), (∀ x ∈ xs, x.rule ≠ .selection_set) → subOf rd (xs ++ ys) = subOf rd ys := by
    intro xs ys h
    induction xs with
    | nil => rfl
    | cons x xs ih =>
      rw [List.cons_append, subOf_skip (h x (by simp)), ih (fun y hy => h y (by simp [hy]))]
  rw [key, key, key]
  · cases hd with
    | none => simp
    | some h => simp [h.1]
  · cases ha with
    | none => simp
    | some h => simp [h.1]
  · intro x hx
    rcases startNodes_rule hx with h | h <;> simp [h]

theorem fieldOf_start {s u name : Str} {als : Option Str} {as ds ns : List (Node R)} {args : Option Ast.Args}
    {dirs : Option (List Ast.Directive)} (ha : OptNode (IsArgs rd) as args) (hd : OptNode (IsDirectives rd) ds dirs)
    (hn : ∀ x ∈ ns, x.rule = .selection_set) (l : Nat) :
    fieldOf rd l (startNodes s als u name ++ (as ++ (ds ++ ns))) = some ⟨rd.pos l, als, name, args, dirs⟩ := by
  have rest : ∀ {k : R}, k ≠ .selection_set → firstChild k ns = none := by
    intro k hk
    induction ns with
    | nil => rfl
    | cons x xs ih =>
      rw [firstChild_cons, if_neg (by rw [hn x (by simp)]; exact Ne.symm hk), ih (fun y hy => hn y (by simp [hy]))]
  have e1 := rest (k := .alias_name) (by decide)
  have e3 := rest (k := .arguments) (by decide)
  have e4 := rest (k := .directives) (by decide)
  cases als <;> cases ha with
  | none =>
    cases hd with
    | none => simp [fieldOf, argsOf, directivesOf, optChild, startNodes, firstChild_cons, rule_mk, content_mk, e1, e3, e4]
    | some h =>
      simp [fieldOf, argsOf, directivesOf, optChild, startNodes, firstChild_cons, rule_mk, content_mk, h.1, h.2, e1, e3]
  | some h' =>
    cases hd with
    | none => simp [fieldOf, argsOf, directivesOf, optChild, startNodes, firstChild_cons, rule_mk, content_mk, e1, e4,
        h'.1, h'.2]
    | some h =>
      simp [fieldOf, argsOf, directivesOf, optChild, startNodes, firstChild_cons, rule_mk, content_mk, h.1, h.2, e1,
        h'.1, h'.2]

theorem field_leaf {s u name c : Str} {als : Option Str} {as ds : List (Node R)} {args : Option Ast.Args} {l : Nat}
    {dirs : Option (List Ast.Directive)} (ha : OptNode (IsArgs rd) as args) (hd : OptNode (IsDirectives rd) ds dirs) :
    IsSel rd (.mk .field l c (startNodes s als u name ++ (as ++ ds))) (.leaf ⟨rd.pos l, als, name, args, dirs⟩) := by
  have e1 := fieldOf_start (ns := []) (s := s) (u := u) (name := name) (als := als) ha hd (by simp) l
  have e2 := subOf_start (ns := []) (s := s) (u := u) (name := name) (als := als) ha hd
  simp only [List.append_nil] at e1 e2
  simp [IsSel, selOf, e1, e2, subOf]

theorem field_node {s u name c : Str} {als : Option Str} {as ds : List (Node R)} {args : Option Ast.Args} {l : Nat}
    {dirs : Option (List Ast.Directive)} {x : Node R} {a : Nat × List Ast.Selection}
    (ha : OptNode (IsArgs rd) as args) (hd : OptNode (IsDirectives rd) ds dirs) (hx : IsSet rd x a) :
    IsSel rd (.mk .field l c (startNodes s als u name ++ (as ++ (ds ++ [x]))))
      (.node ⟨rd.pos l, als, name, args, dirs⟩ (rd.pos a.1) a.2) := by
  have e1 := fieldOf_start (ns := [x]) (s := s) (u := u) (name := name) (als := als) ha hd
    (by simpa using isSet_rule hx) l
  have e2 := subOf_start (ns := [x]) (s := s) (u := u) (name := name) (als := als) ha hd
  simp [IsSel, selOf, e1, e2, subOf_set hx]

/-- The optional directives of a field. -/
theorem field_directives_eq (s : Str) : eval executableSelector (.opt (.ref .field_directives)) s =
    eval executableSelector (.opt (.seq (.star (.ref .ignored)) (.ref .directives))) s := by
  rw [eval_opt, eval_opt, eval_discard rfl]
  rfl

theorem field_arguments_eq (s : Str) : eval executableSelector (.ref .field_arguments) s =
    eval executableSelector (.opt (.seq (.star (.ref .ignored)) (.ref .arguments))) s := eval_discard rfl s

theorem field_sound {n : Nat} (ih : Sound n executableSelector (.ref .selection_set) (SetText rd) (IsSet rd)) :
    Sound n executableSelector (.ref .field) (SelectionText rd.pos rd.atof) (IsSel rd) := by
  intro s ns t hl he
  obtain ⟨cs, h1, rfl⟩ := (ref_store_ok rfl).1 he
  obtain ⟨_, v, _, h2, h3, rfl⟩ := seq_ok.1 h1
  obtain ⟨als, u, name, hA, hN, rfl⟩ := start_sound h2
  have l1 := rest_le h2
  have h4 := (ref_discard_ok (n := .field_content) rfl).1 (need_ok.1 h3)
  rcases sor_ok.1 h4 with h5 | ⟨_, h5⟩
  · obtain ⟨as, w, _, h6, h7, rfl⟩ := seq_ok.1 h5
    obtain ⟨ds, x, ss, h8, h9, rfl⟩ := seq_ok.1 h7
    rw [field_arguments_eq] at h6
    rw [field_directives_eq] at h8
    have l2 := rest_le h6
    have l3 := rest_le h8
    obtain ⟨args, ha, ha'⟩ := optNode_sound exec_sels (arguments_sound exec_sels rd n) (by omega) h6
    obtain ⟨dirs, hd, hd'⟩ := optNode_sound exec_sels (directives_sound exec_sels rd n) (by omega) h8
    obtain ⟨_, y, zs, h10, h11, rfl⟩ := seq_ok.1 ((ref_discard_ok (n := .field_selection_set) rfl).1 h9)
    obtain ⟨rfl, hk, _⟩ := star_skip exec_sels h10
    have l4 := rest_le h10
    obtain ⟨z, ⟨lz, sub⟩, rfl, ⟨rfl, hS⟩, hW⟩ := ih y zs t (by omega) h11
    exact ⟨_, _, rfl, .node (.mk hA hN ha hd) hk hS, field_node ha' hd' hW⟩
  · rcases sor_ok.1 h5 with h6 | ⟨_, h6⟩
    · obtain ⟨as, w, _, h7, h8, rfl⟩ := seq_ok.1 h6
      rw [field_arguments_eq] at h7
      have l2 := rest_le h7
      obtain ⟨args, ha, ha'⟩ := optNode_sound exec_sels (arguments_sound exec_sels rd n) (by omega) h7
      have h9 : eval executableSelector (.opt (.ref .field_directives)) w = .ok _ t := opt_ok.2 (.inl h8)
      rw [field_directives_eq] at h9
      obtain ⟨dirs, hd, hd'⟩ := optNode_sound exec_sels (directives_sound exec_sels rd n) (by omega) h9
      exact ⟨_, _, rfl, .leaf (.mk hA hN ha hd), field_leaf ha' hd'⟩
    · have h7 : eval executableSelector (.ref .field_arguments) v = .ok _ t := h6
      rw [field_arguments_eq] at h7
      obtain ⟨args, ha, ha'⟩ := optNode_sound exec_sels (arguments_sound exec_sels rd n) (by omega) h7
      have := field_leaf (rd := rd) (s := s) (u := u) (name := name) (als := als) (l := s.length) (c := consumed s t) ha'
        (OptNode.none (W := IsDirectives rd))
      simp only [List.append_nil] at this
      exact ⟨_, _, rfl, .leaf (.mk hA hN ha .none), this⟩

/-- What cannot follow the directives of a field, after ignored text. -/
def fieldStop (c : Byte) : Bool := isColon c || isParen c || isAt c
/-- What cannot follow a field, after ignored text. -/
def fieldNext (c : Byte) : Bool := fieldStop c || isBrace c

theorem field_parts {n : Nat} {s x : Str} {f : Ast.Field} (hl : s.length < n) (hf : FieldText rd.pos rd.atof s f x)
    (hx : Follow nameCont fieldStop x) :
    ∃ als u name v as args w ds dirs, f = ⟨rd.pos s.length, als, name, args, dirs⟩ ∧
      eval executableSelector (.ref .field_start) s = .ok (startNodes s als u name) v ∧
      eval executableSelector (.ref .field_arguments) v = .ok as w ∧
      eval executableSelector (.opt (.ref .field_directives)) w = .ok ds x ∧
      OptNode (IsArgs rd) as args ∧ OptNode (IsDirectives rd) ds dirs ∧ (ds = [] → w = x) := by
  cases hf with
  | @mk _ als u name v args w dirs _ hA hN ha hd =>
    have hw : Follow nameCont isParen w := opt_follow directives_starts nameCont_gap (by decide +kernel) hd
      (hx.weaken (fun _ => id) (by decide +kernel))
    have hw' : Follow nameCont isColon w := opt_follow directives_starts nameCont_gap (by decide +kernel) hd
      (hx.weaken (fun _ => id) (by decide +kernel))
    have hv : Follow nameCont isColon v := opt_follow arguments_starts nameCont_gap (by decide +kernel) ha hw'
    have r1 := start_complete hA hN hv
    have l1 := rest_le r1
    obtain ⟨as, r2, ha'⟩ := optNode_complete exec_sels (arguments_complete exec_sels rd n) arguments_starts isParen_gap
      arguments_needs (by omega) ha trivial hw.2
    have l2 := rest_le r2
    obtain ⟨ds, r3, hd'⟩ := optNode_complete exec_sels (directives_complete exec_sels rd n) directives_starts isAt_gap
      directives_needs (by omega) hd (hx.weaken (fun _ => id) (by decide +kernel))
      (hx.weaken (p' := nameCont) (fun _ => id) (by decide +kernel)).2
    rw [← field_arguments_eq] at r2
    rw [← field_directives_eq] at r3
    refine ⟨als, u, name, v, as, args, w, ds, dirs, rfl, r1, r2, r3, ha', hd', ?_⟩
    rintro rfl
    cases hd'
    cases hd
    rfl

theorem field_build {s v t : Str} {xs ys : List (Node R)} (h1 : eval executableSelector (.ref .field_start) s = .ok xs v)
    (h2 : eval executableSelector (grammar .field_content) v = .ok ys t) :
    eval executableSelector (.ref .field) s = .ok [.mk .field s.length (consumed s t) (xs ++ ys)] t :=
  (ref_store_ok rfl).2 ⟨_, seq_ok.2 ⟨_, v, _, h1, need_ok.2 ((ref_discard_ok (n := .field_content) rfl).2 h2), rfl⟩, rfl⟩

theorem leaf_complete {n : Nat} {s t : Str} {f : Ast.Field} (hl : s.length < n)
    (hf : FieldText rd.pos rd.atof s f t) (hF : Follow nameCont fieldNext t) :
    ∃ x, eval executableSelector (.ref .field) s = .ok [x] t ∧ IsSel rd x (.leaf f) := by
  obtain ⟨als, u, name, v, as, args, w, ds, dirs, rfl, r1, r2, r3, ha, hd, hw⟩ :=
    field_parts hl hf (hF.weaken (fun _ => id) (by decide +kernel))
  have noset : eval executableSelector (.ref .field_selection_set) t = .fail := by
    rw [eval_discard rfl]
    obtain ⟨g, y, e, hg, hy, hr⟩ := star_ignored exec_sels t
    exact seq_fail.2 (.inr ⟨[], y, hr, set_needs y ((hF.weaken (p' := nameCont) (fun _ => id) (by decide +kernel)).2 y
      ⟨g, e, hg⟩ hy)⟩)
  have first : eval executableSelector (Rule.seqs [.ref .field_arguments, Rule.opt (.ref .field_directives),
      .ref .field_selection_set]) v = .fail :=
    seq_fail.2 (.inr ⟨as, w, r2, seq_fail.2 (.inr ⟨ds, t, r3, noset⟩)⟩)
  refine ⟨_, field_build r1 (sor_next first ?_), field_leaf ha hd⟩
  rcases opt_ok.1 r3 with r4 | ⟨r4, rfl, rfl⟩
  · exact sor_ok.2 (.inl (seq_ok.2 ⟨as, w, ds, r2, r4, rfl⟩))
  · exact sor_next (seq_fail.2 (.inr ⟨as, t, r2, r4⟩)) (by rw [List.append_nil]; exact r2)

theorem node_complete {n : Nat} (ih : Complete n executableSelector (.ref .selection_set) (SetText rd) (IsSet rd)
    (fun _ => True)) {s x u t : Str} {f : Ast.Field} {sub : List Ast.Selection} (hl : s.length < n)
    (hf : FieldText rd.pos rd.atof s f x) (hk : Skip x u) (hS : SelectionSetText rd.pos rd.atof u sub t) :
    ∃ y, eval executableSelector (.ref .field) s = .ok [y] t ∧ IsSel rd y (.node f (rd.pos u.length) sub) := by
  have hu : SetText rd u (u.length, sub) t := ⟨rfl, hS⟩
  have hF : Follow nameCont fieldStop x := follow_skip hk nameCont_gap (set_starts.ends (by decide +kernel) hu)
    (set_starts.ends isBrace_gap hu) (set_starts.ends (by decide +kernel) hu)
  obtain ⟨als, v', name, v, as, args, w, ds, dirs, rfl, r1, r2, r3, ha, hd, hw⟩ := field_parts hl hf hF
  have r4 := skip_star exec_sels hk (set_starts.ends isBrace_gap hu)
  have l1 := rest_le r1
  have l2 := rest_le r2
  have l3 := rest_le r3
  have l4 := rest_le r4
  obtain ⟨y, r5, hW⟩ := ih u _ t (by omega) hu trivial
  exact ⟨_, field_build r1 (sor_ok.2 (.inl (seq_ok.2 ⟨as, w, _, r2, seq_ok.2 ⟨ds, x, [y], r3, (ref_discard_ok rfl).2
    (seq_ok.2 ⟨[], u, [y], r4, r5, rfl⟩), rfl⟩, rfl⟩))), field_node ha hd hW⟩

/-! ## Fragment names and type conditions -/

theorem isName_on : IsName (str "on") := ⟨_, _, rfl, by decide, by decide⟩

theorem fragment_name_ok {s t : Str} {xs : List (Node R)} : eval executableSelector (.ref .fragment_name) s = .ok xs t ↔
    ∃ n, Name s n t ∧ n ≠ str "on" ∧ Ends nameCont t ∧ xs = [.mk .fragment_name s.length n []] := by
  rw [ref_store_ok rfl]
  constructor
  · rintro ⟨ys, h, rfl⟩
    obtain ⟨_, u, _, h1, h2, rfl⟩ := seq_ok.1 h
    obtain ⟨h3, rfl, rfl⟩ := notAt_ok.1 h1
    obtain ⟨rfl, n, rfl, hn, he⟩ := identifier_ok.1 ((ref_discard_ok (n := .name) rfl).1 h2)
    refine ⟨n, ⟨hn, rfl⟩, ?_, he, by rw [consumed_append]; rfl⟩
    rintro rfl
    have : eval executableSelector (.ref .on_keyword) (str "on" ++ t) = .ok [] t :=
      (ref_discard_ok rfl).2 (keyword_ok.2 ⟨rfl, rfl, he⟩)
    rw [this] at h3
    exact nomatch h3
  · rintro ⟨n, ⟨hn, rfl⟩, hne, he, rfl⟩
    exact ⟨[], seq_ok.2 ⟨[], n ++ t, [], notAt_ok.2 ⟨keyword_ref_fail rfl isName_on hn he hne, rfl, rfl⟩,
      (ref_discard_ok rfl).2 (identifier_ok.2 ⟨rfl, n, rfl, hn, he⟩), rfl⟩, by rw [consumed_append]⟩

/-- The node stands for the type condition. -/
def IsCondition (x : Node R) (a : Str) : Prop := x.rule = .type_condition ∧ frontText x.children = some a

/-- The first byte of a type condition. -/
def isO (c : Byte) : Bool := c == ch 'o'

theorem condition_sound (n : Nat) : Sound n executableSelector (.ref .type_condition) ConditionText IsCondition := by
  intro s ns t _ he
  obtain ⟨cs, h1, rfl⟩ := (ref_store_ok rfl).1 he
  obtain ⟨_, u, _, h2, h3, rfl⟩ := seq_ok.1 h1
  obtain ⟨rfl, rfl, _⟩ := keyword_ok.1 ((ref_discard_ok (n := .on_keyword) rfl).1 h2)
  obtain ⟨_, v, _, h4, h5, rfl⟩ := seq_ok.1 ((ref_discard_ok (n := .type_condition_content) rfl).1 (need_ok.1 h3))
  obtain ⟨rfl, hk, _⟩ := plus_space exec_sels h4
  obtain ⟨m, hm, _, rfl⟩ := (nameText_ok (k := .named_type) rfl rfl).1 h5
  exact ⟨_, m, rfl, .mk hk hm, rfl, rfl⟩

theorem condition_complete (n : Nat) :
    Complete n executableSelector (.ref .type_condition) ConditionText IsCondition (Ends nameCont) := by
  intro s a t _ hc hF
  cases hc with
  | @mk u v _ _ hk hm =>
    have hu : Ends nameCont u := by
      obtain ⟨c, w, rfl, hc⟩ := space_first hk
      exact ends_cons (nameCont_gap c hc)
    refine ⟨_, (ref_store_ok rfl).2 ⟨_, seq_ok.2 ⟨[], u, _, (ref_discard_ok rfl).2 (keyword_ok.2 ⟨rfl, rfl, hu⟩), need_ok.2
      ((ref_discard_ok (n := .type_condition_content) rfl).2 (seq_ok.2 ⟨[], v, _, space_plus exec_sels hk
        (name_starts.ends nameStart_gap hm), (nameText_ok (k := .named_type) rfl rfl).2 ⟨a, hm, hF, rfl⟩, rfl⟩)), rfl⟩, rfl⟩,
      rfl, rfl⟩

theorem condition_starts : Starts ConditionText isO := by
  intro s a t h
  cases h with
  | mk _ _ => exact ⟨_, _, rfl, by decide⟩

theorem condition_needs : Needs sel (.ref .type_condition) isO := needs_of (by decide +kernel) (by decide +kernel)

/-! ## Spreads and inline fragments -/

theorem spread_sound (n : Nat) {u t : Str} {ns : List (Node R)} (hl : u.length < n)
    (he : eval executableSelector (.ref .fragment_spread) u = .ok ns t) :
    ∃ x a, ns = [x] ∧ SelectionText rd.pos rd.atof (str "..." ++ u) a t ∧ IsSel rd x a := by
  obtain ⟨cs, h1, rfl⟩ := (ref_store_ok rfl).1 he
  obtain ⟨_, v, _, h2, h3, rfl⟩ := seq_ok.1 h1
  obtain ⟨rfl, hk, _⟩ := star_skip exec_sels h2
  obtain ⟨_, w, ds, h4, h5, rfl⟩ := seq_ok.1 h3
  obtain ⟨m, hm, hne, _, rfl⟩ := fragment_name_ok.1 h4
  have l1 := rest_le h2
  have l2 := rest_le h4
  obtain ⟨dirs, hd, hd'⟩ := optNode_sound exec_sels (directives_sound exec_sels rd n) (by omega) h5
  refine ⟨_, _, rfl, .spread hk hm hne hd, ?_⟩
  cases hd' with
  | none => simp [IsSel, selOf, frontText, directivesOf, optChild, firstChild_cons, firstChild_nil, rule_mk, content_mk]
  | some h => simp [IsSel, selOf, frontText, directivesOf, optChild, firstChild_cons, rule_mk, content_mk, h.1, h.2]

theorem spread_complete (n : Nat) {u v m w t : Str} {dirs : Option (List Ast.Directive)} (hl : u.length < n)
    (hk : Skip u v) (hm : Name v m w) (hne : m ≠ str "on") (hd : Opt (DirectivesText rd.pos rd.atof) w dirs t)
    (hF : Follow nameCont dirNext t) :
    ∃ x, eval executableSelector (.ref .fragment_spread) u = .ok [x] t ∧ IsSel rd x (.spread (rd.pos u.length) m dirs) := by
  have hw : Follow nameCont (fun _ => false) w := opt_follow directives_starts nameCont_gap (by decide +kernel) hd
    (hF.weaken (fun _ => id) (fun _ _ => rfl))
  have r1 := skip_star exec_sels hk (name_starts.ends nameStart_gap hm)
  have r2 := fragment_name_ok.2 ⟨m, hm, hne, hw.1, rfl⟩
  have l1 := rest_le r1
  have l2 := rest_le r2
  obtain ⟨ds, r3, hd'⟩ := optNode_complete exec_sels (directives_complete exec_sels rd n) directives_starts isAt_gap
    directives_needs (by omega) hd hF (hF.weaken (p' := nameCont) (fun _ => id) (by decide +kernel)).2
  refine ⟨_, (ref_store_ok rfl).2 ⟨_, seq_ok.2 ⟨[], v, _, r1, seq_ok.2 ⟨_, w, ds, r2, r3, rfl⟩, rfl⟩, rfl⟩, ?_⟩
  cases hd' with
  | none => simp [IsSel, selOf, frontText, directivesOf, optChild, firstChild_cons, firstChild_nil, rule_mk, content_mk]
  | some h => simp [IsSel, selOf, frontText, directivesOf, optChild, firstChild_cons, rule_mk, content_mk, h.1, h.2]

theorem inline_node {cs ds : List (Node R)} {cond : Option Str} {dirs : Option (List Ast.Directive)} {x : Node R}
    {a : Nat × List Ast.Selection} {l : Nat} {c : Str} (hc : OptNode IsCondition cs cond)
    (hd : OptNode (IsDirectives rd) ds dirs) (hx : IsSet rd x a) :
    IsSel rd (.mk .inline_fragment l c (cs ++ (ds ++ [x]))) (.inline (rd.pos l) cond dirs a.2) := by
  have hr := isSet_rule hx
  have e := subOf_set hx
  cases hc with
  | none =>
    cases hd with
    | none => simp [IsSel, selOf, directivesOf, optChild, firstChild_cons, firstChild_nil, hr, e]
    | some h =>
      have e' : subOf rd [_, x] = _ := subOf_skip (by rw [h.1]; decide) [x]
      simp [IsSel, selOf, directivesOf, optChild, firstChild_cons, firstChild_nil, hr, e, h.1, h.2, e']
  | some h' =>
    cases hd with
    | none =>
      have e' : subOf rd [_, x] = _ := subOf_skip (by rw [h'.1]; decide) [x]
      simp [IsSel, selOf, directivesOf, optChild, firstChild_cons, firstChild_nil, hr, e, h'.1, h'.2, e']
    | @some y _ h =>
      have e' : subOf rd [y, x] = _ := subOf_skip (by rw [h.1]; decide) [x]
      have e'' : subOf rd [_, y, x] = _ := subOf_skip (by rw [h'.1]; decide) [y, x]
      simp [IsSel, selOf, directivesOf, optChild, firstChild_cons, hr, e, h.1, h.2, h'.1, h'.2, e', e'']

theorem inline_sound {n : Nat} (ih : Sound n executableSelector (.ref .selection_set) (SetText rd) (IsSet rd))
    {u t : Str} {ns : List (Node R)} (hl : u.length < n)
    (he : eval executableSelector (.ref .inline_fragment) u = .ok ns t) :
    ∃ x a, ns = [x] ∧ SelectionText rd.pos rd.atof (str "..." ++ u) a t ∧ IsSel rd x a := by
  obtain ⟨cs, h1, rfl⟩ := (ref_store_ok rfl).1 he
  obtain ⟨cn, v, _, h2, h3, rfl⟩ := seq_ok.1 h1
  obtain ⟨ds, w, _, h4, h5, rfl⟩ := seq_ok.1 h3
  obtain ⟨_, x, zs, h6, h7, rfl⟩ := seq_ok.1 h5
  obtain ⟨rfl, hk, _⟩ := star_skip exec_sels h6
  have l1 := rest_le h2
  have l2 := rest_le h4
  have l3 := rest_le h6
  obtain ⟨cond, hc, hc'⟩ := optNode_sound exec_sels (condition_sound n) (by omega) h2
  obtain ⟨dirs, hd, hd'⟩ := optNode_sound exec_sels (directives_sound exec_sels rd n) (by omega) h4
  obtain ⟨z, ⟨lz, sub⟩, rfl, ⟨rfl, hS⟩, hW⟩ := ih x zs t (by omega) h7
  exact ⟨_, _, rfl, .inline hc hd hk hS, inline_node hc' hd' hW⟩

theorem inline_complete {n : Nat} (ih : Complete n executableSelector (.ref .selection_set) (SetText rd) (IsSet rd)
    (fun _ => True)) {u v w x t : Str} {cond : Option Str} {dirs : Option (List Ast.Directive)}
    {sub : List Ast.Selection} (hl : u.length < n)
    (hc : Opt ConditionText u cond v) (hd : Opt (DirectivesText rd.pos rd.atof) v dirs w) (hk : Skip w x)
    (hS : SelectionSetText rd.pos rd.atof x sub t) :
    eval executableSelector (.ref .fragment_spread) u = .fail ∧
    ∃ y, eval executableSelector (.ref .inline_fragment) u = .ok [y] t ∧
      IsSel rd y (.inline (rd.pos u.length) cond dirs sub) := by
  have hx : SetText rd x (x.length, sub) t := ⟨rfl, hS⟩
  have hxg := set_starts.ends isBrace_gap hx
  have hw : Follow nameCont (fun c => nameStart c || dirNext c || isO c) w :=
    follow_skip hk nameCont_gap (set_starts.ends (by decide +kernel) hx) hxg (set_starts.ends (by decide +kernel) hx)
  have hv : Follow nameCont nameStart v := opt_follow directives_starts nameCont_gap (by decide +kernel) hd
    (hw.weaken (fun _ => id) (by decide +kernel))
  have r1 : ∃ cs, eval executableSelector (.opt (.seq (.star (.ref .ignored)) (.ref .type_condition))) u = .ok cs v ∧
      OptNode IsCondition cs cond :=
    optNode_complete exec_sels (condition_complete n) condition_starts (by decide +kernel) condition_needs hl hc hv.1
      (hv.weaken (p' := nameCont) (fun _ => id) (by decide +kernel)).2
  obtain ⟨cs, r1, hc'⟩ := r1
  have l1 := rest_le r1
  obtain ⟨ds, r2, hd'⟩ := optNode_complete exec_sels (directives_complete exec_sels rd n) directives_starts isAt_gap
    directives_needs (by omega) hd (hw.weaken (fun _ => id) (by decide +kernel))
    (hw.weaken (p' := nameCont) (fun _ => id) (by decide +kernel)).2
  have r3 := skip_star exec_sels hk hxg
  have l2 := rest_le r2
  have l3 := rest_le r3
  obtain ⟨y, r4, hW⟩ := ih x _ t (by omega) hx trivial
  refine ⟨?_, _, (ref_store_ok rfl).2 ⟨_, seq_ok.2 ⟨cs, v, _, r1, seq_ok.2 ⟨ds, w, _, r2, seq_ok.2 ⟨[], x, [y], r3, r4, rfl⟩,
    rfl⟩, rfl⟩, rfl⟩, inline_node hc' hd' hW⟩
  refine ref_fail.2 ?_
  cases hc with
  | none =>
    obtain ⟨g, z, e, hg, hz, hr⟩ := star_ignored exec_sels u
    refine seq_fail.2 (.inr ⟨[], z, hr, seq_fail.2 (.inl ?_)⟩)
    exact needs_of (p := nameStart) (by decide +kernel) (by decide +kernel) z (hv.2 z ⟨g, e, hg⟩ hz)
  | @some _ z _ _ hk' hc =>
    refine seq_fail.2 (.inr ⟨[], z, skip_star exec_sels hk' (condition_starts.ends (by decide +kernel) hc), seq_fail.2 (.inl ?_)⟩)
    refine ref_fail.2 (seq_fail.2 (.inl (notAt_fail.2 ?_)))
    cases hc with
    | @mk a b _ _ hsp _ =>
      have ha : Ends nameCont a := by
        obtain ⟨c, w, rfl, hc⟩ := space_first hsp
        exact ends_cons (nameCont_gap c hc)
      exact ⟨[], a, (ref_discard_ok rfl).2 (keyword_ok.2 ⟨rfl, rfl, ha⟩)⟩

/-! ## Selections -/

/-- The first bytes of selections. -/
def selStart (c : Byte) : Bool := nameStart c || c == ch '.'

theorem selStart_gap : ∀ c : Byte, selStart c = true → gapStart c = false := by decide +kernel

theorem field_starts : Starts (FieldText rd.pos rd.atof) nameStart := by
  intro s f t h
  cases h with
  | mk hA hN _ _ =>
    cases hA with
    | none => exact name_starts _ _ _ hN
    | some h _ _ => exact name_starts _ _ _ h

theorem selection_starts : Starts (SelectionText rd.pos rd.atof) selStart := by
  have key : ∀ s f t, FieldText rd.pos rd.atof s f t → ∃ c u, s = c :: u ∧ selStart c = true := by
    intro s f t h
    obtain ⟨c, u, e, hc⟩ := field_starts _ _ _ h
    exact ⟨c, u, e, by simp [selStart, hc]⟩
  intro s a t h
  cases h with
  | leaf h => exact key _ _ _ h
  | node h _ _ => exact key _ _ _ h
  | spread _ _ _ _ => exact ⟨_, _, rfl, by decide⟩
  | inline _ _ _ _ => exact ⟨_, _, rfl, by decide⟩

theorem selsOf_of {ns : List (Node R)} {xs : List Ast.Selection} (h : List.Forall₂ (IsSel rd) ns xs) :
    selsOf rd ns = some xs := by
  induction h with
  | nil => simp [selsOf]
  | cons h _ ih =>
    simp only [IsSel] at h
    simp [selsOf, h, ih]

theorem set_sound_of {n : Nat} (ih : Sound n executableSelector (.ref .selection) (SelectionText rd.pos rd.atof) (IsSel rd)) :
    Sound (n + 1) executableSelector (.ref .selection_set) (SetText rd) (IsSet rd) := by
  intro s ns t hl he
  obtain ⟨cs, xs, rfl, hb, hf⟩ := items_bracket_sound exec_sels (k := .selection_set) (kc := .selection_set_content)
    (r := .ref .selection) (o := '{') (c := '}') (m := str "Expected }") rfl rfl rfl rfl rfl ih hl he
  exact ⟨_, (s.length, xs), rfl, ⟨rfl, hb⟩, _, _, rfl, selsOf_of hf⟩

theorem set_complete_of {n : Nat} (ih : Complete n executableSelector (.ref .selection) (SelectionText rd.pos rd.atof)
    (IsSel rd) (Follow nameCont fieldNext)) :
    Complete (n + 1) executableSelector (.ref .selection_set) (SetText rd) (IsSet rd) (fun _ => True) := by
  rintro s ⟨l, xs⟩ t hl ⟨rfl, hb⟩ _
  obtain ⟨cs, he, hf⟩ := bracket_complete exec_sels (k := .selection_set) (kc := .selection_set_content)
    (r := .ref .selection) (o := '{') (c := '}') (m := str "Expected }") rfl rfl rfl (.inr rfl) rfl
    (by decide) (by decide) ih selection_starts selStart_gap (needs_of (by decide +kernel) (by decide +kernel))
    (follow_items nameCont_gap (by decide +kernel)) (follow_close nameCont_gap (by decide) (by decide) (by decide)) hl hb
  exact ⟨_, he, _, _, rfl, selsOf_of hf⟩

/-- Every selection which is read is a selection of the specification, and the visitors give this selection. -/
theorem selection_sound (rd : Read) (n : Nat) :
    Sound n executableSelector (.ref .selection) (SelectionText rd.pos rd.atof) (IsSel rd) := by
  induction n with
  | zero => intro s ns t h; omega
  | succ n ih =>
    have hset := set_sound_of ih
    intro s ns t hl he
    rcases sor_ok.1 ((ref_discard_ok (n := .selection) rfl).1 he) with h | ⟨_, h⟩
    · exact field_sound hset s ns t hl h
    · obtain ⟨_, u, _, h2, h3, rfl⟩ := seq_ok.1 ((ref_discard_ok (n := .fragement_spread_or_inline_fragment) rfl).1 h)
      obtain ⟨rfl, rfl⟩ := lit_ok.1 ((ref_discard_ok (n := .fragment_token) rfl).1 h2)
      have l1 := rest_le h2
      rcases sor_ok.1 ((ref_discard_ok (n := .fragement_spread_or_inline_fragment_content) rfl).1 (need_ok.1 h3)) with
        h4 | ⟨_, h4⟩
      · exact spread_sound (n + 1) (by omega) h4
      · exact inline_sound hset (by omega) h4

theorem fragment_build {u t : Str} {ns : List (Node R)}
    (h : eval executableSelector (grammar .fragement_spread_or_inline_fragment_content) u = .ok ns t) :
    eval executableSelector (.ref .selection) (str "..." ++ u) = .ok ns t := by
  refine (ref_discard_ok rfl).2 (sor_next (dead_append (by decide +kernel)) ?_)
  exact (ref_discard_ok (n := .fragement_spread_or_inline_fragment) rfl).2 (seq_ok.2 ⟨[], u, ns, (ref_discard_ok rfl).2
    (lit_ok.2 ⟨rfl, rfl⟩), need_ok.2 ((ref_discard_ok (n := .fragement_spread_or_inline_fragment_content) rfl).2 h), rfl⟩)

/-- Every selection of the specification is read, if what follows is not part of it, and the visitors give this selection. -/
theorem selection_complete (rd : Read) (n : Nat) :
    Complete n executableSelector (.ref .selection) (SelectionText rd.pos rd.atof) (IsSel rd) (Follow nameCont fieldNext) := by
  induction n with
  | zero => intro s a t h; omega
  | succ n ih =>
    have hset := set_complete_of ih
    intro s a t hl ha hF
    have asField : ∀ {x}, eval executableSelector (.ref .field) s = .ok [x] t →
        eval executableSelector (.ref .selection) s = .ok [x] t := fun h => (ref_discard_ok rfl).2 (sor_ok.2 (.inl h))
    cases ha with
    | leaf hf =>
      obtain ⟨x, he, hW⟩ := leaf_complete hl hf hF
      exact ⟨x, asField he, hW⟩
    | node hf hk hb =>
      obtain ⟨x, he, hW⟩ := node_complete hset hl hf hk hb
      exact ⟨x, asField he, hW⟩
    | spread hk hm hne hd =>
      simp only [List.length_append] at hl
      obtain ⟨x, he, hW⟩ := spread_complete (n + 1) (by omega) hk hm hne hd (hF.weaken (fun _ => id) (by decide +kernel))
      exact ⟨x, fragment_build (sor_ok.2 (.inl he)), hW⟩
    | inline hc hd hk hb =>
      simp only [List.length_append] at hl
      obtain ⟨h1, x, he, hW⟩ := inline_complete hset (by omega) hc hd hk hb
      exact ⟨x, fragment_build (sor_next h1 he), hW⟩

theorem set_sound (rd : Read) (n : Nat) :
    Sound (n + 1) executableSelector (.ref .selection_set) (SetText rd) (IsSet rd) := set_sound_of (selection_sound rd n)

theorem set_complete (rd : Read) (n : Nat) :
    Complete (n + 1) executableSelector (.ref .selection_set) (SetText rd) (IsSet rd) (fun _ => True) :=
  set_complete_of (selection_complete rd n)

end Verif.Peg
