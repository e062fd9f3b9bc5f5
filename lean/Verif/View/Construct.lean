import Verif.View.Represents

/-!
# The tables which the constructor makes
-/
namespace Verif.View
open Verif.Value Verif.SortedMap Verif.SortedMap.Spec Verif.TypeSystem Verif.TypeSystem.Spec
open Verif.Ast (TypeRef)

theorem rel_find {α β : Type} {R : α → β → Prop} {xs : List α} {ys : List β} (h : List.Forall₂ R xs ys) {p : α → Bool}
    {q : β → Bool} (hpq : ∀ x y, R x y → p x = q y) : Option.Rel R (xs.find? p) (ys.find? q) := by
  induction h with
  | nil => exact .none
  | @cons x y xs ys h1 _ ih =>
    rw [List.find?_cons, List.find?_cons, hpq x y h1]
    cases q y with
    | true => exact .some h1
    | false => exact ih

theorem rel_map {α β γ δ : Type} {R : α → β → Prop} {S : γ → δ → Prop} {f : α → γ} {g : β → δ} {x : Option α} {y : Option β}
    (h : Option.Rel R x y) (hfg : ∀ a b, R a b → S (f a) (g b)) : Option.Rel S (x.map f) (y.map g) := by
  cases h with
  | none => exact .none
  | some h => exact .some (hfg _ _ h)

theorem rel_flip {α β : Type} {R : α → β → Prop} {x : Option α} {y : Option β} (h : Option.Rel R x y) :
    Option.Rel (fun b a => R a b) y x := by
  cases h with
  | none => exact .none
  | some h => exact .some h

section
variable {s : Schema} {S : Validation.Schema}

theorem Represents.arguments (h : Represents s S) {ds : List Validation.InputValue} {os : List InputValue}
    (ho : List.Forall₂ (InputObject s) ds os) : Ordered (getArguments s os) ∧ ArgumentsAre s (getArguments s os) ds := by
  obtain ⟨h1, h2⟩ := get_assigns (V := Argument) {} (fun o : InputValue => o.name) (argument s) os ordered_nil
  refine ⟨h1, fun n => ?_⟩
  rw [getArguments, h2 n, get_nil, Option.or_none]
  refine rel_map (R := fun o d => InputObject s d o) (rel_flip (rel_find (List.rel_reverse ho) fun d o hd => ?_)) fun o d hd => ?_
  · simp only [hd.name]
  · exact ⟨by simp [argument, Validation.InputValue.argument, hd.default],
      by simp [argument, Validation.InputValue.argument, hd.default],
      ⟨o.type, h.lock hd.type, hd.type⟩⟩

theorem Represents.directives' (h : Represents s S) : ∀ n, Option.Rel (DirectiveIs s)
    (get (s.directives.foldl (addDirectiveEntry s) []) n) (S.findDirective n) := by
  intro n
  obtain ⟨_, h2⟩ := get_assigns (V := DirectiveEntry) {} (fun d : TypeSystem.Directive => d.name) (fun d => {
    locations := d.locations.foldl (fun ls l => (setEmplace locationLess ls l).1) []
    arguments := getArguments s d.args }) s.directives ordered_nil
  have h2 := h2 n
  rw [get_nil, Option.or_none] at h2
  have e : get (s.directives.foldl (addDirectiveEntry s) []) n = _ := h2
  rw [e, Validation.Schema.findDirective, ← Option.map_id' (x := List.find? _ S.directives.reverse)]
  refine rel_map (R := fun o d => DirectiveObject s d o)
    (rel_flip (rel_find (List.rel_reverse h.directives) fun d o hd => ?_)) fun o d hd => ?_
  · simp only [hd.name]
  · refine ⟨fun l => ?_, (h.arguments hd.args).2⟩
    obtain ⟨h3, h4⟩ := setEmplaces_spec locationLess_strictWeak o.locations (s := []) List.Pairwise.nil
    simp only
    rw [setFind_spec locationLess_strictWeak h3, h4, ← hd.locations]
    simp only [setAbs, List.any_nil, Bool.or_false, List.any_eq_true, same_location]
    exact ⟨fun ⟨x, hx, e⟩ => e ▸ hx, fun hx => ⟨_, hx, rfl⟩⟩

/-! ## The types -/

/-- The members of a table of sets. -/
structure Sets (m : SMap Str (List Str)) (members : Str → Str → Prop) : Prop where
  ordered : Ordered m
  sets : ∀ n xs, get m n = some xs → OrderedSet xs
  mem : ∀ n x, (∃ xs, get m n = some xs ∧ x ∈ xs) ↔ members n x

theorem Sets.nil : Sets [] fun _ _ => False :=
  ⟨ordered_nil, fun n xs h => by simp [get_nil] at h, fun n x => by simp [get_nil]⟩

theorem Sets.congr {m : SMap Str (List Str)} {P Q : Str → Str → Prop} (h : Sets m P) (hPQ : ∀ n x, P n x ↔ Q n x) : Sets m Q :=
  ⟨h.ordered, h.sets, fun n x => (h.mem n x).trans (hPQ n x)⟩

theorem Sets.assign {m : SMap Str (List Str)} {P : Str → Str → Prop} (h : Sets m P) {n : Str} {xs : List Str} (hx : OrderedSet xs) :
    Sets (assign [] m n xs) fun k x => if k = n then x ∈ xs else P k x := by
  refine ⟨ordered_assign h.ordered _ _ _, fun k ys hk => ?_, fun k x => ?_⟩
  · rw [get_assign h.ordered] at hk
    split at hk
    · cases hk; exact hx
    · exact h.sets k ys hk
  · rw [get_assign h.ordered]
    split
    · simp
    · exact h.mem k x

theorem Sets.find {m : SMap Str (List Str)} {P : Str → Str → Prop} (h : Sets m P) (n x : Str) :
    (∃ xs, get m n = some xs ∧ (setFind nameCmp xs x).isSome) ↔ P n x := by
  rw [← h.mem]
  constructor
  · rintro ⟨xs, h1, h2⟩
    exact ⟨xs, h1, (setFind_name (h.sets n xs h1) x).1 h2⟩
  · rintro ⟨xs, h1, h2⟩
    exact ⟨xs, h1, (setFind_name (h.sets n xs h1) x).2 h2⟩

/-- What the objects of a type are. -/
def matchingOf (d : Str × Validation.TypeDef) : List Str :=
  match d.2.kind with
  | .object => [d.1]
  | .interface | .union => d.2.possibleTypes
  | _ => []

/-- The tables after the types `ds`. -/
structure Tables (v₀ : Validator) (ds : List (Str × Validation.TypeDef)) (es : List (Str × Addr)) (v : Validator) : Prop where
  same : (v.schema, v.introspection, v.operationTypes, v.directives, v.typeFields, v.inputTypeFields) =
    (v₀.schema, v₀.introspection, v₀.operationTypes, v₀.directives, v₀.typeFields, v₀.inputTypeFields)
  ordered : Ordered v.types
  types : ∀ n, get v.types n = (es.reverse.find? fun e => e.1 == n).map fun e => some e.2
  matching : Sets v.matchingTypes fun n x => ∃ d ∈ ds, d.1 = n ∧ x ∈ matchingOf d
  enums : Sets v.enumValues fun n x => ∃ d ∈ ds, d.1 = n ∧ d.2.kind = .enum ∧ x ∈ d.2.enumValues
  scalars : OrderedSet v.scalarTypes ∧ ∀ n, n ∈ v.scalarTypes ↔ ∃ d ∈ ds, d.1 = n ∧ d.2.kind = .scalar

theorem possible_eq (h : Represents s S) {ns : List Str} {ps : List Addr}
    (hp : List.Forall₂ (fun n a => s.lookupType n = .ok a) ns ps) (xs : List Str) :
    ps.foldl (addPossible s) xs = ns.foldl (fun s x => (setEmplace nameCmp s x).1) xs := by
  induction hp generalizing xs with
  | nil => rfl
  | cons h1 _ ih =>
    obtain ⟨_, t, _, ht, hn⟩ := h.lookup h1
    rw [List.foldl_cons, List.foldl_cons, ih]
    simp only [addPossible, ht, hn.name]

theorem foldl_names (vs : List EnumValue) (xs : List Str) :
    vs.foldl (fun values value => (setEmplace nameCmp values value.name).1) xs =
      (vs.map (·.name)).foldl (fun s x => (setEmplace nameCmp s x).1) xs := by
  rw [List.foldl_map]

theorem addTypeEntry_spec (h : Represents s S) {v₀ : Validator} (hs : v₀.schema = s) {ds : List (Str × Validation.TypeDef)}
    {es : List (Str × Addr)} {v : Validator} (hv : Tables v₀ ds es v) {d : Str × Validation.TypeDef} {e : Str × Addr}
    (he : TypeEntry s d e) (hd : d.1 ∉ ds.map (·.1)) : Tables v₀ (ds ++ [d]) (es ++ [e]) (addTypeEntry v e) := by
  obtain ⟨t, ht, hn⟩ := he.type
  have hvs : v.schema = s := (congrArg (·.1) hv.same).trans hs
  have same := hv.same
  rw [hvs] at same
  have hno : ∀ c ∈ ds, c.1 ≠ d.1 := fun c hc e => hd (List.mem_map.2 ⟨c, hc, e⟩)
  have e1 := he.name
  have htypes : ∀ w : Validator, w.types = v.types → ∀ n, get (assign none w.types e.1 (some e.2)) n =
      ((es ++ [e]).reverse.find? fun e => e.1 == n).map fun e => some e.2 := by
    intro w hw n
    rw [hw, get_assign hv.ordered, hv.types, List.reverse_append, List.reverse_singleton, List.singleton_append, List.find?_cons]
    by_cases hk : n = e.1
    · subst hk; simp
    · simp [hk, beq_eq_false_iff_ne.2 (Ne.symm hk)]
  have hscal : ∀ (hne : d.2.kind ≠ .scalar), OrderedSet v.scalarTypes ∧
      ∀ n, n ∈ v.scalarTypes ↔ ∃ d' ∈ ds ++ [d], d'.1 = n ∧ d'.2.kind = .scalar := by
    intro hne
    refine ⟨hv.scalars.1, fun n => (hv.scalars.2 n).trans ?_⟩
    simp only [List.mem_append, List.mem_singleton, or_and_right, exists_or, exists_eq_left, hne, and_false, or_false]
  have henum : ∀ (hne : d.2.kind = .enum → d.2.enumValues = []),
      Sets v.enumValues fun n x => ∃ d' ∈ ds ++ [d], d'.1 = n ∧ d'.2.kind = .enum ∧ x ∈ d'.2.enumValues := by
    intro hne
    refine hv.enums.congr fun n x => ?_
    simp only [List.mem_append, List.mem_singleton, or_and_right, exists_or, exists_eq_left]
    refine ⟨.inl, fun hx => hx.elim id fun ⟨_, h1, h2⟩ => ?_⟩
    rw [hne h1] at h2; cases h2
  have hmatch : ∀ (hne : matchingOf d = []),
      Sets v.matchingTypes fun n x => ∃ d' ∈ ds ++ [d], d'.1 = n ∧ x ∈ matchingOf d' := by
    intro hne
    refine hv.matching.congr fun n x => ?_
    simp only [List.mem_append, List.mem_singleton, or_and_right, exists_or, exists_eq_left, hne, List.not_mem_nil, and_false, or_false]
  -- the sets of a composite type
  have hcomp : ∀ xs : List Str, OrderedSet xs → (∀ x, x ∈ xs ↔ x ∈ matchingOf d) →
      Sets (if xs.isEmpty then (index nameCmp [] v.matchingTypes e.1 fun _ => []).1 else
        assign [] (index nameCmp [] v.matchingTypes e.1 fun _ => []).1 e.1 xs)
        fun n x => ∃ d' ∈ ds ++ [d], d'.1 = n ∧ x ∈ matchingOf d' := by
    intro xs hxs hmem
    have h1 : Sets (index nameCmp [] v.matchingTypes e.1 fun _ => []).1 _ := hv.matching.assign (n := e.1) (xs := []) List.Pairwise.nil
    have key : ∀ n x, (if n = e.1 then x ∈ xs else ∃ d' ∈ ds, d'.1 = n ∧ x ∈ matchingOf d') ↔
        ∃ d' ∈ ds ++ [d], d'.1 = n ∧ x ∈ matchingOf d' := by
      intro n x
      simp only [List.mem_append, List.mem_singleton, or_and_right, exists_or, exists_eq_left]
      by_cases hk : n = e.1
      · subst hk
        rw [if_pos rfl, hmem]
        constructor
        · exact fun hx => .inr ⟨e1.symm, hx⟩
        · rintro (⟨c, hc, h1, _⟩ | ⟨_, h2⟩)
          · exact absurd (h1.trans e1) (hno c hc)
          · exact h2
      · rw [if_neg hk]
        refine ⟨.inl, fun hx => hx.elim id fun ⟨h1, _⟩ => absurd (h1 ▸ e1.symm) hk⟩
    split
    · rename_i hemp
      cases xs with
      | cons => simp at hemp
      | nil => exact h1.congr key
    · refine (h1.assign hxs).congr fun n x => ?_
      rw [← key]
      by_cases hk : n = e.1 <;> simp [hk]
  have hold : (index nameCmp [] v.matchingTypes e.1 fun _ => []).2 = [] := by
    rw [index_old hv.matching.ordered]
    cases hg : get v.matchingTypes e.1 with
    | none => rfl
    | some xs =>
      cases xs with
      | nil => rfl
      | cons x xs =>
        obtain ⟨c, hc, h1, _⟩ := (hv.matching.mem e.1 x).1 ⟨_, hg, by simp⟩
        exact absurd (h1.trans e1) (hno c hc)
  unfold addTypeEntry
  rw [hvs, ht]
  simp only []
  cases hk : d.2.kind with
  | scalar =>
    have hkind : t.kind = .scalar := by rw [hn.kind, hk]; rfl
    simp only [hkind, isScalarType, reduceCtorEq, if_false, if_true, Bool.not_true, Bool.false_eq_true]
    obtain ⟨h1, h2⟩ := mem_setEmplace hv.scalars.1 e.1
    refine ⟨same, ordered_assign hv.ordered _ _ _, htypes v rfl, hmatch (by simp [matchingOf, hk]),
      henum (by simp [hk]), h1, fun n => ?_⟩
    simp only [h2, hv.scalars.2, List.mem_append, List.mem_singleton, or_and_right, exists_or, exists_eq_left, hk, and_true]
    rw [or_comm, e1, eq_comm (a := n)]
  | enum =>
    have hkind : t.kind = .enum := by rw [hn.kind, hk]; rfl
    simp only [hkind, isScalarType, reduceCtorEq, if_false, if_true, Bool.not_true, Bool.false_eq_true]
    cases hvals : t.enumValues with
    | nil =>
      have hnil : d.2.enumValues = [] := by rw [← hn.enumValues, hvals]; rfl
      exact ⟨hv.same, ordered_assign hv.ordered _ _ _, htypes v rfl, hmatch (by simp [matchingOf, hk]),
        henum (fun _ => hnil), hscal (by simp [hk])⟩
    | cons y ys =>
      rw [List.isEmpty_cons, if_neg (by simp), foldl_names, ← hvals, hn.enumValues]
      obtain ⟨h1, h2⟩ := mem_setEmplaces d.2.enumValues (s := []) List.Pairwise.nil
      refine ⟨same, ordered_assign hv.ordered _ _ _, htypes v rfl, hmatch (by simp [matchingOf, hk]),
        (hv.enums.assign h1).congr fun n x => ?_, hscal (by simp [hk])⟩
      simp only [List.mem_append, List.mem_singleton, or_and_right, exists_or, exists_eq_left, h2, List.not_mem_nil, or_false, hk, true_and]
      by_cases hne : n = e.1
      · subst hne
        rw [if_pos rfl]
        constructor
        · exact fun hx => .inr ⟨e1.symm, hx⟩
        · rintro (⟨c, hc, h1, _⟩ | ⟨_, h2⟩)
          · exact absurd (h1.trans e1) (hno c hc)
          · exact h2
      · rw [if_neg hne]
        refine ⟨.inl, fun hx => hx.elim id fun ⟨h1, _⟩ => absurd (h1 ▸ e1.symm) hne⟩
  | inputObject =>
    have hkind : t.kind = .inputObject := by rw [hn.kind, hk]; rfl
    simp only [hkind, isScalarType, reduceCtorEq, if_false, Bool.not_true, Bool.false_eq_true]
    exact ⟨hv.same, ordered_assign hv.ordered _ _ _, htypes v rfl, hmatch (by simp [matchingOf, hk]),
      henum (by simp [hk]), hscal (by simp [hk])⟩
  | object =>
    have hkind : t.kind = .object := by rw [hn.kind, hk]; rfl
    simp only [hkind, isScalarType, if_true, Bool.not_false, hold]
    obtain ⟨h1, h2⟩ := mem_setEmplace (s := []) List.Pairwise.nil e.1
    exact ⟨same, ordered_assign hv.ordered _ _ _, htypes v rfl, hcomp _ h1 (fun x => by rw [h2]; simp [matchingOf, hk, e1]),
      henum (by simp [hk]), hscal (by simp [hk])⟩
  | interface =>
    have hkind : t.kind = .interface := by rw [hn.kind, hk]; rfl
    simp only [hkind, isScalarType, reduceCtorEq, if_true, if_false, Bool.not_false, hold, hvs, possible_eq h hn.possibleTypes]
    obtain ⟨h1, h2⟩ := mem_setEmplaces d.2.possibleTypes (s := []) List.Pairwise.nil
    exact ⟨same, ordered_assign hv.ordered _ _ _, htypes v rfl, hcomp _ h1 (by simp [h2, matchingOf, hk]),
      henum (by simp [hk]), hscal (by simp [hk])⟩
  | union =>
    have hkind : t.kind = .union := by rw [hn.kind, hk]; rfl
    simp only [hkind, isScalarType, reduceCtorEq, if_true, if_false, Bool.not_false, hold, hvs, possible_eq h hn.possibleTypes]
    obtain ⟨h1, h2⟩ := mem_setEmplaces d.2.possibleTypes (s := []) List.Pairwise.nil
    exact ⟨same, ordered_assign hv.ordered _ _ _, htypes v rfl, hcomp _ h1 (by simp [h2, matchingOf, hk]),
      henum (by simp [hk]), hscal (by simp [hk])⟩

theorem addTypeEntries_spec (h : Represents s S) {v₀ : Validator} (hs : v₀.schema = s) {ds ds' : List (Str × Validation.TypeDef)}
    {es es' : List (Str × Addr)} {v : Validator} (hv : Tables v₀ ds es v) (he : List.Forall₂ (TypeEntry s) ds' es')
    (hd : ((ds ++ ds').map (·.1)).Nodup) : Tables v₀ (ds ++ ds') (es ++ es') (es'.foldl addTypeEntry v) := by
  induction he generalizing v ds es with
  | nil => simpa using hv
  | @cons d e ds' es' h1 _ ih =>
    have e1 : ds ++ d :: ds' = ds ++ [d] ++ ds' := by simp
    have e2 : es ++ e :: es' = es ++ [e] ++ es' := by simp
    rw [e1] at hd ⊢
    rw [e2, List.foldl_cons]
    refine ih (addTypeEntry_spec h hs hv h1 ?_) hd
    simp only [List.map_append, List.nodup_append] at hd
    exact fun hm => hd.1.2.2 _ hm d.1 (by simp) rfl

theorem addOperationType_get {m : SMap Str ValidateType} (hm : Ordered m) (n : Str) (a : Option Addr) :
    Ordered (addOperationType m n a) ∧ ∀ x, get (addOperationType m n a) x = if x = n then a.map some |>.or (get m x) else get m x := by
  cases a with
  | none => exact ⟨hm, fun x => by simp [addOperationType]⟩
  | some a =>
    refine ⟨ordered_assign hm _ _ _, fun x => ?_⟩
    rw [addOperationType, get_assign hm]
    split <;> simp

theorem construct_tables (h : Represents s S) (introspection : Bool) :
    ∃ v₀ : Validator, v₀.schema = s ∧ v₀.introspection = introspection ∧ v₀.typeFields = [] ∧ v₀.inputTypeFields = [] ∧
      v₀.operationTypes = addOperationType (addOperationType (addOperationType [] (str "mutation") s.mutation)
        (str "query") s.query) (str "subscription") s.subscription ∧
      ∃ v, Tables v₀ S.types s.types v ∧
        construct s introspection = { v with directives := s.directives.foldl (addDirectiveEntry s) [] } := by
  refine ⟨{ schema := s, introspection := introspection, operationTypes := addOperationType (addOperationType
    (addOperationType [] (str "mutation") s.mutation) (str "query") s.query) (str "subscription") s.subscription },
    rfl, rfl, rfl, rfl, rfl, _, ?_, rfl⟩
  refine addTypeEntries_spec (ds := []) (es := []) h rfl ?_ h.types h.nodup
  exact ⟨rfl, ordered_nil, fun n => by simp [get_nil], Sets.nil.congr (by simp), Sets.nil.congr (by simp),
    List.Pairwise.nil, by simp⟩

/-- The tables of the constructor are those of the schema which is represented. -/
theorem construct_sees (h : Represents s S) (introspection : Bool) : Sees (construct s introspection) S := by
  obtain ⟨v₀, h1, h2, h3, h4, h5, v, hv, e⟩ := construct_tables h introspection
  have e1 : (construct s introspection).schema = s := by rw [e]; exact (congrArg (·.1) hv.same).trans h1
  have e2 : (construct s introspection).operationTypes = v₀.operationTypes := by
    rw [e]; exact congrArg (·.2.2.1) hv.same
  have hmatch : ∀ n x, (∃ d ∈ S.types, d.1 = n ∧ x ∈ matchingOf d) ↔ x ∈ S.matching n := by
    intro n x
    constructor
    · rintro ⟨⟨n', d⟩, hd, rfl, hx⟩
      rw [Validation.Schema.matching, (find_eq S h.nodup _ d).2 hd]
      cases hk : d.kind <;> simp only [matchingOf, hk] at hx ⊢ <;> exact hx
    · intro hx
      rw [Validation.Schema.matching] at hx
      split at hx
      · cases hx
      · rename_i d hd
        exact ⟨(n, d), (find_eq S h.nodup n d).1 hd, rfl, by cases hk : d.kind <;> simp only [matchingOf, hk] at hx ⊢ <;> exact hx⟩
  refine ⟨fun n => ?_, fun operation => ?_, fun n => ?_, fun n t hf hk x => ?_, fun n => ?_, fun a n m hd => ?_⟩
  · rw [e1, e]
    show Option.Rel _ (get v.types n) (S.find n)
    rw [hv.types n, Validation.Schema.find]
    refine rel_map (R := fun e d => TypeEntry s d e ∧ d.1 = n) ?_ fun e d hd => ?_
    · have := rel_find (p := fun e : Str × Validation.TypeDef => e.1 == n) (q := fun e : Str × Addr => e.1 == n)
        (List.rel_reverse h.types) (fun d e hd => by simp only [hd.name])
      cases hx : S.types.reverse.find? fun e => e.1 == n with
      | none =>
        rw [hx] at this
        generalize s.types.reverse.find? (fun e => e.1 == n) = y at this
        cases this with | none => exact .none
      | some d =>
        rw [hx] at this
        have hn := List.find?_some hx
        simp only [beq_iff_eq] at hn
        generalize s.types.reverse.find? (fun e => e.1 == n) = y at this
        cases this with
        | some hr => exact .some ⟨hr, hn⟩
    · obtain ⟨hd, rfl⟩ := hd
      obtain ⟨t, ht, hn⟩ := hd.type
      refine ⟨⟨e.2, rfl, .named hd.lookup⟩, fun a ha => ?_⟩
      cases ha
      exact ⟨t, ht, hn.kind, hn.name⟩
  · rw [e1, e2, h5]
    obtain ⟨o1, g1⟩ := addOperationType_get (m := []) ordered_nil (str "mutation") s.mutation
    obtain ⟨o2, g2⟩ := addOperationType_get o1 (str "query") s.query
    obtain ⟨_, g3⟩ := addOperationType_get o2 (str "subscription") s.subscription
    rw [g3, g2, g1, get_nil, Validation.Schema.operationType]
    have key : ∀ {n : Option Str} {a : Option Addr}, Option.Rel (fun n a => s.lookupType n = .ok a) n a →
        Option.Rel (fun p n => Refers s p (.named n)) ((a.map some).or none) n := by
      intro n a hr
      cases hr with
      | none => exact .none
      | some hr => exact .some ⟨_, rfl, .named hr⟩
    have n1 : str "query" ≠ str "subscription" := by decide +kernel
    have n2 : str "mutation" ≠ str "subscription" := by decide +kernel
    have n3 : str "mutation" ≠ str "query" := by decide +kernel
    by_cases c1 : operation = str "query"
    · subst c1
      simp only [n1, n3.symm, if_true, if_false]
      exact key h.query
    · by_cases c2 : operation = str "mutation"
      · subst c2
        simp only [n2, n3, if_true, if_false]
        exact key h.mutation
      · by_cases c3 : operation = str "subscription"
        · subst c3
          simp only [n1.symm, n2.symm, if_true, if_false]
          exact key h.subscription
        · simp only [c1, c2, c3, if_false]
          exact .none
  · rw [e1, e]
    exact h.directives' n
  · rw [e]
    show (∃ values, get v.enumValues n = some values ∧ _) ↔ _
    rw [hv.enums.find]
    constructor
    · rintro ⟨⟨n', d⟩, hd, rfl, _, hx⟩
      rw [(find_eq S h.nodup _ d).2 hd] at hf
      cases hf
      exact hx
    · exact fun hx => ⟨(n, t), (find_eq S h.nodup n t).1 hf, rfl, hk, hx⟩
  · rw [e]
    show (setFind nameCmp v.scalarTypes n).isSome ↔ _
    rw [setFind_name hv.scalars.1, hv.scalars.2, Validation.Schema.kind]
    constructor
    · rintro ⟨⟨n', d⟩, hd, rfl, hk⟩
      rw [(find_eq S h.nodup _ d).2 hd]
      exact congrArg some hk
    · intro hk
      obtain ⟨d, hd, hk⟩ := Option.map_eq_some_iff.1 hk
      exact ⟨(n, d), (find_eq S h.nodup n d).1 hd, rfl, hk⟩
  · rw [e1] at hd
    cases hd with
    | named hl =>
    obtain ⟨d, t, hf, ht, hn⟩ := h.lookup hl
    unfold matchesScopedType
    rw [e1, ht]
    simp only [hn.name, Validation.Schema.overlap]
    by_cases hm : m = n
    · subst hm; simp
    · rw [if_neg hm, beq_eq_false_iff_ne.2 hm, Bool.false_or]
      have em : (construct s introspection).matchingTypes = v.matchingTypes := by rw [e]
      rw [em]
      have hn' := fun x => (hv.matching.mem n x).trans (hmatch n x)
      have hm' := fun x => (hv.matching.find m x).trans (hmatch m x)
      rw [Bool.eq_iff_iff]
      simp only [List.any_eq_true, List.contains_eq_mem, decide_eq_true_eq, ← hn', ← hm']
      constructor
      · intro hx
        split at hx
        · rename_i xs ys h6 h7
          obtain ⟨x, h8, h9⟩ := List.any_eq_true.1 hx
          exact ⟨x, ⟨xs, h6, h8⟩, ys, h7, h9⟩
        · cases hx
      · rintro ⟨x, ⟨xs, h6, h8⟩, ys, h7, h9⟩
        rw [h6, h7]
        exact List.any_eq_true.2 ⟨x, h8, h9⟩

end

end Verif.View
