import Verif.Schema.TypesProps

/-!
# C49: the types which expressions of wrapped types give

Generated schemas make the type of a field as
`schema->WrapType(NON_NULL, schema->WrapType(LIST, schema->LookupType("Name")))`.
-/
namespace Verif.TypeSystem
open Verif.Value Verif.Errors Verif.SortedMap Verif.SortedMap.Spec Verif.TypeSystem.Spec Verif.Ast

/-! ## Specification -/

/-- `Eval s τ s' a`: the expression for the type reference `τ`, made of calls of `LookupType` and `WrapType`, evaluated in
`s`, gives the type `a` and changes the schema to `s'`. New objects are at unused addresses. -/
inductive Eval : Schema → TypeRef → Schema → Addr → Prop where
  | named {s n a} : s.lookupType n = .ok a → Eval s (.named n) s a
  | list {s τ s₁ a fresh} : Eval s τ s₁ a → s₁.store fresh = none →
      Eval s (.list τ) (s₁.wrapType .list a fresh).1 (s₁.wrapType .list a fresh).2
  | nonNull {s τ s₁ a fresh} : Eval s τ s₁ a → s₁.store fresh = none →
      Eval s (.nonNull τ) (s₁.wrapType .nonNull a fresh).1 (s₁.wrapType .nonNull a fresh).2

/-- What a client sees when it asks for `kind`, `name` and `ofType`, as deep as it needs to. -/
inductive Reads (s : Schema) : Addr → TypeRef → Prop where
  | named {a t n} : s.store a = some t → isNamed (Introspection.getKind t) = true → Introspection.getName t = some n →
      Introspection.getOfType s t = none → Reads s a (.named n)
  | list {a t b τ} : s.store a = some t → Introspection.getKind t = .list → Introspection.getName t = none →
      Introspection.getOfType s t = some b → Reads s b τ → Reads s a (.list τ)
  | nonNull {a t b τ} : s.store a = some t → Introspection.getKind t = .nonNull → Introspection.getName t = none →
      Introspection.getOfType s t = some b → Reads s b τ → Reads s a (.nonNull τ)

/-- Types are added once, under the name they were made with. -/
def OwnNames (ops : List Op) : Prop :=
  ((added ops).map (·.1)).Nodup ∧ ∀ n a, (n, a) ∈ added ops → n ≠ [] ∧ ∃ k d, .make a k n d ∈ ops

/-- Any further calls. -/
inductive Runs : Schema → List Op → Schema → Prop where
  | nil {s} : Runs s [] s
  | cons {s op ops s'} : op.Valid s → Runs (s.apply op) ops s' → Runs s (op :: ops) s'

/-- The name inside of a type reference. -/
def baseName : TypeRef → Str
  | .named n => n
  | .list τ | .nonNull τ => baseName τ

/-! ## Proofs -/

theorem same_addr (a b : Addr) : same Schema.Wrap.addrLess a b = true ↔ a = b := by
  simp only [same, Schema.Wrap.addrLess, Bool.and_eq_true, Bool.not_eq_true', decide_eq_false_iff_not, Nat.not_lt]
  exact ⟨fun h => Nat.le_antisymm h.2 h.1, fun h => by subst h; exact ⟨Nat.le_refl _, Nat.le_refl _⟩⟩

/-- The tables of wrappers and the wrappers agree. -/
structure WrapInv (s : Schema) : Prop where
  list : SortedMap.Inv Schema.Wrap.addrLess s.listWrappers
  nonNull : SortedMap.Inv Schema.Wrap.addrLess s.nonNullWrappers
  iff : ∀ k a b, k = .list ∨ k = .nonNull →
    (s.wrapper (decide (k = .list)) a = some b ↔ s.store b = some (.wrapper k a))
  of : ∀ k a b, s.store b = some (.wrapper k a) → s.store a ≠ none

theorem ofType_some {t : BaseType} {a : Addr} : t.ofType = some a ↔ t = .wrapper t.kind a := by
  cases t <;> simp [BaseType.ofType, BaseType.kind]

/-- Only `make` and `wrap` make objects. -/
theorem apply_none {s : Schema} {op : Op} {b : Addr} (h : s.store b = none) (h1 : ∀ k n d, op ≠ .make b k n d)
    (h2 : ∀ a k o, op ≠ .wrap a k o) : (s.apply op).store b = none := by
  have change : ∀ (f : BaseType → BaseType) (a : Addr), (s.modify a f).store b = none := by
    intro f a
    by_cases e : b = a
    · subst e; simp [Schema.modify, h]
    · simp [Schema.modify, Function.update_of_ne e, h]
  cases op with
  | make a k n d =>
    have : b ≠ a := by rintro rfl; exact h1 _ _ _ rfl
    simp [Schema.apply, Function.update_of_ne this, h]
  | addFields a fs => exact change _ a
  | addPossibleTypes a ps => exact change _ a
  | addEnumValues a ps => exact change _ a
  | addInputValues a ps => exact change _ a
  | addInterfaces a is =>
    have := change (·.setInterfaces is) a
    simp only [Schema.modify] at this
    simp [Schema.apply, addInterfaces_eq, this]
  | wrap a k o => exact absurd rfl (h2 _ _ _)
  | addType n a => exact h
  | addQueryType a => exact h
  | addMutationType a => exact h
  | addSubscriptionType a => exact h
  | addDirective d => exact h

/-- Other calls than `WrapType` keep the wrappers and make none. -/
theorem apply_wrapper {s : Schema} {op : Op} (hv : op.Valid s) (h2 : ∀ a k o, op ≠ .wrap a k o) (b : Addr) (k : Kind)
    (a : Addr) : (s.apply op).store b = some (.wrapper k a) ↔ s.store b = some (.wrapper k a) := by
  cases hb : s.store b with
  | none =>
    by_cases hm : ∃ k n d, op = .make b k n d
    · obtain ⟨k', n, d, rfl⟩ := hm
      simp only [Schema.apply, Function.update_self, Option.some.injEq]
      have := hv.2
      cases k' <;> simp [BaseType.make, isNamed] at this ⊢
    · rw [apply_none hb (by intro k n d e; exact hm ⟨k, n, d, e⟩) h2]
  | some t =>
    obtain ⟨t', ht', hk, hn, hd, ho⟩ := apply_keeps hv hb
    rw [ht']
    simp only [Option.some.injEq]
    constructor
    · rintro rfl
      have : t = .wrapper t.kind a := ofType_some.1 (by rw [← ho]; rfl)
      rw [this, ← hk]; rfl
    · rintro rfl
      have : t' = .wrapper t'.kind a := ofType_some.1 (by rw [ho]; rfl)
      rw [this, hk]; rfl

theorem Built.wrapInv {ops : List Op} {s : Schema} (h : Built ops s) : WrapInv s := by
  induction h with
  | nil =>
    refine ⟨List.Pairwise.nil, List.Pairwise.nil, ?_, ?_⟩
    · intro k a b hk
      rcases hk with rfl | rfl <;> exact ⟨nofun, nofun⟩
    · intro k a b h; cases h
  | @snoc ops s op hb hv ih =>
    by_cases hop : ∃ a k o, op = .wrap a k o
    · obtain ⟨f, k, o, rfl⟩ := hop
      obtain ⟨hf, ho, hk⟩ := hv
      have w : ∀ m, SortedMap.Inv Schema.Wrap.addrLess m → _ := fun m hm =>
        find_abs Schema.Wrap.addrLess_strictWeak (m := m) hm o
      have e : ∀ m, SortedMap.Inv Schema.Wrap.addrLess m → _ := fun m hm hk =>
        emplace_abs Schema.Wrap.addrLess_strictWeak (m := m) hm o f hk
      have key : ∀ x, same Schema.Wrap.addrLess x o = decide (x = o) := by
        intro x
        have := same_addr x o
        by_cases e : x = o <;> simp_all
      have hof : o ≠ f := by rintro rfl; exact ho hf
      have stored : ∀ k' a, s.store f ≠ some (.wrapper k' a) := by intro k' a; rw [hf]; simp
      have notof : ∀ k' b, s.store b ≠ some (.wrapper k' f) := by
        intro k' b hb'; exact ih.of k' f b hb' hf
      simp only [Schema.apply, Schema.wrapType]
      rcases hk with rfl | rfl
      · simp only [if_true]
        have w1 := w _ ih.list
        have e1 := e _ ih.list
        cases hfind : find Schema.Wrap.addrLess s.listWrappers o with
        | some x => exact ih
        | none =>
          rw [hfind] at w1
          obtain ⟨i1, i2⟩ := e1 w1.symm
          refine ⟨i1, ih.nonNull, ?_, ?_⟩
          · intro k' a b hk'
            have old := ih.iff k' a b hk'
            rcases hk' with rfl | rfl
            · simp only [Schema.wrapper, decide_true, if_true, i2, key, decide_eq_true_eq] at old ⊢
              by_cases hao : a = o
              · subst hao
                simp only [if_true, Option.some.injEq]
                by_cases hbf : b = f
                · subst hbf; simp
                · rw [Function.update_of_ne hbf, ← old, ← w1]
                  simp; exact fun e => hbf e.symm
              · simp only [hao, if_false, old]
                by_cases hbf : b = f
                · subst hbf; simp [stored]; exact fun e => hao e.symm
                · rw [Function.update_of_ne hbf]
            · simp only [Schema.wrapper, reduceCtorEq, decide_false, Bool.false_eq_true, if_false] at old ⊢
              rw [old]
              by_cases hbf : b = f
              · subst hbf; simp [stored]
              · rw [Function.update_of_ne hbf]
          · intro k' a b hb'
            have : a ≠ f ∧ s.store a ≠ none := by
              by_cases hbf : b = f
              · subst hbf; simp at hb'; rw [← hb'.2]; exact ⟨hof, ho⟩
              · simp only [Function.update_of_ne hbf] at hb'
                exact ⟨by rintro rfl; exact notof _ _ hb', ih.of _ _ _ hb'⟩
            simp only [Function.update_of_ne this.1]; exact this.2
      · simp only [reduceCtorEq, if_false]
        have w1 := w _ ih.nonNull
        have e1 := e _ ih.nonNull
        cases hfind : find Schema.Wrap.addrLess s.nonNullWrappers o with
        | some x => exact ih
        | none =>
          rw [hfind] at w1
          obtain ⟨i1, i2⟩ := e1 w1.symm
          refine ⟨ih.list, i1, ?_, ?_⟩
          · intro k' a b hk'
            have old := ih.iff k' a b hk'
            rcases hk' with rfl | rfl
            · simp only [Schema.wrapper, decide_true, if_true] at old ⊢
              rw [old]
              by_cases hbf : b = f
              · subst hbf; simp [stored]
              · rw [Function.update_of_ne hbf]
            · simp only [Schema.wrapper, reduceCtorEq, decide_false, Bool.false_eq_true, if_false, i2, key,
                decide_eq_true_eq] at old ⊢
              by_cases hao : a = o
              · subst hao
                simp only [if_true, Option.some.injEq]
                by_cases hbf : b = f
                · subst hbf; simp
                · rw [Function.update_of_ne hbf, ← old, ← w1]
                  simp; exact fun e => hbf e.symm
              · simp only [hao, if_false, old]
                by_cases hbf : b = f
                · subst hbf; simp [stored]; exact fun e => hao e.symm
                · rw [Function.update_of_ne hbf]
          · intro k' a b hb'
            have : a ≠ f ∧ s.store a ≠ none := by
              by_cases hbf : b = f
              · subst hbf; simp at hb'; rw [← hb'.2]; exact ⟨hof, ho⟩
              · simp only [Function.update_of_ne hbf] at hb'
                exact ⟨by rintro rfl; exact notof _ _ hb', ih.of _ _ _ hb'⟩
            simp only [Function.update_of_ne this.1]; exact this.2
    · have h2 : ∀ a k o, op ≠ .wrap a k o := fun a k o e => hop ⟨a, k, o, e⟩
      obtain ⟨w1, w2⟩ := apply_wrappers s op h2
      refine ⟨by rw [w1]; exact ih.list, by rw [w2]; exact ih.nonNull, ?_, ?_⟩
      · intro k a b hk
        rw [apply_wrapper hv h2, ← ih.iff k a b hk]
        simp only [Schema.wrapper, w1, w2]
      · intro k a b hb'
        rw [apply_wrapper hv h2] at hb'
        cases ha : s.store a with
        | none => exact absurd ha (ih.of _ _ _ hb')
        | some t => obtain ⟨t', ht', _⟩ := apply_keeps hv ha; rw [ht']; simp

theorem named_eq (ops : List Op) (n : Str) :
    named ops n = (((added ops).filter (·.1 = n)).map (·.2)).getLast? := by
  have : ops.filterMap (fun | .addType m a => if m = n then some a else none | _ => none) =
      ((added ops).filter (·.1 = n)).map (·.2) := by
    induction ops with
    | nil => rfl
    | cons op ops ih =>
      cases op with
      | addType m a =>
        simp only [added, List.filterMap_cons, List.filter_cons] at ih ⊢
        by_cases e : m = n <;> simp [e, ih]
      | _ => simpa [added] using ih
  show List.getLast? (ops.filterMap _) = _
  rw [← this]; rfl

theorem named_mem {ops : List Op} {n : Str} {a : Addr} (h : named ops n = some a) : (n, a) ∈ added ops := by
  rw [named_eq] at h
  have := List.mem_of_getLast? h
  simpa using this

theorem named_of_mem {ops : List Op} (hn : ((added ops).map (·.1)).Nodup) {n : Str} {a : Addr} (h : (n, a) ∈ added ops) :
    named ops n = some a := by
  cases hx : named ops n with
  | some b =>
    have := named_mem hx
    generalize added ops = l at *
    clear hx
    induction l with
    | nil => cases h
    | cons x xs ih =>
      simp only [List.map_cons, List.nodup_cons, List.mem_map, not_exists, not_and] at hn
      simp only [List.mem_cons] at h this
      rcases h with rfl | h <;> rcases this with e | this
      · simp at e; rw [e]
      · exact absurd rfl (hn.1 (n, b) this)
      · subst e; exact absurd rfl (hn.1 (n, a) h)
      · exact ih hn.2 h this
  | none =>
    rw [named_eq, List.getLast?_eq_none_iff] at hx
    have : a ∈ ((added ops).filter (·.1 = n)).map (·.2) := by simpa using h
    rw [hx] at this; cases this

/-- What a type reference denotes in a schema. -/
inductive Denotes (s : Schema) : TypeRef → Addr → Prop where
  | named {n a} : s.lookupType n = .ok a → Denotes s (.named n) a
  | list {τ a b} : Denotes s τ a → s.store b = some (.wrapper .list a) → Denotes s (.list τ) b
  | nonNull {τ a b} : Denotes s τ a → s.store b = some (.wrapper .nonNull a) → Denotes s (.nonNull τ) b

theorem lookup_iff {ops : List Op} {s : Schema} (h : Built ops s) (n : Str) (a : Addr) :
    s.lookupType n = .ok a ↔ named ops n = some a := by
  rw [(C37_lookup h n).2]
  cases named ops n <;> simp

theorem Denotes.made {ops : List Op} {s : Schema} (h : Built ops s) (ho : OwnNames ops) {n : Str} {a : Addr}
    (hd : s.lookupType n = .ok a) :
    ∃ t, s.store a = some t ∧ isNamed t.kind = true ∧ t.name = n ∧ n ≠ [] := by
  have := named_mem ((lookup_iff h n a).1 hd)
  obtain ⟨hne, k, d, hm⟩ := ho.2 n a this
  obtain ⟨t, ht, hk, hn, _⟩ := h.made a k n d hm
  refine ⟨t, ht, ?_, hn, hne⟩
  clear hd this ho hn
  rw [hk]
  clear hk ht
  induction h with
  | nil => cases hm
  | @snoc ops s op hb hv ih =>
    rw [List.mem_append] at hm
    rcases hm with hm | hm
    · exact ih hm
    · simp at hm; subst hm; exact hv.2

theorem Denotes.alive {ops : List Op} {s : Schema} (h : Built ops s) (ho : OwnNames ops) {τ : TypeRef} {a : Addr}
    (hd : Denotes s τ a) : s.store a ≠ none := by
  cases hd with
  | named hd => obtain ⟨t, ht, _⟩ := Denotes.made h ho hd; rw [ht]; simp
  | list _ hb => rw [hb]; simp
  | nonNull _ hb => rw [hb]; simp

/-- A type reference denotes one type. -/
theorem Denotes.unique {ops : List Op} {s : Schema} (h : Built ops s) {τ : TypeRef} {a b : Addr}
    (ha : Denotes s τ a) (hb : Denotes s τ b) : a = b := by
  have w := h.wrapInv
  induction ha generalizing b with
  | named h1 => cases hb with | named h2 => rw [h1] at h2; injection h2
  | list _ h1 ih =>
    cases hb with
    | list h2 h3 =>
      have := ih h2; subst this
      have e1 := (w.iff .list _ _ (.inl rfl)).2 h1
      have e2 := (w.iff .list _ _ (.inl rfl)).2 h3
      rw [e1] at e2; exact Option.some.inj e2
  | nonNull _ h1 ih =>
    cases hb with
    | nonNull h2 h3 =>
      have := ih h2; subst this
      have e1 := (w.iff .nonNull _ _ (.inr rfl)).2 h1
      have e2 := (w.iff .nonNull _ _ (.inr rfl)).2 h3
      rw [e1] at e2; exact Option.some.inj e2

/-- A type is read back as the reference which denotes it. -/
theorem Denotes.reads {ops : List Op} {s : Schema} (h : Built ops s) (ho : OwnNames ops) {τ : TypeRef} {a : Addr}
    (hd : Denotes s τ a) : Reads s a τ := by
  have alive : ∀ {τ a}, Denotes s τ a → (s.store a).isSome = true := by
    intro τ a hd
    have := hd.alive h ho
    cases hs : s.store a with
    | none => exact absurd hs this
    | some _ => rfl
  induction hd with
  | named hd =>
    obtain ⟨t, ht, hk, hn, hne⟩ := Denotes.made h ho hd
    refine .named ht hk ?_ ?_
    · simp [Introspection.getName, optional, hn, hne]
    · simp only [Introspection.getOfType]; cases hc : t.kind <;> simp [hc, isNamed] at hk ⊢
  | list hd hb ih =>
    exact .list hb rfl rfl (by simp [Introspection.getOfType, BaseType.kind, BaseType.ofType, alive hd]) ih
  | nonNull hd hb ih =>
    exact .nonNull hb rfl rfl (by simp [Introspection.getOfType, BaseType.kind, BaseType.ofType, alive hd]) ih

theorem Reads.unique {s : Schema} {a : Addr} {τ τ' : TypeRef} (h : Reads s a τ) (h' : Reads s a τ') : τ = τ' := by
  induction h generalizing τ' with
  | named h1 h2 h3 h4 =>
    cases h' with
    | named g1 g2 g3 => rw [h1] at g1; injection g1 with g1; subst g1; rw [h3] at g3; injection g3 with g3; rw [g3]
    | list g1 g2 => rw [h1] at g1; injection g1 with g1; subst g1; rw [g2] at h2; cases h2
    | nonNull g1 g2 => rw [h1] at g1; injection g1 with g1; subst g1; rw [g2] at h2; cases h2
  | list h1 h2 h3 h4 _ ih =>
    cases h' with
    | named g1 g2 g3 => rw [h1] at g1; injection g1 with g1; subst g1; rw [h2] at g2; cases g2
    | list g1 g2 g3 g4 g5 =>
      rw [h1] at g1; injection g1 with g1; subst g1; rw [h4] at g4; injection g4 with g4; subst g4; rw [ih g5]
    | nonNull g1 g2 => rw [h1] at g1; injection g1 with g1; subst g1; rw [h2] at g2; cases g2
  | nonNull h1 h2 h3 h4 _ ih =>
    cases h' with
    | named g1 g2 g3 => rw [h1] at g1; injection g1 with g1; subst g1; rw [h2] at g2; cases g2
    | list g1 g2 => rw [h1] at g1; injection g1 with g1; subst g1; rw [h2] at g2; cases g2
    | nonNull g1 g2 g3 g4 g5 =>
      rw [h1] at g1; injection g1 with g1; subst g1; rw [h4] at g4; injection g4 with g4; subst g4; rw [ih g5]

theorem Runs.built {ops more : List Op} {s s' : Schema} (h : Built ops s) (r : Runs s more s') :
    Built (ops ++ more) s' := by
  induction r generalizing ops with
  | nil => simpa using h
  | cons hv _ ih => have := ih (h.snoc hv); simpa using this

theorem Runs.append {s s' s'' : Schema} {ops more : List Op} (h : Runs s ops s') (h' : Runs s' more s'') :
    Runs s (ops ++ more) s'' := by
  induction h with
  | nil => exact h'
  | cons hv _ ih => exact .cons hv (ih h')

theorem Runs.wrapper {s s' : Schema} {ops : List Op} (r : Runs s ops s') {b a : Addr} {k : Kind}
    (h : s.store b = some (.wrapper k a)) : s'.store b = some (.wrapper k a) := by
  induction r with
  | nil => exact h
  | cons hv _ ih =>
    apply ih
    obtain ⟨t', ht', hk, _, _, ho⟩ := apply_keeps hv h
    have : t' = .wrapper t'.kind a := ofType_some.1 (by rw [ho]; rfl)
    rw [ht', this, hk]; rfl

theorem added_append (ops more : List Op) : added (ops ++ more) = added ops ++ added more := by
  simp [added]

/-- Further calls do not change what a reference denotes. -/
theorem Denotes.later {ops more : List Op} {s s' : Schema} (h : Built ops s) (r : Runs s more s')
    (ho : ((added (ops ++ more)).map (·.1)).Nodup) {τ : TypeRef} {a : Addr} (hd : Denotes s τ a) : Denotes s' τ a := by
  induction hd with
  | named hd =>
    refine .named ((lookup_iff (r.built h) _ _).2 (named_of_mem ho ?_))
    rw [added_append]
    exact List.mem_append_left _ (named_mem ((lookup_iff h _ _).1 hd))
  | list _ hb ih => exact .list ih (r.wrapper hb)
  | nonNull _ hb ih => exact .nonNull ih (r.wrapper hb)

/-- Wrapping a type gives its wrapper. -/
theorem wrapType_wrapper {s : Schema} (w : WrapInv s) (k : Kind) (hk : k = .list ∨ k = .nonNull) (a f : Addr) :
    (s.wrapType k a f).1.store (s.wrapType k a f).2 = some (.wrapper k a) := by
  have hf := find_abs Schema.Wrap.addrLess_strictWeak
    (m := if k = .list then s.listWrappers else s.nonNullWrappers)
    (by rcases hk with rfl | rfl; exacts [w.list, w.nonNull]) a
  simp only [Schema.wrapType]
  split
  · rename_i e he
    rw [he] at hf
    refine (w.iff k a e.2 hk).1 ?_
    simp only [Schema.wrapper]
    rcases hk with rfl | rfl <;> simpa using hf.symm
  · rcases hk with rfl | rfl <;> simp

/-- Evaluating a type expression is running calls of `WrapType`. -/
theorem Eval.runs {ops : List Op} {s : Schema} (h : Built ops s) (ho : OwnNames ops) {τ : TypeRef} {s' : Schema} {a : Addr}
    (e : Eval s τ s' a) :
    ∃ more, Runs s more s' ∧ added (ops ++ more) = added ops ∧ OwnNames (ops ++ more) ∧ Denotes s' τ a := by
  have step : ∀ (k : Kind) (hk : k = .list ∨ k = .nonNull) {τ : TypeRef} {s₁ : Schema} {a f : Addr} {more : List Op},
      Runs s more s₁ → added (ops ++ more) = added ops → OwnNames (ops ++ more) → Denotes s₁ τ a → s₁.store f = none →
      ∃ more, Runs s more (s₁.wrapType k a f).1 ∧ added (ops ++ more) = added ops ∧ OwnNames (ops ++ more) ∧
        Denotes (s₁.wrapType k a f).1 τ a ∧
        (s₁.wrapType k a f).1.store (s₁.wrapType k a f).2 = some (.wrapper k a) := by
    intro k hk τ s₁ a f more r ha ho' hd hf
    have hb := r.built h
    have r1 : Runs s₁ [.wrap f k a] (s₁.wrapType k a f).1 := .cons ⟨hf, hd.alive hb ho', hk⟩ .nil
    have e1 : added (ops ++ (more ++ [.wrap f k a])) = added ops := by
      rw [← ha]; simp [added]
    refine ⟨more ++ [.wrap f k a], r.append r1, e1, ⟨?_, ?_⟩, ?_, wrapType_wrapper hb.wrapInv k hk a f⟩
    · rw [e1]; exact ho.1
    · intro n b hb'
      rw [e1] at hb'
      obtain ⟨h1, k', d, h2⟩ := ho.2 n b hb'
      exact ⟨h1, k', d, List.mem_append_left _ h2⟩
    · refine hd.later hb r1 ?_
      rw [List.append_assoc, e1]; exact ho.1
  induction e with
  | named hd => exact ⟨[], .nil, by simp, by simpa using ho, .named hd⟩
  | list _ hf ih =>
    obtain ⟨more, r, ha, ho', hd⟩ := ih
    obtain ⟨m, h1, h2, h3, h4, h5⟩ := step .list (.inl rfl) r ha ho' hd hf
    exact ⟨m, h1, h2, h3, .list h4 h5⟩
  | nonNull _ hf ih =>
    obtain ⟨more, r, ha, ho', hd⟩ := ih
    obtain ⟨m, h1, h2, h3, h4, h5⟩ := step .nonNull (.inr rfl) r ha ho' hd hf
    exact ⟨m, h1, h2, h3, .nonNull h4 h5⟩

/-! ## C49 -/

/-- **C49.** Two type expressions, evaluated at any two times while a schema is being built, give the same object exactly
if they are expressions of the same type reference; introspection of the object at any later time reads this reference and
no other. -/
theorem C49_type_identity {ops more rest : List Op} {s s₁ s₂ s₃ s₄ : Schema} {τ τ' : TypeRef} {a a' : Addr}
    (h : Built ops s) (e : Eval s τ s₁ a) (r : Runs s₁ more s₂) (e' : Eval s₂ τ' s₃ a') (r' : Runs s₃ rest s₄)
    (ho : OwnNames ops) (hm : OwnNames (ops ++ more)) (hr : OwnNames (ops ++ more ++ rest)) :
    (a = a' ↔ τ = τ') ∧ (∀ σ, Reads s₄ a σ ↔ σ = τ) ∧ (∀ σ, Reads s₄ a' σ ↔ σ = τ') := by
  have own : ∀ {l m : List Op}, added l = added m → (∀ op ∈ m, op ∈ l) → OwnNames m → OwnNames l := by
    intro l m e1 e2 h
    refine ⟨by rw [e1]; exact h.1, fun n a ha => ?_⟩
    rw [e1] at ha
    obtain ⟨x, k, d, y⟩ := h.2 n a ha
    exact ⟨x, k, d, e2 _ y⟩
  obtain ⟨m1, r1, a1, o1, d1⟩ := e.runs h ho
  have b1 := r1.built h
  have b2 := r.built b1
  have o2 : OwnNames (ops ++ m1 ++ more) := by
    refine own ?_ ?_ hm
    · rw [added_append, a1, added_append]
    · intro op; simp; rintro (h | h) <;> simp [h]
  have d2 := d1.later b1 r o2.1
  obtain ⟨m2, r2, a2, o3, d3⟩ := e'.runs b2 o2
  have b3 := r2.built b2
  have b4 := r'.built b3
  have o4 : OwnNames (ops ++ m1 ++ more ++ m2 ++ rest) := by
    refine own ?_ ?_ hr
    · rw [added_append, a2, added_append, a1]; simp [added_append]
    · intro op; simp; rintro (h | h | h) <;> simp [h]
  have x1 := (d2.later b2 r2 o3.1).later b3 r' o4.1
  have x2 := d3.later b3 r' o4.1
  have rd1 := x1.reads b4 o4
  have rd2 := x2.reads b4 o4
  refine ⟨⟨?_, ?_⟩, fun σ => ⟨fun h => h.unique rd1, fun h => h ▸ rd1⟩, fun σ => ⟨fun h => h.unique rd2, fun h => h ▸ rd2⟩⟩
  · rintro rfl; exact rd1.unique rd2
  · rintro rfl; exact x1.unique b4 x2

/-- Only finitely many addresses are in use. -/
theorem Built.fresh {ops : List Op} {s : Schema} (h : Built ops s) : ∃ a, ∀ b, a ≤ b → s.store b = none := by
  induction h with
  | nil => exact ⟨0, fun _ _ => rfl⟩
  | @snoc ops s op hb hv ih =>
    obtain ⟨m, hm⟩ := ih
    have bigger : ∀ x : Addr, ∃ y : Addr, m ≤ y ∧ x < y := fun x => ⟨Nat.max m (Nat.succ x), Nat.le_max_left _ _,
      Nat.lt_of_lt_of_le (Nat.lt_succ_self x) (Nat.le_max_right _ _)⟩
    by_cases h1 : ∃ b k n d, op = .make b k n d
    · obtain ⟨b, k, n, d, rfl⟩ := h1
      obtain ⟨y, hy, hb'⟩ := bigger b
      refine ⟨y, fun c hc => ?_⟩
      have : c ≠ b := fun e => absurd (Nat.lt_of_lt_of_le hb' hc) (by rw [e]; exact Nat.lt_irrefl _)
      simp only [Schema.apply, Function.update_of_ne this]
      exact hm c (Nat.le_trans hy hc)
    by_cases h2 : ∃ b k o, op = .wrap b k o
    · obtain ⟨b, k, o, rfl⟩ := h2
      obtain ⟨y, hy, hb'⟩ := bigger b
      refine ⟨y, fun c hc => ?_⟩
      have : c ≠ b := fun e => absurd (Nat.lt_of_lt_of_le hb' hc) (by rw [e]; exact Nat.lt_irrefl _)
      simp only [Schema.apply]
      rcases wrapType_store s k o b with e | e <;> rw [e]
      · exact hm c (Nat.le_trans hy hc)
      · rw [Function.update_of_ne this]; exact hm c (Nat.le_trans hy hc)
    · exact ⟨m, fun b hb' => apply_none (hm b hb') (fun k n d e => h1 ⟨b, k, n, d, e⟩)
        (fun a k o e => h2 ⟨a, k, o, e⟩)⟩

/-- **C49.** A type expression has a value exactly if the schema has a type with the name inside of it. -/
theorem C49_type_exists {ops : List Op} {s : Schema} (h : Built ops s) (ho : OwnNames ops) (τ : TypeRef) :
    (∃ s' a, Eval s τ s' a) ↔ baseName τ ∈ (added ops).map (·.1) := by
  constructor
  · rintro ⟨s', a, e⟩
    induction e with
    | named hd =>
      have := named_mem ((lookup_iff h _ _).1 hd)
      exact List.mem_map_of_mem this (f := (·.1))
    | list _ _ ih => exact ih
    | nonNull _ _ ih => exact ih
  · intro hn
    have wrap : ∀ {τ : TypeRef} {s' a}, Eval s τ s' a → ∃ f, s'.store f = none := by
      intro τ s' a e
      obtain ⟨more, r, _⟩ := e.runs h ho
      obtain ⟨m, hm⟩ := (r.built h).fresh
      exact ⟨m, hm m (Nat.le_refl _)⟩
    induction τ with
    | named n =>
      simp only [baseName, List.mem_map] at hn
      obtain ⟨⟨x, a⟩, hx, rfl⟩ := hn
      exact ⟨s, a, .named ((lookup_iff h _ _).2 (named_of_mem ho.1 hx))⟩
    | list τ ih =>
      obtain ⟨s', a, e⟩ := ih hn
      obtain ⟨f, hf⟩ := wrap e
      exact ⟨_, _, .list e hf⟩
    | nonNull τ ih =>
      obtain ⟨s', a, e⟩ := ih hn
      obtain ⟨f, hf⟩ := wrap e
      exact ⟨_, _, .nonNull e hf⟩

end Verif.TypeSystem
