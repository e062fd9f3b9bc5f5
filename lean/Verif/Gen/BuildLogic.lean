import Verif.Gen.BuildSpec
import Mathlib.Data.List.Forall2

/-!
# Reasoning about building a schema
-/
namespace Verif.Gen
open Verif.Value Verif.Errors Verif.Modifiers Verif.TypeSystem
open Verif.TypeSystem.Spec (added)
open Verif.Schema.Wrap (Kind Addr)
open Verif.Ast (TypeRef)

variable {alloc : List Op → Addr}

/-- `m` ends with a value if `known`, and without one otherwise. -/
structure Outcome {α : Type} (alloc : List Op → Addr) (m : Build α) (st : BuildState) (known : Prop)
    (post : α → BuildState → Prop) : Prop where
  ok : known → ∃ a st', m alloc st = .ok (a, st') ∧ post a st'
  fails : ¬ known → ∃ c, m alloc st = .error c

theorem Outcome.mono {α : Type} {m : Build α} {st : BuildState} {p q : Prop} {P Q : α → BuildState → Prop}
    (h : Outcome alloc m st p P) (hpq : p ↔ q) (hPQ : ∀ a st', P a st' → Q a st') : Outcome alloc m st q Q :=
  ⟨fun hq => let ⟨a, st', h1, h2⟩ := h.ok (hpq.2 hq); ⟨a, st', h1, hPQ a st' h2⟩, fun hq => h.fails (fun hp => hq (hpq.1 hp))⟩

theorem outcome_pure {α : Type} (a : α) {st : BuildState} {P : α → BuildState → Prop} (h : P a st) :
    Outcome alloc (pure a) st True P := ⟨fun _ => ⟨a, st, rfl, h⟩, fun h => (h trivial).elim⟩

theorem outcome_throw {α : Type} (c : Crash) {st : BuildState} {P : α → BuildState → Prop} :
    Outcome alloc (throw c : Build α) st False P := ⟨False.elim, fun _ => ⟨c, rfl⟩⟩

theorem Outcome.bind {α β : Type} {m : Build α} {f : α → Build β} {st : BuildState} {p q : Prop}
    {P : α → BuildState → Prop} {Q : β → BuildState → Prop} (h : Outcome alloc m st p P)
    (hf : ∀ a st', P a st' → Outcome alloc (f a) st' q Q) : Outcome alloc (m >>= f) st (p ∧ q) Q := by
  have both : (m >>= f) alloc st = (m alloc st >>= fun x => f x.1 alloc x.2) := rfl
  have run : ∀ a st', m alloc st = .ok (a, st') → (m >>= f) alloc st = f a alloc st' := by
    intro a st' h
    rw [both, h]; rfl
  have fail : ∀ c, m alloc st = .error c → (m >>= f) alloc st = .error c := by
    intro c h
    rw [both, h]; rfl
  constructor
  · rintro ⟨hp, hq⟩
    obtain ⟨a, st', h1, h2⟩ := h.ok hp
    obtain ⟨b, st'', h3, h4⟩ := (hf a st' h2).ok hq
    exact ⟨b, st'', by rw [run _ _ h1, h3], h4⟩
  · intro hn
    by_cases hp : p
    · obtain ⟨a, st', h1, h2⟩ := h.ok hp
      obtain ⟨c, h3⟩ := (hf a st' h2).fails (fun hq => hn ⟨hp, hq⟩)
      exact ⟨c, by rw [run _ _ h1, h3]⟩
    · obtain ⟨c, h1⟩ := h.fails hp
      exact ⟨c, fail c h1⟩

theorem Outcome.bindTrue {α β : Type} {m : Build α} {f : α → Build β} {st : BuildState} {q : Prop}
    {P : α → BuildState → Prop} {Q : β → BuildState → Prop} (h : Outcome alloc m st True P)
    (hf : ∀ a st', P a st' → Outcome alloc (f a) st' q Q) : Outcome alloc (m >>= f) st q Q :=
  (h.bind hf).mono (by simp) fun _ _ h => h

/-! ## States -/

def isWrap : Op → Bool
  | .wrap .. => true
  | _ => false

/-- The state has been reached by valid calls; every type was added once under its own name. -/
structure Inv (st : BuildState) : Prop where
  built : Built st.ops st.schema
  own : OwnNames st.ops

/-- `st'` is reached from `st` by the calls `calls`, and calls of `WrapType`. -/
structure Steps (st st' : BuildState) (calls : List Op) : Prop where
  more : ∃ more, st'.ops = st.ops ++ more ∧ Runs st.schema more st'.schema ∧ more.filter (fun o => !isWrap o) = calls

theorem Steps.refl (st : BuildState) : Steps st st [] := ⟨[], by simp, .nil, rfl⟩

theorem Steps.trans {st st' st'' : BuildState} {c c' : List Op} (h : Steps st st' c) (h' : Steps st' st'' c') :
    Steps st st'' (c ++ c') := by
  obtain ⟨m, h1, h2, h3⟩ := h.more
  obtain ⟨m', h1', h2', h3'⟩ := h'.more
  exact ⟨m ++ m', by rw [h1', h1, List.append_assoc], h2.append h2', by rw [List.filter_append, h3, h3']⟩

theorem Steps.built {st st' : BuildState} {c : List Op} (h : Steps st st' c) (hb : Built st.ops st.schema) :
    Built st'.ops st'.schema := by
  obtain ⟨m, h1, h2, _⟩ := h.more
  rw [h1]; exact h2.built hb

theorem added_filter (ops : List Op) : added (ops.filter fun o => !isWrap o) = added ops := by
  induction ops with
  | nil => rfl
  | cons o ops ih =>
    cases o <;> simp_all [added, isWrap]

theorem Steps.added {st st' : BuildState} {c : List Op} (h : Steps st st' c) : added st'.ops = added st.ops ++ added c := by
  obtain ⟨m, h1, _, h3⟩ := h.more
  rw [h1, added_append, ← h3, added_filter]

/-- Calls other than `AddType`. -/
def Quiet (c : List Op) : Prop := ∀ o ∈ c, ∀ n a, o ≠ .addType n a

theorem Quiet.added {c : List Op} (h : Quiet c) : Spec.added c = [] := by
  induction c with
  | nil => rfl
  | cons o c ih =>
    have := h o (by simp)
    have ih := ih fun o' ho' => h o' (by simp [ho'])
    cases o <;> simp_all [Spec.added]

theorem Quiet.nil : Quiet [] := by intro o ho; cases ho

theorem Quiet.append {c c' : List Op} (h : Quiet c) (h' : Quiet c') : Quiet (c ++ c') := by
  intro o ho
  rcases List.mem_append.1 ho with ho | ho
  · exact h o ho
  · exact h' o ho

theorem Steps.inv {st st' : BuildState} {c : List Op} (h : Steps st st' c) (hi : Inv st) (hq : Quiet c) : Inv st' := by
  refine ⟨h.built hi.built, ?_⟩
  have ha : Spec.added st'.ops = Spec.added st.ops := by rw [h.added, hq.added, List.append_nil]
  obtain ⟨m, h1, _, _⟩ := h.more
  refine ⟨by rw [ha]; exact hi.own.1, fun n a hn => ?_⟩
  rw [ha] at hn
  obtain ⟨x, k, d, y⟩ := hi.own.2 n a hn
  exact ⟨x, k, d, by rw [h1]; exact List.mem_append_left _ y⟩

/-- Further calls do not change what a reference denotes. -/
theorem Steps.denotes {st st' : BuildState} {c : List Op} (h : Steps st st' c) (hi : Inv st) (hi' : Inv st') {τ : TypeRef}
    {a : Addr} (hd : Denotes st.schema τ a) : Denotes st'.schema τ a := by
  obtain ⟨m, h1, h2, _⟩ := h.more
  exact hd.later hi.built h2 (by rw [← h1]; exact hi'.own.1)

theorem Steps.lookup {st st' : BuildState} {c : List Op} (h : Steps st st' c) (hi : Inv st) (hi' : Inv st') {n : Str}
    {a : Addr} (hl : st.schema.lookupType n = .ok a) : st'.schema.lookupType n = .ok a := by
  have := h.denotes hi hi' (.named hl)
  cases this with | named h => exact h

/-- The names of the types of the schema. -/
def names (st : BuildState) : List Str := (added st.ops).map (·.1)

theorem Steps.names {st st' : BuildState} {c : List Op} (h : Steps st st' c) (hq : Quiet c) : names st' = names st := by
  rw [Gen.names, Gen.names, h.added, hq.added, List.append_nil]

/-! ## Loops -/

/-- Something which stays true. -/
def Stable (P : BuildState → Prop) : Prop := ∀ st st' c, Steps st st' c → Inv st → Inv st' → P st → P st'

/-- A loop which computes values, with calls of `WrapType` only. -/
theorem outcome_mapM {α β : Type} {f : α → Build β} {N : List Str} {known : α → Prop} {R : BuildState → α → β → Prop}
    (hR : ∀ x y, Stable fun st => R st x y) (xs : List α)
    (hf : ∀ x ∈ xs, ∀ st, Inv st → names st = N →
      Outcome alloc (f x) st (known x) fun y st' => Steps st st' [] ∧ R st' x y)
    (st : BuildState) (hi : Inv st) (hN : names st = N) :
    Outcome alloc (xs.mapM f) st (∀ x ∈ xs, known x) fun ys st' => Steps st st' [] ∧ List.Forall₂ (R st') xs ys := by
  induction xs generalizing st with
  | nil =>
    rw [List.mapM_nil]
    exact (outcome_pure (P := fun ys st' => Steps st st' [] ∧ List.Forall₂ (R st') [] ys) [] ⟨.refl st, .nil⟩).mono
      (by simp) fun _ _ h => h
  | cons x xs ih =>
    rw [List.mapM_cons]
    refine ((hf x (by simp) st hi hN).bind (q := ∀ x ∈ xs, known x) (Q := fun ys st' => Steps st st' [] ∧
      List.Forall₂ (R st') (x :: xs) ys) fun y st₁ ⟨h1, hr⟩ => ?_).mono (by simp) fun _ _ h => h
    have hi₁ := h1.inv hi .nil
    refine ((ih (fun x hx => hf x (by simp [hx])) st₁ hi₁ (by rw [h1.names .nil, hN])).bind (q := True)
      fun ys st₂ ⟨h2, hrs⟩ => ?_).mono (by simp) fun _ _ h => h
    exact outcome_pure _ ⟨h1.trans h2, .cons (hR x y st₁ st₂ [] h2 hi₁ (h2.inv hi₁ .nil) hr) hrs⟩

/-- Something which stays true if no type is added. -/
def Kept (G : BuildState → Prop) : Prop := ∀ st st' c, Quiet c → Steps st st' c → Inv st → Inv st' → G st → G st'

theorem Stable.kept {P : BuildState → Prop} (h : Stable P) : Kept P := fun st st' c _ hs hi hi' hp => h st st' c hs hi hi' hp

theorem kept_names (N : List Str) : Kept fun st => names st = N := fun _ _ _ hq hs _ _ h => (hs.names hq).trans h

theorem Kept.and {P Q : BuildState → Prop} (hP : Kept P) (hQ : Kept Q) : Kept fun st => P st ∧ Q st :=
  fun st st' c hq hs hi hi' h => ⟨hP st st' c hq hs hi hi' h.1, hQ st st' c hq hs hi hi' h.2⟩

/-- A loop of calls. -/
theorem outcome_forM {α : Type} {f : α → Build Unit} {G : BuildState → Prop} (hG : Kept G) {known : α → Prop}
    {R : BuildState → α → List Op → Prop} (hR : ∀ x y, Stable fun st => R st x y) (xs : List α)
    (hf : ∀ x ∈ xs, ∀ st, Inv st → G st →
      Outcome alloc (f x) st (known x) fun _ st' => ∃ c, Quiet c ∧ Steps st st' c ∧ R st' x c)
    (st : BuildState) (hi : Inv st) (hN : G st) :
    Outcome alloc (xs.forM f) st (∀ x ∈ xs, known x) fun _ st' =>
      ∃ cs, Quiet cs.flatten ∧ Steps st st' cs.flatten ∧ List.Forall₂ (R st') xs cs := by
  induction xs generalizing st with
  | nil =>
    exact (outcome_pure (P := fun _ st' => ∃ cs, Quiet cs.flatten ∧ Steps st st' cs.flatten ∧ List.Forall₂ (R st') [] cs) ()
      ⟨[], .nil, .refl st, .nil⟩).mono (by simp) fun _ _ h => h
  | cons x xs ih =>
    show Outcome alloc (f x >>= fun _ => xs.forM f) st _ _
    refine ((hf x (by simp) st hi hN).bind (q := ∀ x ∈ xs, known x) (Q := fun _ st' =>
      ∃ cs, Quiet cs.flatten ∧ Steps st st' cs.flatten ∧ List.Forall₂ (R st') (x :: xs) cs)
      fun _ st₁ ⟨c, hq, h1, hr⟩ => ?_).mono (by simp) fun _ _ h => h
    have hi₁ := h1.inv hi hq
    refine (ih (fun x hx => hf x (by simp [hx])) st₁ hi₁ (hG _ _ _ hq h1 hi hi₁ hN)).mono Iff.rfl
      fun _ st₂ ⟨cs, hq', h2, hrs⟩ => ?_
    refine ⟨c :: cs, by simpa using hq.append hq', by simpa using h1.trans h2, .cons ?_ hrs⟩
    exact hR x c st₁ st₂ _ h2 hi₁ (h2.inv hi₁ hq') hr

/-! ## Single calls -/

theorem steps_call {st : BuildState} {op : Op} (hv : op.Valid st.schema) (hw : isWrap op = false) :
    Steps st { ops := st.ops ++ [op], schema := st.schema.apply op } [op] :=
  ⟨[op], rfl, .cons hv .nil, by simp [hw]⟩

theorem outcome_call {st : BuildState} (op : Op) (hv : op.Valid st.schema) (hw : isWrap op = false)
    {P : Unit → BuildState → Prop} (hP : ∀ st', Steps st st' [op] → P () st') : Outcome alloc (call op) st True P :=
  ⟨fun _ => ⟨(), _, rfl, hP _ (steps_call hv hw)⟩, fun h => (h trivial).elim⟩

theorem outcome_lookup {st : BuildState} (hi : Inv st) (n : Str) :
    Outcome alloc (lookupType n) st (n ∈ names st) fun a st' => Steps st st' [] ∧ st'.schema.lookupType n = .ok a := by
  have run : lookupType n alloc st =
      (match st.schema.lookupType n with | .ok a => .ok (a, st) | .error e => .error (Crash.exception e)) := by
    show (match st.schema.lookupType n with
      | .ok a => (pure a : Build Addr) | .error e => throw (Crash.exception e)) alloc st = _
    cases st.schema.lookupType n <;> rfl
  constructor
  · intro hn
    obtain ⟨⟨m, a⟩, h1, rfl⟩ := List.mem_map.1 hn
    have := (lookup_iff hi.built m a).2 (named_of_mem hi.own.1 h1)
    exact ⟨a, st, by rw [run, this], .refl st, this⟩
  · intro hn
    cases hl : st.schema.lookupType n with
    | ok a => exact (hn (List.mem_map_of_mem (f := (·.1)) (named_mem ((lookup_iff hi.built n a).1 hl)))).elim
    | error e => exact ⟨.exception e, by rw [run, hl]⟩

theorem outcome_wrap (hf : FreshAddrs alloc) {st : BuildState} (hi : Inv st) {k : Kind} (hk : k = .list ∨ k = .nonNull)
    {τ : TypeRef} {a : Addr} (hd : Denotes st.schema τ a) :
    Outcome alloc (wrapType k a) st True fun b st' => Steps st st' [] ∧
      Denotes st'.schema (if k = .list then .list τ else .nonNull τ) b := by
  refine ⟨fun _ => ⟨_, _, rfl, ?_⟩, fun h => (h trivial).elim⟩
  have hv : Op.Valid st.schema (.wrap (alloc st.ops) k a) :=
    ⟨hf _ _ hi.built, hd.alive hi.built hi.own, hk⟩
  have hs : Steps st { ops := st.ops ++ [.wrap (alloc st.ops) k a], schema := st.schema.apply (.wrap (alloc st.ops) k a) } [] :=
    ⟨[.wrap (alloc st.ops) k a], rfl, .cons hv .nil, rfl⟩
  have hd' := hs.denotes hi (hs.inv hi .nil) hd
  have hw := wrapType_wrapper hi.built.wrapInv k hk a (alloc st.ops)
  refine ⟨hs, ?_⟩
  rcases hk with rfl | rfl
  · exact .list hd' hw
  · exact .nonNull hd' hw

/-! ## Types -/

theorem bare_bare (n : Str) (ms : List Mod) : bare (bare (typeOf n ms)) = bare (typeOf n ms) := by
  induction ms with
  | nil => rfl
  | cons m ms ih =>
    cases m with
    | list => rfl
    | nullable => simp only [typeOf]; rw [ih, ih]

theorem typeOf_bare (n : Str) (ms : List Mod) :
    typeOf n ms = if isNonNull ms then .nonNull (bare (typeOf n ms)) else bare (typeOf n ms) := by
  cases ms with
  | nil => rfl
  | cons m ms =>
    cases m with
    | list => rfl
    | nullable => simp only [isNonNull, typeOf, Bool.false_eq_true, if_false]; rw [bare_bare]

theorem baseName_bare (τ : TypeRef) : baseName (bare τ) = baseName τ := by
  cases τ <;> rfl

theorem baseName_typeOf (n : Str) (ms : List Mod) : baseName (typeOf n ms) = n := by
  induction ms with
  | nil => rfl
  | cons m ms ih =>
    cases m with
    | list => exact ih
    | nullable => simp only [typeOf, baseName_bare, ih]

theorem schemaTypeLoop_append (xs ys : List Mod) (a : Addr) (b : Bool) :
    schemaTypeLoop (xs ++ ys) a b = schemaTypeLoop xs a b >>= fun r => schemaTypeLoop ys r.1 r.2 := by
  induction xs generalizing a b with
  | nil => simp [schemaTypeLoop]
  | cons m xs ih =>
    cases m with
    | list => simp only [List.cons_append, schemaTypeLoop, ih, bind_assoc]
    | nullable => simp only [List.cons_append, schemaTypeLoop, ih]

theorem outcome_loop (hf : FreshAddrs alloc) {st : BuildState} (hi : Inv st) (n : Str) {a : Addr}
    (hl : st.schema.lookupType n = .ok a) (ms : List Mod) :
    Outcome alloc (schemaTypeLoop ms.reverse a true) st True fun r st' => Steps st st' [] ∧
      Denotes st'.schema (bare (typeOf n ms)) r.1 ∧ r.2 = isNonNull ms := by
  induction ms with
  | nil => exact outcome_pure _ ⟨.refl st, .named hl, rfl⟩
  | cons m ms ih =>
    rw [List.reverse_cons, schemaTypeLoop_append]
    refine (ih.bind (q := True) fun r st₁ ⟨h1, h2, h3⟩ => ?_).mono (by simp) fun _ _ h => h
    have hi₁ := h1.inv hi .nil
    cases m with
    | nullable =>
      refine outcome_pure _ ⟨h1, ?_, rfl⟩
      simp only [typeOf, bare_bare]
      exact h2
    | list =>
      simp only [schemaTypeLoop]
      refine (Outcome.bind (p := True) (q := True) (P := fun b st' => Steps st₁ st' [] ∧ Denotes st'.schema (typeOf n ms) b)
        ?_ fun b st₂ ⟨h4, h5⟩ => ?_).mono (by simp) fun _ _ h => h
      · rw [h3, typeOf_bare, wrapNonNull]
        split
        · exact outcome_wrap hf hi₁ (k := .nonNull) (.inr rfl) h2
        · exact outcome_pure _ ⟨.refl st₁, h2⟩
      · have hi₂ := h4.inv hi₁ .nil
        refine ((outcome_wrap hf hi₂ (k := .list) (.inl rfl) h5).bind (q := True) fun c st₃ ⟨h6, h7⟩ => ?_).mono (by simp)
          fun _ _ h => h
        exact outcome_pure _ ⟨(h1.trans h4).trans h6, h7, rfl⟩

theorem outcome_getSchemaType (hf : FreshAddrs alloc) {st : BuildState} (hi : Inv st) (n : Str) (ms : List Mod) :
    Outcome alloc (getSchemaType n ms) st (n ∈ names st) fun a st' => Steps st st' [] ∧
      Denotes st'.schema (typeOf n ms) a := by
  unfold getSchemaType
  refine ((outcome_lookup hi n).bind (q := True) fun a st₁ ⟨h1, h2⟩ => ?_).mono (by simp) fun _ _ h => h
  have hi₁ := h1.inv hi .nil
  refine ((outcome_loop hf hi₁ n h2 ms).bind (q := True) fun r st₂ ⟨h3, h4, h5⟩ => ?_).mono (by simp) fun _ _ h => h
  have hi₂ := h3.inv hi₁ .nil
  obtain ⟨b, nn⟩ := r
  simp only at h4 h5 ⊢
  rw [h5, typeOf_bare, wrapNonNull]
  split
  · exact (outcome_wrap hf hi₂ (k := .nonNull) (.inr rfl) h4).mono Iff.rfl
      fun _ _ ⟨h6, h7⟩ => ⟨(h1.trans h3).trans h6, h7⟩
  · exact outcome_pure _ ⟨h1.trans h3, h4⟩

/-! ## Fields -/

/-- Like `IsInputValue`, while the schema is being built. -/
structure InputOk (st : BuildState) (f : InputField) (v : InputValue) : Prop where
  name : v.name = f.name
  description : v.description = f.description
  default : v.defaultValue = f.defaultValueString
  type : Denotes st.schema (typeOf f.type f.modifiers) v.type

/-- Like `IsField`, while the schema is being built. -/
structure FieldOk (st : BuildState) (f : OutputField) (v : Field) : Prop where
  name : v.name = f.name
  description : v.description = f.description
  deprecation : v.deprecationReason = f.deprecationReason
  type : Denotes st.schema (typeOf f.type f.modifiers) v.type
  args : List.Forall₂ (InputOk st) f.arguments v.args

theorem InputOk.stable (f : InputField) (v : InputValue) : Stable fun st => InputOk st f v :=
  fun _ _ _ h hi hi' ho => ⟨ho.name, ho.description, ho.default, h.denotes hi hi' ho.type⟩

theorem forall₂_stable {α β : Type} {R : BuildState → α → β → Prop} (hR : ∀ x y, Stable fun st => R st x y) (xs : List α)
    (ys : List β) : Stable fun st => List.Forall₂ (R st) xs ys :=
  fun _ _ _ h hi hi' ho => ho.imp fun x y hxy => hR x y _ _ _ h hi hi' hxy

theorem FieldOk.stable (f : OutputField) (v : Field) : Stable fun st => FieldOk st f v :=
  fun st st' c h hi hi' ho => ⟨ho.name, ho.description, ho.deprecation, h.denotes hi hi' ho.type,
    forall₂_stable InputOk.stable _ _ st st' c h hi hi' ho.args⟩

theorem outcome_input (hf : FreshAddrs alloc) {st : BuildState} (hi : Inv st) (f : InputField) :
    Outcome alloc (inputValue f) st (f.type ∈ names st) fun v st' => Steps st st' [] ∧ InputOk st' f v := by
  unfold inputValue
  refine ((outcome_getSchemaType hf hi f.type f.modifiers).bind (q := True) fun a st₁ ⟨h1, h2⟩ => ?_).mono (by simp)
    fun _ _ h => h
  exact outcome_pure _ ⟨h1, rfl, rfl, rfl, h2⟩

theorem outcome_inputs (hf : FreshAddrs alloc) {st : BuildState} (hi : Inv st) (fs : List InputField) :
    Outcome alloc (fs.mapM inputValue) st (∀ f ∈ fs, f.type ∈ names st) fun vs st' => Steps st st' [] ∧
      List.Forall₂ (InputOk st') fs vs :=
  outcome_mapM InputOk.stable fs (fun f _ _ hi' hN => hN ▸ outcome_input hf hi' f) st hi rfl

theorem outcome_field (hf : FreshAddrs alloc) {st : BuildState} (hi : Inv st) (f : OutputField) :
    Outcome alloc (outputField f) st ((∀ a ∈ f.arguments, a.type ∈ names st) ∧ f.type ∈ names st) fun v st' =>
      Steps st st' [] ∧ FieldOk st' f v := by
  unfold outputField
  refine (outcome_inputs hf hi f.arguments).bind fun args st₁ ⟨h1, h2⟩ => ?_
  have hi₁ := h1.inv hi .nil
  rw [← h1.names .nil]
  refine ((outcome_getSchemaType hf hi₁ f.type f.modifiers).bind (q := True) fun a st₂ ⟨h3, h4⟩ => ?_).mono (by simp)
    fun _ _ h => h
  exact outcome_pure _ ⟨h1.trans h3, rfl, rfl, rfl, h4,
    forall₂_stable InputOk.stable _ _ _ _ _ h3 hi₁ (h3.inv hi₁ .nil) h2⟩

theorem outcome_fields (hf : FreshAddrs alloc) {st : BuildState} (hi : Inv st) (fs : List OutputField) :
    Outcome alloc (fs.mapM outputField) st (∀ f ∈ fs, (∀ a ∈ f.arguments, a.type ∈ names st) ∧ f.type ∈ names st)
      fun vs st' => Steps st st' [] ∧ List.Forall₂ (FieldOk st') fs vs :=
  outcome_mapM FieldOk.stable fs (fun f _ _ hi' hN => hN ▸ outcome_field hf hi' f) st hi rfl

end Verif.Gen
