import Verif.Sound.Spec
import Verif.Exec.ConvertProps

/-!
# Converting the values of accessors
-/
namespace Verif.Sound
open Verif.Value Verif.Resp Verif.Errors Verif.Ast Verif.Exec
open Verif.Validation (Schema FieldDef baseName)
open Verif.Gen.Client (LeafHolds NoDuplicates Answers)
open Verif.Json.Spec (normalize normalizeEntries normalizeList)

variable {E O : Type} {S : Schema} {P : Str → Prop}

/-- The outcome has only errors with the property, and without errors the data has the property `A`. -/
def Yields (P : Str → Prop) (A : Resp → Prop) (r : Except Exn Result) : Prop :=
  match r with
  | .ok r => (∀ e ∈ r.errors, P e.message) ∧ (r.errors = [] → A r.data)
  | .error x => Throws P x

theorem Yields.imp {A B : Resp → Prop} (h : ∀ v, A v → B v) {r : Except Exn Result} (hr : Yields P A r) : Yields P B r := by
  cases r with
  | ok r => exact ⟨hr.1, fun he => h _ (hr.2 he)⟩
  | error x => exact hr

theorem Yields.pure {A : Resp → Prop} {v : Resp} (h : A v) : Yields P A (Run.pure { data := v } : Fut E).result :=
  ⟨by simp, fun _ => h⟩

theorem Yields.bind {α : Type} {A : Resp → Prop} {x : Run E α} {f : α → Fut E}
    (h1 : ∀ e, x.result = .error e → Throws P e) (h2 : ∀ a, x.result = .ok a → Yields P A (f a).result) :
    Yields P A (x.bind f).result := by
  cases hx : x.result with
  | error e => simp only [Run.bind, hx]; exact h1 e hx
  | ok a => rw [(Run.bind_result_ok hx).1]; exact h2 a hx

/-- The errors of a finished child. -/
theorem throws_errors {x : Exn} (h : Throws P x) (name : Str) :
    errorsOf name (.error x) ≠ [] ∧ ∀ e ∈ errorsOf name (.error x), P e.message := by
  cases x with
  | schema es => exact h
  | other what =>
    refine ⟨by simp [errorsOf], ?_⟩
    intro e he
    simp only [errorsOf, List.mem_singleton] at he
    subst he
    exact (h name).2

theorem Yields.errors {A : Resp → Prop} {r : Except Exn Result} (h : Yields P A r) (name : Str) :
    (∀ e ∈ errorsOf name r, P e.message) ∧ (errorsOf name r = [] → A (dataOf r)) := by
  cases r with
  | ok r => exact h
  | error x => exact ⟨(throws_errors h name).2, fun he => absurd he (throws_errors h name).1⟩

theorem fieldException_throws {x : Exn} (h : Throws P x) (pos : Loc) («alias» : Str) (path : List Seg) :
    Throws P (fieldException pos «alias» path x) := by
  cases x with
  | schema es =>
    refine ⟨by simpa using h.1, ?_⟩
    intro e he
    obtain ⟨e0, h0, rfl⟩ := List.mem_map.mp he
    have := h.2 e0 h0
    dsimp only
    split <;> split <;> simpa using this
  | other what =>
    refine ⟨by simp, ?_⟩
    intro e he
    simp only [List.mem_singleton] at he
    subst he
    exact (h «alias»).2

/-! ## Lists -/

theorem collectElements_yields {A : Resp → Prop} (params : ResolverParams E O) (children : List (Fut E)) :
    ∀ (i : Nat) (data : List Resp) (errors : List SchemaError), (∀ c ∈ children, Yields P A c.result) →
    (∀ e ∈ errors, P e.message) → (errors = [] → ∀ v ∈ data, A v) →
    Yields P (fun v => ∃ vs, v = .list vs ∧ ∀ w ∈ vs, A w) (collectElements params i children data errors).result := by
  induction children with
  | nil => exact fun i data errors _ he hd => ⟨he, fun h => ⟨data, rfl, hd h⟩⟩
  | cons c rest ih =>
    intro i data errors hc he hd
    have hc1 := hc c List.mem_cons_self
    rw [collectElements]
    refine Yields.bind (by simp [Run.emit]) fun _ _ => ?_
    refine ih _ _ _ (fun c h => hc c (List.mem_cons_of_mem _ h)) ?_ ?_
    · cases hr : c.result with
      | ok v =>
        rw [hr] at hc1
        intro e h
        rcases List.mem_append.mp h with h | h
        · exact he e h
        · exact hc1.1 e h
      | error x =>
        rw [hr] at hc1
        cases x with
        | schema es =>
          intro e h
          rcases List.mem_append.mp h with h | h
          · exact he e h
          · exact hc1.2 e h
        | other what =>
          intro e h
          rcases List.mem_append.mp h with h | h
          · exact he e h
          · simp only [List.mem_singleton] at h
            subst h
            exact (hc1 params.fieldName).2
    · cases hr : c.result with
      | ok v =>
        rw [hr] at hc1
        intro h w hw
        obtain ⟨h1, h2⟩ := List.append_eq_nil_iff.mp h
        rcases List.mem_append.mp hw with hw | hw
        · exact hd h1 w hw
        · simp only [List.mem_singleton] at hw
          subst hw
          exact hc1.2 h2
      | error x =>
        rw [hr] at hc1
        cases x with
        | schema es => exact fun h => absurd (List.append_eq_nil_iff.mp h).2 hc1.1
        | other what => exact fun h => absurd h (by simp)

theorem convertElements_yields {A : Resp → Prop} (convert : ResolverParams E O → FieldResult E O → Run E (Fut E))
    (params : ResolverParams E O) (xs : List (Out O)) : ∀ (i : Nat),
    (∀ x ∈ xs, ∀ i, Yields P A ((convert (params.atIndex i) (.value x)).bind fun f => f).result) →
    match (convertElements convert params i xs).result with
    | .ok children => ∀ c ∈ children, Yields P A c.result
    | .error e => Throws P e := by
  induction xs with
  | nil => intro i _; simp [convertElements, Run.pure]
  | cons x xs ih =>
    intro i h
    have h1 := h x List.mem_cons_self i
    have h2 := ih (i + 1) fun x hx => h x (List.mem_cons_of_mem _ hx)
    rw [convertElements]
    cases hx : (convert (params.atIndex i) (.value x)).result with
    | error e =>
      simp only [Run.bind, hx] at h1 ⊢
      exact h1
    | ok c =>
      rw [(Run.bind_result_ok hx).1] at h1 ⊢
      cases hr : (convertElements convert params (i + 1) xs).result with
      | error e =>
        rw [hr] at h2
        simp only [Run.bind, hr]
        exact h2
      | ok children =>
        rw [hr] at h2
        rw [(Run.bind_result_ok hr).1]
        intro d hd
        rcases List.mem_cons.mp hd with rfl | hd
        · exact h1
        · exact h2 d hd

/-! ## Values -/

theorem Subtype.composite {a b : TypeRef} (h : Subtype S a b) : S.isComposite (baseName a) = S.isComposite (baseName b) := by
  induction h with
  | same => rfl
  | member hm hn _ => simp [baseName, hm, hn]
  | list _ ih => exact ih
  | nonNull _ ih => exact ih
  | stronger _ _ ih => exact ih

/-- What is expected of the data of a value of a type, as it is and as JSON. -/
def Good (S : Schema) (fragments : List FragmentDef) (τ : TypeRef) (sub : Option (List Selection)) (v : Resp) : Prop :=
  Answers S fragments τ sub v ∧ NoDuplicates v ∧ Answers S fragments τ sub (normalize v)

theorem leafHolds_normalize {type : Str} {v : Resp} {d : Gen.Client.Data} (h : LeafHolds S type v d) :
    ∃ d', LeafHolds S type (normalize v) d' := by
  cases h with
  | int h => exact ⟨_, .int h⟩
  | float h => exact ⟨_, .float h⟩
  | integral h => exact ⟨_, .integral h⟩
  | string h => exact ⟨_, .string h⟩
  | boolean h => exact ⟨_, .boolean h⟩
  | id h hb => exact ⟨_, .id h hb⟩
  | enum h hv ht hi =>
    refine ⟨_, .enum h (.inl ?_) ht hi⟩
    rcases hv with rfl | rfl <;> rfl
  | custom h => exact ⟨_, .custom h⟩

theorem normalizeList_eq (vs : List Resp) : normalizeList vs = vs.map normalize := by
  induction vs with
  | nil => rfl
  | cons v vs ih => rw [normalizeList, ih, List.map_cons]

theorem normalizeEntries_eq (ms : List (Str × Resp)) : normalizeEntries ms = ms.map fun m => (m.1, normalize m.2) := by
  induction ms with
  | nil => rfl
  | cons m ms ih => rw [normalizeEntries, ih, List.map_cons]

theorem Good.null {fragments : List FragmentDef} {τ : TypeRef} {sub : Option (List Selection)} (hn : ∀ σ, τ ≠ .nonNull σ) :
    Good S fragments τ sub .null := by
  have h : Answers S fragments τ sub .null := by
    cases τ with
    | named n => exact .null
    | list τ => exact .nullList
    | nonNull τ => exact absurd rfl (hn τ)
  exact ⟨h, .other (by simp) (by simp), h⟩

/-- What a non-null type says of a supertype. -/
theorem Subtype.nonNull_inv {a τ : TypeRef} (h : Subtype S (.nonNull a) τ) : ∃ b, Subtype S a b ∧ baseName b = baseName τ ∧
    ∀ fragments sub v, Good S fragments b sub v → normalize v ≠ .null → Good S fragments τ sub v := by
  cases h with
  | @nonNull _ b h => exact ⟨b, h, rfl, fun _ _ _ hg hv =>
      ⟨.nonNull (fun e => hv (by rw [e]; rfl)) hg.1, hg.2.1, .nonNull hv hg.2.2⟩⟩
  | stronger hb h => exact ⟨τ, h, rfl, fun _ _ _ hg _ => hg⟩

theorem Subtype.not_nonNull {σ τ : TypeRef} (h : Subtype S σ τ) (hn : ∀ t, σ ≠ .nonNull t) : ∀ t, τ ≠ .nonNull t := by
  cases h with
  | nonNull _ => exact absurd rfl (hn _)
  | stronger hb _ => exact hb
  | same => nofun
  | member _ _ _ => nofun
  | list _ => nofun

/-- The selection set fits the type, and executing it on the objects of the type is fine. -/
structure Continues (S : Schema) (I : Impl E O) (typeOf : O → Str) (P : Str → Prop) (fragments : List FragmentDef)
    (sub : Option (List Selection)) (type : Str) (selection : Option (Loc × SetVisitor E O)) : Prop where
  leaf : S.isComposite type = false → selection = none
  object : S.isComposite type = true → ∃ pos visit, selection = some (pos, visit) ∧
    ∀ o set, typeOf o ∈ S.matching type →
      Yields P (fun v => Good S fragments (.named type) sub v ∧ normalize v ≠ .null) ((resolveObject I visit o set).bind fun f => f).result

theorem enum_not_composite {n : Str} (h : S.kind n = some .enum) : S.isComposite n = false := by
  simp only [Validation.Schema.isComposite, h]; rfl

theorem complete_yields {I : Impl E O} {typeOf : O → Str} {fragments : List FragmentDef} {sub : Option (List Selection)}
    {σ : TypeRef} {t : OutType} (ht : StaticType S σ t) : ∀ {τ : TypeRef}, Subtype S σ τ → ∀ {x : Out O}, ValueOf S typeOf σ x →
    ∀ (params : ResolverParams E O), Continues S I typeOf P fragments sub (baseName τ) params.selection →
    Yields P (Good S fragments τ sub) (complete I t params x).result := by
  induction ht with
  | @leaf n hc =>
    intro τ hs x hx params hp
    obtain ⟨b, hb, hbase, hfin⟩ := hs.nonNull_inv
    cases hx with
    | @leaf _ v d _ hv hd h =>
      have hb' : b = .named n := by
        cases hb with
        | same => rfl
        | member hm _ _ => rw [hm] at hc; cases hc
      subst hb'
      have hnone := hp.leaf (by rw [← hbase]; exact hc)
      rw [complete_leaf]
      simp only [blockSubFields, hnone, Run.pure_bind]
      obtain ⟨d', h'⟩ := leafHolds_normalize h
      exact .pure (hfin _ _ _ ⟨.leaf hc h, hd, .leaf hc h'⟩ hv)
    | object hc' _ => rw [hc'] at hc; cases hc
    | absent hn => exact absurd rfl (hn _)
    | present hn _ => exact absurd rfl (hn _)
  | @enum n hk =>
    have hc : S.isComposite n = false := enum_not_composite hk
    intro τ hs x hx params hp
    obtain ⟨b, hb, hbase, hfin⟩ := hs.nonNull_inv
    cases hx with
    | @leaf _ v d _ hv hd h =>
      have hb' : b = .named n := by
        cases hb with
        | same => rfl
        | member hm _ _ => rw [hm] at hc; cases hc
      subst hb'
      rw [complete_enum]
      obtain ⟨d', h'⟩ := leafHolds_normalize h
      exact .pure (hfin _ _ _ ⟨.leaf hc h, hd, .leaf hc h'⟩ hv)
    | object hc' _ => rw [hc'] at hc; cases hc
    | absent hn => exact absurd rfl (hn _)
    | present hn _ => exact absurd rfl (hn _)
  | @object n direct hc =>
    intro τ hs x hx params hp
    obtain ⟨b, hb, hbase, hfin⟩ := hs.nonNull_inv
    cases hx with
    | @object _ o _ h =>
      have hb' : ∃ m, b = .named m ∧ S.isComposite m = true ∧ S.matching n ⊆ S.matching m := by
        cases hb with
        | same => exact ⟨n, rfl, hc, List.Subset.refl _⟩
        | member _ hn h => exact ⟨_, rfl, hn, h⟩
      obtain ⟨m, rfl, hm, hsubset⟩ := hb'
      simp only [baseName] at hbase
      obtain ⟨pos, visit, h1, h2⟩ := hp.object (by rw [← hbase]; exact hm)
      rw [complete_object, h1]
      refine (h2 o params.set (by rw [← hbase]; exact hsubset h)).imp ?_
      rintro v ⟨hg, hv⟩
      rw [← hbase] at hg
      exact hfin _ _ _ hg hv
    | leaf hc' _ _ _ => rw [hc'] at hc; cases hc
    | absent hn => exact absurd rfl (hn _)
    | present hn _ => exact absurd rfl (hn _)
  | @list ρ t h ih =>
    intro τ hs x hx params hp
    obtain ⟨b, hb, hbase, hfin⟩ := hs.nonNull_inv
    cases hx with
    | @list _ xs hxs =>
      cases hb with
      | @list _ b hb =>
        simp only [baseName] at hbase
        rw [complete_list]
        have h1 := convertElements_yields (P := P) (A := Good S fragments b sub) (convert I t) params xs 0
          (fun x hx i => ih hb (hxs x hx) (params.atIndex i) (by rw [hbase]; exact hp))
        refine Yields.bind (fun e he => by rw [he] at h1; exact h1) fun children hc => ?_
        rw [hc] at h1
        refine (collectElements_yields params children 0 [] [] h1 (by simp) (by simp)).imp ?_
        rintro v ⟨vs, rfl, hvs⟩
        refine hfin _ _ _ ⟨.list fun v hv => (hvs v hv).1, .list fun v hv => (hvs v hv).2.1, ?_⟩ (by simp [normalize])
        rw [normalize, normalizeList_eq]
        refine .list fun v hv => ?_
        obtain ⟨w, hw, rfl⟩ := List.mem_map.mp hv
        exact (hvs w hw).2.2
    | absent hn => exact absurd rfl (hn _)
    | present hn _ => exact absurd rfl (hn _)
  | @nullable ρ t hn h ih =>
    intro τ hs x hx params hp
    cases hx with
    | absent _ => rw [complete_absent]; exact .pure (.null (hs.not_nonNull hn))
    | present _ hx =>
      rw [complete_present]
      exact ih (.stronger (hs.not_nonNull hn) hs) hx params hp
    | leaf => exact absurd rfl (hn _)
    | object => exact absurd rfl (hn _)
    | list => exact absurd rfl (hn _)

/-- An accessor which fails later. -/
theorem convert_failed {I : Impl E O} {A : Resp → Prop} (t : OutType) (params : ResolverParams E O) (later : List E) {x : Exn}
    (hx : Throws P x) (hsel : t.isObject = params.selection.isSome) :
    Yields P A ((convert I t params (.future later (.error x))).bind fun f => f).result := by
  cases t with
  | leaf =>
    simp only [OutType.isObject] at hsel
    have hnone : params.selection = none := by simpa using hsel.symm
    simp only [convert, convertLeaf, blockSubFields, hnone, Run.pure_bind]
    cases x with
    | schema es => exact ⟨hx.2, fun h => absurd h hx.1⟩
    | other what =>
      refine ⟨?_, fun h => ?_⟩
      · intro e he
        simp only [leafResult, List.mem_singleton] at he
        subst he
        exact (hx params.fieldName).1
      · simp [leafResult] at h
  | enum =>
    simp only [convert]
    cases x with
    | schema es => exact ⟨hx.2, fun h => absurd h hx.1⟩
    | other what =>
      refine ⟨?_, fun h => ?_⟩
      · intro e he
        simp only [leafResult, List.mem_singleton] at he
        subst he
        exact (hx params.fieldName).1
      · simp [leafResult] at h
  | object direct =>
    simp only [OutType.isObject] at hsel
    obtain ⟨s, hs⟩ := Option.isSome_iff_exists.mp hsel.symm
    simp only [convert, convertObject, hs, FieldResult.isFuture, Bool.not_true, Bool.and_false, Bool.false_eq_true, if_false,
      objectResult, FieldResult.get, Run.bind]
    exact hx
  | nullable t =>
    simp only [convert, FieldResult.get, Run.bind]
    exact hx
  | list t =>
    simp only [convert, FieldResult.get, Run.bind]
    exact hx

theorem StaticType.isObject {σ : TypeRef} {t : OutType} (h : StaticType S σ t) : t.isObject = S.isComposite (baseName σ) := by
  induction h with
  | leaf hc => simp [OutType.isObject, baseName, hc]
  | enum hk => simp [OutType.isObject, baseName, enum_not_composite hk]
  | object hc => simp [OutType.isObject, baseName, hc]
  | list _ ih => exact ih
  | nullable _ _ ih => exact ih

/-! ## Fields -/

theorem ArgumentsInhabit.implement {defs own : List Validation.InputValue} {ms : Members}
    (h1 : ∀ arg a, Validation.findArgument defs arg = some a → ∃ b, Validation.findArgument own arg = some b ∧
      b.type = a.type ∧ (a.defaultValue = true → b.defaultValue = true))
    (h2 : ∀ arg b, Validation.findArgument own arg = some b → Validation.Spec.Required b.type → b.defaultValue = false →
      ∃ a, Validation.findArgument defs arg = some a ∧ Validation.Spec.Required a.type ∧ a.defaultValue = false)
    (h : ArgumentsInhabit S defs ms) : ArgumentsInhabit S own ms := by
  refine ⟨fun m hm => ?_, fun name b hb hr hd => ?_⟩
  · obtain ⟨a, ha, hi⟩ := h.1 m hm
    obtain ⟨b, hb, ht, hdef⟩ := h1 _ _ ha
    refine ⟨b, hb, ?_⟩
    rw [ht]
    generalize m.2 = w at hi ⊢
    cases hi with
    | null h => exact .null fun hreq => hdef (h hreq)
    | scalar hn ht hd hk h => exact .scalar hn ht hd hk h
    | enum ht hd hk h => exact .enum ht hd hk h
    | jsonEnum ht hd hk h => exact .jsonEnum ht hd hk h
    | list ht h => exact .list ht h
    | object ht hd hk h1 h2 h3 => exact .object ht hd hk h1 h2 h3
  · obtain ⟨a, ha, hra, hda⟩ := h2 _ _ hb hr hd
    exact h.2 name a ha hra hda

/-- A field which is selected on a type, executed on an object of the type. -/
theorem start_yields {I : Impl E O} {typeOf : O → Str} (hI : Serves S I typeOf P) (hS : Implements S) {env : Env} {o : O}
    {params : SetParams} {v : Visit} {on : Str} (ho : typeOf o ∈ S.matching on) {def_ : FieldDef}
    (hd : S.findField on v.field.name = some def_) {b : Bool} (hb : skips env v.field.directives = .ok b) {args : Members}
    (ha : evalOptArgs env v.field.arguments = .ok args) (hargs : ArgumentsInhabit S def_.arguments args)
    {fragments : List FragmentDef} {sub : Option (List Selection)}
    (hsel : Continues S I typeOf P fragments sub (baseName def_.type) (v.sub.map fun s => (s.1, visitAll I env s.2))) :
    ∃ r, (start I env o params v).result = .ok r ∧
      ∀ f, r = some f → Yields P (Good S fragments def_.type sub) f.result := by
  obtain ⟨own, hown, hsubtype, h1, h2⟩ := hS.fields _ _ _ _ ho hd
  obtain ⟨resolver, hres, hstatic, hcalls⟩ := hI.fields o _ own hown
  unfold start
  simp only [hres, hb, ha]
  cases b with
  | true => exact ⟨none, rfl, nofun⟩
  | false =>
    simp only
    generalize hset : ({ params with fragmentDirectives := v.dirs, errorPath := some (.extend params.errorPath (.name v.name)) } : SetParams) = set
    generalize hpar : ({ set := set, fieldDirectives := directivesOf env v.field.directives, arguments := args } : FieldParams) = fparams
    generalize hrpar : ({ set := set, pos := v.field.pos, fieldName := v.name, selection := v.sub.map fun s => (s.1, visitAll I env s.2) } : ResolverParams E O) = rparams
    have hsel' : Continues S I typeOf P fragments sub (baseName def_.type) rparams.selection := by rw [← hrpar]; exact hsel
    obtain ⟨c1, c2, c3, c4⟩ := hcalls fparams (by rw [← hpar]; exact hargs.implement h1 h2)
    have hcomposite : resolver.type.isObject = rparams.selection.isSome := by
      rw [hstatic.isObject, hsubtype.composite]
      cases hc : S.isComposite (baseName def_.type) with
      | false => rw [hsel'.leaf hc]; rfl
      | true => obtain ⟨_, _, h, _⟩ := hsel'.object hc; rw [h]; rfl
    have key : Yields P (Good S fragments def_.type sub) (((resolver.access fparams).bind fun r =>
        convert I resolver.type rparams r).bind fun f => f).result := by
      rw [Run.bind_assoc]
      refine Yields.bind c1 fun r hr => ?_
      cases r with
      | value x => exact complete_yields hstatic hsubtype (c2 x hr) rparams hsel'
      | future later outcome =>
        cases outcome with
        | ok x =>
          rw [C18_future]
          exact complete_yields hstatic hsubtype (c3 later x hr) rparams hsel'
        | error x => exact convert_failed resolver.type rparams later (c4 later x hr) hcomposite
    generalize ((resolver.access fparams).bind fun r => convert I resolver.type rparams r) = resolve at key
    cases hr : resolve.result with
    | error x =>
      refine ⟨_, Run.bind_eq_ok.mpr ⟨.throw (fieldException v.field.pos v.name (buildErrorPath set.errorPath) x), by
        simp only [Run.handle, hr, ← hset], rfl⟩, ?_⟩
      rintro f ⟨⟩
      have : Throws P x := by
        simp only [Run.bind, hr] at key
        exact key
      exact fieldException_throws this _ _ _
    | ok f =>
      refine ⟨_, Run.bind_eq_ok.mpr ⟨f, by simp only [Run.handle, hr], rfl⟩, ?_⟩
      rintro f ⟨⟩
      rw [(Run.bind_result_ok hr).1] at key
      exact key

end Verif.Sound
