import Verif.Async.Sim
import Verif.Async.Spec

/-!
# The executor with threads, compared with deferred execution
-/
namespace Verif.Async
open Verif.Value Verif.Resp Verif.Errors Verif.Ast Verif.Exec

variable {E O α β : Type} {m : Mode E O} {vals vals' : List Val} {K K' : Multiset Nat} {s rest : List E}

/-- The values of a visitor. -/
def StSim (m : Mode E O) (vals : List Val) (K : Multiset Nat) (st : St E O) (st' : Exec.St E) (s : List E) : Prop :=
  st.names = st'.names ∧ st.values.map (·.1) = st'.values.map (·.1) ∧
    ∃ rest, FutSims m vals K st.futures (st'.values.map (·.2)) s rest

theorem StSim.mono {st : St E O} {st' : Exec.St E} (h : StSim m vals K st st' s) (hv : vals <+: vals') : StSim m vals' K st st' s :=
  ⟨h.1, h.2.1, h.2.2.choose, h.2.2.choose_spec.mono hv⟩

/-- Visitors which do the same. -/
def VisSim (m : Mode E O) (v : SetVisitor E O) (v' : Exec.SetVisitor E O) : Prop :=
  ∀ ⦃vals K s⦄ o params ⦃st st'⦄, StSim m vals K st st' s → SimA m vals K s (v o params st) (v' o params st') (StSim m)

/-- What user code may do, with and without the lock of an object. -/
structure Allows (m : Mode E O) (I : Impl E O) : Prop where
  «begin» : ∀ o params, ∀ e ∈ (I.beginSet o params).trace, m.rules.known → m.rules.owner e = none
  «end» : ∀ o params, ∀ e ∈ (I.endSet o params).trace, m.rules.known → m.rules.owner e = none
  access : ∀ o name resolver, I.resolver o name = some resolver → ∀ params,
    m.rules.call o (resolver.access params).trace ∧ (m.rules.known → ∀ e ∈ (resolver.access params).trace, m.rules.owner e = some o)
  later : ∀ o name resolver, I.resolver o name = some resolver → ∀ params later outcome,
    (resolver.access params).result = .ok (.future later outcome) → ∀ e ∈ later, m.rules.known → m.rules.owner e = none

variable {I : Impl E O} {launch : Launch}

theorem resolveObject_sim (hl : launch = .deferred ∨ m.threads) (ha : Allows m I) (hs : Loses m ∨ SetsSucceed I)
    {v : SetVisitor E O} {v' : Exec.SetVisitor E O} (hv : VisSim m v v') (o : O) (params : SetParams) :
    Sim m vals (resolveObject I launch v o params) (Exec.resolveObject I v' o params) (IsFut m) := by
  refine (Sim.user (ha.begin o params)).bind_plain fun vals₁ _ _ h1 _ _ => ?_
  refine (hv o _ (s := []) (K := 0) (st := ⟨[], []⟩) (st' := ⟨[], []⟩) ⟨rfl, rfl, [], .nil⟩).bind fun vals₂ K st st' s h2 _ hst => ?_
  obtain ⟨_, hn, rest, hf⟩ := hst
  refine (SimA.unwind (Sim.user (ha.end o params)) hf ?_).bind fun vals₃ K _ _ s h3 _ h => ?_
  · exact hs.imp hf.lost fun h => (h o params).2
  · obtain ⟨_, _, rfl, rfl, h4, rfl, _, rfl⟩ := h
    rw [add_zero, List.append_nil]
    have hf := hf.mono h4
    obtain ⟨h5, h6⟩ := hf.owned
    have h7 := collectFields_sim [] [] hn hf
    subst h5
    exact SimA.async hl h6 h7.2 hf.early h7.1

/-- Parameters which are the same. -/
structure ParSim (m : Mode E O) (params : ResolverParams E O) (params' : Exec.ResolverParams E O) : Prop where
  set : params.set = params'.set
  pos : params.pos = params'.pos
  fieldName : params.fieldName = params'.fieldName
  selection : match (generalizing := false) params.selection, params'.selection with
    | none, none => True
    | some (pos, v), some (pos', v') => pos = pos' ∧ VisSim m v v'
    | _, _ => False

theorem ParSim.atIndex {params : ResolverParams E O} {params' : Exec.ResolverParams E O} (h : ParSim m params params') (i : Nat) :
    ParSim m (params.atIndex i) (params'.atIndex i) := by
  refine ⟨?_, h.pos, h.fieldName, h.selection⟩
  simp [ResolverParams.atIndex, Exec.ResolverParams.atIndex, h.set]

/-- What the future of an accessor may do. -/
def Later (m : Mode E O) (r : FieldResult E O) : Prop := ∀ later outcome, r = .future later outcome → ∀ e ∈ later, m.rules.known → m.rules.owner e = none

theorem getResult_sim {r : FieldResult E O} (h : Later m r) : Sim m vals (getResult r) r.get (Plain Eq) := by
  refine Sim.user fun e he => ?_
  cases r with
  | value x => simp [FieldResult.get, Run.pure] at he
  | future later outcome => exact h later outcome rfl e he

/-- A conversion to this type may throw before there is a future. -/
def MayThrow (params : Exec.ResolverParams E O) : OutType → Prop
  | .leaf => params.selection ≠ none
  | .object direct => direct = true ∨ params.selection = none
  | _ => False

/-- Futures of conversions: those of types which may throw have done nothing yet. -/
def IsConverted (m : Mode E O) (early : Prop) (vals : List Val) (K : Multiset Nat) (f : Future E O) (run : Fut E) (s : List E) : Prop :=
  IsFut m vals K f run s ∧ (early → s = [])

theorem leafResult_eq {params : ResolverParams E O} {params' : Exec.ResolverParams E O} (hp : ParSim m params params')
    (r : Except Exn (Out O)) : leafResult params r = Exec.leafResult params' r := by
  rcases r with (es | what) | x
  · rfl
  · simp [leafResult, Exec.leafResult, hp.set, hp.pos, hp.fieldName]
  · cases x <;> rfl

theorem resolveLeaf_sim {params : ResolverParams E O} {params' : Exec.ResolverParams E O} (hp : ParSim m params params')
    {r : FieldResult E O} (hr : Later m r) (P : Prop) :
    Sim m vals (resolveLeaf params r) (Exec.resolveLeaf params' r) (IsConverted m P) := by
  cases r with
  | value x =>
    refine SimA.pure fun vals' _ => ⟨⟨[], ?_⟩, fun _ => rfl⟩
    rw [leafResult_eq hp]
    exact FutSim.ready _
  | future later outcome =>
    refine SimA.pure fun vals' _ => ⟨⟨later, .inl rfl, .inr rfl, rfl, by simp, ?_⟩, fun _ => rfl⟩
    have := Tri.user (m := m) (vals := vals') (K := 0) (run := ⟨later, .ok (leafResult params outcome)⟩)
      (Q := Does m (.ok (Exec.leafResult params' outcome)) later) (hr later outcome rfl)
      fun _ _ => ⟨rfl, by simp [leafResult_eq hp], m.refl _⟩
    exact this

theorem convertLeaf_sim {params : ResolverParams E O} {params' : Exec.ResolverParams E O} (hp : ParSim m params params')
    {r : FieldResult E O} (hr : Later m r) (P : Prop) :
    Sim m vals (convertLeaf params r) (Exec.convertLeaf params' r) (IsConverted m P) := by
  have h : Sim m vals (blockSubFields params) (Exec.blockSubFields params') (Plain Eq) := by
    have := hp.selection
    unfold blockSubFields Exec.blockSubFields
    rcases h1 : params.selection with _ | ⟨pos, v⟩ <;> rcases h2 : params'.selection with _ | ⟨pos', v'⟩ <;> simp only [h1, h2] at this
    · exact SimA.pure fun _ _ => ⟨rfl, rfl, rfl⟩
    · rw [hp.set, hp.fieldName, this.1]
      exact Sim.throw
  exact h.bind_plain fun vals' _ _ _ _ _ => resolveLeaf_sim hp hr P

theorem objectResult_sim (hl : launch = .deferred ∨ m.threads) (ha : Allows m I) (hs : Loses m ∨ SetsSucceed I)
    {params : ResolverParams E O} {params' : Exec.ResolverParams E O} (hp : ParSim m params params')
    {v : SetVisitor E O} {v' : Exec.SetVisitor E O} (hv : VisSim m v v') {r : FieldResult E O} (hr : Later m r) :
    Sim m vals (objectResult I launch params v r) (Exec.objectResult I params' v' r) (Plain Eq) := by
  refine (getResult_sim hr).bind_plain fun vals' x _ _ _ hx => ?_
  subst hx
  rcases x with _ | (_ | o) | _ | _ | _
  any_goals exact SimA.pure fun _ _ => ⟨rfl, rfl, rfl⟩
  show Sim m vals' ((resolveObject I launch v o params.set).bind fun f => f.get)
    ((Exec.resolveObject I v' o params'.set).bind fun f => f) (Plain Eq)
  rw [hp.set]
  exact (resolveObject_sim hl ha hs hv o params'.set).bind fun vals'' K f run s _ _ hf => hf.choose_spec.get

theorem convertObject_sim (hl : launch = .deferred ∨ m.threads) (ha : Allows m I) (hs : Loses m ∨ SetsSucceed I) (direct : Bool)
    {params : ResolverParams E O} {params' : Exec.ResolverParams E O} (hp : ParSim m params params') {r : FieldResult E O}
    (hr : Later m r) :
    Sim m vals (convertObject I launch direct params r) (Exec.convertObject I direct params' r)
      (IsConverted m (MayThrow params' (.object direct) ∧ r.isFuture = false)) := by
  have h := hp.selection
  unfold convertObject Exec.convertObject
  rcases h1 : params.selection with _ | ⟨pos, v⟩ <;> rcases h2 : params'.selection with _ | ⟨pos', v'⟩ <;> simp only [h1, h2] at h
  · have : missingSubFields params = Exec.missingSubFields params' := by
      simp [missingSubFields, Exec.missingSubFields, hp.set, hp.pos, hp.fieldName]
    rw [this]
    exact Sim.throw
  · by_cases hd : (direct && !r.isFuture) = true
    · simp only [hd, if_true]
      have h0 := objectResult_sim (vals := vals) hl ha hs hp h.2 hr
      refine SimA.bind_plain h0 fun vals' x b _ _ hx => ?_
      cases hx
      refine SimA.pure fun vals'' _ => ⟨⟨[], ?_⟩, fun _ => rfl⟩
      exact FutSim.ready (.ok x)
    · simp only [hd]; simp only [Bool.false_eq_true, if_false]
      refine (Sim.async hl fun vals' _ => objectResult_sim hl ha hs hp h.2 hr).weaken fun _ _ _ _ _ _ _ hf => ⟨hf, fun he => ?_⟩
      rcases he with ⟨h | h, hr⟩
      · simp [h, hr] at hd
      · simp [h2] at h

theorem FutSims.none {K : Multiset Nat} (h : FutSims m vals K [] [] s rest) : K = 0 ∧ s = [] := by
  cases h
  exact ⟨rfl, rfl⟩

/-- Children made by conversions. -/
def AreConverted (m : Mode E O) (early : Prop) (vals : List Val) (K : Multiset Nat) (fs : List (Future E O)) (runs : List (Fut E))
    (s : List E) : Prop :=
  (∃ rest, FutSims m vals K fs runs s rest) ∧ (early → s = [])

theorem convertElements_sim {t : OutType} {params : ResolverParams E O} {params' : Exec.ResolverParams E O} (hp : ParSim m params params')
    {conv : ResolverParams E O → FieldResult E O → Comp E O (Future E O)}
    {conv' : Exec.ResolverParams E O → FieldResult E O → Run E (Fut E)}
    (hc : ∀ vals i x, Sim m vals (conv (params.atIndex i) (.value x)) (conv' (params'.atIndex i) (.value x))
      (IsConverted m (MayThrow params' t)))
    (ht : ¬ MayThrow params' t → ∀ i x, ∃ f, (conv' (params'.atIndex i) (.value x)).result = .ok f) :
    (xs : List (Out O)) → (i : Nat) → (fs : List (Future E O)) → (runs : List (Fut E)) → {vals : List Val} → {K : Multiset Nat} →
    {s : List E} → AreConverted m (MayThrow params' t) vals K fs runs s →
    SimA m vals K s (convertElements conv params i xs fs)
      ((Exec.convertElements conv' params' i xs).bind fun children => .pure (runs ++ children))
      (AreConverted m (MayThrow params' t))
  | [], i, fs, runs, vals, K, s, h => by
    simp only [convertElements, Exec.convertElements]
    rw [show (Run.pure [] : Run E (List (Fut E))).bind (fun children => .pure (runs ++ children)) = Run.pure runs by
      simp [Run.bind, Run.pure]]
    exact SimA.pure fun vals' hv => ⟨⟨_, h.1.choose_spec.mono hv⟩, h.2⟩
  | x :: xs, i, fs, runs, vals, K, s, h => by
    have e : ((Exec.convertElements conv' params' i (x :: xs)).bind fun children => .pure (runs ++ children)) =
        (conv' (params'.atIndex i) (.value x)).bind fun child =>
          (Exec.convertElements conv' params' (i + 1) xs).bind fun children => .pure ((runs ++ [child]) ++ children) := by
      simp only [Exec.convertElements]
      cases h1 : (conv' (params'.atIndex i) (.value x)).result with
      | error e => simp [Run.bind, h1]
      | ok child =>
        cases h2 : (Exec.convertElements conv' params' (i + 1) xs).result with
        | error e => simp [Run.bind, h1, h2]
        | ok children => simp [Run.bind, Run.pure, h1, h2]
    rw [e]
    obtain ⟨rest, hf⟩ := h.1
    refine (SimA.unwind (hc vals i x) hf ?_).bind fun vals' K' f run s' hv _ hq => ?_
    · by_cases hm : MayThrow params' t
      · exact .inl (h.2 hm ▸ InVain.nil)
      · exact .inr (ht hm i x)
    · obtain ⟨k', s'', rfl, rfl, _, ⟨rest', hf'⟩, he⟩ := hq
      exact convertElements_sim hp hc ht xs (i + 1) _ _ ⟨⟨_, (hf.mono hv).snoc hf'⟩, fun hm => by rw [h.2 hm, he hm]; rfl⟩

theorem convert_ok (params : Exec.ResolverParams E O) (x : Out O) :
    (t : OutType) → ¬ MayThrow params t → ∃ f, (Exec.convert I t params (.value x)).result = .ok f
  | .leaf, h => by
    simp only [MayThrow, ne_eq, not_not] at h
    exact ⟨_, by simp [Exec.convert, Exec.convertLeaf, Exec.blockSubFields, h, Run.bind, Run.pure, Exec.resolveLeaf]; rfl⟩
  | .enum, _ => ⟨_, rfl⟩
  | .object direct, h => by
    simp only [MayThrow, not_or] at h
    obtain ⟨h1, h2⟩ := h
    have h1 : direct = false := by simpa using h1
    rcases h3 : params.selection with _ | ⟨pos, v⟩
    · exact absurd h3 h2
    · exact ⟨_, by simp [Exec.convert, Exec.convertObject, h3, h1, Run.pure]; rfl⟩
  | .nullable t, _ => ⟨_, rfl⟩
  | .list t, _ => ⟨_, rfl⟩

theorem mayThrow_atIndex (params : Exec.ResolverParams E O) (i : Nat) (t : OutType) : MayThrow (params.atIndex i) t ↔ MayThrow params t := by
  cases t <;> rfl

theorem convert_sim (hl : launch = .deferred ∨ m.threads) (ha : Allows m I) (hs : Loses m ∨ SetsSucceed I) :
    (t : OutType) → {params : ResolverParams E O} → {params' : Exec.ResolverParams E O} → ParSim m params params' →
    {r : FieldResult E O} → Later m r → (vals : List Val) →
    Sim m vals (convert I launch t params r) (Exec.convert I t params' r) (IsConverted m (MayThrow params' t ∧ r.isFuture = false))
  | .leaf, _, _, hp, _, hr, _ => convertLeaf_sim hp hr _
  | .enum, _, _, hp, _, hr, _ => resolveLeaf_sim hp hr _
  | .object direct, _, _, hp, _, hr, _ => convertObject_sim hl ha hs direct hp hr
  | .nullable t, params, params', hp, r, hr, vals => by
    unfold convert Exec.convert
    refine (Sim.async (.inl rfl) fun vals' _ => ?_).weaken fun _ _ _ _ _ _ _ hf => ⟨hf, fun h => absurd h.1 id⟩
    refine (getResult_sim hr).bind_plain fun vals'' x _ _ _ hx => ?_
    subst hx
    rcases x with _ | _ | _ | y | _
    any_goals exact SimA.pure fun _ _ => ⟨rfl, rfl, rfl⟩
    refine (convert_sim hl ha hs t hp (r := .future [] (.ok y)) (fun later outcome h e he => ?_) vals'').bind
      fun vals₃ K f run s _ _ hf => hf.1.choose_spec.get
    cases h
    simp at he
  | .list t, params, params', hp, r, hr, vals => by
    unfold convert Exec.convert
    refine (Sim.async hl fun vals' _ => ?_).weaken fun _ _ _ _ _ _ _ hf => ⟨hf, fun h => absurd h.1 id⟩
    refine (getResult_sim hr).bind_plain fun vals'' x _ _ _ hx => ?_
    subst hx
    have h := convertElements_sim (t := t) hp (conv := convert I launch t) (conv' := Exec.convert I t)
      (fun vals i y => (convert_sim hl ha hs t (hp.atIndex i) (r := .value y) (fun _ _ h => by cases h) vals).weaken
        fun _ _ _ _ _ _ _ h => ⟨h.1, fun hm => h.2 ⟨(mayThrow_atIndex _ _ _).2 hm, rfl⟩⟩)
      (fun hm i y => convert_ok _ _ _ fun h => hm ((mayThrow_atIndex _ _ _).1 h)) x.elements 0 [] [] (vals := vals'') (K := 0) (s := [])
      ⟨⟨[], .nil⟩, fun _ => rfl⟩
    have e : ((Exec.convertElements (Exec.convert I t) params' 0 x.elements).bind fun children => .pure ([] ++ children)) =
        Exec.convertElements (Exec.convert I t) params' 0 x.elements := by
      cases h : (Exec.convertElements (Exec.convert I t) params' 0 x.elements) with
      | mk trace result => cases result <;> simp [Run.bind, Run.pure]
    rw [e] at h
    refine h.bind fun vals₃ K fs runs s _ _ hf => ?_
    obtain ⟨⟨rest, hf⟩, _⟩ := hf
    have h1 := collectElements_sim params params' hp.set hp.pos hp.fieldName 0 [] [] hf
    exact h1.1.weaken fun _ _ _ _ _ hq => ret_iff.2 ⟨hq.1, hq.2.1, m.trans h1.2.le (m.append (m.refl _) hq.2.2)⟩

variable {env : Env} {st : St E O} {st' : Exec.St E}

/-- Evaluating something in presence of the futures of the visitor. -/
theorem StSim.lift {r : Except Exn α} (h : StSim m vals K st st' s) (hd : Loses m ∨ ∃ b, r = .ok b) {f : α → Comp E O β} {g : α → Run E γ}
    {R : List Val → Multiset Nat → β → γ → List E → Prop}
    (hf : ∀ vals' x, StSim m vals' K st st' s → r = .ok x → SimA m vals' K s (f x) (g x) R) :
    SimA m vals K s ((unwind st.futures (.lift r)).bind f) ((Run.lift r).bind g) R := by
  obtain ⟨rest, hfs⟩ := h.2.2
  refine (SimA.unwind Sim.lift hfs (hd.imp hfs.lost fun h => h)).bind fun vals' K' x b s' hv hr hq => ?_
  obtain ⟨_, _, rfl, rfl, h4, rfl, rfl, rfl⟩ := hq
  rw [add_zero, List.append_nil]
  exact hf vals' x (h.mono hv) hr

theorem StSim.add {f : Future E O} {run : Fut E} {s' : List E} {names : List Str} (h : StSim m vals K st st' s) (hf : IsFut m vals K' f run s')
    (name : Str) : StSim m vals (K + K') { names := names, values := st.values ++ [(name, f)] }
      { names := names, values := st'.values ++ [(name, run)] } (s ++ s') := by
  obtain ⟨rest, hfs⟩ := h.2.2
  obtain ⟨rest', hf⟩ := hf
  refine ⟨rfl, by simpa using h.2.1, rest ++ rest', ?_⟩
  simpa [St.futures] using hfs.snoc hf

theorem visitField_sim (hl : launch = .deferred ∨ m.threads) (ha : Allows m I) (hs : Loses m ∨ SetsSucceed I) (f : Field)
    (he : Loses m ∨ DirectivesEvaluate env f.directives ∧ ∃ args, evalOptArgs env f.arguments = .ok args)
    {sub : Option (Loc × SetVisitor E O)} {sub' : Option (Loc × Exec.SetVisitor E O)}
    (hv : match (generalizing := false) sub, sub' with
      | none, none => True
      | some (pos, v), some (pos', v') => pos = pos' ∧ VisSim m v v'
      | _, _ => False) : VisSim m (visitField I launch env f sub) (Exec.visitField I env f sub') := by
  intro vals K s o params st st' h
  unfold visitField Exec.visitField
  dsimp only
  rw [← h.1]
  by_cases hn : st.names.contains (responseName f) = true
  · simp only [hn, if_true]
    exact SimA.pure fun _ hv => h.mono hv
  · simp only [hn]
    simp only [Bool.false_eq_true, if_false]
    have h' : StSim m vals K { st with names := responseName f :: st.names } { st' with names := responseName f :: st.names } s :=
      ⟨rfl, h.2⟩
    cases hr : I.resolver o f.name with
    | none =>
      dsimp only
      refine SimA.pure fun vals' hv => ?_
      have := (h'.mono hv).add (K' := 0) (s' := []) (names := responseName f :: st.names) ⟨[], FutSim.ready (.error (.schema [{
        message := str "Unknown field name: " ++ f.name
        location := f.pos
        path := buildErrorPath params.errorPath }]))⟩ (responseName f)
      rw [add_zero, List.append_nil] at this
      exact this
    | some resolver =>
      dsimp only
      refine h'.lift (he.imp_right fun h => ⟨_, h.1.choose_spec.1⟩) fun vals₁ ds h₁ hds => ?_
      refine h₁.lift (he.imp_right fun h => ?_) fun vals₂ skip h₂ _ => ?_
      · obtain ⟨⟨ds', h1, h2⟩, _⟩ := h
        cases hds.symm.trans h1
        exact h2
      cases skip with
      | true => exact SimA.pure fun _ hv => h₂.mono hv
      | false =>
        simp only [Bool.false_eq_true, if_false]
        refine h₂.lift (he.imp_right fun h => h.2) fun vals₃ args h₃ _ => ?_
        have hc : Sim m vals₃
            ((Comp.locked o (resolver.access ⟨{ params with errorPath := some (.extend params.errorPath (.name (responseName f))) }, ds, args⟩)).bind
              fun r => convert I launch resolver.type ⟨{ params with errorPath := some (.extend params.errorPath (.name (responseName f))) },
                f.pos, responseName f, sub⟩ r)
            ((resolver.access ⟨{ params with errorPath := some (.extend params.errorPath (.name (responseName f))) }, ds, args⟩).bind
              fun r => Exec.convert I resolver.type ⟨{ params with errorPath := some (.extend params.errorPath (.name (responseName f))) },
                f.pos, responseName f, sub'⟩ r) (IsFut m) := by
          refine (Sim.locked (ha.access o f.name resolver hr _).1 (ha.access o f.name resolver hr _).2).bind_plain fun vals₄ r b _ hres hrb => ?_
          subst hrb
          refine (convert_sim hl ha hs resolver.type ⟨rfl, rfl, rfl, hv⟩ (fun later outcome hlo => ?_) vals₄).weaken
            fun _ _ _ _ _ _ _ h => h.1
          subst hlo
          exact ha.later o f.name resolver hr _ later outcome hres
        have hh := hc.handle fun e => Exec.fieldException f.pos (responseName f)
          (buildErrorPath (some (.extend params.errorPath (.name (responseName f))))) e
        obtain ⟨rest, hfs⟩ := h₃.2.2
        refine (SimA.frame hh ?_ hfs.early).bind fun vals₄ K' future run s' hv _ hq => ?_
        · unfold Run.handle
          split <;> exact ⟨_, rfl⟩
        · obtain ⟨k', s'', rfl, rfl, hv, hf⟩ := hq
          exact SimA.pure fun vals₅ hv' => ((h₃.mono hv).add hf _).mono hv'

mutual
theorem visit_sim (hl : launch = .deferred ∨ m.threads) (ha : Allows m I) (hs : Loses m ∨ SetsSucceed I) :
    (x : XSelection) → (Loses m ∨ Evaluates env x) → VisSim m (visit I launch env x) (Exec.visit I env x)
  | .leaf f, he => by
    intro vals K s o params st st' h
    unfold visit Exec.visit
    exact visitField_sim hl ha hs f he (sub := none) (sub' := none) trivial o params h
  | .node f pos sub, he => by
    intro vals K s o params st st' h
    unfold visit Exec.visit
    exact visitField_sim hl ha hs f (he.imp_right fun h => h.1) (sub := some (pos, visitAll I launch env sub))
      (sub' := some (pos, Exec.visitAll I env sub)) ⟨rfl, visitAll_sim hl ha hs sub (he.imp_right fun h => h.2)⟩ o params h
  | .unknownSpread pos name, he => by
    intro vals K s o params st st' h
    unfold visit Exec.visit
    obtain ⟨rest, hfs⟩ := h.2.2
    exact (SimA.unwind (Sim.throw (R := fun _ _ _ _ _ => False)) hfs (.inl (hfs.lost (he.resolve_right fun h => h)))).weaken
      fun _ _ _ _ _ _ _ h => by obtain ⟨_, _, _, _, _, h⟩ := h; exact h.elim
  | .spread fragment directives sub, he => by
    intro vals K s o params st st' h
    unfold visit Exec.visit
    cases hm : matchesType I o fragment.type with
    | false => exact SimA.pure fun _ hv => h.mono hv
    | true =>
      simp only [Bool.not_true, Bool.false_eq_true, if_false]
      refine h.lift (he.imp_right fun h => ⟨_, h.1.choose_spec.1⟩) fun vals₁ ds h₁ hds => ?_
      refine h₁.lift (he.imp_right fun h => ?_) fun vals₂ skip h₂ _ => ?_
      · obtain ⟨⟨ds', h1, h2⟩, _⟩ := h
        cases hds.symm.trans h1
        exact h2
      cases skip with
      | true => exact SimA.pure fun _ hv => h₂.mono hv
      | false => exact visitAll_sim hl ha hs sub (he.imp_right fun h => h.2) o _ h₂
  | .inline typeCondition directives sub, he => by
    intro vals K s o params st st' h
    unfold visit Exec.visit
    refine h.lift (he.imp_right fun h => ⟨_, h.1.choose_spec.1⟩) fun vals₁ ds h₁ hds => ?_
    refine h₁.lift (he.imp_right fun h => ?_) fun vals₂ skip h₂ _ => ?_
    · obtain ⟨⟨ds', h1, h2⟩, _⟩ := h
      cases hds.symm.trans h1
      exact h2
    cases skip with
    | true => exact SimA.pure fun _ hv => h₂.mono hv
    | false =>
      simp only [Bool.false_eq_true, if_false]
      cases hm : typeCondition.all (matchesType I o) with
      | false => exact SimA.pure fun _ hv => h₂.mono hv
      | true => exact visitAll_sim hl ha hs sub (he.imp_right fun h => h.2) o _ h₂
theorem visitAll_sim (hl : launch = .deferred ∨ m.threads) (ha : Allows m I) (hs : Loses m ∨ SetsSucceed I) :
    (xs : List XSelection) → (Loses m ∨ EvaluateAll env xs) → VisSim m (visitAll I launch env xs) (Exec.visitAll I env xs)
  | [], _ => by
    intro vals K s o params st st' h
    unfold visitAll Exec.visitAll
    exact SimA.pure fun _ hv => h.mono hv
  | x :: xs, he => by
    intro vals K s o params st st' h
    unfold visitAll Exec.visitAll
    exact (visit_sim hl ha hs x (he.imp_right fun h => h.1) o params h).bind fun vals' K' st₁ st₁' s' _ _ h' =>
      visitAll_sim hl ha hs xs (he.imp_right fun h => h.2) o params h'
end

theorem execute_sim (hl : launch = .deferred ∨ m.threads) (ha : Allows m I) (hs : Loses m ∨ SetsSucceed I)
    {xs : List XSelection} (he : Loses m ∨ EvaluateAll env xs) (o : O) (params : SetParams) :
    Sim m vals (execute I launch env o params xs) (Exec.execute I env o params xs) (Plain Eq) :=
  (resolveObject_sim hl ha hs (visitAll_sim hl ha hs xs he) o params).bind fun _ _ _ _ _ _ _ hf => hf.choose_spec.get

end Verif.Async
