import Verif.Life.Triples

/-! # `Object::resolve` and what it calls, in the logic of ownership -/
namespace Verif.Life

/-- `convert` itself can throw, before there is a future. -/
def MayThrow (sub : Bool) (source : Source) : Ty → Prop
  | .leaf => sub = true
  | .object base => sub = false ∨ (base = true ∧ source = .value)
  | .nullable _ => False
  | .list _ => False

section
variable {strict : Bool}

theorem thrown_of_ne {x : Exc} (h : strict = true → some x ≠ some .other) : Thrown strict x := by
  intro hs
  cases x with
  | standard => rfl
  | other => exact absurd rfl (h hs)

mutual
theorem safe_resolveSet (c : Ctx) (chain : List Addr) (fragments : Addr) (atOnce : Bool) (s : SetPlan) (hs : strict = true → s.Standard)
    (own lent : Set Addr) (rest : Kids) (k : Except Exc Future → Prog) (hh : Has own lent rest (borrowed strict c.op chain))
    (hf : atOnce = true → fragments ∈ own ∪ lent)
    (hok : ∀ f ks, FutOk strict (borrowed strict c.op chain) ks f → SafeIn strict own lent (ks ++ rest) (k (.ok f)))
    (herr : ∀ x, Thrown strict x → SafeIn strict own lent rest (k (.error x))) :
    SafeIn strict own lent rest (resolveSet c chain fragments atOnce s k) := by
  match s, hs with
  | .mk begins items ends, hs =>
    rw [resolveSet]
    refine .alloc fun frame hframe => ?_
    have callbacks : ∀ (kids : Kids) (p : Prog), (∀ e ∈ kids, e.2 ⊆ own ∪ lent) → SafeIn strict (insert frame own) lent kids p →
        SafeIn strict (insert frame own) lent kids (.use .callbackPath chain <| .use (.callbackFragments atOnce) [fragments] <|
          .use .callbackOperation [c.op] p) := by
      intro kids p hk hp
      have hh' : Has (insert frame own) lent kids (borrowed strict c.op chain) := Has.alloc ⟨hh.borrow, hk⟩ frame
      refine safe_chain id hh' (.use (fun hg a ha => ?_) (safe_op hh' hp))
      cases List.mem_singleton.1 ha
      exact (hf hg).imp (Set.mem_insert_of_mem _) id
    refine callbacks rest _ hh.kids ?_
    cases begins with
    | some x => exact .freeFresh hframe hh.kids (herr x (thrown_of_ne fun h => (hs h).1))
    | none =>
      refine safe_visitItems c chain frame items (fun h => (hs h).2.1) _ _ rest _ (hh.alloc frame) (.inl (Set.mem_insert _ _)) [] []
        .nil fun values kss hv r hr => ?_
      cases r with
      | some x => exact hv.wait (.freeFresh hframe hh.kids (herr x (hr x rfl)))
      | none =>
        have hkids := (hh.more hv.sets).kids
        refine callbacks _ _ hkids ?_
        cases ends with
        | some x => exact hv.wait (.freeFresh hframe hh.kids (herr x (thrown_of_ne fun h => (hs h).2.2)))
        | none =>
          have := safe_async (launch := c.launch) (k := fun f => .free frame (k f)) hv.sets (compOk_collect hv) (hh.alloc frame)
            (fun f ks hf => .freeFresh hframe (hh.more hf.sets).kids (hok f ks hf))
          rwa [hv.owned] at this

theorem safe_visitItems (c : Ctx) (chain : List Addr) (frame : Addr) (items : List Item) (hs : strict = true → itemsStandard items)
    (own lent : Set Addr) (rest : Kids) (k : List Future → Option Exc → Prog) (hh : Has own lent rest (borrowed strict c.op chain))
    (hf : frame ∈ own ∪ lent) (values : List Future) (kss : Kids) (hv : FutsOk strict (borrowed strict c.op chain) kss values)
    (hk : ∀ values kss, FutsOk strict (borrowed strict c.op chain) kss values → ∀ r, (∀ x, r = some x → Thrown strict x) →
      SafeIn strict own lent (kss ++ rest) (k values r)) :
    SafeIn strict own lent (kss ++ rest) (visitItems c chain frame items values k) := by
  match items, hs with
  | [], _ => rw [visitItems]; exact hk _ _ hv none (by simp)
  | item :: items, hs =>
    rw [visitItems]
    refine safe_visitItem c chain frame item (fun h => (hs h).1) own lent rest _ hh hf values kss hv fun values kss hv r hr => ?_
    cases r with
    | some x => exact hk _ _ hv _ hr
    | none => exact safe_visitItems c chain frame items (fun h => (hs h).2) own lent rest k hh hf values kss hv hk

theorem safe_visitItem (c : Ctx) (chain : List Addr) (frame : Addr) (item : Item) (hs : strict = true → item.Standard)
    (own lent : Set Addr) (rest : Kids) (k : List Future → Option Exc → Prog) (hh : Has own lent rest (borrowed strict c.op chain))
    (hf : frame ∈ own ∪ lent) (values : List Future) (kss : Kids) (hv : FutsOk strict (borrowed strict c.op chain) kss values)
    (hk : ∀ values kss, FutsOk strict (borrowed strict c.op chain) kss values → ∀ r, (∀ x, r = some x → Thrown strict x) →
      SafeIn strict own lent (kss ++ rest) (k values r)) :
    SafeIn strict own lent (kss ++ rest) (visitItem c chain frame item values k) := by
  have hstd : Ends strict (.error .standard) := fun _ => rfl
  match item, hs with
  | .skip, _ => rw [visitItem]; exact hk _ _ hv none (by simp)
  | .fail, _ =>
    rw [visitItem]
    exact safe_chain id (hh.more hv.sets) (hk _ _ hv (some .standard) (by rintro x h; cases h; exact fun _ => rfl))
  | .unknown, _ =>
    rw [visitItem]
    refine safe_chain id (hh.more hv.sets) ?_
    have := hk _ _ (hv.snoc (futOk_ready hstd)) none (by simp)
    simpa using this
  | .fragment items, hs =>
    rw [visitItem]
    refine .alloc fun frame' hframe => ?_
    refine safe_visitItems c chain frame' items hs _ _ rest _ (hh.alloc frame') (.inl (Set.mem_insert _ _)) values kss hv
      fun values kss hv r hr => ?_
    exact .freeFresh hframe (hh.more hv.sets).kids (hk _ _ hv r hr)
  | .field access future sub type v, hs =>
    rw [visitItem]
    refine .alloc fun path hpath => ?_
    have hp : Has (insert path own) lent (kss ++ rest) (borrowed strict c.op (path :: chain)) := (hh.more hv.sets).push
    have hend : SafeIn strict (insert path own) lent (kss ++ rest)
        (.use .errorPath (path :: chain) (.free path (k (values ++ [.ready (.error .standard)]) none))) := by
      refine safe_chain id hp (.freeFresh hpath (hh.more hv.sets).kids ?_)
      have := hk _ _ (hv.snoc (futOk_ready hstd)) none (by simp)
      simpa using this
    have hother : Thrown strict .other → SafeIn strict (insert path own) lent (kss ++ rest) (.free path (k values (some .other))) :=
      fun ht => .freeFresh hpath (hh.more hv.sets).kids (hk _ _ hv _ (by rintro x h; cases h; exact ht))
    refine safe_chain id hp (.use (fun _ a ha => ?_) (safe_op hp ?_))
    · cases List.mem_singleton.1 ha
      exact hf.imp (Set.mem_insert_of_mem _) id
    · cases access with
      | some x =>
        cases x with
        | standard => exact hend
        | other => exact hother (thrown_of_ne fun h => (hs h).1)
      | none =>
        refine safe_convert c chain frame true (if future then .userFuture else .value) sub type v (fun h => (hs h).2) (insert path own)
          lent (kss ++ rest) _ ((hh.more hv.sets).alloc path) (fun _ => hf.imp (Set.mem_insert_of_mem _) id) (fun f ks hfut _ => ?_)
          fun x _ hx => ?_
        · have hv' := hv.snoc hfut
          have := hk _ _ hv' none (by simp)
          refine .freeFresh hpath ?_ (Safe.perm this ?_)
          · exact ((hh.more hv.sets).more hfut.sets).kids
          · rw [← List.append_assoc]
            exact List.Perm.append_right _ List.perm_append_comm
        · cases x with
          | standard => exact hend
          | other => exact hother hx

theorem safe_convert (c : Ctx) (parents : List Addr) (fragments : Addr) (visiting : Bool) (source : Source) (sub : Bool) (t : Ty) (v : Val)
    (hs : strict = true → v.Standard) (own lent : Set Addr) (rest : Kids) (k : Except Exc Future → Prog)
    (hh : Has own lent rest (borrowed strict c.op parents)) (hf : visiting = true → fragments ∈ own ∪ lent)
    (hok : ∀ f ks, FutOk strict (borrowed strict c.op parents) ks f → (MayThrow sub source t → ks = []) →
      SafeIn strict own lent (ks ++ rest) (k (.ok f)))
    (herr : ∀ x, MayThrow sub source t → Thrown strict x → SafeIn strict own lent rest (k (.error x))) :
    SafeIn strict own lent rest (convert c parents fragments visiting source sub t v k) := by
  have hthrown : ∀ x, v = .throws x → Thrown strict x := by
    rintro x rfl h
    exact hs h
  match t with
  | .leaf =>
    rw [convert]
    cases sub with
    | true => exact safe_chain id hh (herr _ rfl fun _ => rfl)
    | false =>
      simp only [Bool.false_eq_true, if_false]
      have hrun : CompOk strict (borrowed strict c.op parents) [] (fun k => ask c fragments source <|
          match (generalizing := false) v with
          | .throws .standard => .alloc fun path => .use .errorPath (path :: parents) (.free path (k (.ok ())))
          | .throws .other => .abort
          | _ => k (.ok ())) := by
        intro own lent rest k hh hk
        refine safe_ask hh ?_
        split
        · exact .alloc fun path hpath => safe_chain id hh.push (.freeFresh hpath hh.kids (hk _ trivial))
        · exact .abort
        · exact hk _ trivial
      split
      · exact hrun own lent rest _ hh fun _ _ => hok _ [] (futOk_ready (r := .ok ()) trivial) fun _ => rfl
      · exact safe_async (ks := []) (by simp) hrun hh fun f ks hf => hok f ks hf fun h => absurd h (by simp [MayThrow])
  | .object base =>
    rw [convert]
    cases sub with
    | false =>
      simp only [if_true]
      exact safe_chain id hh (herr _ (.inl rfl) fun _ => rfl)
    | true =>
      simp only [Bool.true_eq_false, if_false]
      have hrun : ∀ (own lent : Set Addr) (rest : Kids) (k : Except Exc Unit → Prog), Has own lent rest (borrowed strict c.op parents) →
          ((base && decide (source = .value) && visiting) = true → fragments ∈ own ∪ lent) →
          (∀ r, Ends strict r → SafeIn strict own lent rest (k r)) →
          SafeIn strict own lent rest (.alloc fun path => ask c fragments source <|
            match (generalizing := false) v with
            | .throws x => .free path (k (.error x))
            | .object s => resolveSet c (path :: parents) fragments (base && decide (source = .value) && visiting) s fun
              | .ok f => f.get fun r => .free path (k r)
              | .error x => .free path (k (.error x))
            | _ => .free path (k (.ok ()))) := by
        intro own lent rest k hh hfr hk
        refine .alloc fun path hpath => safe_ask hh.push ?_
        match v, hs, hthrown with
        | .throws x, _, hthrown => exact .freeFresh hpath hh.kids (hk _ (hthrown x rfl))
        | .object s, hs, _ =>
          refine safe_resolveSet c (path :: parents) fragments _ s hs (insert path own) lent rest _ hh.push
            (fun h => (hfr h).imp (Set.mem_insert_of_mem _) id) (fun f ks hfut => ?_)
            fun x hx => .freeFresh hpath hh.kids (hk _ hx)
          exact hfut.get _ _ _ _ hh.push fun r hr => .freeFresh hpath hh.kids (hk r hr)
        | .null, _, _ => exact .freeFresh hpath hh.kids (hk _ trivial)
        | .leaf, _, _ => exact .freeFresh hpath hh.kids (hk _ trivial)
        | .some _, _, _ => exact .freeFresh hpath hh.kids (hk _ trivial)
        | .list _, _, _ => exact .freeFresh hpath hh.kids (hk _ trivial)
      split
      · rename_i hnow
        have hnow' : base = true ∧ source = .value := by simpa using hnow
        refine hrun own lent rest (fun
          | .ok _ => k (.ok (.ready (.ok ())))
          | .error x => k (.error x)) hh (fun h => hf (by simp at h; exact h.2)) fun r hr => ?_
        cases r with
        | ok _ => exact hok _ [] (futOk_ready (r := .ok ()) trivial) fun _ => rfl
        | error x => exact herr x (.inr hnow') hr
      · rename_i hnow
        have hnow' : ¬(base = true ∧ source = .value) := by simpa using hnow
        refine safe_async (ks := []) (by simp) (fun own lent rest k hh hk => ?_) hh fun f ks hf => hok f ks hf fun h => ?_
        · exact hrun own lent rest k hh (fun h => absurd ((Bool.and_eq_true _ _).mp h).1 hnow) hk
        · exact absurd h (by simpa [MayThrow] using hnow')
  | .nullable t =>
    rw [convert]
    refine safe_async (ks := []) (by simp) (fun own lent rest k hh hk => ?_) hh fun f ks hf => hok f ks hf fun h => h.elim
    refine .alloc fun path hpath => safe_ask (hh.alloc path) ?_
    match v, hs, hthrown with
    | .throws x, _, hthrown => exact .freeFresh hpath hh.kids (hk _ (hthrown x rfl))
    | .some v, hs, _ =>
      refine safe_convert c parents fragments false .promise sub t v hs (insert path own) lent rest _ (hh.alloc path) (by simp)
        (fun f ks hfut _ => ?_) fun x _ hx => .freeFresh hpath hh.kids (hk _ hx)
      exact hfut.get _ _ _ _ (hh.alloc path) fun r hr => .freeFresh hpath hh.kids (hk r hr)
    | .null, _, _ => exact .freeFresh hpath hh.kids (hk _ trivial)
    | .leaf, _, _ => exact .freeFresh hpath hh.kids (hk _ trivial)
    | .object _, _, _ => exact .freeFresh hpath hh.kids (hk _ trivial)
    | .list _, _, _ => exact .freeFresh hpath hh.kids (hk _ trivial)
  | .list t =>
    rw [convert]
    refine safe_async (ks := []) (by simp) (fun own lent rest k hh hk => ?_) hh fun f ks hf => hok f ks hf fun h => h.elim
    refine .alloc fun path hpath => safe_ask (hh.alloc path) ?_
    match v, hs, hthrown with
    | .throws x, _, hthrown => exact .freeFresh hpath hh.kids (hk _ (hthrown x rfl))
    | .list vs, hs, _ =>
      refine .alloc fun parentPath hparent => ?_
      have hh1 := hh.alloc path
      refine safe_convertAll c (parentPath :: parents) fragments sub t vs hs _ lent rest _ hh1.push [] [] .nil (fun _ => rfl)
        (fun children kss hc => ?_) fun children hc x hx => ?_
      · have hchain : Has (insert parentPath (insert path own)) lent rest (borrowed strict c.op (path :: parentPath :: parents)) := by
          refine ⟨?_, hh1.push (strict := strict) |>.kids⟩
          rintro b (rfl | ⟨h, hb⟩)
          · exact (hh1.push (a := parentPath)).borrow (.inl rfl)
          · rcases List.mem_cons.1 hb with rfl | hb
            · exact .inl (Set.mem_insert_of_mem _ (Set.mem_insert _ _))
            · exact (hh1.push (a := parentPath)).borrow (.inr ⟨h, hb⟩)
        refine safe_gather hchain hh1.push ?_ (fun kss fs hw hfs => ?_) hc
        · exact .freeFresh hparent hh1.kids (.freeFresh hpath hh.kids (hk _ trivial))
        · have hsub : ∀ e ∈ kss, e.2 ⊆ borrowed strict c.op parents := by
            intro e he a ha
            rcases hfs.sets e he ha with h | ⟨h, _⟩
            · exact .inl h
            · rw [hw] at h; cases h
          exact .freeFresh hparent (hh1.more hsub).kids (hfs.wait (.freeFresh hpath hh.kids (hk _ fun h => by rw [hw] at h; cases h)))
      · exact .freeFresh hparent hh1.kids (hc.wait (ks := []) (.freeFresh hpath hh.kids (hk _ hx)))
    | .null, _, _ => exact .freeFresh hpath hh.kids (hk _ trivial)
    | .leaf, _, _ => exact .freeFresh hpath hh.kids (hk _ trivial)
    | .some _, _, _ => exact .freeFresh hpath hh.kids (hk _ trivial)
    | .object _, _, _ => exact .freeFresh hpath hh.kids (hk _ trivial)

theorem safe_convertAll (c : Ctx) (parents : List Addr) (fragments : Addr) (sub : Bool) (t : Ty) (vs : List Val)
    (hs : strict = true → valsStandard vs) (own lent : Set Addr) (rest : Kids) (k : List Future → Option Exc → Prog)
    (hh : Has own lent rest (borrowed strict c.op parents)) (children : List Future) (kss : Kids)
    (hc : FutsOk strict (borrowed strict c.op parents) kss children) (hm : MayThrow sub .value t → kss = [])
    (hok : ∀ children kss, FutsOk strict (borrowed strict c.op parents) kss children → SafeIn strict own lent (kss ++ rest) (k children none))
    (herr : ∀ children, FutsOk strict (borrowed strict c.op parents) [] children → ∀ x, Thrown strict x →
      SafeIn strict own lent rest (k children (some x))) :
    SafeIn strict own lent (kss ++ rest) (convertAll c parents fragments sub t vs children k) := by
  match vs, hs with
  | [], _ => rw [convertAll]; exact hok _ _ hc
  | v :: vs, hs =>
    rw [convertAll]
    refine safe_convert c parents fragments false .value sub t v (fun h => (hs h).1) own lent (kss ++ rest) _ (hh.more hc.sets) (by simp)
      (fun f ks hf hmf => ?_) fun x hx ht => ?_
    · have := safe_convertAll c parents fragments sub t vs (fun h => (hs h).2) own lent rest k hh (children ++ [f]) (kss ++ ks) (hc.snoc hf)
        (fun h => by rw [hm h, hmf h]; rfl) hok herr
      refine Safe.perm this ?_
      rw [← List.append_assoc]
      exact List.Perm.append_right _ List.perm_append_comm
    · have hnil := hm hx
      subst hnil
      exact herr _ hc x ht
end

/-- The function for the operation. -/
theorem compOk_runOperation (launch : Launch) (s : SetPlan) (hs : strict = true → s.Standard) :
    CompOk strict ∅ [] (runOperation launch s) := by
  intro own lent rest k hh hk
  refine .alloc fun op hop => .alloc fun empty hempty => ?_
  have h0 : Has (insert empty (insert op own)) lent rest (borrowed strict op []) :=
    ⟨fun a ha => ha.elim (fun h => .inl (Set.mem_insert_of_mem _ (h ▸ Set.mem_insert _ _))) (fun h => absurd h.2 (by simp)),
      ((hh.alloc op).alloc empty).kids⟩
  have hend : ∀ r, Ends strict r → SafeIn strict (insert empty (insert op own)) lent rest (.free empty (.free op (k r))) := fun r hr =>
    .freeFresh hempty (hh.alloc op).kids (.freeFresh hop hh.kids (hk r hr))
  refine safe_resolveSet { launch := launch, op := op } [] empty true s hs _ lent rest _ h0 (fun _ => .inl (Set.mem_insert _ _))
    (fun f ks hf => hf.get _ _ _ _ h0 fun r hr => hend r hr) fun x hx => hend _ hx

/-- The whole request. -/
theorem safe_runRequest (launch : Launch) (s : SetPlan) (hs : strict = true → s.Standard) :
    SafeIn strict ∅ ∅ [] (runRequest launch s) := by
  have h0 : Has ∅ ∅ [] ∅ := ⟨by simp, by simp⟩
  have := safe_async (own := ∅) (lent := ∅) (ks := []) (rest := []) (launch := launch) (k := fun
    | .ok f => async launch f.get f.owned fun
      | .ok document => document.get .done
      | .error x => .done (.error x)
    | .error x => .done (.error x)) (by simp) (compOk_runOperation (strict := strict) launch s hs) h0
    (fun f ks hf => by
      have := safe_async (own := ∅) (lent := ∅) (rest := []) (launch := launch) (k := fun
        | .ok document => document.get .done
        | .error x => .done (.error x)) hf.sets hf.get h0 (fun d ks' hd => hd.get _ _ [] _ h0 fun r hr => .done hr)
      rwa [hf.owned] at this)
  exact this

/-! ## Delivering events -/

theorem CompOk.mono {B B' : Set Addr} {ks : Kids} {c : Comp Unit} (h : CompOk strict B ks c) (hB : B ⊆ B') : CompOk strict B' ks c :=
  fun own lent rest k hh hk => h own lent rest k ⟨hB.trans hh.borrow, hh.kids⟩ hk

theorem FutOk.mono {B B' : Set Addr} {ks : Kids} {f : Future} (h : FutOk strict B ks f) (hB : B ⊆ B') : FutOk strict B' ks f where
  sets e he := (h.sets e he).trans hB
  get := h.get.mono hB
  owned := h.owned

theorem ends_result {x : Option Exc} (h : strict = true → x ≠ some .other) : Ends strict (result x) := by
  cases x with
  | none => trivial
  | some x => exact thrown_of_ne h

theorem compOk_react {B : Set Addr} {ks : Kids} {l : Listener} {document : Future} (hl : strict = true → l.ends ≠ some .other)
    (hf : FutOk strict B ks document) : CompOk strict B ks (react l document) := by
  intro own lent rest k hh hk
  unfold react
  split
  · refine hf.get own lent rest _ hh fun r hr => .choose fun b => ?_
    cases b
    · exact hk r hr
    · exact hk _ (ends_result hl)
  · rw [← hf.owned]
    exact safe_waitAll (hk _ (ends_result hl))

theorem compOk_waitCallbacks {B : Set Addr} {ks : Kids} {fs : List Future} (h : FutsOk strict B ks fs) :
    CompOk strict B ks (waitCallbacks fs) := by
  induction h with
  | nil => exact fun _ _ _ k _ hk => hk _ trivial
  | @cons ks kss f fs hf hfs ih =>
    intro own lent rest k hh hk
    rw [List.append_assoc]
    refine hf.get own lent _ _ (hh.more hfs.sets) fun r hr => ?_
    cases r with
    | ok _ => exact ih own lent rest k hh hk
    | error x => exact hfs.wait (hk _ hr)

/-- The callbacks and what the accessors throw is derived from `std::exception`. -/
def Listener.Standard (l : Listener) : Prop := l.plan.Standard ∧ l.ends ≠ some .other

theorem safe_deliverAll (launch : Launch) (B own lent : Set Addr) (rest : Kids) (k : List Future → Option Exc → Prog)
    (hh : Has own lent rest B)
    (hk : ∀ callbacks kss, FutsOk strict B kss callbacks → ∀ r, (∀ x, r = some x → Thrown strict x) →
      SafeIn strict own lent (kss ++ rest) (k callbacks r))
    (ls : List (Addr × Listener)) (hB : ∀ l ∈ ls, l.1 ∈ B) (hs : strict = true → ∀ l ∈ ls, l.2.Standard)
    (callbacks : List Future) (kss : Kids) (hc : FutsOk strict B kss callbacks) :
    SafeIn strict own lent (kss ++ rest) (deliverAll launch ls callbacks k) := by
  induction ls generalizing callbacks kss with
  | nil => exact hk _ _ hc none (by simp)
  | cons l ls ih =>
    obtain ⟨op, l⟩ := l
    rw [deliverAll]
    refine .alloc fun empty hempty => ?_
    have hop : borrowed strict op [] ⊆ B := by
      rintro a (rfl | ⟨_, h⟩)
      · exact hB _ List.mem_cons_self
      · cases h
    have hhc := hh.more hc.sets
    have hstop : ∀ x, Thrown strict x → SafeIn strict (insert empty own) lent (kss ++ rest) (.free empty (k callbacks (some x))) :=
      fun x hx => .freeFresh hempty hhc.kids (hk _ _ hc _ (by rintro y h; cases h; exact hx))
    have hlast : ∀ (document : Future) (ks : Kids), FutOk strict B ks document →
        SafeIn strict (insert empty own) lent (ks ++ (kss ++ rest)) (async launch (react l document) document.owned fun
          | .ok f => .free empty (deliverAll launch ls (callbacks ++ [f]) k)
          | .error x => .free empty (k callbacks (some x))) := by
      intro document ks hd
      rw [← hd.owned]
      refine safe_async hd.sets (compOk_react (fun h => (hs h _ List.mem_cons_self).2) hd) (hhc.alloc empty) fun f ks' hf => ?_
      refine .freeFresh hempty (hhc.more hf.sets).kids ?_
      have := ih (fun l hl => hB l (List.mem_cons_of_mem _ hl)) (fun h l hl => hs h l (List.mem_cons_of_mem _ hl)) _ _ (hc.snoc hf)
      refine Safe.perm this ?_
      rw [← List.append_assoc]
      exact List.Perm.append_right _ List.perm_append_comm
    have hhe := hhc.alloc empty
    refine safe_resolveSet { launch := launch, op := op } [] empty true l.plan (fun h => (hs h _ List.mem_cons_self).1) _ lent _ _
      ⟨hop.trans hhe.borrow, hhe.kids⟩ (fun _ => .inl (Set.mem_insert _ _)) (fun f ks hf => ?_) fun x hx => ?_
    · have hf' := hf.mono hop
      have := safe_async (launch := launch) (k := fun
        | .ok document => async launch (react l document) document.owned fun
          | .ok f => .free empty (deliverAll launch ls (callbacks ++ [f]) k)
          | .error x => .free empty (k callbacks (some x))
        | .error x => .free empty (k callbacks (some x))) hf'.sets hf'.get hhe fun d ks' hd => hlast d ks' hd
      rwa [hf'.owned] at this
    · cases x with
      | standard =>
        refine .choose fun b => ?_
        cases b
        · exact hstop _ hx
        · exact hlast _ [] (futOk_ready (r := .ok ()) trivial)
      | other => exact hstop _ hx

theorem compOk_deliver (launch : Launch) (B : Set Addr) (ls : List (Addr × Listener)) (hB : ∀ l ∈ ls, l.1 ∈ B)
    (hs : strict = true → ∀ l ∈ ls, l.2.Standard) : CompOk strict B [] (deliver launch ls) := by
  intro own lent rest k hh hk
  refine safe_deliverAll launch B own lent rest _ hh (fun callbacks kss hc r hr => ?_) ls hB hs [] [] .nil
  cases r with
  | some x => exact hc.wait (hk _ (hr x rfl))
  | none => exact compOk_waitCallbacks hc own lent rest k hh hk

theorem safe_withSubscriptions (c : List (Addr × Listener) → Comp Unit) (P : Listener → Prop)
    (hc : ∀ (B : Set Addr) ls, (∀ l ∈ ls, l.1 ∈ B) → (∀ l ∈ ls, P l.2) → CompOk strict B [] (c ls))
    (ls : List Listener) (hls : ∀ l ∈ ls, P l) (subscribed : List (Addr × Listener)) (hsub : ∀ l ∈ subscribed, P l.2)
    (own lent : Set Addr) (rest : Kids) (hown : ∀ l ∈ subscribed, l.1 ∈ own) (hrest : ∀ e ∈ rest, e.2 ⊆ own ∪ lent)
    (k : Except Exc Unit → Prog) (hk : ∀ r, Ends strict r → SafeIn strict own lent rest (k r)) :
    SafeIn strict own lent rest (withSubscriptions c ls subscribed k) := by
  induction ls generalizing subscribed own k with
  | nil => exact hc own subscribed hown hsub own lent rest k ⟨fun a ha => .inl ha, hrest⟩ hk
  | cons l ls ih =>
    refine .alloc fun op hop => ?_
    refine ih (fun l hl => hls l (List.mem_cons_of_mem _ hl)) _ ?_ _ ?_ ?_ _ fun r hr => .freeFresh hop hrest (hk r hr)
    · intro x hx
      rcases List.mem_append.1 hx with hx | hx
      · exact hsub x hx
      · cases List.mem_singleton.1 hx
        exact hls l List.mem_cons_self
    · intro x hx
      rcases List.mem_append.1 hx with hx | hx
      · exact Set.mem_insert_of_mem _ (hown x hx)
      · cases List.mem_singleton.1 hx
        exact Set.mem_insert _ _
    · exact fun e he a ha => (hrest e he ha).imp (Set.mem_insert_of_mem _) id

theorem safe_runDeliver (launch : Launch) (ls : List Listener) (hs : strict = true → ∀ l ∈ ls, l.Standard) :
    SafeIn strict ∅ ∅ [] (runDeliver launch ls) :=
  safe_withSubscriptions _ (fun l => strict = true → l.Standard) (fun B ls hB h => compOk_deliver launch B ls hB fun hs l hl => h l hl hs) ls
    (fun l hl h => hs h l hl) [] (by simp) ∅ ∅ [] (by simp) (by simp) _ fun _ hr => .done hr

end

end Verif.Life
