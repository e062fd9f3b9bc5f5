import Verif.Life.Logic

/-!
# The functions are safe

What the functions of the model need, and what they leave behind, in the logic of ownership. `strict` is for plans in which only exceptions
derived from `std::exception` are thrown; then the paths are guaranteed too.
-/
namespace Verif.Life

/-- What is guaranteed. -/
def Granted (strict : Bool) : Use → Prop
  | .accessorPath | .callbackPath | .errorPath => strict = true
  | .callbackFragments atOnce => atOnce = true
  | .futureFragments => False
  | .accessorFragments | .accessorOperation | .callbackOperation | .futureOperation => True

/-- An exception which can be thrown. -/
def Thrown (strict : Bool) (x : Exc) : Prop := strict = true → x = .standard

/-- How a thread can end. -/
def Ends (strict : Bool) : Except Exc Unit → Prop
  | .ok _ => True
  | .error x => Thrown strict x

mutual
/-- Only exceptions derived from `std::exception` are thrown. -/
def Val.Standard : Val → Prop
  | .throws x => x = .standard
  | .null => True
  | .leaf => True
  | .some v => v.Standard
  | .object s => s.Standard
  | .list vs => valsStandard vs
def valsStandard : List Val → Prop
  | [] => True
  | v :: vs => v.Standard ∧ valsStandard vs
def SetPlan.Standard : SetPlan → Prop
  | .mk begins items ends => begins ≠ some .other ∧ itemsStandard items ∧ ends ≠ some .other
def itemsStandard : List Item → Prop
  | [] => True
  | i :: is => i.Standard ∧ itemsStandard is
def Item.Standard : Item → Prop
  | .skip => True
  | .fail => True
  | .unknown => True
  | .field access _ _ _ v => access ≠ some .other ∧ v.Standard
  | .fragment items => itemsStandard items
end

/-- What futures borrow. -/
def borrowed (strict : Bool) (op : Addr) (chain : List Addr) : Set Addr := {a | a = op ∨ (strict = true ∧ a ∈ chain)}

/-- What is borrowed is there, and what has been lent. -/
structure Has (own lent : Set Addr) (kids : Kids) (B : Set Addr) : Prop where
  borrow : B ⊆ own ∪ lent
  kids : ∀ e ∈ kids, e.2 ⊆ own ∪ lent

section
variable {strict : Bool}

abbrev SafeIn (strict : Bool) := Safe (Granted strict) (Ends strict)

theorem Has.alloc {own lent : Set Addr} {kids : Kids} {B : Set Addr} (h : Has own lent kids B) (a : Addr) :
    Has (insert a own) lent kids B where
  borrow b hb := (h.borrow hb).imp (Set.mem_insert_of_mem _) id
  kids e he b hb := (h.kids e he hb).imp (Set.mem_insert_of_mem _) id

theorem Has.more {own lent : Set Addr} {ks rest : Kids} {B : Set Addr} (h : Has own lent rest B) (hk : ∀ e ∈ ks, e.2 ⊆ B) :
    Has own lent (ks ++ rest) B where
  borrow := h.borrow
  kids e he := (List.mem_append.1 he).elim (fun he => (hk e he).trans h.borrow) (h.kids e)

theorem Has.push {own lent : Set Addr} {kids : Kids} {op a : Addr} {chain : List Addr} (h : Has own lent kids (borrowed strict op chain)) :
    Has (insert a own) lent kids (borrowed strict op (a :: chain)) where
  borrow b hb := by
    rcases hb with rfl | ⟨hs, hb⟩
    · exact (h.alloc a).borrow (.inl rfl)
    · rcases List.mem_cons.1 hb with rfl | hb
      · exact .inl (Set.mem_insert _ _)
      · exact (h.alloc a).borrow (.inr ⟨hs, hb⟩)
  kids := (h.alloc a).kids

/-- An object which nobody else knows is destroyed. -/
theorem Safe.freeFresh {own lent : Set Addr} {kids : Kids} {a : Addr} {p : Prog} (ha : a ∉ own ∪ lent)
    (hk : ∀ e ∈ kids, e.2 ⊆ own ∪ lent) (h : SafeIn strict own lent kids p) : SafeIn strict (insert a own) lent kids (.free a p) := by
  refine .free (Set.mem_insert _ _) (fun e he hae => ha (hk e he hae)) ?_
  have : insert a own \ {a} = own := by
    ext b
    simp only [Set.mem_diff, Set.mem_insert_iff, Set.mem_singleton_iff]
    constructor
    · rintro ⟨rfl | hb, hne⟩
      · exact absurd rfl hne
      · exact hb
    · intro hb
      exact ⟨.inr hb, fun h => ha (.inl (h ▸ hb))⟩
  rw [this]
  exact h

theorem safe_waitAll {own lent : Set Addr} {ks rest : Kids} {p : Prog} (h : SafeIn strict own lent rest p) :
    SafeIn strict own lent (ks ++ rest) (waitAll (ks.map (·.1)) p) := by
  induction ks with
  | nil => exact h
  | cons e ks ih => exact .join (.refl _) fun _ _ => ih

/-- A computation which borrows `B` and waits for `ks`. -/
def CompOk (strict : Bool) (B : Set Addr) (ks : Kids) (c : Comp Unit) : Prop :=
  ∀ (own lent : Set Addr) (rest : Kids) (k : Except Exc Unit → Prog), Has own lent rest B →
    (∀ r, Ends strict r → SafeIn strict own lent rest (k r)) → SafeIn strict own lent (ks ++ rest) (c k)

/-- A future which borrows `B`; its destructor waits for `ks`. -/
structure FutOk (strict : Bool) (B : Set Addr) (ks : Kids) (f : Future) : Prop where
  sets : ∀ e ∈ ks, e.2 ⊆ B
  get : CompOk strict B ks f.get
  owned : ks.map (·.1) = f.owned

inductive FutsOk (strict : Bool) (B : Set Addr) : Kids → List Future → Prop where
  | nil : FutsOk strict B [] []
  | cons {ks kss f fs} : FutOk strict B ks f → FutsOk strict B kss fs → FutsOk strict B (ks ++ kss) (f :: fs)

theorem FutsOk.sets {B : Set Addr} {ks : Kids} {fs : List Future} (h : FutsOk strict B ks fs) : ∀ e ∈ ks, e.2 ⊆ B := by
  induction h with
  | nil => simp
  | cons hf _ ih => exact fun e he => (List.mem_append.1 he).elim (hf.sets e) (ih e)

theorem FutsOk.owned {B : Set Addr} {ks : Kids} {fs : List Future} (h : FutsOk strict B ks fs) : ks.map (·.1) = ownedBy fs := by
  induction h with
  | nil => rfl
  | cons hf _ ih => simp only [List.map_append, ownedBy, List.flatMap_cons, hf.owned, ih]

theorem FutsOk.snoc {B : Set Addr} {kss ks : Kids} {fs : List Future} {f : Future} (h : FutsOk strict B kss fs) (hf : FutOk strict B ks f) :
    FutsOk strict B (kss ++ ks) (fs ++ [f]) := by
  induction h with
  | nil => simpa using FutsOk.cons hf .nil
  | cons hg _ ih => rw [List.append_assoc]; exact .cons hg ih

theorem FutsOk.wait {B own lent : Set Addr} {ks rest : Kids} {fs : List Future} {p : Prog} (h : FutsOk strict B ks fs)
    (hp : SafeIn strict own lent rest p) : SafeIn strict own lent (ks ++ rest) (waitAll (ownedBy fs) p) := by
  rw [← h.owned]; exact safe_waitAll hp

theorem futOk_ready {B : Set Addr} {r : Except Exc Unit} (h : Ends strict r) : FutOk strict B [] (.ready r) where
  sets := by simp
  get _ _ _ _ _ hk := hk r h
  owned := rfl

theorem futOk_thread {B : Set Addr} {i : Nat} : FutOk strict B [(i, B)] (.thread i) where
  sets := by simp
  get _ _ _ _ _ hk := .join (.refl _) hk
  owned := rfl

theorem futOk_deferred {B : Set Addr} {ks : Kids} {c : Comp Unit} (hs : ∀ e ∈ ks, e.2 ⊆ B) (h : CompOk strict B ks c) :
    FutOk strict B ks (.deferred c (ks.map (·.1))) where
  sets := hs
  get := h
  owned := rfl

/-- `std::async` -/
theorem safe_async {B own lent : Set Addr} {ks rest : Kids} {c : Comp Unit} {launch : Launch} {k : Except Exc Future → Prog}
    (hs : ∀ e ∈ ks, e.2 ⊆ B) (hc : CompOk strict B ks c) (hh : Has own lent rest B)
    (hk : ∀ f ks', FutOk strict B ks' f → SafeIn strict own lent (ks' ++ rest) (k (.ok f))) :
    SafeIn strict own lent (ks ++ rest) (async launch c (ks.map (·.1)) k) := by
  have hdef : SafeIn strict own lent (ks ++ rest) (k (.ok (.deferred c (ks.map (·.1))))) := hk _ _ (futOk_deferred hs hc)
  have hchild : SafeIn strict ∅ B ks (c .done) := by
    have := hc ∅ B [] .done ⟨fun a ha => .inr ha, by simp⟩ (fun r hr => .done hr)
    simpa using this
  have hfork : SafeIn strict own lent (ks ++ rest) (.fork (c .done) fun i => k (.ok (.thread i))) :=
    .fork (.refl _) hh.borrow hs hchild fun i => hk _ _ futOk_thread
  cases launch with
  | deferred => exact hdef
  | async => exact hfork
  | either =>
    refine .choose fun b => ?_
    cases b
    · exact hdef
    · exact hfork

theorem safe_ask {own lent : Set Addr} {kids : Kids} {c : Ctx} {fragments : Addr} {chain : List Addr} {source : Source} {p : Prog}
    (hh : Has own lent kids (borrowed strict c.op chain)) (hp : SafeIn strict own lent kids p) :
    SafeIn strict own lent kids (ask c fragments source p) := by
  cases source with
  | userFuture =>
    refine .use (fun h => h.elim) (.use (fun _ a ha => ?_) hp)
    cases List.mem_singleton.1 ha
    exact hh.borrow (.inl rfl)
  | value => exact hp
  | promise => exact hp

theorem compOk_collect {B : Set Addr} {ks : Kids} {fs : List Future} (h : FutsOk strict B ks fs) : CompOk strict B ks (collect fs) := by
  induction h with
  | nil => exact fun _ _ _ k _ hk => hk _ trivial
  | @cons ks kss f fs hf hfs ih =>
    intro own lent rest k hh hk
    rw [List.append_assoc]
    refine hf.get own lent _ _ (hh.more hfs.sets) fun r hr => ?_
    cases r with
    | ok _ => exact ih own lent rest k hh hk
    | error x =>
      cases x with
      | standard => exact ih own lent rest k hh hk
      | other => exact hfs.wait (hk _ hr)

theorem safe_chain {own lent : Set Addr} {kids : Kids} {op : Addr} {chain : List Addr} {u : Use} {p : Prog}
    (hu : Granted strict u → strict = true) (hh : Has own lent kids (borrowed strict op chain)) (hp : SafeIn strict own lent kids p) :
    SafeIn strict own lent kids (.use u chain p) :=
  .use (fun h a ha => hh.borrow (.inr ⟨hu h, ha⟩)) hp

theorem safe_op {own lent : Set Addr} {kids : Kids} {op : Addr} {chain : List Addr} {u : Use} {p : Prog}
    (hh : Has own lent kids (borrowed strict op chain)) (hp : SafeIn strict own lent kids p) :
    SafeIn strict own lent kids (.use u [op] p) :=
  .use (fun _ a ha => hh.borrow (.inl (List.mem_singleton.1 ha))) hp

theorem safe_gather {own lent : Set Addr} {rest : Kids} {B : Set Addr} {op : Addr} {chain : List Addr}
    {k : List Future → Option Exc → Prog} (hB : Has own lent rest (borrowed strict op chain)) (hh : Has own lent rest B)
    (hok : SafeIn strict own lent rest (k [] none))
    (hko : ∀ kss fs, strict = false → FutsOk strict B kss fs → SafeIn strict own lent (kss ++ rest) (k fs (some .other)))
    {kss : Kids} {fs : List Future} (h : FutsOk strict B kss fs) :
    SafeIn strict own lent (kss ++ rest) (gather chain fs k) := by
  induction h with
  | nil => exact hok
  | @cons ks kss f fs hf hfs ih =>
    rw [List.append_assoc]
    refine hf.get own lent _ _ (hh.more hfs.sets) fun r hr => ?_
    cases r with
    | ok _ => exact ih
    | error x =>
      cases x with
      | standard => exact safe_chain id ⟨hB.borrow, (hh.more hfs.sets).kids⟩ ih
      | other =>
        refine hko _ _ ?_ hfs
        cases strict with
        | false => rfl
        | true => exact absurd (hr rfl) (by decide)

end

end Verif.Life
