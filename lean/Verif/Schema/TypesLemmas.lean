import Verif.Schema.TypesSpec
import Verif.SortedMap.Lemmas
import Verif.SortedMap.Props
import Mathlib.Data.List.Basic

/-! # The contents of a schema follow from its history -/
namespace Verif.TypeSystem
open Verif.Value Verif.Errors Verif.SortedMap Verif.SortedMap.Spec Verif.TypeSystem.Spec

/-! ## Names -/

theorem nameCmp_strictWeak : StrictWeak nameCmp where
  irrefl a := shorterOrLess_strictWeak.irrefl _
  trans a b c := shorterOrLess_strictWeak.trans _ _ _
  incomp a b c := shorterOrLess_strictWeak.incomp _ _ _

theorem ofBitVec_inj : Function.Injective UInt8.ofBitVec := by
  intro a b h
  simpa using congrArg UInt8.toBitVec h

theorem same_name (a b : Str) : same nameCmp a b = true ↔ a = b := by
  constructor
  · intro h
    simp only [same, nameCmp, Bool.and_eq_true, Bool.not_eq_true'] at h
    by_cases e : a.map UInt8.ofBitVec = b.map UInt8.ofBitVec
    · exact (List.map_injective_iff.2 ofBitVec_inj) e
    · rcases (C10_shorter_or_less_strict_total _ _ []).2.2.1 e with h' | h' <;> simp_all
  · rintro rfl; exact same_refl nameCmp_strictWeak a

/-! ## Histories -/

theorem last_snoc {β : Type} (f : Op → Option β) (ops : List Op) (op : Op) :
    last f (ops ++ [op]) = (f op).or (last f ops) := by
  simp only [last, List.filterMap_append]
  cases h : f op <;> simp [h]

theorem added_snoc (ops : List Op) (op : Op) : added (ops ++ [op]) = added ops ++ added [op] := by
  simp [added]

theorem implementers_snoc (ops : List Op) (op : Op) (i : Addr) :
    implementers (ops ++ [op]) i = implementers ops i ++ implementers [op] i := by
  simp [implementers]

/-! ## `AddInterfaces` -/

/-- What `AddInterfaces` does to a type which occurs `n` times among the interfaces. -/
def addMany (a : Addr) : Nat → BaseType → BaseType
  | 0, t => t
  | n + 1, t => addMany a n (t.addPossibleType a)

theorem foldl_modify (a : Addr) (is : List Addr) (s : Schema) :
    is.foldl (fun s i => s.modify i (·.addPossibleType a)) s =
      { s with store := fun b => (s.store b).map (addMany a (is.filter (· = b)).length) } := by
  induction is generalizing s with
  | nil =>
    have : ∀ t : Option BaseType, t.map (addMany a 0) = t := by intro t; cases t <;> rfl
    simp [this]
  | cons i is ih =>
    simp only [List.foldl_cons, ih]
    simp only [Schema.modify, Schema.mk.injEq, and_true]
    funext b
    by_cases e : b = i
    · subst e
      simp only [Function.update_self, Option.map_map]
      simp only [List.filter_cons, decide_true, if_true, List.length_cons]
      rfl
    · have : ¬ i = b := fun h => e h.symm
      simp [Function.update_of_ne e, this]

theorem addInterfaces_eq (a : Addr) (is : List Addr) (s : Schema) :
    s.addInterfaces a is =
      { s with
        store := fun b => Option.map (addMany a (is.filter (· = b)).length)
          (Function.update s.store a ((s.store a).map (·.setInterfaces is)) b) } := by
  rw [Schema.addInterfaces, foldl_modify]; rfl

theorem addMany_interface (a : Addr) (n : Nat) (nm d : Str) (fs : List Field) (ps : List Addr) :
    addMany a n (.interface nm d fs ps) = .interface nm d fs (ps ++ List.replicate n a) := by
  induction n generalizing ps with
  | zero => simp [addMany]
  | succ n ih => simp [addMany, BaseType.addPossibleType, ih, List.replicate_succ]

theorem addMany_other (a : Addr) (n : Nat) (t : BaseType) (h : t.kind ≠ .interface ∨ n = 0) : addMany a n t = t := by
  rcases h with h | rfl
  · induction n with
    | zero => rfl
    | succ n ih =>
      have : t.addPossibleType a = t := by cases t <;> first | rfl | exact absurd rfl h
      simp [addMany, this, ih]
  · rfl

/-! ## The invariant -/

/-- The type at address `a` is as the history says. -/
structure Agrees (ops : List Op) (a : Addr) (t : BaseType) : Prop where
  fields : t.fields = Spec.fields ops a
  interfaces : t.interfaces = Spec.interfaces ops a
  interfacePossible : t.kind = .interface → t.possibleTypes = implementers ops a
  unionPossible : t.kind = .union → t.possibleTypes = unionTypes ops a
  enumValues : t.enumValues = Spec.enumValues ops a
  inputFields : t.inputFields = Spec.inputFields ops a

/-- No call has mentioned address `a`. -/
structure Unused (ops : List Op) (a : Addr) : Prop where
  fields : Spec.fields ops a = []
  interfaces : Spec.interfaces ops a = []
  implementers : implementers ops a = []
  unionTypes : unionTypes ops a = []
  enumValues : Spec.enumValues ops a = []
  inputFields : Spec.inputFields ops a = []


/-- The spec functions after one more call. -/
theorem spec_snoc (ops : List Op) (op : Op) (a : Addr) :
    Spec.fields (ops ++ [op]) a = (match op with
      | .addFields b fs => if b = a then fs else Spec.fields ops a
      | _ => Spec.fields ops a) ∧
    Spec.interfaces (ops ++ [op]) a = (match op with
      | .addInterfaces b is => if b = a then is else Spec.interfaces ops a
      | _ => Spec.interfaces ops a) ∧
    implementers (ops ++ [op]) a = (match op with
      | .addInterfaces b is => implementers ops a ++ List.replicate (is.filter (· = a)).length b
      | _ => implementers ops a) ∧
    unionTypes (ops ++ [op]) a = (match op with
      | .addPossibleTypes b ps => if b = a then ps else unionTypes ops a
      | _ => unionTypes ops a) ∧
    Spec.enumValues (ops ++ [op]) a = (match op with
      | .addEnumValues b vs => if b = a then vs else Spec.enumValues ops a
      | _ => Spec.enumValues ops a) ∧
    Spec.inputFields (ops ++ [op]) a = (match op with
      | .addInputValues b vs => if b = a then vs else Spec.inputFields ops a
      | _ => Spec.inputFields ops a) := by
  refine ⟨?_, ?_, ?_, ?_, ?_, ?_⟩
  · simp only [Spec.fields, last_snoc]; cases op <;> simp only [Option.none_or]; split <;> simp
  · simp only [Spec.interfaces, last_snoc]; cases op <;> simp only [Option.none_or]; split <;> simp
  · rw [implementers_snoc]; cases op <;> simp [implementers]
  · simp only [unionTypes, last_snoc]; cases op <;> simp only [Option.none_or]; split <;> simp
  · simp only [Spec.enumValues, last_snoc]; cases op <;> simp only [Option.none_or]; split <;> simp
  · simp only [Spec.inputFields, last_snoc]; cases op <;> simp only [Option.none_or]; split <;> simp

theorem Agrees.congr {ops : List Op} {op : Op} {a : Addr} {t : BaseType} (h : Agrees ops a t)
    (e : Spec.fields (ops ++ [op]) a = Spec.fields ops a ∧ Spec.interfaces (ops ++ [op]) a = Spec.interfaces ops a ∧
      implementers (ops ++ [op]) a = implementers ops a ∧ unionTypes (ops ++ [op]) a = unionTypes ops a ∧
      Spec.enumValues (ops ++ [op]) a = Spec.enumValues ops a ∧
      Spec.inputFields (ops ++ [op]) a = Spec.inputFields ops a) : Agrees (ops ++ [op]) a t := by
  obtain ⟨e1, e2, e3, e4, e5, e6⟩ := e
  constructor
  · rw [e1]; exact h.fields
  · rw [e2]; exact h.interfaces
  · rw [e3]; exact h.interfacePossible
  · rw [e4]; exact h.unionPossible
  · rw [e5]; exact h.enumValues
  · rw [e6]; exact h.inputFields

theorem Unused.congr {ops : List Op} {op : Op} {a : Addr} (h : Unused ops a)
    (e : Spec.fields (ops ++ [op]) a = Spec.fields ops a ∧ Spec.interfaces (ops ++ [op]) a = Spec.interfaces ops a ∧
      Spec.implementers (ops ++ [op]) a  = Spec.implementers ops a ∧ Spec.unionTypes (ops ++ [op]) a = Spec.unionTypes ops a ∧
      Spec.enumValues (ops ++ [op]) a = Spec.enumValues ops a ∧
      Spec.inputFields (ops ++ [op]) a = Spec.inputFields ops a) : Unused (ops ++ [op]) a := by
  obtain ⟨e1, e2, e3, e4, e5, e6⟩ := e
  constructor
  · rw [e1]; exact h.fields
  · rw [e2]; exact h.interfaces
  · rw [e3]; exact h.implementers
  · rw [e4]; exact h.unionTypes
  · rw [e5]; exact h.enumValues
  · rw [e6]; exact h.inputFields

/-- A type without members agrees with a history which does not mention it. -/
theorem Unused.agrees {ops : List Op} {a : Addr} {t : BaseType} (h : Unused ops a) (h1 : t.fields = [])
    (h2 : t.interfaces = []) (h3 : t.possibleTypes = []) (h4 : t.enumValues = []) (h5 : t.inputFields = []) :
    Agrees ops a t := by
  constructor
  · rw [h1, h.fields]
  · rw [h2, h.interfaces]
  · intro _; rw [h3, h.implementers]
  · intro _; rw [h3, h.unionTypes]
  · rw [h4, h.enumValues]
  · rw [h5, h.inputFields]

theorem make_members (k : Kind) (n d : Str) : (BaseType.make k n d).fields = [] ∧ (BaseType.make k n d).interfaces = [] ∧
    (BaseType.make k n d).possibleTypes = [] ∧ (BaseType.make k n d).enumValues = [] ∧
    (BaseType.make k n d).inputFields = [] := by
  cases k <;> exact ⟨rfl, rfl, rfl, rfl, rfl⟩

/-- The store after `wrapType` at a new address. -/
theorem wrapType_store (s : Schema) (k : Kind) (o a : Addr) :
    (s.wrapType k o a).1.store = s.store ∨
    (s.wrapType k o a).1.store = Function.update s.store a (some (.wrapper k o)) := by
  simp only [Schema.wrapType]
  split
  · exact .inl rfl
  · right; split <;> rfl

/-- Wrappers are lists or non-null types. -/
theorem Built.wrappers {ops : List Op} {s : Schema} (h : Built ops s) :
    ∀ a k o, s.store a = some (.wrapper k o) → k = .list ∨ k = .nonNull := by
  induction h with
  | nil => intro a k o h; cases h
  | @snoc ops s op hb hv ih =>
    have change : ∀ (f : BaseType → BaseType) (a : Addr), (∀ t k o, f t = .wrapper k o → t = .wrapper k o) →
        ∀ b k o, (s.modify a f).store b = some (.wrapper k o) → k = .list ∨ k = .nonNull := by
      intro f a hf b k o hb
      by_cases hba : b = a
      · subst hba
        simp only [Schema.modify, Function.update_self, Option.map_eq_some_iff] at hb
        obtain ⟨t, ht, he⟩ := hb
        rw [hf t k o he] at ht
        exact ih b k o ht
      · simp only [Schema.modify, Function.update_of_ne hba] at hb
        exact ih b k o hb
    cases op with
    | make a k n d =>
      intro b k' o h
      by_cases hba : b = a
      · subst hba
        simp only [Schema.apply, Function.update_self, Option.some.injEq] at h
        have := hv.2
        cases k <;> simp [BaseType.make, isNamed] at h this
      · simp only [Schema.apply, Function.update_of_ne hba] at h; exact ih b k' o h
    | addFields a fs => exact change _ a (by intro t k o; cases t <;> simp [BaseType.addFields])
    | addPossibleTypes a ps => exact change _ a (by intro t k o; cases t <;> simp [BaseType.addPossibleTypes])
    | addEnumValues a vs => exact change _ a (by intro t k o; cases t <;> simp [BaseType.addEnumValues])
    | addInputValues a vs => exact change _ a (by intro t k o; cases t <;> simp [BaseType.addInputValues])
    | addInterfaces a is =>
      have many : ∀ n t k o, addMany a n t = .wrapper k o → t = .wrapper k o := by
        intro n
        induction n with
        | zero => intro t k o h; exact h
        | succ n ihn =>
          intro t k o h
          have := ihn _ k o h
          cases t <;> simp [BaseType.addPossibleType] at this ⊢
          exact this
      intro b k o h
      simp only [Schema.apply, addInterfaces_eq, Option.map_eq_some_iff] at h
      obtain ⟨t, ht, he⟩ := h
      rw [many _ _ _ _ he] at ht
      exact change (·.setInterfaces is) a (by intro t k o; cases t <;> simp [BaseType.setInterfaces]) b k o ht
    | wrap a k o =>
      intro b k' o' h
      rcases wrapType_store s k o a with e | e
      · simp only [Schema.apply, e] at h; exact ih b k' o' h
      · simp only [Schema.apply, e] at h
        by_cases hba : b = a
        · subst hba; simp at h; rw [← h.1]; exact hv.2.2
        · rw [Function.update_of_ne hba] at h; exact ih b k' o' h
    | addType n a => exact ih
    | addQueryType a => exact ih
    | addMutationType a => exact ih
    | addSubscriptionType a => exact ih
    | addDirective d => exact ih

theorem Built.agrees {ops : List Op} {s : Schema} (h : Built ops s) :
    (∀ a t, s.store a = some t → Agrees ops a t) ∧ (∀ a, s.store a = none → Unused ops a) := by
  induction h with
  | nil =>
    constructor
    · intro a t h; cases h
    · intro a _; constructor <;> rfl
  | @snoc ops s op hb hv ih =>
    obtain ⟨ih1, ih2⟩ := ih
    -- a new object at an unused address
    have new : ∀ (t0 : BaseType) (a : Addr) (s' : Schema), s.store a = none →
        s'.store = Function.update s.store a (some t0) →
        (t0.fields = [] ∧ t0.interfaces = [] ∧ t0.possibleTypes = [] ∧ t0.enumValues = [] ∧ t0.inputFields = []) →
        (∀ b, Spec.fields (ops ++ [op]) b = Spec.fields ops b ∧
          Spec.interfaces (ops ++ [op]) b = Spec.interfaces ops b ∧
          implementers (ops ++ [op]) b = implementers ops b ∧ unionTypes (ops ++ [op]) b = unionTypes ops b ∧
          Spec.enumValues (ops ++ [op]) b = Spec.enumValues ops b ∧
          Spec.inputFields (ops ++ [op]) b = Spec.inputFields ops b) →
        (∀ b t, s'.store b = some t → Agrees (ops ++ [op]) b t) ∧ (∀ b, s'.store b = none → Unused (ops ++ [op]) b) := by
      rintro t0 a s' ha hs ⟨m1, m2, m3, m4, m5⟩ e
      constructor
      · intro b t hb
        rw [hs] at hb
        by_cases hba : b = a
        · subst hba
          simp only [Function.update_self, Option.some.injEq] at hb
          subst hb
          exact ((ih2 _ ha).agrees m1 m2 m3 m4 m5).congr (e _)
        · rw [Function.update_of_ne hba] at hb
          exact (ih1 b t hb).congr (e b)
      · intro b hb
        rw [hs] at hb
        by_cases hba : b = a
        · subst hba; simp at hb
        · rw [Function.update_of_ne hba] at hb
          exact (ih2 b hb).congr (e b)
    -- a change of one type
    have change : ∀ (f : BaseType → BaseType) (a : Addr) (kinds : List Kind), s.Is a kinds →
        (∀ b, b ≠ a → Spec.fields (ops ++ [op]) b = Spec.fields ops b ∧
          Spec.interfaces (ops ++ [op]) b = Spec.interfaces ops b ∧
          implementers (ops ++ [op]) b = implementers ops b ∧ unionTypes (ops ++ [op]) b = unionTypes ops b ∧
          Spec.enumValues (ops ++ [op]) b = Spec.enumValues ops b ∧
          Spec.inputFields (ops ++ [op]) b = Spec.inputFields ops b) →
        (∀ t, s.store a = some t → t.kind ∈ kinds → Agrees (ops ++ [op]) a (f t)) →
        (∀ b t, (s.modify a f).store b = some t → Agrees (ops ++ [op]) b t) ∧
        (∀ b, (s.modify a f).store b = none → Unused (ops ++ [op]) b) := by
      rintro f a kinds ⟨t0, ht0, hk⟩ e hf
      constructor
      · intro b t hb
        by_cases hba : b = a
        · subst hba
          simp only [Schema.modify, Function.update_self, ht0, Option.map_some, Option.some.injEq] at hb
          subst hb
          exact hf t0 ht0 hk
        · simp only [Schema.modify, Function.update_of_ne hba] at hb
          exact (ih1 b t hb).congr (e b hba)
      · intro b hb
        by_cases hba : b = a
        · subst hba; simp [Schema.modify, ht0] at hb
        · simp only [Schema.modify, Function.update_of_ne hba] at hb
          exact (ih2 b hb).congr (e b hba)
    cases op with
    | make a k n d => exact new _ a _ hv.1 rfl (make_members k n d) fun b => spec_snoc ops _ b
    | addFields a fs =>
      refine change (·.addFields fs) a _ hv (fun b hba => ?_) fun t ht hk => ?_
      · have := spec_snoc ops (.addFields a fs) b
        simpa [show ¬ a = b from fun h => hba h.symm] using this
      · have A := ih1 a t ht
        have e := spec_snoc ops (.addFields a fs) a
        simp only [if_true] at e
        obtain ⟨e1, e2, e3, e4, e5, e6⟩ := e
        have hw := hb.wrappers a
        cases t <;> simp [BaseType.kind] at hk
        case wrapper => rcases hw _ _ ht with rfl | rfl <;> simp at hk
        all_goals constructor
        all_goals simp only [BaseType.addFields, e1, e2, e3, e4, e5, e6]
        all_goals first
          | rfl | exact A.fields | exact A.interfaces | exact A.enumValues | exact A.inputFields
          | exact A.interfacePossible | exact A.unionPossible | (intro _; rfl) | (intro h; cases h)
    | addInterfaces a is =>
      obtain ⟨⟨t0, ht0, hk0⟩, his⟩ := hv
      have spec := fun b => spec_snoc ops (.addInterfaces a is) b
      simp only at spec
      constructor
      · intro b t hbt
        simp only [Schema.apply, addInterfaces_eq, Option.map_eq_some_iff] at hbt
        obtain ⟨t1, h1, h2⟩ := hbt
        obtain ⟨e1, e2, e3, e4, e5, e6⟩ := spec b
        by_cases hba : b = a
        · subst hba
          simp only [Function.update_self, ht0, Option.map_some, Option.some.injEq] at h1
          have A := ih1 b t0 ht0
          have hw := hb.wrappers b
          cases t0 <;> simp [BaseType.kind] at hk0
          case wrapper => rcases hw _ _ ht0 with rfl | rfl <;> simp at hk0
          subst h1
          rw [addMany_other _ _ _ (.inl (by simp [BaseType.setInterfaces, BaseType.kind]))] at h2
          subst h2
          constructor
          · rw [e1]; exact A.fields
          · rw [e2]; simp [BaseType.setInterfaces, BaseType.interfaces]
          · intro h; cases h
          · intro h; cases h
          · rw [e5]; exact A.enumValues
          · rw [e6]; exact A.inputFields
        · rw [Function.update_of_ne hba] at h1
          have A := ih1 b t1 h1
          have hne : ¬ a = b := fun h => hba h.symm
          simp only [hne, if_false] at e2
          by_cases hi : t1.kind = .interface
          · have hw := hb.wrappers b
            cases t1 <;> simp [BaseType.kind] at hi
            case wrapper => subst hi; rcases hw _ _ h1 with h | h <;> cases h
            rw [addMany_interface] at h2
            subst h2
            constructor
            · rw [e1]; exact A.fields
            · rw [e2]; exact A.interfaces
            · intro _; rw [e3, ← A.interfacePossible rfl]; rfl
            · intro h; cases h
            · rw [e5]; exact A.enumValues
            · rw [e6]; exact A.inputFields
          · rw [addMany_other _ _ _ (.inl hi)] at h2
            subst h2
            constructor
            · rw [e1]; exact A.fields
            · rw [e2]; exact A.interfaces
            · intro h; exact absurd h hi
            · rw [e4]; exact A.unionPossible
            · rw [e5]; exact A.enumValues
            · rw [e6]; exact A.inputFields
      · intro b hbt
        simp only [Schema.apply, addInterfaces_eq, Option.map_eq_none_iff] at hbt
        have hba : b ≠ a := by rintro rfl; simp [ht0] at hbt
        rw [Function.update_of_ne hba] at hbt
        refine (ih2 b hbt).congr ?_
        obtain ⟨e1, e2, e3, e4, e5, e6⟩ := spec b
        have hne : ¬ a = b := fun h => hba h.symm
        simp only [hne, if_false] at e2
        refine ⟨e1, e2, ?_, e4, e5, e6⟩
        have : is.filter (· = b) = [] := by
          rw [List.filter_eq_nil_iff]
          intro i hi
          simp only [decide_eq_true_eq]
          rintro rfl
          obtain ⟨t, ht, _⟩ := his i hi
          rw [ht] at hbt; cases hbt
        rw [e3, this]; simp
    | addPossibleTypes a ps =>
      refine change (·.addPossibleTypes ps) a _ hv (fun b hba => ?_) fun t ht hk => ?_
      · have := spec_snoc ops (.addPossibleTypes a ps) b
        simpa [show ¬ a = b from fun h => hba h.symm] using this
      · have A := ih1 a t ht
        have e := spec_snoc ops (.addPossibleTypes a ps) a
        simp only [if_true] at e
        obtain ⟨e1, e2, e3, e4, e5, e6⟩ := e
        have hw := hb.wrappers a
        cases t <;> simp [BaseType.kind] at hk
        case wrapper => rcases hw _ _ ht with rfl | rfl <;> simp at hk
        all_goals constructor
        all_goals simp only [BaseType.addPossibleTypes, e1, e2, e3, e4, e5, e6]
        all_goals first
          | rfl | exact A.fields | exact A.interfaces | exact A.enumValues | exact A.inputFields
          | exact A.interfacePossible | exact A.unionPossible | (intro _; rfl) | (intro h; cases h)
    | addEnumValues a vs =>
      refine change (·.addEnumValues vs) a _ hv (fun b hba => ?_) fun t ht hk => ?_
      · have := spec_snoc ops (.addEnumValues a vs) b
        simpa [show ¬ a = b from fun h => hba h.symm] using this
      · have A := ih1 a t ht
        have e := spec_snoc ops (.addEnumValues a vs) a
        simp only [if_true] at e
        obtain ⟨e1, e2, e3, e4, e5, e6⟩ := e
        have hw := hb.wrappers a
        cases t <;> simp [BaseType.kind] at hk
        case wrapper => rcases hw _ _ ht with rfl | rfl <;> simp at hk
        all_goals constructor
        all_goals simp only [BaseType.addEnumValues, e1, e2, e3, e4, e5, e6]
        all_goals first
          | rfl | exact A.fields | exact A.interfaces | exact A.enumValues | exact A.inputFields
          | exact A.interfacePossible | exact A.unionPossible | (intro _; rfl) | (intro h; cases h)
    | addInputValues a vs =>
      refine change (·.addInputValues vs) a _ hv (fun b hba => ?_) fun t ht hk => ?_
      · have := spec_snoc ops (.addInputValues a vs) b
        simpa [show ¬ a = b from fun h => hba h.symm] using this
      · have A := ih1 a t ht
        have e := spec_snoc ops (.addInputValues a vs) a
        simp only [if_true] at e
        obtain ⟨e1, e2, e3, e4, e5, e6⟩ := e
        have hw := hb.wrappers a
        cases t <;> simp [BaseType.kind] at hk
        case wrapper => rcases hw _ _ ht with rfl | rfl <;> simp at hk
        all_goals constructor
        all_goals simp only [BaseType.addInputValues, e1, e2, e3, e4, e5, e6]
        all_goals first
          | rfl | exact A.fields | exact A.interfaces | exact A.enumValues | exact A.inputFields
          | exact A.interfacePossible | exact A.unionPossible | (intro _; rfl) | (intro h; cases h)
    | wrap a k o =>
      have e : ∀ b, _ := fun b => spec_snoc ops (.wrap a k o) b
      rcases wrapType_store s k o a with hs | hs
      · constructor
        · intro b t h
          simp only [Schema.apply, hs] at h
          exact (ih1 b t h).congr (e b)
        · intro b h
          simp only [Schema.apply, hs] at h
          exact (ih2 b h).congr (e b)
      · exact new _ a _ hv.1 hs ⟨rfl, rfl, rfl, rfl, rfl⟩ e
    | addType n a =>
      exact ⟨fun b t h => (ih1 b t h).congr (spec_snoc ops _ b), fun b h => (ih2 b h).congr (spec_snoc ops _ b)⟩
    | addQueryType a =>
      exact ⟨fun b t h => (ih1 b t h).congr (spec_snoc ops _ b), fun b h => (ih2 b h).congr (spec_snoc ops _ b)⟩
    | addMutationType a =>
      exact ⟨fun b t h => (ih1 b t h).congr (spec_snoc ops _ b), fun b h => (ih2 b h).congr (spec_snoc ops _ b)⟩
    | addSubscriptionType a =>
      exact ⟨fun b t h => (ih1 b t h).congr (spec_snoc ops _ b), fun b h => (ih2 b h).congr (spec_snoc ops _ b)⟩
    | addDirective d =>
      exact ⟨fun b t h => (ih1 b t h).congr (spec_snoc ops _ b), fun b h => (ih2 b h).congr (spec_snoc ops _ b)⟩

/-! ## Kind, name and description -/

/-- `AddPossibleType` keeps kind, name and description. -/
theorem keeps (a : Addr) (t : BaseType) : (t.addPossibleType a).kind = t.kind ∧ (t.addPossibleType a).name = t.name ∧
    (t.addPossibleType a).description = t.description := by
  cases t <;> exact ⟨rfl, rfl, rfl⟩

theorem addMany_keeps (a : Addr) (n : Nat) (t : BaseType) : (addMany a n t).kind = t.kind ∧
    (addMany a n t).name = t.name ∧ (addMany a n t).description = t.description := by
  induction n generalizing t with
  | zero => exact ⟨rfl, rfl, rfl⟩
  | succ n ih =>
    obtain ⟨h1, h2, h3⟩ := ih (t.addPossibleType a)
    obtain ⟨k1, k2, k3⟩ := keeps a t
    exact ⟨h1.trans k1, h2.trans k2, h3.trans k3⟩

/-- No call destroys a type or changes its kind, name or description. -/
theorem apply_keeps {s : Schema} {op : Op} (hv : op.Valid s) {a : Addr} {t : BaseType} (h : s.store a = some t) :
    ∃ t', (s.apply op).store a = some t' ∧ t'.kind = t.kind ∧ t'.name = t.name ∧ t'.description = t.description ∧
      t'.ofType = t.ofType := by
  have change : ∀ (f : BaseType → BaseType) (b : Addr),
      (∀ t, (f t).kind = t.kind ∧ (f t).name = t.name ∧ (f t).description = t.description ∧ (f t).ofType = t.ofType) →
      ∃ t', (s.modify b f).store a = some t' ∧ t'.kind = t.kind ∧ t'.name = t.name ∧ t'.description = t.description ∧
        t'.ofType = t.ofType := by
    intro f b hf
    by_cases hab : a = b
    · subst hab; exact ⟨f t, by simp [Schema.modify, h], hf t⟩
    · exact ⟨t, by simp [Schema.modify, Function.update_of_ne hab, h], rfl, rfl, rfl, rfl⟩
  have same : ∀ s' : Schema, s'.store = s.store → ∃ t', s'.store a = some t' ∧ t'.kind = t.kind ∧ t'.name = t.name ∧
      t'.description = t.description ∧ t'.ofType = t.ofType := by
    intro s' e; exact ⟨t, by rw [e, h], rfl, rfl, rfl, rfl⟩
  cases op with
  | make b k n d =>
    have : a ≠ b := by rintro rfl; rw [hv.1] at h; cases h
    exact ⟨t, by simp [Schema.apply, Function.update_of_ne this, h], rfl, rfl, rfl, rfl⟩
  | addFields b fs => exact change _ b (by intro t; cases t <;> exact ⟨rfl, rfl, rfl, rfl⟩)
  | addPossibleTypes b fs => exact change _ b (by intro t; cases t <;> exact ⟨rfl, rfl, rfl, rfl⟩)
  | addEnumValues b fs => exact change _ b (by intro t; cases t <;> exact ⟨rfl, rfl, rfl, rfl⟩)
  | addInputValues b fs => exact change _ b (by intro t; cases t <;> exact ⟨rfl, rfl, rfl, rfl⟩)
  | addInterfaces b is =>
    obtain ⟨t1, h1, k1, n1, d1, o1⟩ := change (·.setInterfaces is) b (by intro t; cases t <;> exact ⟨rfl, rfl, rfl, rfl⟩)
    obtain ⟨k2, n2, d2⟩ := addMany_keeps b (is.filter (· = a)).length t1
    refine ⟨addMany b (is.filter (· = a)).length t1, ?_, k2.trans k1, n2.trans n1, d2.trans d1, ?_⟩
    · simp only [Schema.apply, addInterfaces_eq]
      simp only [Schema.modify] at h1
      rw [h1]; rfl
    · rw [← o1]
      have : ∀ n (t : BaseType), (addMany b n t).ofType = t.ofType := by
        intro n
        induction n with
        | zero => intro t; rfl
        | succ n ih => intro t; rw [addMany, ih]; cases t <;> rfl
      exact this _ _
  | wrap b k o =>
    rcases wrapType_store s k o b with e | e
    · exact same _ e
    · have : a ≠ b := by rintro rfl; rw [hv.1] at h; cases h
      exact ⟨t, by simp [Schema.apply, e, Function.update_of_ne this, h], rfl, rfl, rfl, rfl⟩
  | addType n a => exact same _ rfl
  | addQueryType a => exact same _ rfl
  | addMutationType a => exact same _ rfl
  | addSubscriptionType a => exact same _ rfl
  | addDirective d => exact same _ rfl

theorem make_kind {k : Kind} (hk : isNamed k = true) (n d : Str) : (BaseType.make k n d).kind = k ∧
    (BaseType.make k n d).name = n ∧ (BaseType.make k n d).description = d := by
  cases k <;> simp [isNamed] at hk <;> exact ⟨rfl, rfl, rfl⟩

theorem Built.made {ops : List Op} {s : Schema} (h : Built ops s) :
    ∀ a k n d, Op.make a k n d ∈ ops → ∃ t, s.store a = some t ∧ t.kind = k ∧ t.name = n ∧ t.description = d := by
  induction h with
  | nil => intro a k n d h; cases h
  | @snoc ops s op hb hv ih =>
    intro a k n d hm
    rw [List.mem_append] at hm
    rcases hm with hm | hm
    · obtain ⟨t, ht, h1, h2, h3⟩ := ih a k n d hm
      obtain ⟨t', ht', k1, k2, k3, _⟩ := apply_keeps hv ht
      exact ⟨t', ht', k1.trans h1, k2.trans h2, k3.trans h3⟩
    · simp at hm
      subst hm
      obtain ⟨h1, h2, h3⟩ := make_kind hv.2 n d
      exact ⟨.make k n d, by simp [Schema.apply], h1, h2, h3⟩

/-! ## The table of names -/

theorem apply_types (s : Schema) (op : Op) (h : ∀ n a, op ≠ .addType n a) :
    (s.apply op).types = s.types ∧ (s.apply op).typeMap = s.typeMap := by
  cases op with
  | addType n a => exact absurd rfl (h n a)
  | addInterfaces a is => simp [Schema.apply, addInterfaces_eq]
  | wrap a k o =>
    simp only [Schema.apply, Schema.wrapType]
    split
    · exact ⟨rfl, rfl⟩
    · split <;> exact ⟨rfl, rfl⟩
  | _ => exact ⟨rfl, rfl⟩

theorem Built.table {ops : List Op} {s : Schema} (h : Built ops s) :
    s.types = added ops ∧ SortedMap.Inv nameCmp s.typeMap ∧
    ∀ name, (abs nameCmp s.typeMap name = none ∧ named ops name = none) ∨
      ∃ i a, abs nameCmp s.typeMap name = some i ∧ s.types[i]? = some (name, a) ∧ named ops name = some a := by
  induction h with
  | nil => exact ⟨rfl, List.Pairwise.nil, fun name => .inl ⟨rfl, rfl⟩⟩
  | @snoc ops s op hb hv ih =>
    obtain ⟨ih1, ih2, ih3⟩ := ih
    by_cases hop : ∃ n a, op = .addType n a
    · obtain ⟨n, a, rfl⟩ := hop
      have hr := step_refines nameCmp_strictWeak 0 s.typeMap ih2 (.index n fun _ => s.types.length)
      simp only [SortedMap.step, SortedMap.Spec.step] at hr
      obtain ⟨r1, -, r3⟩ := hr
      refine ⟨?_, r1, ?_⟩
      · rw [added_snoc, ← ih1]; rfl
      · intro name
        have hnamed : named (ops ++ [.addType n a]) name = if n = name then some a else named ops name := by
          simp only [named, last_snoc]
          split <;> simp
        have habs : abs nameCmp (s.apply (.addType n a)).typeMap name =
            if same nameCmp name n then some s.types.length else abs nameCmp s.typeMap name := by
          have := congrFun r3 name
          exact this
        by_cases e : n = name
        · subst e
          refine .inr ⟨s.types.length, a, ?_, ?_, ?_⟩
          · rw [habs, if_pos ((same_name n n).2 rfl)]
          · simp [Schema.apply, Schema.addType]
          · rw [hnamed, if_pos rfl]
        · have e' : ¬ same nameCmp name n = true := fun h => e ((same_name _ _).1 h).symm
          rw [hnamed, if_neg e, habs, if_neg e']
          rcases ih3 name with h | ⟨i, b, h1, h2, h3⟩
          · exact .inl h
          · refine .inr ⟨i, b, h1, ?_, h3⟩
            simp only [Schema.apply, Schema.addType]
            have hlt : i < s.types.length := by
              rcases Nat.lt_or_ge i s.types.length with h | h
              · exact h
              · rw [List.getElem?_eq_none h] at h2; cases h2
            rw [List.getElem?_append_left hlt]; exact h2
    · have hop' : ∀ n a, op ≠ .addType n a := fun n a e => hop ⟨n, a, e⟩
      obtain ⟨e1, e2⟩ := apply_types s op hop'
      have hadd : added (ops ++ [op]) = added ops := by
        rw [added_snoc]
        cases op <;> simp [added] at hop ⊢
      have hnamed : ∀ name, named (ops ++ [op]) name = named ops name := by
        intro name
        simp only [named, last_snoc]
        cases op <;> simp at hop ⊢
      rw [e1, e2, hadd]
      refine ⟨ih1, ih2, ?_⟩
      intro name
      rw [hnamed]
      exact ih3 name

/-! ## The tables of wrappers -/

theorem find_abs {K : Type} {cmp : K → K → Bool} (h : StrictWeak cmp) {m : SMap K Nat} (hm : SortedMap.Inv cmp m) (k : K) :
    (find cmp m k).map (·.2) = abs cmp m k := by
  have := (step_refines h 0 m hm (.find k)).2.1
  simpa [SortedMap.step, SortedMap.Spec.step] using this

theorem emplace_abs {K : Type} {cmp : K → K → Bool} (h : StrictWeak cmp) {m : SMap K Nat} (hm : SortedMap.Inv cmp m)
    (k : K) (v : Nat) (hk : abs cmp m k = none) :
    SortedMap.Inv cmp (emplace cmp m k v).1 ∧
    abs cmp (emplace cmp m k v).1 = fun x => if same cmp x k then some v else abs cmp m x := by
  have := step_refines h 0 m hm (.emplace k v)
  simp only [SortedMap.step, SortedMap.Spec.step, hk, Option.isSome_none, Bool.false_eq_true, if_false] at this
  exact ⟨this.1, this.2.2⟩

/-- The wrapper of a type, if there is one. -/
def Schema.wrapper (s : Schema) (isList : Bool) (a : Addr) : Option Addr :=
  abs Verif.Schema.Wrap.addrLess (if isList then s.listWrappers else s.nonNullWrappers) a

theorem apply_wrappers (s : Schema) (op : Op) (h : ∀ a k o, op ≠ .wrap a k o) :
    (s.apply op).listWrappers = s.listWrappers ∧ (s.apply op).nonNullWrappers = s.nonNullWrappers := by
  cases op with
  | wrap a k o => exact absurd rfl (h a k o)
  | addInterfaces a is => simp [Schema.apply, addInterfaces_eq]
  | _ => exact ⟨rfl, rfl⟩

end Verif.TypeSystem
