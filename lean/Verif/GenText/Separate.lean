import Verif.GenText.RunAll
import Verif.Schema.TypesProps

/-!
# Interfaces which are found by their names

In separate files the interfaces of an object are found by `LookupType`. These are the same as the variables.
-/
namespace Verif.GenText
open Verif.Value Verif.Gen Verif.Modifiers Verif.TypeSystem Verif.SortedMap Verif.SortedMap.Spec
open Verif.Schema.Wrap (Kind Addr)

/-- The types can be found. -/
structure Has (m : TypeMap) (st : BuildState) : Prop where
  sorted : SortedMap.Inv nameCmp st.schema.typeMap
  types : ∀ n a, m.lookup n = some a → st.schema.lookupType n = .ok a

/-- All states after the code has this. -/
def Keeps {α : Type} (m : TypeMap) (x : Build α) : Prop :=
  ∀ alloc st, Has m st → ∀ a st', x alloc st = .ok (a, st') → Has m st'

/-- The codes do the same if the types can be found. -/
def Same {α : Type} (m : TypeMap) (x y : Build α) : Prop := ∀ alloc st, Has m st → x alloc st = y alloc st

theorem bind_run {α β : Type} (x : Build α) (f : α → Build β) (alloc : List Op → Addr) (st : BuildState) :
    (x >>= f) alloc st = match x alloc st with
      | .ok (a, st') => f a alloc st'
      | .error e => .error e := by
  show (bind (x alloc) fun a => f a alloc) st = _
  simp only [bind, StateT.bind, Except.bind]
  cases x alloc st <;> rfl

theorem Keeps.pure {α : Type} {m : TypeMap} (a : α) : Keeps m (Pure.pure a : Build α) := by
  intro alloc st h b st' e
  cases e
  exact h

theorem Keeps.throw {α : Type} {m : TypeMap} (c : Crash) : Keeps m (throw c : Build α) := by
  intro alloc st h b st' e
  cases e

theorem Keeps.bind {α β : Type} {m : TypeMap} {x : Build α} {f : α → Build β} (hx : Keeps m x) (hf : ∀ a, Keeps m (f a)) :
    Keeps m (x >>= f) := by
  intro alloc st h b st' e
  rw [bind_run] at e
  cases hr : x alloc st with
  | error c => rw [hr] at e; cases e
  | ok r => rw [hr] at e; exact hf r.1 alloc r.2 (hx alloc st h r.1 r.2 hr) b st' e

theorem lookup_same {s t : Schema} (h1 : t.types = s.types) (h2 : t.typeMap = s.typeMap) (n : Str) : t.lookupType n = s.lookupType n := by
  simp only [Schema.lookupType, h1, h2]

theorem Keeps.call {m : TypeMap} {op : Op} (h : ∀ n a, op ≠ .addType n a) : Keeps m (Gen.call op) := by
  intro alloc st hs b st' e
  cases e
  obtain ⟨e1, e2⟩ := apply_types st.schema op h
  exact ⟨by rw [e2]; exact hs.sorted, fun n a hn => by rw [lookup_same e1 e2]; exact hs.types n a hn⟩

theorem lookup_abs {s : Schema} (h : SortedMap.Inv nameCmp s.typeMap) (n : Str) :
    s.lookupType n = match abs nameCmp s.typeMap n with
      | none => .error (.message (str "Type not found" ++ (if n.isEmpty then [] else str " name: " ++ n)))
      | some i => match s.types[i]? with
        | some t => .ok t.2
        | none => .error (.other (str "undefined behaviour")) := by
  rw [← find_abs nameCmp_strictWeak h n]
  unfold Schema.lookupType
  cases find nameCmp s.typeMap n <;> rfl

theorem added_table {s : Schema} (h : SortedMap.Inv nameCmp s.typeMap) (n : Str) (a : Addr) :
    SortedMap.Inv nameCmp (s.addType n a).typeMap ∧ (s.addType n a).lookupType n = .ok a ∧
    ∀ n' b, n' ≠ n → s.lookupType n' = .ok b → (s.addType n a).lookupType n' = .ok b := by
  obtain ⟨r1, -, r3⟩ := step_refines nameCmp_strictWeak 0 s.typeMap h (.index n fun _ => s.types.length)
  have habs : ∀ x, abs nameCmp (s.addType n a).typeMap x = if same nameCmp x n then some s.types.length else abs nameCmp s.typeMap x :=
    fun x => congrFun r3 x
  have r1' : SortedMap.Inv nameCmp (s.addType n a).typeMap := r1
  refine ⟨r1', ?_, ?_⟩
  · rw [lookup_abs r1', habs, if_pos ((same_name n n).2 rfl)]
    simp [Schema.addType]
  · intro n' b hn hb
    rw [lookup_abs h] at hb
    rw [lookup_abs r1', habs, if_neg fun hs => hn ((same_name _ _).1 hs)]
    cases hx : abs nameCmp s.typeMap n' with
    | none => rw [hx] at hb; cases hb
    | some i =>
      rw [hx] at hb
      simp only at hb ⊢
      have hlt : i < s.types.length := by
        rcases Nat.lt_or_ge i s.types.length with h | h
        · exact h
        · rw [List.getElem?_eq_none h] at hb; cases hb
      simp only [Schema.addType, List.getElem?_append_left hlt]
      exact hb

theorem Keeps.newAddr {m : TypeMap} : Keeps m Gen.newAddr := by
  intro alloc st h b st' e
  cases e
  exact h

theorem Keeps.lookupType {m : TypeMap} (n : Str) : Keeps m (Gen.lookupType n) := by
  intro alloc st h b st' e
  unfold Gen.lookupType at e
  rw [bind_run] at e
  have hg : (get : Build BuildState) alloc st = .ok (st, st) := rfl
  rw [hg] at e
  simp only at e
  cases hl : st.schema.lookupType n with
  | ok a => rw [hl] at e; cases e; exact h
  | error c => rw [hl] at e; cases e

theorem Keeps.get {m : TypeMap} : Keeps m (MonadState.get : Build BuildState) := by
  intro alloc st h b st' e
  cases e
  exact h

theorem Keeps.wrapType {m : TypeMap} (k : Kind) (a : Addr) : Keeps m (Gen.wrapType k a) := by
  unfold Gen.wrapType
  exact .bind .newAddr fun _ => .bind .get fun _ => .bind (.call (by simp)) fun _ => .pure _

theorem Keeps.mapM {α β : Type} {m : TypeMap} {f : α → Build β} (h : ∀ x, Keeps m (f x)) (xs : List α) : Keeps m (xs.mapM f) := by
  induction xs with
  | nil => rw [List.mapM_nil]; exact .pure _
  | cons x xs ih => rw [List.mapM_cons]; exact .bind (h x) fun _ => .bind ih fun _ => .pure _

theorem Keeps.forM {α : Type} {m : TypeMap} {f : α → Build Unit} {xs : List α} (h : ∀ x ∈ xs, Keeps m (f x)) : Keeps m (xs.forM f) := by
  induction xs with
  | nil => exact .pure _
  | cons x xs ih => exact .bind (h x (by simp)) fun _ => ih fun y hy => h y (by simp [hy])

theorem Keeps.ite {α : Type} {m : TypeMap} {c : Prop} [Decidable c] {x y : Build α} (hx : Keeps m x) (hy : Keeps m y) :
    Keeps m (if c then x else y) := by
  split
  · exact hx
  · exact hy

theorem Keeps.wrapNonNull {m : TypeMap} (b : Bool) (a : Addr) : Keeps m (Gen.wrapNonNull b a) := .ite (.wrapType _ _) (.pure _)

theorem Keeps.loop {m : TypeMap} (ms : List Mod) (a : Addr) (b : Bool) : Keeps m (schemaTypeLoop ms a b) := by
  induction ms generalizing a b with
  | nil => exact .pure _
  | cons x ms ih =>
    cases x with
    | list => exact .bind (.wrapNonNull _ _) fun _ => .bind (.wrapType _ _) fun _ => ih _ _
    | nullable => exact ih _ _

theorem Keeps.type {m : TypeMap} (n : Str) (ms : List Mod) : Keeps m (getSchemaType n ms) :=
  .bind (.lookupType _) fun _ => .bind (.loop _ _ _) fun _ => .wrapNonNull _ _

theorem Keeps.input {m : TypeMap} (f : InputField) : Keeps m (inputValue f) := .bind (.type _ _) fun _ => .pure _

theorem Keeps.field {m : TypeMap} (f : OutputField) : Keeps m (outputField f) :=
  .bind (.mapM (fun _ => .input _) _) fun _ => .bind (.type _ _) fun _ => .pure _

theorem Keeps.enumDetails {m : TypeMap} (es : TypeMap) (t : EnumType) : Keeps m (Gen.enumDetails es t) := by
  unfold Gen.enumDetails
  cases es.lookup t.type with
  | none => exact .pure _
  | some a => exact .ite (.pure _) (.call (by simp))

theorem Keeps.inputDetails {m : TypeMap} (es : TypeMap) (t : InputType) : Keeps m (Gen.inputDetails es t) := by
  unfold Gen.inputDetails
  cases es.lookup t.type with
  | none => exact .pure _
  | some a => exact .ite (.pure _) (.bind (.mapM (fun _ => .input _) _) fun _ => .call (by simp))

theorem Keeps.unionDetails {m : TypeMap} (es : TypeMap) (t : UnionType) : Keeps m (Gen.unionDetails es t) := by
  unfold Gen.unionDetails
  refine .ite (.pure _) (.bind (.mapM (fun _ => .lookupType _) _) fun _ => ?_)
  cases es.lookup t.type with
  | none => exact .throw _
  | some a => exact .call (by simp)

theorem Keeps.interfaceDetails {m : TypeMap} (es : TypeMap) (t : InterfaceType) : Keeps m (Gen.interfaceDetails es t) := by
  unfold Gen.interfaceDetails
  refine .ite (.pure _) (.bind (.mapM (fun _ => .field _) _) fun _ => ?_)
  cases es.lookup t.type with
  | none => exact .throw _
  | some a => exact .call (by simp)

theorem Keeps.objectFields {m : TypeMap} (es : TypeMap) (t : ObjectType) : Keeps m (Gen.objectFields es t) := by
  unfold Gen.objectFields
  refine .ite (.pure _) (.bind (.mapM (fun _ => .field _) _) fun _ => ?_)
  cases es.lookup t.type with
  | none => exact .throw _
  | some a => exact .call (by simp)

theorem Keeps.lookupInterfaces {m : TypeMap} (es : TypeMap) (t : ObjectType) : Keeps m (GenText.lookupInterfaces es t) := by
  unfold GenText.lookupInterfaces
  refine .ite (.pure _) (.bind (.mapM (fun _ => .lookupType _) _) fun _ => ?_)
  cases es.lookup t.type with
  | none => exact .throw _
  | some a => exact .call (by simp)

/-! ## The same -/

theorem Same.refl {α : Type} {m : TypeMap} (x : Build α) : Same m x x := fun _ _ _ => rfl

theorem Same.bind {α β : Type} {m : TypeMap} {x y : Build α} {f g : α → Build β} (h : Same m x y) (hk : Keeps m x)
    (hf : ∀ a, Same m (f a) (g a)) : Same m (x >>= f) (y >>= g) := by
  intro alloc st hs
  rw [bind_run, bind_run, ← h alloc st hs]
  cases hr : x alloc st with
  | error c => rfl
  | ok r => exact hf r.1 alloc r.2 (hk alloc st hs r.1 r.2 hr)

theorem Same.mapM {α β : Type} {m : TypeMap} {f g : α → Build β} {xs : List α} (h : ∀ x ∈ xs, Same m (f x) (g x))
    (hk : ∀ x, Keeps m (f x)) : Same m (xs.mapM f) (xs.mapM g) := by
  induction xs with
  | nil => rw [List.mapM_nil, List.mapM_nil]; exact .refl _
  | cons x xs ih =>
    rw [List.mapM_cons, List.mapM_cons]
    exact .bind (h x (by simp)) (hk x) fun _ => .bind (ih fun y hy => h y (by simp [hy])) (.mapM hk _) fun _ => .refl _

theorem Same.forM {α : Type} {m : TypeMap} {f g : α → Build Unit} {xs : List α} (h : ∀ x ∈ xs, Same m (f x) (g x))
    (hk : ∀ x, Keeps m (f x)) : Same m (xs.forM f) (xs.forM g) := by
  induction xs with
  | nil => exact .refl _
  | cons x xs ih =>
    exact .bind (h x (by simp)) (hk x) fun _ => ih fun y hy => h y (by simp [hy])

theorem Same.find {m : TypeMap} {n : Str} (hn : n ∈ m.map (·.1)) : Same m (Gen.lookupType n) (findInterface m n) := by
  intro alloc st hs
  have : ∃ a, m.lookup n = some a := by
    cases h : m.lookup n with
    | some a => exact ⟨a, rfl⟩
    | none =>
      rw [List.lookup_eq_none_iff] at h
      obtain ⟨e, he, rfl⟩ := List.mem_map.1 hn
      exact absurd (h e he) (by simp)
  obtain ⟨a, ha⟩ := this
  unfold Gen.lookupType findInterface
  rw [bind_run]
  have hg : (get : Build BuildState) alloc st = .ok (st, st) := rfl
  rw [hg]
  simp only [hs.types n a ha, ha]

theorem Same.details {m es : TypeMap} {t : ObjectType} (h : ∀ n ∈ t.interfaces, n ∈ m.map (·.1)) :
    Same m (lookupDetails es m t) (objectDetails es m t) := by
  unfold lookupDetails objectDetails
  refine .bind ?_ (.lookupInterfaces _ _) fun _ => .refl _
  unfold lookupInterfaces objectInterfaces
  split
  · exact .refl _
  · exact .bind (.mapM (fun n hn => .find (h n hn)) fun _ => .lookupType _) (.mapM (fun _ => .lookupType _) _) fun _ => .refl _

/-! ## Declarations -/

theorem make_has {m : TypeMap} {k : Kind} {n d : Str} : Keeps m (makeType k n d) := by
  unfold makeType
  exact .bind .newAddr fun _ => .bind (.call (by simp)) fun _ => .pure _

theorem addType_has {m : TypeMap} {n : Str} {a : Addr} (hn : n ∉ m.map (·.1)) {alloc : List Op → Addr} {st st' : BuildState}
    (h : Has m st) {u : Unit} (e : Gen.call (.addType n a) alloc st = .ok (u, st')) : Has (m ++ [(n, a)]) st' := by
  cases e
  obtain ⟨h1, h2, h3⟩ := added_table h.sorted n a
  refine ⟨h1, ?_⟩
  intro n' b hb
  by_cases he : n' = n
  · subst he
    rw [lookup_append hn] at hb
    simp only [List.lookup_cons, beq_self_eq_true, Option.some.injEq] at hb
    subst hb
    exact h2
  · refine h3 n' b he (h.types n' b ?_)
    rw [List.lookup_append] at hb
    have : (n' == n) = false := by simpa using he
    simpa [List.lookup_cons, this] using hb

theorem Has.less {m m' : TypeMap} {st : BuildState} (h : Has (m ++ m') st) : Has m st :=
  ⟨h.sorted, fun n a hn => h.types n a (by rw [List.lookup_append, hn]; rfl)⟩

theorem Keeps.addType {m : TypeMap} {n : Str} {a : Addr} (hn : n ∉ m.map (·.1)) : Keeps m (Gen.call (.addType n a)) :=
  fun _ _ h _ _ e => (addType_has hn h e).less

theorem Keeps.scalar (t : ScalarType) : Keeps [] (addScalar t) := .bind make_has fun _ => .addType (by simp)

theorem Keeps.declares {m : TypeMap} {k : Kind} {ts : List (Str × Str)} (h : ∀ t ∈ ts, t.1 ∉ m.map (·.1)) :
    Keeps m (declareTypes k ts) := by
  unfold declareTypes
  generalize ([] : TypeMap) = acc
  induction ts generalizing acc with
  | nil => exact .pure _
  | cons t ts ih =>
    rw [List.foldlM_cons]
    exact .bind (.bind make_has fun _ => .bind (.addType (h t (by simp))) fun _ => .pure _) fun _ => ih (fun u hu => h u (by simp [hu])) _

/-- After the declarations of the types of a kind, these can be found. -/
theorem declares_has {k : Kind} {ts : List (Str × Str)} (acc : TypeMap) (hd : (acc.map (·.1) ++ ts.map (·.1)).Nodup)
    {alloc : List Op → Addr} {st st' : BuildState} (h : Has acc st) {m : TypeMap}
    (e : ts.foldlM (declareType k) acc alloc st = .ok (m, st')) : Has m st' ∧ m.map (·.1) = acc.map (·.1) ++ ts.map (·.1) := by
  induction ts generalizing acc st with
  | nil => cases e; exact ⟨h, by simp⟩
  | cons t ts ih =>
    have hn : t.1 ∉ acc.map (·.1) := by
      intro hm
      simp only [List.map_cons, List.nodup_append] at hd
      exact hd.2.2 _ hm _ (by simp) rfl
    have hm : acc.lookup t.1 = none := lookup_none hn
    simp only [List.foldlM_cons, declareType, bind_assoc, pure_bind, TypeMap.emplace, hm] at e
    rw [bind_run] at e
    cases h1 : makeType k t.1 t.2 alloc st with
    | error c => rw [h1] at e; cases e
    | ok r =>
      rw [h1] at e
      simp only at e
      rw [bind_run] at e
      have hl : ((acc ++ [(t.1, r.1)]).lookup t.1).getD r.1 = r.1 := by
        rw [lookup_append hn]; simp
      rw [hl] at e
      cases h2 : Gen.call (.addType t.1 r.1) alloc r.2 with
      | error c => rw [h2] at e; cases e
      | ok q =>
        rw [h2] at e
        have := ih (acc ++ [(t.1, r.1)]) (by simpa using hd) (addType_has hn (make_has alloc st h r.1 r.2 h1) h2) e
        simpa using this

/-! ## All -/

/-- From schemas with a table in order. -/
theorem lookup_addTypes {l : Loader} (h : Writable l) : Same [] (addTypesWith lookupDetails l) (addTypes l) := by
  have hnd : (variableTypes l).Nodup := List.Nodup.of_map cpp h.distinct
  simp only [variableTypes, List.append_assoc] at hnd
  have hi : (l.interfaceTypes.map (·.type)).Nodup :=
    (List.nodup_append.1 (List.nodup_append.1 (List.nodup_append.1 (List.nodup_append.1 hnd).2.1).2.1).2.1).1
  have ho : ∀ x ∈ l.interfaceTypes.map (·.type), ∀ y ∈ l.objectTypes.map (·.type), x ≠ y :=
    (List.nodup_append.1 (List.nodup_append.1 (List.nodup_append.1 (List.nodup_append.1 hnd).2.1).2.1).2.1).2.2
  unfold addTypesWith addTypes
  refine .bind (.refl _) (.forM fun _ _ => .scalar _) fun _ => ?_
  refine .bind (.refl _) (.declares (by simp)) fun _ => ?_
  refine .bind (.refl _) (.declares (by simp)) fun _ => ?_
  refine .bind (.refl _) (.declares (by simp)) fun _ => ?_
  intro alloc st hs
  rw [bind_run, bind_run]
  cases hr : declareTypes .interface (l.interfaceTypes.map fun t => (t.type, t.description)) alloc st with
  | error c => rfl
  | ok r =>
    obtain ⟨hm, hk⟩ := declares_has (k := .interface) [] (by simpa [Function.comp_def] using hi) hs hr
    simp only [List.map_nil, List.nil_append, List.map_map, Function.comp_def] at hk
    refine (Same.bind (m := r.1) (.refl _) (.declares ?_) fun _ => ?_) alloc r.2 hm
    · intro t ht hm'
      rw [hk] at hm'
      obtain ⟨o, ho', rfl⟩ := List.mem_map.1 ht
      exact ho _ hm' _ (List.mem_map_of_mem ho') rfl
    · refine .bind (.refl _) (.forM fun _ _ => .enumDetails _ _) fun _ => ?_
      refine .bind (.refl _) (.forM fun _ _ => .inputDetails _ _) fun _ => ?_
      refine .bind (.refl _) (.forM fun _ _ => .unionDetails _ _) fun _ => ?_
      refine .bind (.refl _) (.forM fun _ _ => .interfaceDetails _ _) fun _ => ?_
      refine .bind (.forM (fun t ht => .details fun n hn => ?_) fun _ => .bind (.lookupInterfaces _ _) fun _ => .objectFields _ _)
        (.forM fun _ _ => .bind (.lookupInterfaces _ _) fun _ => .objectFields _ _) fun _ => .refl _
      rw [hk]
      exact (h.objects t ht).2.2 n hn

end Verif.GenText
