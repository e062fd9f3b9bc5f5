import Verif.Value.Lemmas
import Verif.Base64.Props

/-!
# C04, C05, C06: response values
-/
namespace Verif.Value
open Verif.Std
open Verif.SortedMap (vectorInsert)

/-- Response values a program can build with the public interface: constructors, `emplace_back`, `set`,
`release`, `from_json`, copies, and the parts read or released from such values. -/
inductive Built : Value → Prop where
  | ofType (t : Ty) : Built (.ofType t)
  | string (s : Str) : Built (.string s false)
  | boolean (b : Bool) : Built (.boolean b)
  | int (i : Int) : Built (.int i)
  | float (d : Double) : Built (.float d)
  | fromJson {v} : Built v → Built v.fromJson
  | emplaceBack {v w r name b} : Built v → Built w → v.emplaceBack name w = .ok (r, b) → Built r
  | push {v w r} : Built v → Built w → v.push w = .ok r → Built r
  | index {v name r} : Built v → v.index name = .ok r → Built r
  | at {v i r} : Built v → v.at i = .ok r → Built r
  | set {v p} : Built v → (∀ w, p = .scalar w → Built w) → Built (v.set p).2
  | release {v t} : Built v → Built (v.release t).2
  | releasedScalar {v w} : Built v → (v.release .scalar).1 = .ok (.scalar w) → Built w
  | releasedList {v ws w} : Built v → (v.release .list).1 = .ok (.list ws) → w ∈ ws → Built w
  | releasedMap {v es e} : Built v → (v.release .map).1 = .ok (.map es) → e ∈ es → Built e.2
  | copy {v w} : Built v → v.copy = .ok w → Built w

theorem WFEntries_mem {l : List (Str × Value)} (h : Value.WFEntries l) {e} (he : e ∈ l) : e.2.WF := by
  induction l with
  | nil => cases he
  | cons x xs ih =>
    obtain ⟨n, v⟩ := x
    simp only [Value.WFEntries] at h
    rcases List.mem_cons.1 he with rfl | he
    · exact h.1
    · exact ih h.2 he

theorem WFEntries_append {a b : List (Str × Value)} :
    Value.WFEntries (a ++ b) ↔ Value.WFEntries a ∧ Value.WFEntries b := by
  induction a with
  | nil => simp [Value.WFEntries]
  | cons x xs ih =>
    obtain ⟨n, v⟩ := x
    simp only [List.cons_append, Value.WFEntries, ih, and_assoc]

theorem WFList_mem {l : List Value} (h : Value.WFList l) {e} (he : e ∈ l) : e.WF := by
  induction l with
  | nil => cases he
  | cons x xs ih =>
    simp only [Value.WFList] at h
    rcases List.mem_cons.1 he with rfl | he
    · exact h.1
    · exact ih h.2 he

theorem WFList_append {a b : List Value} : Value.WFList (a ++ b) ↔ Value.WFList a ∧ Value.WFList b := by
  induction a with
  | nil => simp [Value.WFList]
  | cons x xs ih => simp only [List.cons_append, Value.WFList, ih, and_assoc]

mutual
theorem copy_noEmpty : (v w : Value) → v.copy = .ok w → v.NoEmptyScalar
  | .map entries members, w, h => by
    rw [Value.copy] at h
    simp only [Value.NoEmptyScalar]
    cases hc : Value.copyEntries entries with
    | error e => rw [hc] at h; simp [bind, Except.bind] at h
    | ok l => exact copyEntries_noEmpty entries l hc
  | .list elements, w, h => by
    rw [Value.copy] at h
    simp only [Value.NoEmptyScalar]
    cases hc : Value.copyList elements with
    | error e => rw [hc] at h; simp [bind, Except.bind] at h
    | ok l => exact copyList_noEmpty elements l hc
  | .scalar (some v), w, h => by
    rw [Value.copy] at h
    simp only [Value.NoEmptyScalar]
    cases hc : Value.copy v with
    | error e => rw [hc] at h; simp [bind, Except.bind] at h
    | ok l => exact copy_noEmpty v l hc
  | .scalar none, w, h => by rw [Value.copy] at h; cases h
  | .string .., _, _ => by simp [Value.NoEmptyScalar]
  | .null, _, _ => by simp [Value.NoEmptyScalar]
  | .boolean _, _, _ => by simp [Value.NoEmptyScalar]
  | .int _, _, _ => by simp [Value.NoEmptyScalar]
  | .float _, _, _ => by simp [Value.NoEmptyScalar]
  | .enumValue _, _, _ => by simp [Value.NoEmptyScalar]
theorem copyEntries_noEmpty : (l m : List (Str × Value)) → Value.copyEntries l = .ok m → Value.NoEmptyScalarEntries l
  | [], _, _ => by simp [Value.NoEmptyScalarEntries]
  | (n, v) :: rest, m, h => by
    rw [Value.copyEntries] at h
    simp only [Value.NoEmptyScalarEntries]
    cases hc : Value.copy v with
    | error e => rw [hc] at h; simp [bind, Except.bind] at h
    | ok l =>
      rw [hc] at h
      cases hd : Value.copyEntries rest with
      | error e => rw [hd] at h; simp [bind, Except.bind] at h
      | ok l' => exact ⟨copy_noEmpty v l hc, copyEntries_noEmpty rest l' hd⟩
theorem copyList_noEmpty : (l m : List Value) → Value.copyList l = .ok m → Value.NoEmptyScalarList l
  | [], _, _ => by simp [Value.NoEmptyScalarList]
  | v :: rest, m, h => by
    rw [Value.copyList] at h
    simp only [Value.NoEmptyScalarList]
    cases hc : Value.copy v with
    | error e => rw [hc] at h; simp [bind, Except.bind] at h
    | ok l =>
      rw [hc] at h
      cases hd : Value.copyList rest with
      | error e => rw [hd] at h; simp [bind, Except.bind] at h
      | ok l' => exact ⟨copy_noEmpty v l hc, copyList_noEmpty rest l' hd⟩
end

/-- Every value built with the public interface has a valid index in each of its objects. -/
theorem built_wf {v : Value} (h : Built v) : v.WF := by
  induction h with
  | ofType t => cases t <;> simp [Value.ofType, Value.WF, Value.WFEntries, Value.WFList, MInv.nil]
  | string s => simp [Value.WF]
  | boolean b => simp [Value.WF]
  | int i => simp [Value.WF]
  | float d => simp [Value.WF]
  | @fromJson v _ ih => cases v <;> simp_all [Value.fromJson, Value.WF]
  | @emplaceBack v w r name b _ _ he ih1 ih2 =>
    cases v with
    | map entries members =>
      simp only [Value.WF] at ih1
      simp only [Value.emplaceBack, Except.ok.injEq, Prod.mk.injEq] at he
      obtain ⟨h1, h2, _⟩ := emplaceBack_spec ih1.1 name w
      rw [← he.1]
      simp only [Value.WF]
      refine ⟨h1, ?_⟩
      rw [h2]
      unfold Spec.add
      split
      · exact ih1.2
      · rw [WFEntries_append]
        exact ⟨ih1.2, by simpa [Value.WFEntries] using ih2⟩
    | _ => simp [Value.emplaceBack] at he
  | @push v w r _ _ he ih1 ih2 =>
    cases v with
    | list elements =>
      simp only [Value.push, Except.ok.injEq] at he
      subst he
      simp only [Value.WF] at *
      rw [WFList_append]
      exact ⟨ih1, by simpa [Value.WFList] using ih2⟩
    | _ => simp [Value.push] at he
  | @index v name r _ he ih =>
    cases v with
    | map entries members =>
      simp only [Value.WF] at ih
      simp only [Value.index, mapIndex, mapFind_spec ih.1] at he
      cases hf : entries.find? (fun x => x.1 == name) with
      | none => simp [hf] at he
      | some e =>
        simp [hf] at he
        subst he
        exact WFEntries_mem ih.2 (List.mem_of_find?_eq_some hf)
    | _ => simp [Value.index] at he
  | @«at» v i r _ he ih =>
    cases v with
    | list elements =>
      simp only [Value.WF] at ih
      simp only [Value.at] at he
      split at he
      · rename_i x hx
        cases he
        exact WFList_mem ih (List.mem_of_getElem? hx)
      · cases he
    | _ => simp [Value.at] at he
  | @set v p _ _ ih1 ih2 =>
    cases p <;> cases v <;> simp_all [Value.set, Value.WF]
    all_goals split <;> simp [Value.WF]
  | @release v t hb ih =>
    clear hb
    cases t <;> cases v <;> simp_all [Value.release, Value.WF, Value.WFEntries, Value.WFList, MInv.nil]
    · rename_i o; cases o <;> simp_all [Value.WF]
    · split <;> simp [Value.WF]
  | @releasedScalar v w _ he ih =>
    cases v with
    | scalar o =>
      cases o with
      | none => simp [Value.release] at he
      | some s =>
        simp only [Value.release, Except.ok.injEq, Payload.scalar.injEq] at he
        subst he
        simpa [Value.WF] using ih
    | _ => simp [Value.release] at he
  | @releasedList v ws w _ he hw ih =>
    cases v with
    | list elements =>
      simp only [Value.release, Except.ok.injEq, Payload.list.injEq] at he
      subst he
      simp only [Value.WF] at ih
      exact WFList_mem ih hw
    | _ => simp [Value.release] at he
  | @releasedMap v es e _ he hm ih =>
    cases v with
    | map entries members =>
      simp only [Value.release, Except.ok.injEq, Payload.map.injEq] at he
      subst he
      simp only [Value.WF] at ih
      exact WFEntries_mem ih.2 hm
    | _ => simp [Value.release] at he
  | @copy v w _ he ih =>
    rw [copy_eq v ih (copy_noEmpty v w he)] at he
    cases he
    exact ih

/-- **C04.** After any sequence of `emplace_back` calls on a new object, iteration gives the first value added under
each name in order of first insertion, the calls return `true` exactly for new names, `find` gives exactly
this value, and `operator[]` throws exactly for names never added. -/
theorem C04_map_history {V : Type} (es : List (Str × V)) :
    let r := mapInsertAll [] [] es
    r.1.1 = Spec.addAll [] es ∧
    r.2 = Spec.addedNew [] es ∧
    (∀ name, (mapFind r.1.1 r.1.2 name).map (·.2) = Spec.lookup es name) ∧
    (∀ name v, mapIndex r.1.1 r.1.2 name = .ok v ↔ Spec.lookup es name = some v) ∧
    (∀ name, (∃ e, mapIndex r.1.1 r.1.2 name = .error e) ↔ name ∉ es.map (·.1)) := by
  intro r
  obtain ⟨h1, h2, h3⟩ := insertAll_spec es (MInv.nil (V := V)) [] (by simp)
  have hlook : ∀ (l es : List (Str × V)) name, Spec.lookup (Spec.addAll l es) name = Spec.lookup (l ++ es) name := by
    intro l es name
    induction es generalizing l with
    | nil => simp [Spec.addAll]
    | cons e es ih =>
      have : Spec.addAll l (e :: es) = Spec.addAll (Spec.add l e) es := rfl
      rw [this, ih]
      unfold Spec.add
      split
      · rename_i hany
        obtain ⟨x, hx, hxn⟩ := any_name.1 hany
        simp only [Spec.lookup, List.find?_append, List.find?_cons]
        cases hl : l.find? (fun x => x.1 == name) with
        | some y => simp
        | none =>
          have hne : (e.1 == name) = false := by
            simp only [beq_eq_false_iff_ne]
            rintro rfl
            rw [List.find?_eq_none] at hl
            exact hl x hx (by simp [hxn])
          simp [hne]
      · simp
  have hfind : ∀ name, (mapFind r.1.1 r.1.2 name).map (·.2) = Spec.lookup es name := by
    intro name
    have := mapFind_spec h1 name
    simp only [r]
    rw [this, h2]
    exact hlook [] es name
  have hidx : ∀ name v, mapIndex r.1.1 r.1.2 name = .ok v ↔ Spec.lookup es name = some v := by
    intro name v
    rw [← hfind name]
    unfold mapIndex
    cases mapFind r.1.1 r.1.2 name <;> simp
  refine ⟨h2, h3, hfind, hidx, ?_⟩
  intro name
  have hnone : Spec.lookup es name = none ↔ name ∉ es.map (·.1) := by
    simp only [Spec.lookup, Option.map_eq_none_iff, List.find?_eq_none, List.mem_map, not_exists, not_and]
    constructor
    · intro h x hx hn
      exact h x hx (by simp [hn])
    · intro h x hx hn
      exact h x hx (by simpa using hn)
  rw [← hnone]
  cases hl : Spec.lookup es name with
  | none =>
    simp only [iff_true]
    cases hm : mapIndex r.1.1 r.1.2 name with
    | error e => exact ⟨e, rfl⟩
    | ok v => rw [(hidx name v).1 hm] at hl; cases hl
  | some v => simp [(hidx name v).2 hl]

example : mapInsertAll [] [] [(str "b", 1), (str "a", 2), (str "b", 3), (str "aa", 4)]
    = (([(str "b", 1), (str "a", 2), (str "aa", 4)], [1, 2, 0]), [true, true, false, true]) := by
  decide +kernel

/-- **C04.** The same for a value that a program built with the public interface in any way: lookups agree with
iteration, each name occurs once, `emplace_back` appends iff the name is new. -/
theorem C04_map_built (entries : List (Str × Value)) (members : List Nat) (h : Built (.map entries members))
    (name : Str) (w : Value) :
    (Value.map entries members).find name = .ok (entries.find? (fun x => x.1 == name)) ∧
    (entries.map (·.1)).Nodup ∧
    (∃ members', (Value.map entries members).emplaceBack name w =
      .ok (.map (Spec.add entries (name, w)) members', decide (name ∉ entries.map (·.1)))) := by
  have hw := (built_wf h)
  simp only [Value.WF] at hw
  refine ⟨?_, hw.1.nodup, (mapEmplaceBack entries members name w).1.2, ?_⟩
  · simp only [Value.find, mapFind_spec hw.1]
  · obtain ⟨_, h2, h3⟩ := emplaceBack_spec hw.1 name w
    simp only [Value.emplaceBack, h2, h3]
    congr 3
    simp [List.contains_eq_mem]

example : Built (.map [(str "b", .null), (str "a", .int 1)] [1, 0]) := by
  refine .emplaceBack (b := true) (name := str "a") (w := .int 1) (v := .map [(str "b", .null)] [0]) ?_ (.int 1) ?_
  · refine .emplaceBack (b := true) (name := str "b") (w := .null) (v := .map [] []) (.ofType .map) (.ofType .null) ?_
    simp [Value.emplaceBack, mapEmplaceBack, memberRange, equalRange, vectorInsert]
  · simp [Value.emplaceBack, mapEmplaceBack, memberRange, equalRange, vectorInsert, nameAt, lowerBound, strLess,
      show str "a" < str "b" from by decide, show ¬ str "b" < str "a" from by decide]

/-- **C05.** (Values holding an empty `Type::Scalar` cannot be copied, and a NaN is not equal to itself.)
Copying a value gives the same value, with the same index in every object, and so the same lookups. -/
theorem C05_copy_same (v : Value) (h : Built v) (hs : v.NoEmptyScalar) :
    v.copy = .ok v ∧ (v.NoNaN → v.eq v = true) :=
  ⟨copy_eq v (built_wf h) hs, eq_refl v⟩

example : Built (.list [.enumValue [], .null]) ∧ (Value.list [.enumValue [], .null]).NoEmptyScalar := by
  constructor
  · exact .push (.push (.ofType .list) (.ofType .enumValue) rfl) (.ofType .null) rfl
  · simp [Value.NoEmptyScalar, Value.NoEmptyScalarList]

/-- **C05.** Conversely copying succeeds only for such values: every value which contains an empty scalar makes the
copy constructor throw. -/
theorem C05_copy_throws_iff (v : Value) (h : Built v) : (∃ e, v.copy = .error e) ↔ ¬ v.NoEmptyScalar := by
  constructor
  · rintro ⟨e, he⟩ hn
    rw [copy_eq v (built_wf h) hn] at he
    cases he
  · intro hn
    cases hc : v.copy with
    | error e => exact ⟨e, rfl⟩
    | ok w => exact absurd (copy_noEmpty v w hc) hn

/-- The full statement of C05 is false of the code: a default constructed scalar is a built value without a copy. -/
theorem C05_copy_full_false : ¬ ∀ v, Built v → ∃ w, v.copy = .ok w ∧ w.eq v = true := by
  intro h
  obtain ⟨w, hw, _⟩ := h _ (.ofType .scalar)
  simp [Value.ofType, Value.copy] at hw

/-- **C05.** Equal values have the same type; a string from JSON is not equal to the same string from elsewhere. -/
theorem C05_eq_type (v w : Value) (h : v.eq w = true) : v.type = w.type ∧ v.maybeEnum = w.maybeEnum := by
  unfold Value.eq at h
  split at h <;> simp_all [Value.type, Value.maybeEnum]

/-! ## C06 -/

/-- The pairs of value type and requested type for which typed reading is defined: the exact type, and an `Int` read
as `Float`, an enum value read as `String`, a `String` read as `ID`. -/
def readable : Ty → VT → Bool
  | .map, .map => true
  | .list, .list => true
  | .string, .string => true
  | .enumValue, .string => true
  | .string, .id => true
  | .boolean, .boolean => true
  | .int, .int => true
  | .int, .float => true
  | .float, .float => true
  | .scalar, .scalar => true
  | _, _ => false

/-- **C06.** `get` throws for every pair of types which is not in the table. For pairs in the table it throws only
for an empty scalar and for a string which is not valid Base64. -/
theorem C06_get_table (t : VT) (v : Value) :
    (readable v.type t = false → ∃ e, v.get t = .error e) ∧
    (readable v.type t = true → (∃ p, v.get t = .ok p) ∨
      (∃ e, v.get t = .error e ∧ ((t = .scalar ∧ ∃ o, v = .scalar o ∧ o.isNone) ∨
        (t = .id ∧ ∃ s j be, v = .string s j ∧ Verif.Base64.fromBase64 s = .error be)))) := by
  constructor
  · intro h
    cases t <;> cases v <;> simp_all [readable, Value.type, Value.get]
  · intro h
    cases t <;> cases v <;> simp_all [readable, Value.type, Value.get]
    · rename_i o
      cases o <;> simp
    · rename_i s j
      cases Verif.Base64.fromBase64 s <;> simp

/-- **C06.** What `get` returns is what the value holds; the only conversions are the two documented ones
(`Int` to `Float`, Base64 text to bytes). -/
theorem C06_get_value (t : VT) (v : Value) (p : Payload) (h : v.get t = .ok p) :
    match t with
    | .map => ∃ es ms, v = .map es ms ∧ p = .map es
    | .list => ∃ xs, v = .list xs ∧ p = .list xs
    | .string => ∃ s, p = .string s ∧ ((∃ j, v = .string s j) ∨ v = .enumValue s)
    | .boolean => ∃ b, v = .boolean b ∧ p = .boolean b
    | .int => ∃ i, v = .int i ∧ p = .int i
    | .float => ∃ d, p = .float d ∧ (v = .float d ∨ ∃ i : Int, v = .int i ∧ d = .finite i)
    | .scalar => ∃ w, v = .scalar (some w) ∧ p = .scalar w
    | .id => ∃ s j bytes, v = .string s j ∧ p = .id bytes ∧ Verif.Base64.fromBase64 s = .ok bytes := by
  revert h
  cases t <;> cases v <;> simp [Value.get, Double.ofInt]
  case scalar.scalar o =>
    cases o <;> simp
    exact fun h => h.symm
  case id.string s j =>
    cases hb : Verif.Base64.fromBase64 s <;> simp
    exact fun h => h.symm
  all_goals (intro h; first | exact h.symm | exact ⟨_, h.symm, rfl⟩ | skip)

example : (Value.int 3).get .float = .ok (.float (.finite 3)) := by rfl

/-- **C06.** A failing `set` leaves the value unchanged; a successful one keeps its type, and reading it back with the
same type gives the value that was set (for an `ID`: the same bytes; for an `Int` set on a `Float`: the same number). -/
theorem C06_set (p : Payload) (v : Value) :
    (∀ e, (v.set p).1 = .error e → (v.set p).2 = v) ∧
    ((v.set p).1 = .ok () → (v.set p).2.type = v.type ∧ (v.set p).2.maybeEnum = v.maybeEnum ∧
      match p with
      | .string s => (v.set p).2.get .string = .ok (.string s)
      | .boolean b => (v.set p).2.get .boolean = .ok (.boolean b)
      | .int i => (v.set p).2.get .float = .ok (.float (.finite i)) ∧
          (v.type = .int → (v.set p).2.get .int = .ok (.int i))
      | .float d => (v.set p).2.get .float = .ok (.float d)
      | .scalar w => (v.set p).2.get .scalar = .ok (.scalar w)
      | .id bytes => (v.set p).2.get .id = .ok (.id bytes)
      | .map _ => False
      | .list _ => False) := by
  constructor
  · intro e
    cases p <;> cases v <;> simp [Value.set]
    rename_i bytes s j
    cases Verif.Base64.toBase64 bytes <;> simp
  · cases p <;> cases v <;> simp [Value.set, Value.type, Value.maybeEnum, Value.get, Double.ofInt]
    rename_i bytes s j
    obtain ⟨txt, h1, h2⟩ := Verif.Base64.C01_base64_roundtrip bytes
    simp [h1, h2]

example : (Value.set (.int 7) (.float (.finite 0))).2.get .float = .ok (.float (.finite 7)) := by rfl

/-- **C06** (for all the types except `IdType`, for that see `C06_release_id_loses_text`). A failing `release` leaves the
value unchanged. A successful one returns what `get` would have returned and leaves an empty value of the same
type. -/
theorem C06_release (t : VT) (v : Value) (ht : t ≠ .id) :
    (∀ e, (v.release t).1 = .error e → (v.release t).2 = v) ∧
    (∀ p, (v.release t).1 = .ok p → v.get t = .ok p ∧ (v.release t).2 = Value.ofType v.type) := by
  cases t <;> cases v <;> simp_all [Value.release, Value.get, Value.ofType, Value.type]
  · rename_i o
    cases o <;> simp

example : ((Value.list [.null]).release .list).2 = .list [] := by rfl

/-- **C06.** `release<IdType>` returns what `get<IdType>` would have returned, and leaves an empty string. -/
theorem C06_release_id (v : Value) (p : Payload) (h : (v.release .id).1 = .ok p) :
    v.get .id = .ok p ∧ (v.release .id).2.get .string = .ok (.string []) := by
  cases v <;> simp [Value.release] at h
  rename_i s j
  cases hb : Verif.Base64.fromBase64 s with
  | error e => simp [hb] at h
  | ok bytes => simp [hb] at h; subst h; simp [Value.get, Value.release, hb]

example : (Value.release .id (.string (str "AA==") true)).1 = .ok (.id [0]) := by rfl

/-- The full statement fails for `IdType`: when the text is not valid Base64, `release<IdType>` throws after it has
moved the text out, so the value is changed by a failing call. -/
theorem C06_release_id_loses_text :
    ∃ (v : Value) (e : Err), (v.release .id).1 = .error e ∧ v.get .string = .ok (.string (str "not base64")) ∧
      (v.release .id).2.get .string = .ok (.string []) :=
  ⟨.string (str "not base64") false, .base64 .invalidCharacter, by rfl, by rfl, by rfl⟩

end Verif.Value
