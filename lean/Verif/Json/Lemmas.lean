import Verif.Json.Spec
import Verif.Value.Lemmas

namespace Verif.Json
open Verif.Value Verif.Resp Spec

/-- The value of a number literal, or the exception. -/
def numValue (n : Int) : Except Err Value :=
  match numEvent n with
  | .uint k => if k > intMax then .error .overflow else .ok (.int k)
  | .int i => .ok (.int i)
  | .double d => .ok (.float d)
  | _ => .error .overflow

mutual
/-- The value the handler builds for a document, or the exception. -/
def valueOf : J → Except Err Value
  | .null => .ok .null
  | .bool b => .ok (.boolean b)
  | .num n => numValue n
  | .dbl d => .ok (.float d)
  | .str s => .ok (.string (cstr s) true)
  | .arr js => do
    let vs ← valueOfArr js
    .ok (.list vs)
  | .obj ms => do
    let r ← valueOfObj [] [] ms
    .ok (.map r.1 r.2)
def valueOfArr : List J → Except Err (List Value)
  | [] => .ok []
  | j :: js => do
    let v ← valueOf j
    let vs ← valueOfArr js
    .ok (v :: vs)
def valueOfObj (es : List (Str × Value)) (ms : List Nat) : List (Str × J) → Except Err (List (Str × Value) × List Nat)
  | [] => .ok (es, ms)
  | (k, j) :: rest => do
    let v ← valueOf j
    let r := mapEmplaceBack es ms (cstr k) v
    valueOfObj r.1.1 r.1.2 rest
end

/-- The handler can take a value: there is a value on the stack, and a key if it is an object. -/
def Handler.Ready (h : Handler) : Prop :=
  match h.stack with
  | .map .. :: _ => h.keys ≠ []
  | _ :: _ => True
  | [] => False

theorem setValue_ready {h : Handler} (hr : h.Ready) (v : Value) : ∃ h', h.setValue v = .ok h' := by
  obtain ⟨keys, stack⟩ := h
  cases stack with
  | nil => exact absurd hr (by simp [Handler.Ready])
  | cons top rest =>
    cases top <;> simp [Handler.setValue]
    cases keys with
    | nil => exact absurd rfl hr
    | cons => simp

theorem run_append (h : Handler) (as bs : List Event) : h.run (as ++ bs) = h.run as >>= fun h' => h'.run bs := by
  induction as generalizing h with
  | nil => rfl
  | cons a as ih =>
    simp only [List.cons_append, Handler.run]
    cases h.step a with
    | error e => rfl
    | ok h' => exact ih h'

theorem bind_ok {α β ε : Type} (a : α) (f : α → Except ε β) : (Except.ok a >>= f) = f a := rfl
theorem bind_error {α β ε : Type} (e : ε) (f : α → Except ε β) : ((Except.error e : Except ε α) >>= f) = .error e := rfl

theorem run_num (h : Handler) (n : Int) : h.run [numEvent n] = numValue n >>= h.setValue := by
  have fin : ∀ x : Except Err Handler, (x >>= fun h' => (.ok h' : Except Err Handler)) = x := by
    intro x; cases x <;> rfl
  simp only [Handler.run, fin]
  unfold numValue
  unfold numEvent
  split
  · split
    · simp only [Handler.step]
      split <;> rfl
    · split <;> rfl
  · split
    · rfl
    · split <;> rfl

mutual
theorem run_events : (j : J) → (h : Handler) → h.Ready → h.run j.events = valueOf j >>= h.setValue
  | .null, h, hr => by
    obtain ⟨h', e⟩ := setValue_ready hr .null
    simp [J.events, Handler.run, Handler.step, valueOf, e, bind_ok]
  | .bool b, h, hr => by
    obtain ⟨h', e⟩ := setValue_ready hr (.boolean b)
    simp [J.events, Handler.run, Handler.step, valueOf, e, bind_ok]
  | .num n, h, hr => by
    rw [J.events, valueOf, run_num]
  | .dbl d, h, hr => by
    obtain ⟨h', e⟩ := setValue_ready hr (.float d)
    simp [J.events, Handler.run, Handler.step, valueOf, e, bind_ok]
  | .str s, h, hr => by
    obtain ⟨h', e⟩ := setValue_ready hr (.string (cstr s) true)
    simp [J.events, Handler.run, Handler.step, valueOf, e, bind_ok]
  | .arr js, h, hr => by
    rw [J.events, valueOf]
    simp only [List.cons_append, Handler.run, Handler.step, bind_ok, run_append]
    have := run_eventsArr js h.keys [] h.stack
    rw [this]
    cases valueOfArr js with
    | error e => rfl
    | ok vs =>
      obtain ⟨h', e⟩ := setValue_ready hr (.list vs)
      simp [bind_ok, Handler.getResponse, e]
  | .obj ms, h, hr => by
    rw [J.events, valueOf]
    simp only [List.cons_append, Handler.run, Handler.step, bind_ok, run_append]
    have := run_eventsObj ms h.keys [] [] h.stack
    rw [this]
    cases valueOfObj [] [] ms with
    | error e => rfl
    | ok r =>
      obtain ⟨h', e⟩ := setValue_ready hr (.map r.1 r.2)
      simp [bind_ok, Handler.getResponse, e]
theorem run_eventsArr : (js : List J) → (keys : List Str) → (acc : List Value) → (stack : List Value) →
    Handler.run ⟨keys, .list acc :: stack⟩ (J.eventsArr js) =
      valueOfArr js >>= fun vs => .ok ⟨keys, .list (acc ++ vs) :: stack⟩
  | [], keys, acc, stack => by simp [J.eventsArr, Handler.run, valueOfArr, bind_ok]
  | j :: js, keys, acc, stack => by
    rw [J.eventsArr, valueOfArr, run_append, run_events j ⟨keys, .list acc :: stack⟩ (by simp [Handler.Ready])]
    cases valueOf j with
    | error e => rfl
    | ok v =>
      simp only [bind_ok, Handler.setValue]
      rw [run_eventsArr js keys (acc ++ [v]) stack]
      cases valueOfArr js with
      | error e => rfl
      | ok vs => simp [bind_ok]
theorem run_eventsObj : (ms : List (Str × J)) → (keys : List Str) → (es : List (Str × Value)) → (idx : List Nat) →
    (stack : List Value) → Handler.run ⟨keys, .map es idx :: stack⟩ (J.eventsObj ms) =
      valueOfObj es idx ms >>= fun r => .ok ⟨keys, .map r.1 r.2 :: stack⟩
  | [], keys, es, idx, stack => by simp [J.eventsObj, Handler.run, valueOfObj, bind_ok]
  | (k, j) :: ms, keys, es, idx, stack => by
    rw [J.eventsObj, valueOfObj]
    simp only [List.cons_append, Handler.run, Handler.step, bind_ok, run_append]
    rw [run_events j ⟨cstr k :: keys, .map es idx :: stack⟩ (by simp [Handler.Ready])]
    cases valueOf j with
    | error e => rfl
    | ok v =>
      simp only [bind_ok, Handler.setValue]
      rw [run_eventsObj ms keys _ _ stack]
end

theorem parse_events (j : J) : parseEvents j.events = valueOf j := by
  unfold parseEvents
  rw [run_events j Handler.init (by simp [Handler.Ready, Handler.init])]
  cases valueOf j with
  | error e => rfl
  | ok v => rfl

/-! ## the value of a document is its meaning -/

theorem cstr_noNul {s : Str} (h : 0 ∉ s) : cstr s = s := by
  induction s with
  | nil => rfl
  | cons c s ih =>
    simp only [List.mem_cons, not_or] at h
    have hc : (c != 0) = true := by simp only [bne_iff_ne]; exact fun hc => h.1 hc.symm
    have := ih h.2
    unfold cstr at this ⊢
    rw [List.takeWhile_cons, if_pos hc, this]

theorem numValue_ok {n : Int} {v : Value} (h : numValue n = .ok v) :
    tree v = meaning (.num n) ∧ ¬ (fits64 n ∧ ¬ fits32 n) := by
  unfold numValue at h
  unfold numEvent at h
  simp only [meaning, fits64, fits32]
  by_cases h0 : 0 ≤ n
  · simp only [h0, if_true] at h
    by_cases h1 : n < 2 ^ 32
    · simp only [h1, if_true] at h
      split at h
      · cases h
      · rename_i hle
        cases h
        have : n < 2 ^ 31 := by simp [intMax] at hle; omega
        refine ⟨?_, by omega⟩
        rw [if_pos (by omega)]
        simp [tree, Int.toNat_of_nonneg h0]
    · simp only [h1, if_false] at h
      by_cases h2 : n < 2 ^ 64
      · simp only [h2, if_true] at h; cases h
      · simp only [h2, if_false] at h
        cases h
        refine ⟨?_, by omega⟩
        rw [if_neg (by omega)]
        simp [tree]
  · simp only [h0, if_false] at h
    by_cases h1 : -2 ^ 31 ≤ n
    · simp only [h1, if_true] at h
      cases h
      refine ⟨?_, by omega⟩
      rw [if_pos (by omega)]
      simp [tree]
    · simp only [h1, if_false] at h
      by_cases h2 : -2 ^ 63 ≤ n
      · simp only [h2, if_true] at h; cases h
      · simp only [h2, if_false] at h
        cases h
        refine ⟨?_, by omega⟩
        rw [if_neg (by omega)]
        simp [tree]

theorem numValue_error {n : Int} {e : Err} (h : numValue n = .error e) :
    e = .overflow ∧ (fits64 n ∧ ¬ fits32 n) := by
  unfold numValue at h
  unfold numEvent at h
  simp only [fits64, fits32]
  by_cases h0 : 0 ≤ n
  · simp only [h0, if_true] at h
    by_cases h1 : n < 2 ^ 32
    · simp only [h1, if_true] at h
      split at h
      · rename_i hgt
        cases h
        have : ¬ n < 2 ^ 31 := by simp [intMax] at hgt; omega
        exact ⟨rfl, by omega, by omega⟩
      · cases h
    · simp only [h1, if_false] at h
      by_cases h2 : n < 2 ^ 64
      · simp only [h2, if_true] at h; cases h; exact ⟨rfl, by omega, by omega⟩
      · simp only [h2, if_false] at h; cases h
  · simp only [h0, if_false] at h
    by_cases h1 : -2 ^ 31 ≤ n
    · simp only [h1, if_true] at h
      cases h
    · simp only [h1, if_false] at h
      by_cases h2 : -2 ^ 63 ≤ n
      · simp only [h2, if_true] at h; cases h; exact ⟨rfl, by omega, by omega⟩
      · simp only [h2, if_false] at h; cases h

theorem treeEntries_eq (l : List (Str × Value)) : treeEntries l = l.map (fun e => (e.1, tree e.2)) := by
  induction l with
  | nil => simp [treeEntries]
  | cons e l ih => obtain ⟨n, v⟩ := e; simp [treeEntries, ih]

theorem add_map (l : List (Str × Value)) (k : Str) (v : Value) :
    (Verif.Value.Spec.add l (k, v)).map (fun e => (e.1, tree e.2)) =
      Verif.Value.Spec.add (l.map (fun e => (e.1, tree e.2))) (k, tree v) := by
  unfold Verif.Value.Spec.add
  have : (l.map (fun e => (e.1, tree e.2))).any (fun x => x.1 == k) = l.any (fun x => x.1 == k) := by
    rw [List.any_map]; rfl
  simp only [this]
  split <;> simp

mutual
theorem valueOf_ok : (j : J) → (v : Value) → j.NoNul → valueOf j = .ok v → tree v = meaning j
  | .null, v, _, h => by rw [valueOf] at h; cases h; simp [tree, meaning]
  | .bool b, v, _, h => by rw [valueOf] at h; cases h; simp [tree, meaning]
  | .num n, v, _, h => by rw [valueOf] at h; exact (numValue_ok h).1
  | .dbl d, v, _, h => by rw [valueOf] at h; cases h; simp [tree, meaning]
  | .str s, v, hn, h => by
    rw [valueOf] at h; cases h
    simp only [J.NoNul] at hn
    simp [tree, meaning, cstr_noNul hn]
  | .arr js, v, hn, h => by
    rw [valueOf] at h
    simp only [J.NoNul] at hn
    cases hv : valueOfArr js with
    | error e => rw [hv] at h; cases h
    | ok vs =>
      rw [hv] at h; cases h
      simp [tree, meaning, valueOfArr_ok js vs hn hv]
  | .obj ms, v, hn, h => by
    rw [valueOf] at h
    simp only [J.NoNul] at hn
    cases hv : valueOfObj [] [] ms with
    | error e => rw [hv] at h; cases h
    | ok r =>
      rw [hv] at h; cases h
      have := (valueOfObj_ok ms [] [] r hn MInv.nil hv).2
      simp only [tree, meaning, this, treeEntries]
theorem valueOfArr_ok : (js : List J) → (vs : List Value) → J.NoNulArr js → valueOfArr js = .ok vs →
    treeList vs = meaningArr js
  | [], vs, _, h => by rw [valueOfArr] at h; cases h; simp [treeList, meaningArr]
  | j :: js, vs, hn, h => by
    rw [valueOfArr] at h
    simp only [J.NoNulArr] at hn
    cases hv : valueOf j with
    | error e => rw [hv] at h; cases h
    | ok v =>
      rw [hv] at h
      cases hvs : valueOfArr js with
      | error e => rw [hvs] at h; cases h
      | ok vs' =>
        rw [hvs] at h; cases h
        simp [treeList, meaningArr, valueOf_ok j v hn.1 hv, valueOfArr_ok js vs' hn.2 hvs]
theorem valueOfObj_ok : (ms : List (Str × J)) → (es : List (Str × Value)) → (idx : List Nat) →
    (r : List (Str × Value) × List Nat) → J.NoNulObj ms → MInv es idx → valueOfObj es idx ms = .ok r →
    MInv r.1 r.2 ∧ treeEntries r.1 = Verif.Value.Spec.addAll (treeEntries es) (meaningObj ms)
  | [], es, idx, r, _, hi, h => by
    rw [valueOfObj] at h; cases h
    exact ⟨hi, by simp [meaningObj, Verif.Value.Spec.addAll]⟩
  | (k, j) :: ms, es, idx, r, hn, hi, h => by
    rw [valueOfObj] at h
    simp only [J.NoNulObj] at hn
    cases hv : valueOf j with
    | error e => rw [hv] at h; cases h
    | ok v =>
      rw [hv] at h
      simp only [bind_ok] at h
      obtain ⟨h1, h2, _⟩ := emplaceBack_spec hi (cstr k) v
      obtain ⟨i1, i2⟩ := valueOfObj_ok ms _ _ r hn.2.2 h1 h
      refine ⟨i1, ?_⟩
      rw [i2, h2, cstr_noNul hn.1, treeEntries_eq, add_map, ← treeEntries_eq, valueOf_ok j v hn.2.1 hv]
      simp [meaningObj, Verif.Value.Spec.addAll]
end

mutual
theorem valueOf_error : (j : J) → (∀ e, valueOf j = .error e → e = .overflow ∧ j.TooBig) ∧
    (j.TooBig → valueOf j = .error .overflow)
  | .null => by simp [valueOf, J.TooBig]
  | .bool b => by simp [valueOf, J.TooBig]
  | .num n => by
    rw [valueOf]
    constructor
    · intro e h
      have := numValue_error h
      exact ⟨this.1, by rw [J.TooBig]; exact this.2⟩
    · intro h
      rw [J.TooBig] at h
      cases hv : numValue n with
      | error e => rw [(numValue_error hv).1]
      | ok v => exact absurd h (numValue_ok hv).2
  | .dbl d => by simp [valueOf, J.TooBig]
  | .str s => by simp [valueOf, J.TooBig]
  | .arr js => by
    rw [valueOf, J.TooBig]
    obtain ⟨h1, h2⟩ := valueOfArr_error js
    constructor
    · intro e h
      cases hv : valueOfArr js with
      | error e' => rw [hv] at h; cases h; exact h1 _ hv
      | ok vs => rw [hv] at h; cases h
    · intro h; rw [h2 h]; rfl
  | .obj ms => by
    rw [valueOf, J.TooBig]
    obtain ⟨h1, h2⟩ := valueOfObj_error ms [] []
    constructor
    · intro e h
      cases hv : valueOfObj [] [] ms with
      | error e' => rw [hv] at h; cases h; exact h1 _ hv
      | ok vs => rw [hv] at h; cases h
    · intro h; rw [h2 h]; rfl
theorem valueOfArr_error : (js : List J) → (∀ e, valueOfArr js = .error e → e = .overflow ∧ J.TooBigArr js) ∧
    (J.TooBigArr js → valueOfArr js = .error .overflow)
  | [] => by simp [valueOfArr, J.TooBigArr]
  | j :: js => by
    rw [valueOfArr, J.TooBigArr]
    obtain ⟨h1, h2⟩ := valueOf_error j
    obtain ⟨i1, i2⟩ := valueOfArr_error js
    constructor
    · intro e h
      cases hv : valueOf j with
      | error e' => rw [hv] at h; cases h; exact ⟨(h1 _ hv).1, .inl (h1 _ hv).2⟩
      | ok v =>
        rw [hv] at h
        cases hvs : valueOfArr js with
        | error e' => rw [hvs] at h; cases h; exact ⟨(i1 _ hvs).1, .inr (i1 _ hvs).2⟩
        | ok vs => rw [hvs] at h; cases h
    · intro h
      cases hv : valueOf j with
      | error e' => rw [(h1 _ hv).1]; rfl
      | ok v =>
        rcases h with h | h
        · rw [h2 h] at hv; cases hv
        · rw [i2 h]; rfl
theorem valueOfObj_error : (ms : List (Str × J)) → (es : List (Str × Value)) → (idx : List Nat) →
    (∀ e, valueOfObj es idx ms = .error e → e = .overflow ∧ J.TooBigObj ms) ∧
    (J.TooBigObj ms → valueOfObj es idx ms = .error .overflow)
  | [], es, idx => by simp [valueOfObj, J.TooBigObj]
  | (k, j) :: ms, es, idx => by
    rw [valueOfObj, J.TooBigObj]
    obtain ⟨h1, h2⟩ := valueOf_error j
    constructor
    · intro e h
      cases hv : valueOf j with
      | error e' => rw [hv] at h; cases h; exact ⟨(h1 _ hv).1, .inl (h1 _ hv).2⟩
      | ok v =>
        rw [hv] at h
        have := (valueOfObj_error ms _ _).1 e h
        exact ⟨this.1, .inr this.2⟩
    · intro h
      cases hv : valueOf j with
      | error e' => rw [(h1 _ hv).1]; rfl
      | ok v =>
        rcases h with h | h
        · rw [h2 h] at hv; cases hv
        · exact (valueOfObj_error ms _ _).2 h
end

/-! ## writing -/

mutual
/-- The document written for a value. -/
def toJ : Value → J
  | .map entries _ => .obj (toJEntries entries)
  | .list elements => .arr (toJList elements)
  | .string s _ => .str (cstr s)
  | .enumValue s => .str (cstr s)
  | .null => .null
  | .boolean b => .bool b
  | .int i => .num i
  | .float d => .dbl d
  | .scalar (some v) => toJ v
  | .scalar none => .null
def toJEntries : List (Str × Value) → List (Str × J)
  | [] => []
  | (n, v) :: rest => (cstr n, toJ v) :: toJEntries rest
def toJList : List Value → List J
  | [] => []
  | v :: rest => toJ v :: toJList rest
end

theorem reread_int {i : Int} (h : fits32 i) : reread (.int i) = numEvent i := by
  unfold fits32 at h
  unfold numEvent
  show (if 0 ≤ i then Event.uint i.toNat else Event.int i) = _
  by_cases h0 : 0 ≤ i
  · rw [if_pos h0, if_pos h0, if_pos (by omega)]
  · rw [if_neg h0, if_neg h0, if_pos (by omega)]

mutual
theorem write_events : (v : Value) → Representable (tree v) →
    ∃ es, write v = .ok es ∧ es.map reread = (toJ v).events
  | .map entries members, h => by
    simp only [tree, Representable] at h
    obtain ⟨es, h1, h2⟩ := writeEntries_events entries h
    refine ⟨_, by rw [write, h1]; rfl, ?_⟩
    simp [toJ, J.events, h2, reread]
  | .list elements, h => by
    simp only [tree, Representable] at h
    obtain ⟨es, h1, h2⟩ := writeElements_events elements h
    refine ⟨_, by rw [write, h1]; rfl, ?_⟩
    simp [toJ, J.events, h2, reread]
  | .string s j, h => ⟨_, by rw [write], by simp [toJ, J.events, reread]⟩
  | .enumValue s, h => ⟨_, by rw [write], by simp [toJ, J.events, reread]⟩
  | .null, h => ⟨_, by rw [write], by simp [toJ, J.events, reread]⟩
  | .boolean b, h => ⟨_, by rw [write], by simp [toJ, J.events, reread]⟩
  | .int i, h => by
    simp only [tree, Representable] at h
    exact ⟨_, by rw [write], by simp [toJ, J.events, reread_int h]⟩
  | .float d, h => ⟨_, by rw [write], by simp [toJ, J.events, reread]⟩
  | .scalar (some v), h => by
    simp only [tree, Representable] at h
    obtain ⟨es, h1, h2⟩ := write_events v h
    exact ⟨es, by rw [write]; exact h1, by rw [toJ]; exact h2⟩
  | .scalar none, h => by simp [tree, Representable] at h
theorem writeEntries_events : (l : List (Str × Value)) → RepresentableEntries (treeEntries l) →
    ∃ es, writeEntries l = .ok es ∧ es.map reread = J.eventsObj (toJEntries l)
  | [], _ => ⟨_, by rw [writeEntries], by simp [toJEntries, J.eventsObj]⟩
  | (n, v) :: rest, h => by
    simp only [treeEntries, RepresentableEntries] at h
    obtain ⟨es, h1, h2⟩ := write_events v h.2.1
    obtain ⟨es', h3, h4⟩ := writeEntries_events rest h.2.2
    refine ⟨_, by rw [writeEntries, h1, h3]; rfl, ?_⟩
    simp [toJEntries, J.eventsObj, h2, h4, reread]
theorem writeElements_events : (l : List Value) → RepresentableList (treeList l) →
    ∃ es, writeElements l = .ok es ∧ es.map reread = J.eventsArr (toJList l)
  | [], _ => ⟨_, by rw [writeElements], by simp [toJList, J.eventsArr]⟩
  | v :: rest, h => by
    simp only [treeList, RepresentableList] at h
    obtain ⟨es, h1, h2⟩ := write_events v h.1
    obtain ⟨es', h3, h4⟩ := writeElements_events rest h.2
    refine ⟨_, by rw [writeElements, h1, h3]; rfl, ?_⟩
    simp [toJList, J.eventsArr, h2, h4]
end

theorem addAll_nodup {V : Type} (es l : List (Str × V)) (h : ((l ++ es).map (·.1)).Nodup) :
    Verif.Value.Spec.addAll l es = l ++ es := by
  induction es generalizing l with
  | nil => simp [Verif.Value.Spec.addAll]
  | cons e es ih =>
    have hadd : Verif.Value.Spec.add l e = l ++ [e] := by
      unfold Verif.Value.Spec.add
      rw [if_neg]
      rw [any_name]
      rintro ⟨x, hx, hxe⟩
      rw [List.map_append, List.nodup_append] at h
      exact h.2.2 x.1 (List.mem_map_of_mem hx) e.1 (by simp) hxe
    have : Verif.Value.Spec.addAll l (e :: es) = Verif.Value.Spec.addAll (Verif.Value.Spec.add l e) es := rfl
    rw [this, hadd, ih]
    · simp
    · simpa using h

theorem meaningObj_names (ms : List (Str × J)) : (meaningObj ms).map (·.1) = ms.map (·.1) := by
  induction ms with
  | nil => simp [meaningObj]
  | cons m ms ih => obtain ⟨k, j⟩ := m; simp [meaningObj, ih]

theorem toJEntries_names (l : List (Str × Value)) (h : RepresentableEntries (treeEntries l)) :
    (toJEntries l).map (·.1) = l.map (·.1) := by
  induction l with
  | nil => simp [toJEntries]
  | cons e l ih =>
    obtain ⟨n, v⟩ := e
    simp only [treeEntries, RepresentableEntries] at h
    simp [toJEntries, ih h.2.2, cstr_noNul h.1]

mutual
theorem toJ_meaning : (v : Value) → v.WF → Representable (tree v) →
    (toJ v).NoNul ∧ ¬ (toJ v).TooBig ∧ meaning (toJ v) = normalize (tree v)
  | .map entries members, hw, h => by
    simp only [tree, Representable, Value.WF] at h hw
    obtain ⟨h1, h2, h3⟩ := toJEntries_meaning entries hw.2 h
    refine ⟨by simpa [toJ, J.NoNul] using h1, by simpa [toJ, J.TooBig] using h2, ?_⟩
    rw [toJ, meaning, addAll_nodup]
    · simp [tree, normalize, h3]
    · simp only [List.nil_append, meaningObj_names, toJEntries_names entries h]
      exact hw.1.nodup
  | .list elements, hw, h => by
    simp only [tree, Representable, Value.WF] at h hw
    obtain ⟨h1, h2, h3⟩ := toJList_meaning elements hw h
    exact ⟨by simpa [toJ, J.NoNul] using h1, by simpa [toJ, J.TooBig] using h2, by simp [toJ, meaning, tree, normalize, h3]⟩
  | .string s j, hw, h => by
    simp only [tree, Representable] at h
    simp [toJ, J.NoNul, J.TooBig, meaning, tree, normalize, cstr_noNul h]
    exact h
  | .enumValue s, hw, h => by
    simp only [tree, Representable] at h
    simp [toJ, J.NoNul, J.TooBig, meaning, tree, normalize, cstr_noNul h]
    exact h
  | .null, hw, h => by simp [toJ, J.NoNul, J.TooBig, meaning, tree, normalize]
  | .boolean b, hw, h => by simp [toJ, J.NoNul, J.TooBig, meaning, tree, normalize]
  | .int i, hw, h => by
    simp only [tree, Representable] at h
    refine ⟨by simp [toJ, J.NoNul], by simp [toJ, J.TooBig, h], ?_⟩
    unfold fits32 at h
    simp only [toJ, meaning, tree, normalize]
    rw [if_pos (by omega)]
  | .float d, hw, h => by simp [toJ, J.NoNul, J.TooBig, meaning, tree, normalize]
  | .scalar (some v), hw, h => by
    simp only [tree, Representable, Value.WF] at h hw
    simpa [toJ, tree, normalize] using toJ_meaning v hw h
  | .scalar none, hw, h => by simp [tree, Representable] at h
theorem toJEntries_meaning : (l : List (Str × Value)) → Value.WFEntries l → RepresentableEntries (treeEntries l) →
    J.NoNulObj (toJEntries l) ∧ ¬ J.TooBigObj (toJEntries l) ∧
      meaningObj (toJEntries l) = normalizeEntries (treeEntries l)
  | [], _, _ => by simp [toJEntries, J.NoNulObj, J.TooBigObj, meaningObj, treeEntries, normalizeEntries]
  | (n, v) :: rest, hw, h => by
    simp only [treeEntries, RepresentableEntries, Value.WFEntries] at h hw
    obtain ⟨h1, h2, h3⟩ := toJ_meaning v hw.1 h.2.1
    obtain ⟨i1, i2, i3⟩ := toJEntries_meaning rest hw.2 h.2.2
    simp [toJEntries, J.NoNulObj, J.TooBigObj, meaningObj, treeEntries, normalizeEntries, *, cstr_noNul h.1]
    exact h.1
theorem toJList_meaning : (l : List Value) → Value.WFList l → RepresentableList (treeList l) →
    J.NoNulArr (toJList l) ∧ ¬ J.TooBigArr (toJList l) ∧ meaningArr (toJList l) = normalizeList (treeList l)
  | [], _, _ => by simp [toJList, J.NoNulArr, J.TooBigArr, meaningArr, treeList, normalizeList]
  | v :: rest, hw, h => by
    simp only [treeList, RepresentableList, Value.WFList] at h hw
    obtain ⟨h1, h2, h3⟩ := toJ_meaning v hw.1 h.1
    obtain ⟨i1, i2, i3⟩ := toJList_meaning rest hw.2 h.2
    simp [toJList, J.NoNulArr, J.TooBigArr, meaningArr, treeList, normalizeList, *]
end

/-! ## the stack is never empty -/

theorem stack_setValue {h h' : Handler} {v : Value} (hs : h.setValue v = .ok h') : h'.stack ≠ [] := by
  obtain ⟨keys, stack⟩ := h
  cases stack with
  | nil => simp [Handler.setValue] at hs
  | cons top rest =>
    cases top <;> simp only [Handler.setValue] at hs <;> try (cases hs; simp)
    cases keys with
    | nil => cases hs
    | cons => cases hs; simp

theorem stack_step' {h h' : Handler} {e : Event} (hs : h.step e = .ok h') (hne : h.stack ≠ []) : h'.stack ≠ [] := by
  cases e <;> simp only [Handler.step] at hs <;> try exact stack_setValue hs
  all_goals try (split at hs <;> first | cases hs; done | exact stack_setValue hs)
  all_goals try (cases hs; done)
  all_goals try (cases hg : h.getResponse with
    | error e => rw [hg] at hs; cases hs
    | ok r => rw [hg] at hs; exact stack_setValue hs)
  all_goals (cases hs; simp [hne])

theorem stack_run (es : List Event) (h h' : Handler) (hs : h.run es = .ok h') (hne : h.stack ≠ []) :
    h'.stack ≠ [] := by
  induction es generalizing h with
  | nil => cases hs; exact hne
  | cons e es ih =>
    rw [Handler.run] at hs
    cases h1 : h.step e with
    | error x => rw [h1] at hs; cases hs
    | ok h2 => rw [h1] at hs; exact ih h2 hs (stack_step' h1 hne)

end Verif.Json
