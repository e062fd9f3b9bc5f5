import Verif.Json.Lemmas
import Verif.Value.Props

/-!
# C07, C08, C44: JSON
-/
namespace Verif.Json
open Verif.Value Verif.Resp Spec

/-- C07: `parseJSON(toJSON(v))` gives `v` back, up to the normalisation, for every value a program can build.
`Representable` leaves out strings with NUL characters (`C07_nul_truncates`), empty scalars and numbers which are
not finite. -/
theorem C07_json_roundtrip (v : Value) (hb : Built v) (hr : Representable (tree v)) :
    ∃ calls v', write v = .ok calls ∧ parseEvents (calls.map reread) = .ok v' ∧
      tree v' = normalize (tree v) := by
  obtain ⟨calls, h1, h2⟩ := write_events v hr
  obtain ⟨hn, hb', hm⟩ := toJ_meaning v (built_wf hb) hr
  have hp : parseEvents (calls.map reread) = valueOf (toJ v) := by rw [h2, parse_events]
  cases hv : valueOf (toJ v) with
  | error e => exact absurd ((valueOf_error (toJ v)).1 e hv).2 hb'
  | ok v' => exact ⟨calls, v', h1, hp.trans hv, by rw [valueOf_ok _ _ hn hv, hm]⟩

/-- The value with the member name and string `a NUL b` loses everything from the NUL character on, so the full
round trip is false. -/
theorem C07_nul_truncates :
    ∃ v v' calls, Built v ∧ write v = .ok calls ∧ parseEvents (calls.map reread) = .ok v' ∧
      tree v' = .string [97] true ∧ normalize (tree v) = .string [97, 0, 98] true :=
  ⟨.string [97, 0, 98] false, .string [97] true, [.string [97]],
    Built.string _, rfl, rfl, by simp [tree], by simp [tree, normalize]⟩

/-- Values which are not `Representable` and fail otherwise: an empty scalar cannot be written at all. -/
theorem C07_empty_scalar_throws : ∃ e, write (.scalar none) = .error e := ⟨_, rfl⟩

/-- Adding to an empty object. -/
theorem emplace_first (k : Str) (v : Value) : (mapEmplaceBack [] [] k v).1 = ([(k, v)], [0]) := by
  simp [mapEmplaceBack, memberRange, Verif.Std.equalRange, Verif.SortedMap.vectorInsert]

/-- C07 is not vacuous: a nested object with an enum value and a scalar. -/
example : ∃ calls v', write (.map [([97], .list [.int (-3), .enumValue [66], .scalar (some (.boolean true))])] [0])
    = .ok calls ∧ parseEvents (calls.map reread) = .ok v' ∧
    tree v' = .map [([97], .list [.int (-3), .string [66] true, .boolean true])] :=
  ⟨_, _, rfl, rfl, by
    rw [tree, emplace_first]
    simp [treeEntries, tree, treeList, cstr]⟩

/-- C08: parsing throws `std::overflow_error` iff the document contains, at any depth, an integer which fits RapidJSON's
64 bit integers but not `int`; there is no other failure; and what is accepted has the meaning of the document: every
integer in the result is exactly the one written. -/
theorem C08_json_integers (j : J) :
    (∀ e, parseEvents j.events = .error e → e = .overflow) ∧
    (parseEvents j.events = .error .overflow ↔ j.TooBig) ∧
    (j.NoNul → ∀ v, parseEvents j.events = .ok v → tree v = meaning j) := by
  rw [parse_events]
  refine ⟨fun e he => ((valueOf_error j).1 e he).1, ⟨fun he => ((valueOf_error j).1 _ he).2, fun hb => ?_⟩,
    fun hn v hv => valueOf_ok j v hn hv⟩
  exact (valueOf_error j).2 hb

/-- The value found in the result for an integer is the integer written, and it fits 32 bits. -/
theorem C08_accepted_integer (n : Int) (v : Value) (h : parseEvents (J.num n).events = .ok v) :
    (fits32 n ∧ v = .int n) ∨ (¬ fits64 n ∧ v = .float (.finite n)) := by
  rw [parse_events] at h
  obtain ⟨h1, h2⟩ := numValue_ok (n := n) (v := v) (by simpa [valueOf] using h)
  by_cases h64 : fits64 n
  · left
    have h32 : fits32 n := Classical.byContradiction fun hc => h2 ⟨h64, hc⟩
    refine ⟨h32, ?_⟩
    rw [meaning, if_pos (show -2 ^ 63 ≤ n ∧ n < 2 ^ 64 from h64)] at h1
    cases v with
    | scalar o => cases o <;> simp [tree] at h1
    | _ => simp [tree] at h1 <;> exact h1 ▸ rfl
  · right
    refine ⟨h64, ?_⟩
    rw [meaning, if_neg (show ¬ (-2 ^ 63 ≤ n ∧ n < 2 ^ 64) from h64)] at h1
    cases v with
    | scalar o => cases o <;> simp [tree] at h1
    | _ => simp [tree] at h1 <;> exact h1 ▸ rfl

example : (J.arr [.num 1, .num 2147483648]).TooBig := by
  simp [J.TooBig, J.TooBigArr, fits64, fits32]
example : parseEvents (J.arr [.num 1, .num 2147483648]).events = .error .overflow := rfl
example : parseEvents (J.arr [.num (-2147483648), .num 2147483647]).events
    = .ok (.list [.int (-2147483648), .int 2147483647]) := rfl

/-- C44: however much of a well formed document the reader has seen when it stops (RapidJSON
calls the handler while it scans, and stops at the first error), the handler is never in a state where it would look
into an empty stack. -/
theorem C44_prefix_safe (j : J) (calls rest : List Event) (h : j.events = calls ++ rest) :
    parseEvents calls ≠ .error .undefinedBehaviour ∧
    (parseEvents calls = .error .overflow → j.TooBig) := by
  have hrun : Handler.init.run j.events = (Handler.init.run calls >>= fun h' => h'.run rest) := by
    rw [h, run_append]
  have hall : Handler.init.run j.events = valueOf j >>= Handler.init.setValue :=
    run_events j Handler.init (by simp [Handler.Ready, Handler.init])
  cases hc : Handler.init.run calls with
  | error e =>
    have he : valueOf j >>= Handler.init.setValue = .error e := by rw [← hall, hrun, hc]; rfl
    have hv : valueOf j = .error e := by
      cases hv : valueOf j with
      | error e' => rw [hv, bind_error] at he; cases he; rfl
      | ok v => rw [hv] at he; cases he
    obtain ⟨rfl, htb⟩ := (valueOf_error j).1 e hv
    constructor
    · unfold parseEvents; rw [hc]; intro hh; cases hh
    · intro _; exact htb
  | ok h' =>
    have hs : h'.stack ≠ [] := stack_run calls _ _ hc (by simp [Handler.init])
    obtain ⟨keys, stack⟩ := h'
    cases stack with
    | nil => exact absurd rfl hs
    | cons v st =>
      have : parseEvents calls = .ok v := by unfold parseEvents; rw [hc]; rfl
      rw [this]
      exact ⟨by simp, by simp⟩

/-- C44: malformed text is not reported. The text `{"a":1` is not JSON, the reader reports the calls below and then an error which
`parseJSON` does not look at, and the caller gets `{"a": 1}`. -/
theorem C44_truncated_accepted :
    parseEvents [.startObject, .key [97], .uint 1] = .ok (.map [([97], .int 1)] [0]) ∧
    (∀ j : J, j.events ≠ [.startObject, .key [97], .uint 1]) := by
  constructor
  · show Except.ok (Value.map (mapEmplaceBack [] [] (cstr [97]) (Value.int 1)).1.1
      (mapEmplaceBack [] [] (cstr [97]) (Value.int 1)).1.2) = _
    rw [emplace_first]
    rfl
  intro j hj
  have hl : ∀ (l : List Event) (a b : Event), Event.startObject :: l ++ [a] = [.startObject, .key [97], b] →
      a = b := by
    intro l a b h
    have := congrArg List.getLast? h
    simpa [List.getLast?_append, List.getLast?_cons] using this
  cases j with
  | obj ms => rw [J.events] at hj; cases hl _ _ _ hj
  | num n => simp [J.events] at hj
  | _ => simp [J.events] at hj

end Verif.Json
