import Verif.Grammar.WellFormed

/-!
# The result of matching, as a total function of the input
-/
namespace Verif.Peg
open Verif.Value

variable {sel : R → Sel}

/-- The result of matching a rule. -/
noncomputable def eval (sel : R → Sel) (r : Rule R) (s : Str) : Res R :=
  (wellFormed.defined (sel := sel) r s).choose_spec.choose

theorem eval_of_run' {f : Nat} {r : Rule R} {s : Str} {x : Res R} (h : run' grammar sel f r s = some x) :
    eval sel r s = x := by
  have e := (wellFormed.defined (sel := sel) r s).choose_spec.choose_spec
  have e1 := run'_mono (Nat.le_max_left _ f) e
  have e2 := run'_mono (Nat.le_max_right (wellFormed.defined (sel := sel) r s).choose f) h
  rw [e1] at e2
  exact Option.some.inj e2

theorem eval_run' (sel : R → Sel) (r : Rule R) (s : Str) : ∃ f, run' grammar sel f r s = some (eval sel r s) :=
  ⟨_, (wellFormed.defined (sel := sel) r s).choose_spec.choose_spec⟩

/-- `eval` is what `run` gives. -/
theorem eval_iff_run {r : Rule R} (hr : progress nulTable r = true) (s : Str) (x : Res R) :
    (∃ f, run grammar sel f r s = some x) ↔ eval sel r s = x := by
  constructor
  · rintro ⟨f, h⟩
    rw [wellFormed.run_eq f r s hr] at h
    exact eval_of_run' h
  · rintro rfl
    obtain ⟨f, h⟩ := eval_run' sel r s
    exact ⟨f, by rw [wellFormed.run_eq f r s hr]; exact h⟩

/-! ## Equations -/

theorem eval_one_nil (p : Byte → Bool) : eval sel (.one p) [] = .fail := eval_of_run' (f := 1) rfl

theorem eval_one_cons (p : Byte → Bool) (c : Byte) (s : Str) :
    eval sel (.one p) (c :: s) = if p c then .ok [] s else .fail := by
  apply eval_of_run' (f := 1)
  simp only [run']
  split <;> rfl

theorem eval_lit (l s : Str) : eval sel (.lit l) s = if l.isPrefixOf s then .ok [] (s.drop l.length) else .fail := by
  apply eval_of_run' (f := 1)
  simp only [run']
  split <;> rfl

theorem eval_utf8 (lo hi : Nat) (s : Str) : eval sel (.utf8 lo hi) s =
    match peekUtf8 s with
    | some (c, n) => if lo ≤ c ∧ c ≤ hi then .ok [] (s.drop n) else .fail
    | none => .fail := by
  apply eval_of_run' (f := 1)
  simp only [run']
  cases peekUtf8 s with
  | none => rfl
  | some cn => simp only; split <;> rfl

theorem eval_eof (s : Str) : eval sel .eof s = if s.isEmpty then .ok [] s else .fail := by
  apply eval_of_run' (f := 1)
  simp only [run']
  split <;> rfl

theorem eval_empty (s : Str) : eval sel .empty s = .ok [] s := eval_of_run' (f := 1) rfl

theorem eval_seq (a b : Rule R) (s : Str) : eval sel (.seq a b) s =
    match eval sel a s with
    | .ok xs t =>
      match eval sel b t with
      | .ok ys u => .ok (xs ++ ys) u
      | .fail => .fail
      | .raise m => .raise m
    | .fail => .fail
    | .raise m => .raise m := by
  obtain ⟨f, hf⟩ := eval_run' sel a s
  cases ha : eval sel a s with
  | fail => rw [ha] at hf; exact eval_of_run' (f := f + 1) (by simp [run', hf])
  | raise m => rw [ha] at hf; exact eval_of_run' (f := f + 1) (by simp [run', hf])
  | ok xs t =>
    rw [ha] at hf
    obtain ⟨f', hf'⟩ := eval_run' sel b t
    have e1 := run'_mono (Nat.le_max_left f f') hf
    have e2 := run'_mono (Nat.le_max_right f f') hf'
    apply eval_of_run' (f := max f f' + 1)
    simp only [run', e1, e2]
    cases eval sel b t <;> rfl

theorem eval_sor (a b : Rule R) (s : Str) : eval sel (.sor a b) s =
    match eval sel a s with
    | .fail => eval sel b s
    | r => r := by
  obtain ⟨f, hf⟩ := eval_run' sel a s
  obtain ⟨f', hf'⟩ := eval_run' sel b s
  have e1 := run'_mono (Nat.le_max_left f f') hf
  have e2 := run'_mono (Nat.le_max_right f f') hf'
  apply eval_of_run' (f := max f f' + 1)
  simp only [run', e1, e2]
  cases eval sel a s <;> rfl

theorem eval_opt (a : Rule R) (s : Str) : eval sel (.opt a) s =
    match eval sel a s with
    | .fail => .ok [] s
    | r => r := by
  obtain ⟨f, hf⟩ := eval_run' sel a s
  apply eval_of_run' (f := f + 1)
  simp only [run', hf]
  cases eval sel a s <;> rfl

theorem eval_notAt (a : Rule R) (s : Str) : eval sel (.notAt a) s =
    match eval sel a s with
    | .fail => .ok [] s
    | .raise m => .raise m
    | .ok _ _ => .fail := by
  obtain ⟨f, hf⟩ := eval_run' sel a s
  apply eval_of_run' (f := f + 1)
  simp only [run', hf]
  cases eval sel a s <;> rfl

theorem eval_must (m : Str) (a : Rule R) (s : Str) : eval sel (.must m a) s =
    match eval sel a s with
    | .fail => .raise m
    | r => r := by
  obtain ⟨f, hf⟩ := eval_run' sel a s
  apply eval_of_run' (f := f + 1)
  simp only [run', hf]
  cases eval sel a s <;> rfl

theorem eval_ref (n : R) (s : Str) : eval sel (.ref n) s =
    match eval sel (grammar n) s with
    | .ok xs t => .ok (finish (sel n) n s xs t) t
    | r => r := by
  obtain ⟨f, hf⟩ := eval_run' sel (grammar n) s
  apply eval_of_run' (f := f + 1)
  simp only [run', hf]
  cases eval sel (grammar n) s <;> rfl

/-- A rule leaves the end of the input, and less than all of it unless it may match the empty text. -/
theorem eval_rest {r : Rule R} {s : Str} {xs : List (Node R)} {t : Str} (h : eval sel r s = .ok xs t) :
    (∃ a, s = a ++ t) ∧ (nullable nulTable r = false → t.length < s.length) := by
  obtain ⟨f, hf⟩ := eval_run' sel r s
  rw [h] at hf
  exact run'_rest wellFormed.null _ _ _ _ _ hf

theorem eval_star {a : Rule R} (hn : nullable nulTable a = false) (s : Str) : eval sel (.star a) s =
    match eval sel a s with
    | .fail => .ok [] s
    | .raise m => .raise m
    | .ok xs t =>
      match eval sel (.star a) t with
      | .ok ys u => .ok (xs ++ ys) u
      | r => r := by
  obtain ⟨f, hf⟩ := eval_run' sel a s
  cases ha : eval sel a s with
  | fail => rw [ha] at hf; exact eval_of_run' (f := f + 1) (by simp [run', hf])
  | raise m => rw [ha] at hf; exact eval_of_run' (f := f + 1) (by simp [run', hf])
  | ok xs t =>
    have hl := (eval_rest ha).2 hn
    rw [ha] at hf
    obtain ⟨f', hf'⟩ := eval_run' sel (.star a) t
    have e1 := run'_mono (Nat.le_max_left f f') hf
    have e2 := run'_mono (Nat.le_max_right f f') hf'
    apply eval_of_run' (f := max f f' + 1)
    simp only [run', e1, e2, hl, if_true]
    cases eval sel (.star a) t <;> rfl

/-! ## When a rule succeeds -/

theorem one_ok {p : Byte → Bool} {s : Str} {xs : List (Node R)} {t : Str} :
    eval sel (.one p) s = .ok xs t ↔ ∃ c, s = c :: t ∧ p c = true ∧ xs = [] := by
  cases s with
  | nil => simp [eval_one_nil]
  | cons c s =>
    rw [eval_one_cons]
    constructor
    · intro h
      split at h
      · rename_i hp; cases h; exact ⟨c, rfl, hp, rfl⟩
      · cases h
    · rintro ⟨d, h, hp, rfl⟩
      cases h
      simp [hp]

theorem lit_ok {l s : Str} {xs : List (Node R)} {t : Str} :
    eval sel (.lit l) s = .ok xs t ↔ s = l ++ t ∧ xs = [] := by
  rw [eval_lit]
  split
  · rename_i h
    rw [List.isPrefixOf_iff_prefix] at h
    obtain ⟨u, rfl⟩ := h
    simp
    exact ⟨fun h => ⟨h.2, h.1.symm ▸ rfl⟩, fun h => ⟨h.2.symm ▸ rfl, h.1⟩⟩
  · rename_i h
    rw [List.isPrefixOf_iff_prefix] at h
    simp
    rintro rfl
    simp at h

theorem eof_ok {s : Str} {xs : List (Node R)} {t : Str} :
    eval sel .eof s = .ok xs t ↔ s = [] ∧ t = [] ∧ xs = [] := by
  rw [eval_eof]
  cases s <;> simp
  exact ⟨fun h => ⟨h.2.symm ▸ rfl, h.1.symm ▸ rfl⟩, fun h => ⟨h.2.symm ▸ rfl, h.1.symm ▸ rfl⟩⟩

theorem empty_ok {s : Str} {xs : List (Node R)} {t : Str} :
    eval sel .empty s = .ok xs t ↔ t = s ∧ xs = [] := by
  rw [eval_empty]
  simp
  exact ⟨fun h => ⟨h.2.symm, h.1.symm ▸ rfl⟩, fun h => ⟨h.2.symm ▸ rfl, h.1.symm⟩⟩

theorem seq_ok {a b : Rule R} {s : Str} {xs : List (Node R)} {u : Str} :
    eval sel (.seq a b) s = .ok xs u ↔
      ∃ ys t zs, eval sel a s = .ok ys t ∧ eval sel b t = .ok zs u ∧ xs = ys ++ zs := by
  rw [eval_seq]
  cases eval sel a s with
  | fail => simp
  | raise m => simp
  | ok ys t =>
    simp only
    cases hb : eval sel b t with
    | fail =>
      simp only [reduceCtorEq, false_iff]
      rintro ⟨_, _, _, h1, h2, _⟩; cases h1; rw [hb] at h2; cases h2
    | raise m =>
      simp only [reduceCtorEq, false_iff]
      rintro ⟨_, _, _, h1, h2, _⟩; cases h1; rw [hb] at h2; cases h2
    | ok zs v =>
      simp only [Res.ok.injEq]
      constructor
      · rintro ⟨rfl, rfl⟩; exact ⟨ys, t, zs, ⟨rfl, rfl⟩, hb, rfl⟩
      · rintro ⟨_, _, _, ⟨rfl, rfl⟩, h2, h3⟩
        rw [hb] at h2; cases h2; exact ⟨h3.symm, rfl⟩

theorem sor_ok {a b : Rule R} {s : Str} {xs : List (Node R)} {t : Str} :
    eval sel (.sor a b) s = .ok xs t ↔
      eval sel a s = .ok xs t ∨ (eval sel a s = .fail ∧ eval sel b s = .ok xs t) := by
  rw [eval_sor]
  cases eval sel a s <;> simp

theorem opt_ok {a : Rule R} {s : Str} {xs : List (Node R)} {t : Str} :
    eval sel (.opt a) s = .ok xs t ↔ eval sel a s = .ok xs t ∨ (eval sel a s = .fail ∧ t = s ∧ xs = []) := by
  rw [eval_opt]
  cases eval sel a s <;> simp
  exact ⟨fun h => ⟨h.2.symm, h.1.symm ▸ rfl⟩, fun h => ⟨h.2.symm ▸ rfl, h.1.symm⟩⟩

theorem notAt_ok {a : Rule R} {s : Str} {xs : List (Node R)} {t : Str} :
    eval sel (.notAt a) s = .ok xs t ↔ eval sel a s = .fail ∧ t = s ∧ xs = [] := by
  rw [eval_notAt]
  cases eval sel a s <;> simp
  exact ⟨fun h => ⟨h.2.symm, h.1.symm ▸ rfl⟩, fun h => ⟨h.2.symm ▸ rfl, h.1.symm⟩⟩

theorem must_ok {m : Str} {a : Rule R} {s : Str} {xs : List (Node R)} {t : Str} :
    eval sel (.must m a) s = .ok xs t ↔ eval sel a s = .ok xs t := by
  rw [eval_must]
  cases eval sel a s <;> simp

theorem need_ok {n : R} {s : Str} {xs : List (Node R)} {t : Str} :
    eval sel (need n) s = .ok xs t ↔ eval sel (.ref n) s = .ok xs t := must_ok

theorem ref_ok {n : R} {s : Str} {xs : List (Node R)} {t : Str} :
    eval sel (.ref n) s = .ok xs t ↔ ∃ ys, eval sel (grammar n) s = .ok ys t ∧ xs = finish (sel n) n s ys t := by
  rw [eval_ref]
  cases eval sel (grammar n) s with
  | fail => simp
  | raise m => simp
  | ok ys u =>
    simp only [Res.ok.injEq]
    constructor
    · rintro ⟨rfl, rfl⟩; exact ⟨ys, ⟨rfl, rfl⟩, rfl⟩
    · rintro ⟨_, ⟨rfl, rfl⟩, rfl⟩; exact ⟨rfl, rfl⟩

/-- The iterations of a loop. -/
inductive Iter (sel : R → Sel) (a : Rule R) : Str → List (Node R) → Str → Prop where
  | nil {s} : eval sel a s = .fail → Iter sel a s [] s
  | cons {s xs t ys u} : eval sel a s = .ok xs t → Iter sel a t ys u → Iter sel a s (xs ++ ys) u

theorem star_ok {a : Rule R} (hn : nullable nulTable a = false) {s : Str} {xs : List (Node R)} {t : Str} :
    eval sel (.star a) s = .ok xs t ↔ Iter sel a s xs t := by
  constructor
  · intro h
    generalize hk : s.length = k
    induction k using Nat.strongRecOn generalizing s xs with
    | ind k ih =>
      rw [eval_star hn] at h
      cases ha : eval sel a s with
      | fail => rw [ha] at h; simp at h; obtain ⟨rfl, rfl⟩ := h; exact .nil ha
      | raise m => rw [ha] at h; simp at h
      | ok ys u =>
        rw [ha] at h
        have hl := (eval_rest ha).2 hn
        simp only at h
        cases hs : eval sel (.star a) u with
        | fail => rw [hs] at h; simp at h
        | raise m => rw [hs] at h; simp at h
        | ok zs v =>
          rw [hs] at h; simp at h
          obtain ⟨rfl, rfl⟩ := h
          exact .cons ha (ih _ (by omega) hs rfl)
  · intro h
    induction h with
    | nil h => rw [eval_star hn, h]
    | cons h _ ih => rw [eval_star hn, h]; simp only [ih]

/-! ## When a rule fails -/

theorem one_fail {p : Byte → Bool} {s : Str} : eval sel (.one p) s = .fail ↔ ∀ c t, s = c :: t → p c = false := by
  cases s with
  | nil => simp [eval_one_nil]
  | cons c s => rw [eval_one_cons]; cases h : p c <;> simp [h]

theorem lit_fail {l s : Str} : eval sel (.lit l) s = .fail ↔ ¬ l <+: s := by
  rw [eval_lit]
  split
  · rename_i h; rw [List.isPrefixOf_iff_prefix] at h; simp [h]
  · rename_i h; rw [List.isPrefixOf_iff_prefix] at h; simp [h]

theorem eof_fail {s : Str} : eval sel .eof s = .fail ↔ s ≠ [] := by
  rw [eval_eof]; cases s <;> simp

theorem seq_fail {a b : Rule R} {s : Str} : eval sel (.seq a b) s = .fail ↔
    eval sel a s = .fail ∨ ∃ ys t, eval sel a s = .ok ys t ∧ eval sel b t = .fail := by
  rw [eval_seq]
  cases eval sel a s with
  | fail => simp
  | raise m => simp
  | ok ys t =>
    simp only
    cases hb : eval sel b t with
    | fail => simp; exact ⟨ys, t, ⟨rfl, rfl⟩, hb⟩
    | raise m =>
      simp only [reduceCtorEq, false_or, false_iff]
      rintro ⟨_, _, h1, h2⟩; cases h1; rw [hb] at h2; cases h2
    | ok zs v =>
      simp only [reduceCtorEq, false_or, false_iff]
      rintro ⟨_, _, h1, h2⟩; cases h1; rw [hb] at h2; cases h2

theorem sor_fail {a b : Rule R} {s : Str} : eval sel (.sor a b) s = .fail ↔ eval sel a s = .fail ∧ eval sel b s = .fail := by
  rw [eval_sor]
  cases eval sel a s <;> simp

theorem opt_fail {a : Rule R} {s : Str} : eval sel (.opt a) s ≠ .fail := by
  rw [eval_opt]
  cases eval sel a s <;> simp

theorem must_fail {m : Str} {a : Rule R} {s : Str} : eval sel (.must m a) s ≠ .fail := by
  rw [eval_must]
  cases eval sel a s <;> simp

theorem notAt_fail {a : Rule R} {s : Str} : eval sel (.notAt a) s = .fail ↔ ∃ xs t, eval sel a s = .ok xs t := by
  rw [eval_notAt]
  cases eval sel a s <;> simp

theorem ref_fail {n : R} {s : Str} : eval sel (.ref n) s = .fail ↔ eval sel (grammar n) s = .fail := by
  rw [eval_ref]
  cases eval sel (grammar n) s <;> simp

/-! ## What the beginning of the input decides -/

mutual
/-- The rule fails on every input which begins with `pre` (if `fin`: on the input `pre`). -/
def dead : Nat → Rule R → Str → Bool → Bool
  | 0, _, _, _ => false
  | _ + 1, .one p, pre, fin => match pre with | [] => fin | c :: _ => !p c
  | _ + 1, .lit l, pre, fin => !l.isPrefixOf pre && (fin || !pre.isPrefixOf l)
  | _ + 1, .utf8 lo hi, pre, fin => match pre with
    | [] => fin
    | c :: _ => c.toNat < 0x80 && !(lo ≤ c.toNat && c.toNat ≤ hi)
  | _ + 1, .eof, pre, _ => !pre.isEmpty
  | _ + 1, .empty, _, _ => false
  | f + 1, .seq a b, pre, fin => dead f a pre fin || (skips f a pre fin && dead f b pre fin)
  | f + 1, .sor a b, pre, fin => dead f a pre fin && dead f b pre fin
  | _ + 1, .star _, _, _ => false
  | _ + 1, .opt _, _, _ => false
  | f + 1, .notAt a, pre, fin => skips f a pre fin
  | _ + 1, .must _ _, _, _ => false
  | f + 1, .ref n, pre, fin => dead f (grammar n) pre fin
/-- The rule succeeds without consuming anything on every input which begins with `pre` (if `fin`: on the input `pre`). -/
def skips : Nat → Rule R → Str → Bool → Bool
  | 0, _, _, _ => false
  | _ + 1, .empty, _, _ => true
  | _ + 1, .eof, pre, fin => fin && pre.isEmpty
  | f + 1, .seq a b, pre, fin => skips f a pre fin && skips f b pre fin
  | f + 1, .sor a b, pre, fin => skips f a pre fin || (dead f a pre fin && skips f b pre fin)
  | f + 1, .star a, pre, fin => dead f a pre fin && !nullable nulTable a
  | f + 1, .opt a, pre, fin => dead f a pre fin
  | f + 1, .notAt a, pre, fin => dead f a pre fin
  | f + 1, .must _ a, pre, fin => skips f a pre fin
  | _ + 1, _, _, _ => false
end

theorem dead_skips (pre : Str) (fin : Bool) (u : Str) (hu : fin = true → u = []) : ∀ (f : Nat) (r : Rule R),
    (dead f r pre fin = true → eval sel r (pre ++ u) = .fail) ∧
    (skips f r pre fin = true → eval sel r (pre ++ u) = .ok [] (pre ++ u)) := by
  intro f
  induction f with
  | zero => intro r; exact ⟨nofun, nofun⟩
  | succ f ih =>
    intro r
    cases r with
    | one p =>
      refine ⟨fun h => ?_, nofun⟩
      rw [one_fail]
      cases pre with
      | nil =>
        simp only [dead] at h
        rw [hu h]; simp
      | cons d pre =>
        simp only [dead, Bool.not_eq_true'] at h
        intro c t e
        simp at e
        rw [← e.1]; exact h
    | lit l =>
      refine ⟨fun h => ?_, nofun⟩
      rw [lit_fail]
      simp only [dead, Bool.and_eq_true, Bool.not_eq_true', Bool.or_eq_true] at h
      obtain ⟨h1, h2⟩ := h
      have n1 : ¬ l <+: pre := by rw [← List.isPrefixOf_iff_prefix, h1]; simp
      intro hl
      rcases h2 with h2 | h2
      · rw [hu h2, List.append_nil] at hl; exact n1 hl
      · have n2 : ¬ pre <+: l := by rw [← List.isPrefixOf_iff_prefix, h2]; simp
        rcases List.prefix_or_prefix_of_prefix hl (List.prefix_append pre u) with h | h
        · exact n1 h
        · exact n2 h
    | utf8 lo hi =>
      refine ⟨fun h => ?_, nofun⟩
      rw [eval_utf8]
      cases pre with
      | nil =>
        simp only [dead] at h
        rw [hu h]; rfl
      | cons c s =>
        simp only [dead, Bool.and_eq_true, decide_eq_true_eq, Bool.not_eq_true', Bool.and_eq_false_iff,
          decide_eq_false_iff_not] at h
        simp only [List.cons_append, peekUtf8, h.1, if_true]
        have : ¬ (lo ≤ c.toNat ∧ c.toNat ≤ hi) := by
          rintro ⟨h1, h2⟩; rcases h.2 with h | h <;> exact h (by assumption)
        simp [this]
    | eof =>
      rw [eval_eof]
      constructor
      · intro h
        cases pre with
        | nil => simp [dead] at h
        | cons c pre => simp
      · intro h
        simp only [skips, Bool.and_eq_true] at h
        rw [hu h.1]
        cases pre with
        | nil => simp
        | cons c pre => simp at h
    | empty => exact ⟨nofun, fun _ => eval_empty _⟩
    | seq a b =>
      constructor
      · intro h
        simp only [dead, Bool.or_eq_true, Bool.and_eq_true] at h
        rw [seq_fail]
        rcases h with h | ⟨h1, h2⟩
        · exact .inl ((ih a).1 h)
        · exact .inr ⟨[], _, (ih a).2 h1, (ih b).1 h2⟩
      · intro h
        simp only [skips, Bool.and_eq_true] at h
        rw [eval_seq, (ih a).2 h.1]
        simp only [(ih b).2 h.2, List.append_nil]
    | sor a b =>
      constructor
      · intro h
        simp only [dead, Bool.and_eq_true] at h
        exact sor_fail.2 ⟨(ih a).1 h.1, (ih b).1 h.2⟩
      · intro h
        simp only [skips, Bool.or_eq_true, Bool.and_eq_true] at h
        rw [eval_sor]
        rcases h with h | ⟨h1, h2⟩
        · rw [(ih a).2 h]
        · rw [(ih a).1 h1]; exact (ih b).2 h2
    | star a =>
      refine ⟨nofun, fun h => ?_⟩
      simp only [skips, Bool.and_eq_true, Bool.not_eq_true'] at h
      rw [eval_star h.2, (ih a).1 h.1]
    | opt a =>
      refine ⟨nofun, fun h => ?_⟩
      rw [eval_opt, (ih a).1 h]
    | notAt a =>
      constructor
      · intro h; rw [notAt_fail]; exact ⟨_, _, (ih a).2 h⟩
      · intro h; rw [eval_notAt, (ih a).1 h]
    | must m a =>
      refine ⟨nofun, fun h => ?_⟩
      rw [eval_must, (ih a).2 h]
    | ref n =>
      exact ⟨fun h => ref_fail.2 ((ih _).1 h), nofun⟩

theorem dead_nil {r : Rule R} (h : dead 40 r [] true = true) : eval sel r [] = .fail :=
  (dead_skips [] true [] (fun _ => rfl) 40 r).1 h
theorem dead_cons {r : Rule R} {c : Byte} {s : Str} (h : dead 40 r [c] false = true) : eval sel r (c :: s) = .fail :=
  (dead_skips [c] false s nofun 40 r).1 h
theorem dead_append {r : Rule R} {p s : Str} (h : dead 40 r p false = true) : eval sel r (p ++ s) = .fail :=
  (dead_skips p false s nofun 40 r).1 h
theorem skips_nil {r : Rule R} (h : skips 40 r [] true = true) : eval sel r [] = .ok [] [] :=
  (dead_skips [] true [] (fun _ => rfl) 40 r).2 h
theorem skips_cons {r : Rule R} {c : Byte} {s : Str} (h : skips 40 r [c] false = true) :
    eval sel r (c :: s) = .ok [] (c :: s) :=
  (dead_skips [c] false s nofun 40 r).2 h
theorem skips_append {r : Rule R} {p s : Str} (h : skips 40 r p false = true) : eval sel r (p ++ s) = .ok [] (p ++ s) :=
  (dead_skips p false s nofun 40 r).2 h

end Verif.Peg
