import Verif.Grammar.Peg

/-!
# Parsing expressions: termination and a total evaluation function
-/
namespace Verif.Peg
open Verif.Value

variable {N : Type}

/-- As `run`, but a loop which makes no progress stops. -/
def run' (g : N → Rule N) (sel : N → Sel) : (fuel : Nat) → Rule N → Str → Option (Res N)
  | 0, _, _ => none
  | _ + 1, .one p, s =>
    match s with
    | [] => some .fail
    | c :: t => if p c then some (.ok [] t) else some .fail
  | _ + 1, .lit l, s => if l.isPrefixOf s then some (.ok [] (s.drop l.length)) else some .fail
  | _ + 1, .utf8 lo hi, s =>
    match peekUtf8 s with
    | some (c, n) => if lo ≤ c ∧ c ≤ hi then some (.ok [] (s.drop n)) else some .fail
    | none => some .fail
  | _ + 1, .eof, s => if s.isEmpty then some (.ok [] s) else some .fail
  | _ + 1, .empty, s => some (.ok [] s)
  | f + 1, .seq a b, s =>
    match run' g sel f a s with
    | none => none
    | some .fail => some .fail
    | some (.raise m) => some (.raise m)
    | some (.ok xs t) =>
      match run' g sel f b t with
      | none => none
      | some .fail => some .fail
      | some (.raise m) => some (.raise m)
      | some (.ok ys u) => some (.ok (xs ++ ys) u)
  | f + 1, .sor a b, s =>
    match run' g sel f a s with
    | none => none
    | some .fail => run' g sel f b s
    | some r => some r
  | f + 1, .star a, s =>
    match run' g sel f a s with
    | none => none
    | some .fail => some (.ok [] s)
    | some (.raise m) => some (.raise m)
    | some (.ok xs t) =>
      if t.length < s.length then
        match run' g sel f (.star a) t with
        | none => none
        | some (.ok ys u) => some (.ok (xs ++ ys) u)
        | some r => some r
      else some (.ok xs t)
  | f + 1, .opt a, s =>
    match run' g sel f a s with
    | some .fail => some (.ok [] s)
    | r => r
  | f + 1, .notAt a, s =>
    match run' g sel f a s with
    | none => none
    | some .fail => some (.ok [] s)
    | some (.raise m) => some (.raise m)
    | some (.ok _ _) => some .fail
  | f + 1, .must m a, s =>
    match run' g sel f a s with
    | some .fail => some (.raise m)
    | r => r
  | f + 1, .ref n, s =>
    match run' g sel f (g n) s with
    | some (.ok xs t) => some (.ok (finish (sel n) n s xs t) t)
    | r => r

variable {g : N → Rule N} {sel : N → Sel}

/-! ## More fuel gives the same -/

theorem run'_succ : ∀ (f : Nat) (r : Rule N) (s : Str) (x : Res N), run' g sel f r s = some x →
    run' g sel (f + 1) r s = some x := by
  intro f
  induction f with
  | zero => intro r s x h; cases h
  | succ f ih =>
    intro r s x h
    cases r with
    | one p => exact h
    | lit l => exact h
    | utf8 lo hi => exact h
    | eof => exact h
    | empty => exact h
    | seq a b =>
      rw [run'] at h ⊢
      cases ha : run' g sel f a s with
      | none => simp [ha] at h
      | some y =>
        rw [ih a s y ha]
        rw [ha] at h
        cases y with
        | fail => exact h
        | raise m => exact h
        | ok xs t =>
          simp only at h ⊢
          cases hb : run' g sel f b t with
          | none => simp [hb] at h
          | some z => rw [ih b t z hb]; rw [hb] at h; exact h
    | sor a b =>
      rw [run'] at h ⊢
      cases ha : run' g sel f a s with
      | none => simp [ha] at h
      | some y =>
        rw [ih a s y ha]
        rw [ha] at h
        cases y with
        | fail => exact ih b s x h
        | raise m => exact h
        | ok xs t => exact h
    | star a =>
      rw [run'] at h ⊢
      cases ha : run' g sel f a s with
      | none => simp [ha] at h
      | some y =>
        rw [ih a s y ha]
        rw [ha] at h
        cases y with
        | fail => exact h
        | raise m => exact h
        | ok xs t =>
          simp only at h ⊢
          split
          · rename_i hl
            rw [if_pos hl] at h
            cases hb : run' g sel f (.star a) t with
            | none => simp [hb] at h
            | some z => rw [ih _ t z hb]; rw [hb] at h; exact h
          · rename_i hl; rw [if_neg hl] at h; exact h
    | opt a =>
      rw [run'] at h ⊢
      cases ha : run' g sel f a s with
      | none => simp [ha] at h
      | some y => rw [ih a s y ha]; rw [ha] at h; exact h
    | notAt a =>
      rw [run'] at h ⊢
      cases ha : run' g sel f a s with
      | none => simp [ha] at h
      | some y => rw [ih a s y ha]; rw [ha] at h; exact h
    | must m a =>
      rw [run'] at h ⊢
      cases ha : run' g sel f a s with
      | none => simp [ha] at h
      | some y => rw [ih a s y ha]; rw [ha] at h; exact h
    | ref n =>
      rw [run'] at h ⊢
      cases ha : run' g sel f (g n) s with
      | none => simp [ha] at h
      | some y => rw [ih _ s y ha]; rw [ha] at h; exact h

theorem run'_mono {f f' : Nat} (hf : f ≤ f') {r : Rule N} {s : Str} {x : Res N} (h : run' g sel f r s = some x) :
    run' g sel f' r s = some x := by
  induction hf with
  | refl => exact h
  | step _ ih => exact run'_succ _ _ _ _ ih

/-! ## Well-formed grammars -/

/-- Which rules may succeed without consuming anything (`nul` says so for the names). -/
def nullable (nul : N → Bool) : Rule N → Bool
  | .one _ => false
  | .lit s => s.isEmpty
  | .utf8 _ _ => false
  | .eof => true
  | .empty => true
  | .seq a b => nullable nul a && nullable nul b
  | .sor a b => nullable nul a || nullable nul b
  | .star _ => true
  | .opt _ => true
  | .notAt _ => true
  | .must _ a => nullable nul a
  | .ref n => nul n

/-- Before anything is consumed, only rules of a rank below `k` are called. -/
def ranked (nul : N → Bool) (rank : N → Nat) (k : Nat) : Rule N → Bool
  | .seq a b => ranked nul rank k a && (!nullable nul a || ranked nul rank k b)
  | .sor a b => ranked nul rank k a && ranked nul rank k b
  | .star a | .opt a | .notAt a | .must _ a => ranked nul rank k a
  | .ref n => rank n < k
  | _ => true

/-- The loops make progress. -/
def progress (nul : N → Bool) : Rule N → Bool
  | .seq a b | .sor a b => progress nul a && progress nul b
  | .star a => !nullable nul a && progress nul a
  | .opt a | .notAt a | .must _ a => progress nul a
  | _ => true

structure WellFormed (g : N → Rule N) (nul : N → Bool) (rank : N → Nat) : Prop where
  null : ∀ n, nullable nul (g n) = true → nul n = true
  order : ∀ n, ranked nul rank (rank n) (g n) = true
  loop : ∀ n, progress nul (g n) = true

theorem peekUtf8_bounds {s : Str} {c n : Nat} (h : peekUtf8 s = some (c, n)) : 0 < n ∧ n ≤ s.length := by
  unfold peekUtf8 at h
  grind

theorem consumed_append (a t : Str) : consumed (a ++ t) t = a := by
  simp [consumed]

/-- What is left is the end of the input, and less than all of it if the rule must consume something. -/
theorem run'_rest {nul : N → Bool} (hnul : ∀ n, nullable nul (g n) = true → nul n = true) :
    ∀ (f : Nat) (r : Rule N) (s : Str) (xs : List (Node N)) (t : Str), run' g sel f r s = some (.ok xs t) →
    (∃ a, s = a ++ t) ∧ (nullable nul r = false → t.length < s.length) := by
  intro f
  induction f with
  | zero => intro r s xs t h; cases h
  | succ f ih =>
    intro r s xs t h
    cases r with
    | one p =>
      cases s with
      | nil => simp [run'] at h
      | cons c u =>
        simp only [run'] at h
        split at h <;> simp at h
        obtain ⟨_, rfl⟩ := h
        exact ⟨⟨[c], rfl⟩, by simp⟩
    | lit l =>
      rw [run'] at h
      split at h <;> simp at h
      rename_i hp
      obtain ⟨_, rfl⟩ := h
      rw [List.isPrefixOf_iff_prefix] at hp
      obtain ⟨u, rfl⟩ := hp
      refine ⟨⟨l, by simp⟩, ?_⟩
      intro hn
      simp only [nullable, List.isEmpty_eq_false_iff] at hn
      have := List.length_pos_iff.2 hn
      simp; omega
    | utf8 lo hi =>
      rw [run'] at h
      cases hp : peekUtf8 s with
      | none => simp [hp] at h
      | some cn =>
        obtain ⟨c, n⟩ := cn
        simp only [hp] at h
        split at h <;> simp at h
        obtain ⟨_, rfl⟩ := h
        have := peekUtf8_bounds hp
        refine ⟨⟨s.take n, by simp⟩, ?_⟩
        intro _; simp; omega
    | eof =>
      rw [run'] at h
      split at h <;> simp at h
      obtain ⟨_, rfl⟩ := h
      exact ⟨⟨[], rfl⟩, by simp [nullable]⟩
    | empty =>
      rw [run'] at h
      simp at h
      obtain ⟨_, rfl⟩ := h
      exact ⟨⟨[], rfl⟩, by simp [nullable]⟩
    | seq a b =>
      rw [run'] at h
      cases ha : run' g sel f a s with
      | none => simp [ha] at h
      | some y =>
        rw [ha] at h
        cases y with
        | fail => simp at h
        | raise m => simp at h
        | ok ys u =>
          simp only at h
          cases hb : run' g sel f b u with
          | none => simp [hb] at h
          | some z =>
            rw [hb] at h
            cases z with
            | fail => simp at h
            | raise m => simp at h
            | ok zs v =>
              simp at h
              obtain ⟨_, rfl⟩ := h
              obtain ⟨⟨p, rfl⟩, h1⟩ := ih _ _ _ _ ha
              obtain ⟨⟨q, rfl⟩, h2⟩ := ih _ _ _ _ hb
              refine ⟨⟨p ++ q, by simp⟩, ?_⟩
              intro hn
              simp only [nullable, Bool.and_eq_false_iff] at hn
              simp only [List.length_append] at h1 h2 ⊢
              rcases hn with hn | hn
              · have := h1 hn; omega
              · have := h2 hn; omega
    | sor a b =>
      rw [run'] at h
      cases ha : run' g sel f a s with
      | none => simp [ha] at h
      | some y =>
        rw [ha] at h
        cases y with
        | fail =>
          obtain ⟨h1, h2⟩ := ih _ _ _ _ h
          exact ⟨h1, fun hn => h2 (by simp [nullable] at hn; exact hn.2)⟩
        | raise m => simp at h
        | ok ys u =>
          simp at h
          obtain ⟨rfl, rfl⟩ := h
          obtain ⟨h1, h2⟩ := ih _ _ _ _ ha
          exact ⟨h1, fun hn => h2 (by simp [nullable] at hn; exact hn.1)⟩
    | star a =>
      refine ⟨?_, by simp [nullable]⟩
      rw [run'] at h
      cases ha : run' g sel f a s with
      | none => simp [ha] at h
      | some y =>
        rw [ha] at h
        cases y with
        | fail => simp at h; exact ⟨[], by simp [h]⟩
        | raise m => simp at h
        | ok ys u =>
          obtain ⟨⟨p, rfl⟩, h1⟩ := ih _ _ _ _ ha
          simp only at h
          split at h
          · cases hb : run' g sel f (.star a) u with
            | none => simp [hb] at h
            | some z =>
              rw [hb] at h
              cases z with
              | fail => simp at h
              | raise m => simp at h
              | ok zs v =>
                simp at h
                obtain ⟨_, rfl⟩ := h
                obtain ⟨⟨q, rfl⟩, _⟩ := ih _ _ _ _ hb
                exact ⟨p ++ q, by simp⟩
          · simp at h; exact ⟨p, by simp [h]⟩
    | opt a =>
      refine ⟨?_, by simp [nullable]⟩
      rw [run'] at h
      cases ha : run' g sel f a s with
      | none => simp [ha] at h
      | some y =>
        rw [ha] at h
        cases y with
        | fail => simp at h; exact ⟨[], by simp [h]⟩
        | raise m => simp at h
        | ok ys u =>
          simp at h; obtain ⟨_, rfl⟩ := h
          exact (ih _ _ _ _ ha).1
    | notAt a =>
      refine ⟨?_, by simp [nullable]⟩
      rw [run'] at h
      cases ha : run' g sel f a s with
      | none => simp [ha] at h
      | some y =>
        rw [ha] at h
        cases y <;> simp at h
        exact ⟨[], by simp [h]⟩
    | must m a =>
      rw [run'] at h
      cases ha : run' g sel f a s with
      | none => simp [ha] at h
      | some y =>
        rw [ha] at h
        cases y with
        | fail => simp at h
        | raise m => simp at h
        | ok ys u => simp at h; obtain ⟨_, rfl⟩ := h; exact ih a _ _ _ ha
    | ref n =>
      rw [run'] at h
      cases ha : run' g sel f (g n) s with
      | none => simp [ha] at h
      | some y =>
        rw [ha] at h
        cases y with
        | fail => simp at h
        | raise m => simp at h
        | ok ys u =>
          simp at h; obtain ⟨_, rfl⟩ := h
          obtain ⟨h1, h2⟩ := ih _ _ _ _ ha
          refine ⟨h1, fun hn => h2 ?_⟩
          cases hc : nullable nul (g n) with
          | false => rfl
          | true => rw [nullable, hnul n hc] at hn; cases hn

/-- Matching comes to an end. -/
def Defined (g : N → Rule N) (sel : N → Sel) (r : Rule N) (s : Str) : Prop := ∃ f x, run' g sel f r s = some x

section

theorem Defined.one (p : Byte → Bool) (s : Str) : Defined g sel (.one p) s := by
  refine ⟨1, ?_⟩
  simp only [run']
  split
  · exact ⟨_, rfl⟩
  · split <;> exact ⟨_, rfl⟩

theorem Defined.lit (l : Str) (s : Str) : Defined g sel (.lit l) s := by
  refine ⟨1, ?_⟩
  simp only [run']
  split <;> exact ⟨_, rfl⟩

theorem Defined.utf8 (lo hi : Nat) (s : Str) : Defined g sel (.utf8 lo hi) s := by
  refine ⟨1, ?_⟩
  simp only [run']
  split
  · split <;> exact ⟨_, rfl⟩
  · exact ⟨_, rfl⟩

theorem Defined.eof (s : Str) : Defined g sel .eof s := by
  refine ⟨1, ?_⟩
  simp only [run']
  split <;> exact ⟨_, rfl⟩

theorem Defined.empty (s : Str) : Defined g sel .empty s := ⟨1, _, rfl⟩

theorem Defined.seq {a b : Rule N} {s : Str} (ha : Defined g sel a s)
    (hb : ∀ f xs t, run' g sel f a s = some (.ok xs t) → Defined g sel b t) : Defined g sel (.seq a b) s := by
  obtain ⟨f, x, hf⟩ := ha
  cases x with
  | fail => exact ⟨f + 1, .fail, by simp [run', hf]⟩
  | raise m => exact ⟨f + 1, .raise m, by simp [run', hf]⟩
  | ok xs t =>
    obtain ⟨f', y, hf'⟩ := hb f xs t hf
    have e1 := run'_mono (Nat.le_max_left f f') hf
    have e2 := run'_mono (Nat.le_max_right f f') hf'
    refine ⟨max f f' + 1, ?_⟩
    simp only [run', e1, e2]
    cases y <;> exact ⟨_, rfl⟩

theorem Defined.sor {a b : Rule N} {s : Str} (ha : Defined g sel a s) (hb : Defined g sel b s) :
    Defined g sel (.sor a b) s := by
  obtain ⟨f, x, hf⟩ := ha
  obtain ⟨f', y, hf'⟩ := hb
  have e1 := run'_mono (Nat.le_max_left f f') hf
  have e2 := run'_mono (Nat.le_max_right f f') hf'
  refine ⟨max f f' + 1, ?_⟩
  simp only [run', e1, e2]
  cases x <;> exact ⟨_, rfl⟩

theorem Defined.star {a : Rule N} {s : Str} (ha : Defined g sel a s)
    (hb : ∀ f xs t, run' g sel f a s = some (.ok xs t) → t.length < s.length → Defined g sel (.star a) t) :
    Defined g sel (.star a) s := by
  obtain ⟨f, x, hf⟩ := ha
  cases x with
  | fail => exact ⟨f + 1, .ok [] s, by simp [run', hf]⟩
  | raise m => exact ⟨f + 1, .raise m, by simp [run', hf]⟩
  | ok xs t =>
    by_cases hl : t.length < s.length
    · obtain ⟨f', y, hf'⟩ := hb f xs t hf hl
      have e1 := run'_mono (Nat.le_max_left f f') hf
      have e2 := run'_mono (Nat.le_max_right f f') hf'
      refine ⟨max f f' + 1, ?_⟩
      simp only [run', e1, e2, hl, if_true]
      cases y <;> exact ⟨_, rfl⟩
    · exact ⟨f + 1, .ok xs t, by simp [run', hf, hl]⟩

theorem Defined.opt {a : Rule N} {s : Str} (ha : Defined g sel a s) : Defined g sel (.opt a) s := by
  obtain ⟨f, x, hf⟩ := ha
  refine ⟨f + 1, ?_⟩
  simp only [run', hf]
  cases x <;> exact ⟨_, rfl⟩

theorem Defined.notAt {a : Rule N} {s : Str} (ha : Defined g sel a s) : Defined g sel (.notAt a) s := by
  obtain ⟨f, x, hf⟩ := ha
  refine ⟨f + 1, ?_⟩
  simp only [run', hf]
  cases x <;> exact ⟨_, rfl⟩

theorem Defined.must {m : Str} {a : Rule N} {s : Str} (ha : Defined g sel a s) : Defined g sel (.must m a) s := by
  obtain ⟨f, x, hf⟩ := ha
  refine ⟨f + 1, ?_⟩
  simp only [run', hf]
  cases x <;> exact ⟨_, rfl⟩

theorem Defined.ref {n : N} {s : Str} (ha : Defined g sel (g n) s) : Defined g sel (.ref n) s := by
  obtain ⟨f, x, hf⟩ := ha
  refine ⟨f + 1, ?_⟩
  simp only [run', hf]
  cases x <;> exact ⟨_, rfl⟩
end

/-- If the names are defined on all inputs not longer than `s`, all rules are defined on `s`. -/
theorem defined_of_refs {L : Nat} (h : ∀ n (s : Str), s.length ≤ L → Defined g sel (.ref n) s)
    {nul : N → Bool} (hnul : ∀ n, nullable nul (g n) = true → nul n = true) (r : Rule N) :
    ∀ s : Str, s.length ≤ L → Defined g sel r s := by
  induction r with
  | one p => intro s _; exact .one p s
  | lit l => intro s _; exact .lit l s
  | utf8 lo hi => intro s _; exact .utf8 lo hi s
  | eof => intro s _; exact .eof s
  | empty => intro s _; exact .empty s
  | seq a b iha ihb =>
    intro s hs
    refine .seq (iha s hs) fun f xs t hf => ihb t ?_
    obtain ⟨⟨p, rfl⟩, _⟩ := run'_rest hnul _ _ _ _ _ hf
    simp at hs; omega
  | sor a b iha ihb => intro s hs; exact .sor (iha s hs) (ihb s hs)
  | star a iha =>
    intro s
    generalize hk : s.length = k
    induction k using Nat.strongRecOn generalizing s with
    | ind k ih =>
      intro hs
      exact .star (iha s (by omega)) fun f xs t _ hl => ih t.length (by omega) t rfl (by omega)
  | opt a iha => intro s hs; exact .opt (iha s hs)
  | notAt a iha => intro s hs; exact .notAt (iha s hs)
  | must m a iha => intro s hs; exact .must (iha s hs)
  | ref n => intro s hs; exact h n s hs

/-- The rules which call only names of rank below `k` first. -/
theorem defined_of_ranked {nul : N → Bool} {rank : N → Nat} (hnul : ∀ n, nullable nul (g n) = true → nul n = true)
    {s : Str} {k : Nat} (hless : ∀ n (t : Str), t.length < s.length → Defined g sel (.ref n) t)
    (hrank : ∀ n, rank n < k → Defined g sel (.ref n) s) (r : Rule N) (hr : ranked nul rank k r = true) :
    Defined g sel r s := by
  have less : ∀ (r : Rule N) (t : Str), t.length < s.length → Defined g sel r t := fun r t ht =>
    defined_of_refs (L := t.length) (fun n u hu => hless n u (by omega)) hnul r t (Nat.le_refl _)
  induction r with
  | one p => exact .one p s
  | lit l => exact .lit l s
  | utf8 lo hi => exact .utf8 lo hi s
  | eof => exact .eof s
  | empty => exact .empty s
  | seq a b iha ihb =>
    simp only [ranked, Bool.and_eq_true, Bool.or_eq_true, Bool.not_eq_true'] at hr
    refine .seq (iha hr.1) fun f xs t hf => ?_
    obtain ⟨⟨p, rfl⟩, hl⟩ := run'_rest hnul _ _ _ _ _ hf
    rcases hr.2 with hn | hb
    · exact less b t (hl hn)
    · cases p with
      | nil => exact ihb hb
      | cons c p => exact less b t (by simp; omega)
  | sor a b iha ihb =>
    simp only [ranked, Bool.and_eq_true] at hr
    exact .sor (iha hr.1) (ihb hr.2)
  | star a iha => exact .star (iha hr) fun f xs t _ hl => less _ t hl
  | opt a iha => exact .opt (iha hr)
  | notAt a iha => exact .notAt (iha hr)
  | must m a iha => exact .must (iha hr)
  | ref n => exact hrank n (by simpa [ranked] using hr)

/-- In a well-formed grammar, matching always comes to an end. -/
theorem WellFormed.defined_ref {nul : N → Bool} {rank : N → Nat} (h : WellFormed g nul rank) (n : N) (s : Str) :
    Defined g sel (.ref n) s := by
  generalize hl : s.length = L
  induction L using Nat.strongRecOn generalizing s n with
  | ind L ihL =>
    generalize hk : rank n = k
    induction k using Nat.strongRecOn generalizing n with
    | ind k ihk =>
      refine .ref (defined_of_ranked h.null (k := k) (fun m t ht => ihL t.length (by omega) m t rfl)
        (fun m hm => ihk _ hm m rfl) (g n) ?_)
      rw [← hk]; exact h.order n

theorem WellFormed.defined {nul : N → Bool} {rank : N → Nat} (h : WellFormed g nul rank) (r : Rule N) (s : Str) :
    Defined g sel r s :=
  defined_of_refs (L := s.length) (fun n t _ => h.defined_ref n t) h.null r s (Nat.le_refl _)

/-- In a well-formed grammar every loop makes progress, so that the guard does not matter. -/
theorem WellFormed.run_eq {nul : N → Bool} {rank : N → Nat} (h : WellFormed g nul rank) :
    ∀ (f : Nat) (r : Rule N) (s : Str), progress nul r = true → run g sel f r s = run' g sel f r s := by
  intro f
  induction f with
  | zero => intro r s _; rfl
  | succ f ih =>
    intro r s hp
    cases r with
    | one p => rfl
    | lit l => rfl
    | utf8 lo hi => rfl
    | eof => rfl
    | empty => rfl
    | seq a b =>
      simp only [progress, Bool.and_eq_true] at hp
      simp only [run, run', ih a s hp.1, fun t => ih b t hp.2]; rfl
    | sor a b =>
      simp only [progress, Bool.and_eq_true] at hp
      simp only [run, run', ih a s hp.1, fun t => ih b t hp.2]; rfl
    | star a =>
      have hp' := hp
      simp only [progress, Bool.and_eq_true, Bool.not_eq_true'] at hp
      simp only [run, run', ih a s hp.2, fun t => ih (.star a) t hp']
      cases ha : run' g sel f a s with
      | none => rfl
      | some y =>
        cases y with
        | fail => rfl
        | raise m => rfl
        | ok xs t =>
          have := (run'_rest h.null _ _ _ _ _ ha).2 hp.1
          simp only [this, if_true]; rfl
    | opt a => simp only [run, run', ih a s hp]; rfl
    | notAt a => simp only [run, run', ih a s hp]; rfl
    | must m a => simp only [run, run', ih a s hp]; rfl
    | ref n => simp only [run, run', ih (g n) s (h.loop n)]; rfl

end Verif.Peg
