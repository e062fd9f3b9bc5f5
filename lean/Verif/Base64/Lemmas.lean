import Verif.Base64.Model
import Verif.Base64.Spec

namespace Verif.Base64
open Spec

theorem padding_eq : padding = pad := by decide

theorem letter_ne_pad (s : BitVec 6) : letter s ≠ pad := by
  revert s; decide +kernel

theorem toBase64Char_letter (s : BitVec 6) : toBase64Char (s.setWidth 8) = letter s := by
  revert s; decide +kernel

theorem fromBase64Char_letter (s : BitVec 6) : fromBase64Char (letter s) = s.setWidth 8 := by
  revert s; decide +kernel

theorem fromBase64Char_cases (c : Byte) :
    (fromBase64Char c ≤ 63 ∧ letter ((fromBase64Char c).setWidth 6) = c) ∨ fromBase64Char c > 63 := by
  revert c; decide +kernel

@[simp] theorem verifyTo_letter (s : BitVec 6) : verifyToBase64 (s.setWidth 8) = .ok (letter s) := by
  have := letter_ne_pad s
  simp [verifyToBase64, toBase64Char_letter, padding_eq, this]

theorem setWidth_le (s : BitVec 6) : ¬ ((s.setWidth 8 : BitVec 8) > 63) := by
  revert s; decide +kernel

@[simp] theorem verifyFrom_letter (s : BitVec 6) : verifyFromBase64 (letter s) = .ok (s.setWidth 8) := by
  have := setWidth_le s
  simp [verifyFromBase64, fromBase64Char_letter] at *
  exact this

theorem verifyFrom_ok {c v : Byte} (h : verifyFromBase64 c = .ok v) :
    ∃ s : BitVec 6, c = letter s ∧ v = s.setWidth 8 := by
  rcases fromBase64Char_cases c with ⟨h1, h2⟩ | h1
  · refine ⟨(fromBase64Char c).setWidth 6, h2.symm, ?_⟩
    have := verifyFrom_letter ((fromBase64Char c).setWidth 6)
    rw [h2, h] at this
    exact Except.ok.inj this
  · simp only [verifyFromBase64, h1, if_true] at h
    cases h

@[simp] theorem verifyFrom_pad : verifyFromBase64 pad = .error .invalidCharacter := by rfl

theorem byte_ext {a b : BitVec 8} (h0 : a.getLsbD 0 = b.getLsbD 0) (h1 : a.getLsbD 1 = b.getLsbD 1)
    (h2 : a.getLsbD 2 = b.getLsbD 2) (h3 : a.getLsbD 3 = b.getLsbD 3) (h4 : a.getLsbD 4 = b.getLsbD 4)
    (h5 : a.getLsbD 5 = b.getLsbD 5) (h6 : a.getLsbD 6 = b.getLsbD 6) (h7 : a.getLsbD 7 = b.getLsbD 7) :
    a = b := by
  apply BitVec.eq_of_getLsbD_eq
  intro i hi
  have : i = 0 ∨ i = 1 ∨ i = 2 ∨ i = 3 ∨ i = 4 ∨ i = 5 ∨ i = 6 ∨ i = 7 := by omega
  rcases this with rfl | rfl | rfl | rfl | rfl | rfl | rfl | rfl <;> assumption

/-- Close an equality of 8 bit words bit by bit. -/
macro "bytewise" : tactic => `(tactic|
  (apply byte_ext <;> simp))

/-- Close an equality of bit streams bit by bit. -/
macro "streamwise" : tactic => `(tactic|
  (simp [sextetBits, byteBits, bits, List.range, List.range.loop, BitVec.getMsbD]))

/-- 24 bit block seen by the encoder. -/
theorem enc_block (d0 d1 d2 : Byte) : ∃ s0 s1 s2 s3 : BitVec 6,
    let segment : BitVec 32 := (d0.setWidth 32 <<< 16) ||| (d1.setWidth 32 <<< 8) ||| d2.setWidth 32
    ((segment &&& 0xFC0000) >>> 18).setWidth 8 = s0.setWidth 8 ∧
    ((segment &&& 0x3F000) >>> 12).setWidth 8 = s1.setWidth 8 ∧
    ((segment &&& 0xFC0) >>> 6).setWidth 8 = s2.setWidth 8 ∧
    (segment &&& 0x3F).setWidth 8 = s3.setWidth 8 ∧
    sextetBits [s0, s1, s2, s3] = byteBits [d0, d1, d2] := by
  refine ⟨(d0 >>> 2).setWidth 6, ((d0.setWidth 6 <<< 4) ||| (d1 >>> 4).setWidth 6),
    ((d1.setWidth 6 <<< 2) ||| (d2 >>> 6).setWidth 6), d2.setWidth 6, ?_, ?_, ?_, ?_, ?_⟩
  · bytewise
  · bytewise
  · bytewise
  · bytewise
  · streamwise

theorem enc_tail1 (d0 : Byte) : ∃ s0 s1 : BitVec 6,
    let segment : BitVec 16 := (d0.setWidth 16 <<< 8) ||| 0
    ((segment &&& 0xFC00) >>> 10).setWidth 8 = s0.setWidth 8 ∧
    ((segment &&& 0x3F0) >>> 4).setWidth 8 = s1.setWidth 8 ∧
    sextetBits [s0, s1] = byteBits [d0] ++ List.replicate 4 false := by
  refine ⟨(d0 >>> 2).setWidth 6, (d0.setWidth 6 <<< 4), ?_, ?_, ?_⟩
  · bytewise
  · bytewise
  · streamwise

theorem enc_tail2 (d0 d1 : Byte) : ∃ s0 s1 s2 : BitVec 6,
    let segment : BitVec 16 := (d0.setWidth 16 <<< 8) ||| d1.setWidth 16
    ((segment &&& 0xFC00) >>> 10).setWidth 8 = s0.setWidth 8 ∧
    ((segment &&& 0x3F0) >>> 4).setWidth 8 = s1.setWidth 8 ∧
    ((segment &&& 0xF) <<< 2).setWidth 8 = s2.setWidth 8 ∧
    sextetBits [s0, s1, s2] = byteBits [d0, d1] ++ List.replicate 2 false := by
  refine ⟨(d0 >>> 2).setWidth 6, ((d0.setWidth 6 <<< 4) ||| (d1 >>> 4).setWidth 6), (d1.setWidth 6 <<< 2), ?_, ?_, ?_, ?_⟩
  · bytewise
  · bytewise
  · bytewise
  · streamwise

/-- 24 bit block seen by the decoder. -/
theorem dec_block (s0 s1 s2 s3 : BitVec 6) :
    let segment : BitVec 32 :=
      ((s0.setWidth 8).setWidth 32 <<< 18) ||| ((s1.setWidth 8).setWidth 32 <<< 12) |||
        ((s2.setWidth 8).setWidth 32 <<< 6) ||| (s3.setWidth 8).setWidth 32
    sextetBits [s0, s1, s2, s3] = byteBits [((segment &&& 0xFF0000) >>> 16).setWidth 8,
         ((segment &&& 0xFF00) >>> 8).setWidth 8,
         (segment &&& 0xFF).setWidth 8] := by
  streamwise

theorem dec_tail3 (s0 s1 s2 : BitVec 6) (h : (s2.setWidth 8 : Byte) &&& 0x3 = 0) :
    let segment : BitVec 16 := ((s0.setWidth 8).setWidth 16 <<< 10) ||| ((s1.setWidth 8).setWidth 16 <<< 4)
      ||| ((s2.setWidth 8).setWidth 16 >>> 2)
    sextetBits [s0, s1, s2] = byteBits [((segment &&& 0xFF00) >>> 8).setWidth 8, (segment &&& 0xFF).setWidth 8]
      ++ List.replicate 2 false := by
  have h0 := congrArg (fun w => w.getLsbD 0) h
  have h1 := congrArg (fun w => w.getLsbD 1) h
  simp at h0 h1
  simp [sextetBits, byteBits, bits, List.range, List.range.loop, BitVec.getMsbD, 
h0, h1]

theorem dec_tail2 (s0 s1 : BitVec 6)
    (h : (((s0.setWidth 8).setWidth 16 <<< 10) ||| ((s1.setWidth 8).setWidth 16 <<< 4)
      ||| ((0 : Byte).setWidth 16 >>> 2) : BitVec 16) &&& 0xFF = 0) :
    let segment : BitVec 16 := ((s0.setWidth 8).setWidth 16 <<< 10) ||| ((s1.setWidth 8).setWidth 16 <<< 4)
      ||| ((0 : Byte).setWidth 16 >>> 2)
    sextetBits [s0, s1] = byteBits [((segment &&& 0xFF00) >>> 8).setWidth 8]
      ++ List.replicate 4 false := by
  have h0 := congrArg (fun w => w.getLsbD 4) h
  have h1 := congrArg (fun w => w.getLsbD 5) h
  have h2 := congrArg (fun w => w.getLsbD 6) h
  have h3 := congrArg (fun w => w.getLsbD 7) h
  simp at h0 h1 h2 h3
  simp [sextetBits, byteBits, bits, List.range, List.range.loop, BitVec.getMsbD, 
h0, h1, h2, h3]

theorem dec_tail3' (s0 s1 s2 : BitVec 6) (b0 b1 : Byte)
    (h : sextetBits [s0, s1, s2] = byteBits [b0, b1] ++ List.replicate 2 false) :
    (s2.setWidth 8 : Byte) &&& 0x3 = 0 := by
  simp [sextetBits, byteBits, bits, List.range, List.range.loop, BitVec.getMsbD] at h
  bytewise <;> simp_all

theorem dec_tail2' (s0 s1 : BitVec 6) (b0 : Byte)
    (h : sextetBits [s0, s1] = byteBits [b0] ++ List.replicate 4 false) :
    (((s0.setWidth 8).setWidth 16 <<< 10) ||| ((s1.setWidth 8).setWidth 16 <<< 4)
      ||| ((0 : Byte).setWidth 16 >>> 2) : BitVec 16) &&& 0xFF = 0 := by
  simp [sextetBits, byteBits, bits, List.range, List.range.loop, BitVec.getMsbD] at h
  ext i hi
  have : i = 0 ∨ i = 1 ∨ i = 2 ∨ i = 3 ∨ i = 4 ∨ i = 5 ∨ i = 6 ∨ i = 7 ∨
    i = 8 ∨ i = 9 ∨ i = 10 ∨ i = 11 ∨ i = 12 ∨ i = 13 ∨ i = 14 ∨ i = 15 := by omega
  rcases this with rfl | rfl | rfl | rfl | rfl | rfl | rfl | rfl | rfl | rfl | rfl | rfl | rfl | rfl | rfl | rfl <;>
    simp <;> simp_all


@[simp] theorem bits_length {n} (w : BitVec n) : (bits w).length = n := by simp [bits]

theorem byteBits_length (bs : List Byte) : (byteBits bs).length = 8 * bs.length := by
  induction bs with
  | nil => rfl
  | cons b bs ih => simp [byteBits, List.flatMap_cons] at *; omega

theorem sextetBits_length (ss : List (BitVec 6)) : (sextetBits ss).length = 6 * ss.length := by
  induction ss with
  | nil => rfl
  | cons b bs ih => simp [sextetBits, List.flatMap_cons] at *; omega

theorem sextetBits_append (a b : List (BitVec 6)) : sextetBits (a ++ b) = sextetBits a ++ sextetBits b := by
  simp [sextetBits]

theorem byteBits_append (a b : List Byte) : byteBits (a ++ b) = byteBits a ++ byteBits b := by
  simp [byteBits]

theorem bits_inj {n} {a b : BitVec n} (h : bits a = bits b) : a = b := by
  apply BitVec.eq_of_getMsbD_eq
  intro i hi
  have := congrArg (fun l => l[i]?) h
  simpa [bits, hi] using this

theorem byteBits_inj {a b : List Byte} (h : byteBits a = byteBits b) : a = b := by
  induction a generalizing b with
  | nil =>
    have := congrArg List.length h
    rw [byteBits_length, byteBits_length] at this
    cases b <;> simp_all
  | cons x xs ih =>
    cases b with
    | nil =>
      have := congrArg List.length h
      rw [byteBits_length, byteBits_length] at this
      simp at this
    | cons y ys =>
      simp only [byteBits, List.flatMap_cons] at h
      have := List.append_inj h (by simp)
      rw [bits_inj this.1, ih this.2]

theorem sextetBits_inj {a b : List (BitVec 6)} (h : sextetBits a = sextetBits b) : a = b := by
  induction a generalizing b with
  | nil =>
    have := congrArg List.length h
    rw [sextetBits_length, sextetBits_length] at this
    cases b <;> simp_all
  | cons x xs ih =>
    cases b with
    | nil =>
      have := congrArg List.length h
      rw [sextetBits_length, sextetBits_length] at this
      simp at this
    | cons y ys =>
      simp only [sextetBits, List.flatMap_cons] at h
      have := List.append_inj h (by simp)
      rw [bits_inj this.1, ih this.2]

/-- The bytes carried by given 6 bit groups are unique. -/
theorem carries_unique {ss : List (BitVec 6)} {a b : List Byte} (ha : Carries ss a) (hb : Carries ss b) :
    a = b := by
  obtain ⟨k, hk, h1⟩ := ha
  obtain ⟨l, hl, h2⟩ := hb
  rw [h1] at h2
  have hlen := congrArg List.length h2
  simp only [List.length_append, byteBits_length, List.length_replicate] at hlen
  have : k = l := by omega
  subst this
  exact byteBits_inj (List.append_cancel_right h2)

/-- The 6 bit groups carrying given bytes are unique. -/
theorem carries_unique' {ss tt : List (BitVec 6)} {a : List Byte} (ha : Carries ss a) (hb : Carries tt a) :
    ss = tt := by
  obtain ⟨k, hk, h1⟩ := ha
  obtain ⟨l, hl, h2⟩ := hb
  have e1 := congrArg List.length h1
  have e2 := congrArg List.length h2
  simp only [List.length_append, byteBits_length, sextetBits_length, List.length_replicate] at e1 e2
  have : k = l := by omega
  subst this
  exact sextetBits_inj (h1.trans h2.symm)

theorem carries_cons {blk : List (BitVec 6)} {ds : List Byte} {ss bs}
    (h : sextetBits blk = byteBits ds) (hc : Carries ss bs) : Carries (blk ++ ss) (ds ++ bs) := by
  obtain ⟨k, hk, h1⟩ := hc
  exact ⟨k, hk, by rw [sextetBits_append, byteBits_append, h, h1, List.append_assoc]⟩

/-- The encoder, in terms of 6 bit groups. -/
theorem toBase64Loop_spec (bs : List Byte) (res : List Byte) :
    ∃ ss, Carries ss bs ∧
      toBase64Loop bs res = .ok (res ++ ss.map letter ++ List.replicate ((3 - bs.length % 3) % 3) pad) := by
  fun_induction toBase64Loop bs res with
  | case1 res d0 d1 d2 rest segment ih =>
    obtain ⟨s0, s1, s2, s3, h0, h1, h2, h3, hb⟩ := enc_block d0 d1 d2
    simp only [segment] at *
    rw [h0, h1, h2, h3]
    obtain ⟨ss, hc, he⟩ := ih (letter s0) (letter s1) (letter s2) (letter s3)
    refine ⟨[s0, s1, s2, s3] ++ ss, carries_cons hb hc, ?_⟩
    simp only [verifyTo_letter]
    simp only [bind, Except.bind]
    rw [he]
    simp [Nat.add_mod_right, Nat.add_assoc]
  | case2 res => exact ⟨[], ⟨0, by omega, by rfl⟩, by simp⟩
  | case3 res d0 segment =>
    obtain ⟨s0, s1, h0, h1, hb⟩ := enc_tail1 d0
    refine ⟨[s0, s1], ⟨4, by omega, hb⟩, ?_⟩
    simp only [segment] at *
    rw [h0, h1]
    simp [verifyTo_letter, bind, Except.bind, padding_eq]
  | case4 res d0 d1 segment =>
    obtain ⟨s0, s1, s2, h0, h1, h2, hb⟩ := enc_tail2 d0 d1
    refine ⟨[s0, s1, s2], ⟨2, by omega, hb⟩, ?_⟩
    simp only [segment] at *
    rw [h0, h1, h2]
    simp [verifyTo_letter, bind, Except.bind, padding_eq]

theorem toBase64_eq_loop (bs : List Byte) : toBase64 bs = toBase64Loop bs [] := by
  cases bs with
  | nil => simp [toBase64, toBase64Loop]
  | cons => simp [toBase64]

/-- Number of padding characters the decoder tolerates after `n` alphabet characters. -/
def padBound (n : Nat) : Nat := if n % 4 = 0 then 1 else 2

theorem finish_pad (p : Nat) (res : List Byte) (hp : p ≤ 2) :
    fromBase64Finish (List.replicate p pad) res = .ok res := by
  have : p = 0 ∨ p = 1 ∨ p = 2 := by omega
  rcases this with rfl | rfl | rfl <;> simp [fromBase64Finish, padding_eq, List.replicate]

theorem finish_ok {e res r : List Byte} (h : fromBase64Finish e res = .ok r) :
    r = res ∧ ∃ p, p ≤ 2 ∧ e = List.replicate p pad := by
  unfold fromBase64Finish at h
  split at h
  · exact ⟨(Except.ok.inj h).symm, 0, by omega, rfl⟩
  · split at h
    · cases h
    · rename_i a h'
      simp [padding_eq] at h'
      exact ⟨(Except.ok.inj h).symm, 1, by omega, by simp [h', List.replicate]⟩
  · split at h
    · cases h
    · rename_i a b h'
      simp [padding_eq] at h'
      exact ⟨(Except.ok.inj h).symm, 2, by omega, by simp [h', List.replicate]⟩
  · cases h

theorem letter_bne_padding (s : BitVec 6) : (letter s != padding) = true := by
  simp [padding_eq, letter_ne_pad]

/-- Soundness of the decoder's leftover handling. -/
theorem tail_ok {e res r : List Byte} (h : fromBase64Tail e res = .ok r) :
    (∃ p, p ≤ 1 ∧ e = List.replicate p pad ∧ r = res) ∨
    (∃ ss bs p, p ≤ 2 ∧ (ss.length = 2 ∨ ss.length = 3) ∧ Carries ss bs ∧
      e = ss.map letter ++ List.replicate p pad ∧ r = res ++ bs) := by
  unfold fromBase64Tail at h
  split at h
  · rename_i c0 c1 rest
    right
    split at h
    · -- three characters or more
      rename_i c2 rest'
      simp only at h
      by_cases hc : (c2 != padding) = true
      · rw [hc] at h
        simp only [if_true] at h
        cases hv2 : verifyFromBase64 c2 with
        | error => simp [hv2, bind, Except.bind] at h
        | ok v2 =>
        cases hv0 : verifyFromBase64 c0 with
        | error => simp [hv2, hv0, bind, Except.bind] at h
        | ok v0 =>
        cases hv1 : verifyFromBase64 c1 with
        | error => simp [hv2, hv0, hv1, bind, Except.bind] at h
        | ok v1 =>
        obtain ⟨s0, rfl, rfl⟩ := verifyFrom_ok hv0
        obtain ⟨s1, rfl, rfl⟩ := verifyFrom_ok hv1
        obtain ⟨s2, rfl, rfl⟩ := verifyFrom_ok hv2
        simp only [hv0, hv1, hv2] at h
        simp only [bind, Except.bind] at h
        split at h
        · cases h
        · rename_i hz
          obtain ⟨rfl, p, hp, hrest⟩ := finish_ok h
          refine ⟨[s0, s1, s2], _, p, hp, by simp, ⟨2, by omega, dec_tail3 s0 s1 s2 (by simpa using hz)⟩, ?_, rfl⟩
          simp at hrest
          simp [hrest]
      · have hc' : (c2 != padding) = false := by simpa using hc
        rw [hc'] at h
        simp only [Bool.false_eq_true, if_false, pure, Except.pure] at h
        cases hv0 : verifyFromBase64 c0 with
        | error => simp [hv0, bind, Except.bind] at h
        | ok v0 =>
        cases hv1 : verifyFromBase64 c1 with
        | error => simp [hv0, hv1, bind, Except.bind] at h
        | ok v1 =>
        obtain ⟨s0, rfl, rfl⟩ := verifyFrom_ok hv0
        obtain ⟨s1, rfl, rfl⟩ := verifyFrom_ok hv1
        simp only [hv0, hv1] at h
        simp only [bind, Except.bind] at h
        split at h
        · cases h
        · rename_i hz
          obtain ⟨rfl, p, hp, hrest⟩ := finish_ok h
          refine ⟨[s0, s1], _, p, hp, by simp, ⟨4, by omega, dec_tail2 s0 s1 (by simpa using hz)⟩, ?_, rfl⟩
          simp [hrest]
    · simp only [Bool.false_eq_true, if_false, pure, Except.pure] at h
      cases hv0 : verifyFromBase64 c0 with
      | error => simp [hv0, bind, Except.bind] at h
      | ok v0 =>
      cases hv1 : verifyFromBase64 c1 with
      | error => simp [hv0, hv1, bind, Except.bind] at h
      | ok v1 =>
      obtain ⟨s0, rfl, rfl⟩ := verifyFrom_ok hv0
      obtain ⟨s1, rfl, rfl⟩ := verifyFrom_ok hv1
      simp only [hv0, hv1] at h
      simp only [bind, Except.bind] at h
      split at h
      · cases h
      · rename_i hz
        obtain ⟨rfl, p, hp, hrest⟩ := finish_ok h
        refine ⟨[s0, s1], _, p, hp, by simp, ⟨4, by omega, dec_tail2 s0 s1 (by simpa using hz)⟩, ?_, rfl⟩
        rw [← hrest]; simp
  · rename_i hshort
    left
    obtain ⟨rfl, p, hp, rfl⟩ := finish_ok h
    have : p ≠ 2 := by
      rintro rfl
      exact hshort pad pad [] rfl
    exact ⟨p, by omega, rfl, rfl⟩

/-- Soundness of the decoder. -/
theorem loop_ok {e res r : List Byte} (h : fromBase64Loop e res = .ok r) :
    ∃ ss bs p, p ≤ padBound ss.length ∧ Carries ss bs ∧
      e = ss.map letter ++ List.replicate p pad ∧ r = res ++ bs := by
  have htail : ∀ e res, fromBase64Tail e res = .ok r → ∃ ss bs p, p ≤ padBound ss.length ∧ Carries ss bs ∧
      e = ss.map letter ++ List.replicate p pad ∧ r = res ++ bs := by
    intro e res h
    rcases tail_ok h with ⟨p, hp, rfl, rfl⟩ | ⟨ss, bs, p, hp, hl, hc, rfl, rfl⟩
    · exact ⟨[], [], p, by simp [padBound]; omega, ⟨0, by omega, rfl⟩, by simp, by simp⟩
    · refine ⟨ss, bs, p, ?_, hc, rfl, rfl⟩
      rcases hl with hl | hl <;> simp [padBound, hl] <;> omega
  fun_induction fromBase64Loop e res with
  | case1 res c0 c1 c2 c3 rest hc3 ih =>
    cases hv0 : verifyFromBase64 c0 with
    | error => simp [hv0, bind, Except.bind] at h
    | ok v0 =>
    cases hv1 : verifyFromBase64 c1 with
    | error => simp [hv0, hv1, bind, Except.bind] at h
    | ok v1 =>
    cases hv2 : verifyFromBase64 c2 with
    | error => simp [hv0, hv1, hv2, bind, Except.bind] at h
    | ok v2 =>
    cases hv3 : verifyFromBase64 c3 with
    | error => simp [hv0, hv1, hv2, hv3, bind, Except.bind] at h
    | ok v3 =>
    obtain ⟨s0, rfl, rfl⟩ := verifyFrom_ok hv0
    obtain ⟨s1, rfl, rfl⟩ := verifyFrom_ok hv1
    obtain ⟨s2, rfl, rfl⟩ := verifyFrom_ok hv2
    obtain ⟨s3, rfl, rfl⟩ := verifyFrom_ok hv3
    rw [hv0, hv1, hv2, hv3] at h
    obtain ⟨ss, bs, p, hp, hc, rfl, rfl⟩ := ih _ _ _ _ h
    refine ⟨[s0, s1, s2, s3] ++ ss, _, p, ?_, carries_cons (dec_block s0 s1 s2 s3) hc, ?_, ?_⟩
    · simpa [padBound, Nat.add_assoc] using hp
    · simp
    · simp
  | case2 res c0 c1 c2 c3 rest hc3 => exact htail _ _ h
  | case3 res e hshort => exact htail _ _ h

/-- Completeness of the decoder. -/
theorem loop_complete (ss : List (BitVec 6)) (bs : List Byte) (p : Nat) (res : List Byte)
    (hp : p ≤ padBound ss.length) (hc : Carries ss bs) :
    fromBase64Loop (ss.map letter ++ List.replicate p pad) res = .ok (res ++ bs) := by
  match ss with
  | s0 :: s1 :: s2 :: s3 :: rest =>
    obtain ⟨k, hk, hb⟩ := hc
    have hlen := congrArg List.length hb
    simp only [List.length_append, byteBits_length, sextetBits_length, List.length_replicate,
      List.length_cons] at hlen
    match bs with
    | [] => simp at hlen; omega
    | [_] => simp at hlen; omega
    | [_, _] => simp at hlen; omega
    | b0 :: b1 :: b2 :: bs' =>
      have e1 : sextetBits (s0 :: s1 :: s2 :: s3 :: rest) = sextetBits [s0, s1, s2, s3] ++ sextetBits rest :=
        sextetBits_append [s0, s1, s2, s3] rest
      have e2 : byteBits (b0 :: b1 :: b2 :: bs') = byteBits [b0, b1, b2] ++ byteBits bs' :=
        byteBits_append [b0, b1, b2] bs'
      rw [e1, e2, List.append_assoc] at hb
      have hsplit := List.append_inj hb (by rw [sextetBits_length, byteBits_length]; simp)
      have hrest : Carries rest bs' := ⟨k, hk, hsplit.2⟩
      have hblk := byteBits_inj ((dec_block s0 s1 s2 s3).symm.trans hsplit.1)
      have ih := loop_complete rest bs' p (res ++ [b0, b1, b2])
        (by simpa [padBound, Nat.add_assoc] using hp) hrest
      simp only [List.map_cons, List.cons_append]
      rw [fromBase64Loop]
      have h3 : letter s3 ≠ padding := by rw [padding_eq]; exact letter_ne_pad s3
      rw [if_pos h3]
      simp only [verifyFrom_letter]
      simp only [bind, Except.bind]
      rw [hblk]
      simpa using ih
  | [] =>
    obtain ⟨k, hk, hb⟩ := hc
    have hlen := congrArg List.length hb
    simp only [List.length_append, byteBits_length, sextetBits_length, List.length_replicate,
      List.length_nil] at hlen
    have : bs = [] := by
      cases bs with
      | nil => rfl
      | cons => simp only [List.length_cons] at hlen; omega
    subst this
    have : p = 0 ∨ p = 1 := by simp [padBound] at hp; omega
    rcases this with rfl | rfl <;>
      simp [fromBase64Loop, fromBase64Tail, fromBase64Finish, padding_eq, List.replicate]
  | [s0] =>
    obtain ⟨k, hk, hb⟩ := hc
    have hlen := congrArg List.length hb
    simp only [List.length_append, byteBits_length, sextetBits_length, List.length_replicate,
      List.length_cons, List.length_nil] at hlen
    omega
  | [s0, s1] =>
    obtain ⟨k, hk, hb⟩ := hc
    have hlen := congrArg List.length hb
    simp only [List.length_append, byteBits_length, sextetBits_length, List.length_replicate,
      List.length_cons, List.length_nil] at hlen
    have h1 : bs.length = 1 := by omega
    have h4 : k = 4 := by omega
    subst h4
    match bs, h1 with
    | [b0], _ =>
    have hz := dec_tail2' s0 s1 b0 hb
    have hv : [b0] = _ := byteBits_inj (List.append_cancel_right (hb.symm.trans (dec_tail2 s0 s1 hz)))
    rw [hv]
    have hp2 : p ≤ 2 := by simpa [padBound] using hp
    have hloop : fromBase64Loop (List.map letter [s0, s1] ++ List.replicate p pad) res
        = fromBase64Tail (List.map letter [s0, s1] ++ List.replicate p pad) res := by
      have : p = 0 ∨ p = 1 ∨ p = 2 := by omega
      rcases this with rfl | rfl | rfl <;> simp [fromBase64Loop, List.replicate, padding_eq]
    rw [hloop]
    have : p = 0 ∨ p = 1 ∨ p = 2 := by omega
    rcases this with rfl | rfl | rfl
    all_goals
      simp only [List.map_cons, List.map_nil, List.cons_append, List.nil_append, List.replicate, fromBase64Tail,
        padding_eq, bne_self_eq_false, verifyFrom_letter]
      simp only [bind, Except.bind, pure, Except.pure]
      simp only [Bool.false_eq_true, if_false]
      rw [if_neg (by simpa using hz)]
      simp [fromBase64Finish, padding_eq]
  | [s0, s1, s2] =>
    obtain ⟨k, hk, hb⟩ := hc
    have hlen := congrArg List.length hb
    simp only [List.length_append, byteBits_length, sextetBits_length, List.length_replicate,
      List.length_cons, List.length_nil] at hlen
    have h1 : bs.length = 2 := by omega
    have h4 : k = 2 := by omega
    subst h4
    match bs, h1 with
    | [b0, b1], _ =>
    have hz := dec_tail3' s0 s1 s2 b0 b1 hb
    have hv : [b0, b1] = _ := byteBits_inj (List.append_cancel_right (hb.symm.trans (dec_tail3 s0 s1 s2 hz)))
    rw [hv]
    have hp2 : p ≤ 2 := by simpa [padBound] using hp
    have hloop : fromBase64Loop (List.map letter [s0, s1, s2] ++ List.replicate p pad) res
        = fromBase64Tail (List.map letter [s0, s1, s2] ++ List.replicate p pad) res := by
      have : p = 0 ∨ p = 1 ∨ p = 2 := by omega
      rcases this with rfl | rfl | rfl <;> simp [fromBase64Loop, List.replicate, padding_eq]
    rw [hloop]
    have : p = 0 ∨ p = 1 ∨ p = 2 := by omega
    have hn : (letter s2 != padding) = true := letter_bne_padding s2
    rcases this with rfl | rfl | rfl
    all_goals
      simp only [List.map_cons, List.map_nil, List.cons_append, List.nil_append, List.replicate, fromBase64Tail,
        hn, verifyFrom_letter]
      simp only [bind, Except.bind, if_true]
      rw [if_neg (by simpa using hz)]
      simp [fromBase64Finish, padding_eq]
termination_by ss.length

theorem fromBase64_eq_loop (e : List Byte) : fromBase64 e = fromBase64Loop e [] := by
  cases e with
  | nil => simp [fromBase64, fromBase64Loop, fromBase64Tail, fromBase64Finish]
  | cons => simp [fromBase64]

end Verif.Base64
