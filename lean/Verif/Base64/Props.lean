import Verif.Base64.Lemmas

/-!
# C01, C02, C03: Base64 properties

`toBase64`/`fromBase64` are the model of the code; `Spec.*` is RFC 4648 in terms of bit streams.
-/
namespace Verif.Base64
open Spec

/-- **C01.** Encoding any byte vector does not throw, and decoding the text gives exactly the byte vector back. -/
theorem C01_base64_roundtrip (bs : List Byte) :
    ∃ txt, toBase64 bs = .ok txt ∧ fromBase64 txt = .ok bs := by
  obtain ⟨ss, hc, he⟩ := toBase64Loop_spec bs []
  refine ⟨_, by rw [toBase64_eq_loop]; exact he, ?_⟩
  rw [fromBase64_eq_loop]
  have hlen : ss.length % 4 ≠ 0 ∨ (3 - bs.length % 3) % 3 = 0 := by
    obtain ⟨k, hk, hb⟩ := hc
    have := congrArg List.length hb
    simp only [List.length_append, byteBits_length, sextetBits_length, List.length_replicate] at this
    omega
  have := loop_complete ss bs ((3 - bs.length % 3) % 3) [] (by unfold padBound; split <;> omega) hc
  simpa using this

-- a text with a two byte tail, a one byte tail and no tail
example : toBase64 [0xff, 0x00] = .ok [0x2f, 0x77, 0x41, 0x3d] ∧ fromBase64 [0x2f, 0x77, 0x41, 0x3d] = .ok [0xff, 0x00] := by
  constructor <;> rfl

/-- **C01.** Different byte vectors have different texts. -/
theorem C01_base64_injective (as bs txt : List Byte) (ha : toBase64 as = .ok txt) (hb : toBase64 bs = .ok txt) :
    as = bs := by
  obtain ⟨t, h1, h2⟩ := C01_base64_roundtrip as
  obtain ⟨u, h3, h4⟩ := C01_base64_roundtrip bs
  rw [h1] at ha; rw [h3] at hb
  cases ha; cases hb
  rw [h2] at h4
  exact Except.ok.inj h4

example : toBase64 [0x4d] = .ok [0x54, 0x51, 0x3d, 0x3d] := by rfl

/-- **C02.** Encoding never throws and gives the RFC 4648 encoding of the bytes. -/
theorem C02_base64_encodes (bs : List Byte) : ∃ txt, toBase64 bs = .ok txt ∧ Encodes bs txt := by
  obtain ⟨ss, hc, he⟩ := toBase64Loop_spec bs []
  exact ⟨_, by rw [toBase64_eq_loop]; exact he, ss, hc, by simp⟩

/-- **C02.** The text of `n` bytes has exactly `4 * ⌈n / 3⌉` characters. It is made of alphabet characters
followed by exactly `(3 - n % 3) % 3` padding characters. -/
theorem C02_base64_shape (bs txt : List Byte) (h : toBase64 bs = .ok txt) :
    txt.length = 4 * ((bs.length + 2) / 3) ∧
    ∃ body, txt = body ++ List.replicate ((3 - bs.length % 3) % 3) pad ∧
      ∀ c ∈ body, ∃ a ∈ alphabet, c = BitVec.ofNat 8 a.toNat := by
  obtain ⟨t, ht, ss, ⟨k, hk, hb⟩, rfl⟩ := C02_base64_encodes bs
  rw [ht] at h
  cases h
  have := congrArg List.length hb
  simp only [List.length_append, byteBits_length, sextetBits_length, List.length_replicate] at this
  refine ⟨?_, ss.map letter, rfl, ?_⟩
  · have h3 : bs.length % 3 = 0 ∨ bs.length % 3 = 1 ∨ bs.length % 3 = 2 := by omega
    simp only [List.length_append, List.length_map, List.length_replicate]
    rcases h3 with h3 | h3 | h3 <;> simp only [h3] <;> omega
  intro c hc
  obtain ⟨s, _, rfl⟩ := List.mem_map.1 hc
  have hs : s.toNat < alphabet.length := by
    have : alphabet.length = 64 := by decide
    rw [this]; exact s.isLt
  exact ⟨alphabet[s.toNat], List.getElem_mem hs, by simp [letter, hs]⟩

-- the theorem applies to a 4 byte vector: 8 characters, 2 of them padding
example : toBase64 [1, 2, 3, 4] = .ok [0x41, 0x51, 0x49, 0x44, 0x42, 0x41, 0x3d, 0x3d] := by rfl

/-- **C03.** The decoder accepts a text, with result `bs`, exactly if the text consists of alphabet characters
which carry `bs` with all unused bits zero, followed by at most two `=` (at most one if the number of alphabet
characters is a multiple of four). Every other text makes it throw. -/
theorem C03_base64_decode_iff (txt bs : List Byte) :
    fromBase64 txt = .ok bs ↔
      ∃ ss p, txt = ss.map letter ++ List.replicate p pad ∧ Carries ss bs ∧
        p ≤ 2 ∧ (ss.length % 4 = 0 → p ≤ 1) := by
  rw [fromBase64_eq_loop]
  constructor
  · intro h
    obtain ⟨ss, bs', p, hp, hc, rfl, hr⟩ := loop_ok h
    simp at hr
    subst hr
    unfold padBound at hp
    exact ⟨ss, p, rfl, hc, by split at hp <;> omega, fun h => by simpa [h] using hp⟩
  · rintro ⟨ss, p, rfl, hc, h2, h1⟩
    have := loop_complete ss bs p [] (by unfold padBound; split <;> simp_all) hc
    simpa using this

/-- **C03.** A text which is not such a sequence is rejected by an exception. -/
theorem C03_base64_rejects (txt : List Byte)
    (h : ¬ ∃ ss p bs, txt = ss.map letter ++ List.replicate p pad ∧ Carries ss bs ∧ p ≤ 2) :
    ∃ e, fromBase64 txt = .error e := by
  cases hd : fromBase64 txt with
  | error e => exact ⟨e, rfl⟩
  | ok bs =>
    obtain ⟨ss, p, h1, h2, h3, _⟩ := (C03_base64_decode_iff txt bs).1 hd
    exact absurd ⟨ss, p, bs, h1, h2, h3⟩ h

-- a dangling character, a wrong character and non-zero unused bits are really rejected
example : fromBase64 [0x41] = .error .invalidPadding := by rfl
example : fromBase64 [0x41, 0x2a, 0x41, 0x41] = .error .invalidCharacter := by rfl
example : fromBase64 [0x41, 0x42, 0x3d, 0x3d] = .error .invalidPadding := by rfl

/-- **C03.** Accepted texts with the same bytes differ only in the number of trailing `=`: both extend the same
body by padding only. -/
theorem C03_base64_accepted_unique (t u bs : List Byte) (ht : fromBase64 t = .ok bs) (hu : fromBase64 u = .ok bs) :
    ∃ body p q, t = body ++ List.replicate p pad ∧ u = body ++ List.replicate q pad ∧ pad ∉ body := by
  obtain ⟨ss, p, rfl, hc, _⟩ := (C03_base64_decode_iff t bs).1 ht
  obtain ⟨ss', q, rfl, hc', _⟩ := (C03_base64_decode_iff u bs).1 hu
  have := carries_unique' hc hc'
  subst this
  refine ⟨_, p, q, rfl, rfl, ?_⟩
  intro hm
  obtain ⟨s, _, hs⟩ := List.mem_map.1 hm
  exact letter_ne_pad s hs

example : fromBase64 [0x41, 0x41] = .ok [0] ∧ fromBase64 [0x41, 0x41, 0x3d, 0x3d] = .ok [0] := by
  constructor <;> rfl

/-- The decoder's padding tolerance is not uniform: a single `=` after a complete text is accepted, two are not. -/
example : fromBase64 [0x41, 0x41, 0x41, 0x41, 0x3d] = .ok [0, 0, 0] ∧
    fromBase64 [0x41, 0x41, 0x41, 0x41, 0x3d, 0x3d] = .error .invalidCharacter := by
  constructor <;> rfl

end Verif.Base64
