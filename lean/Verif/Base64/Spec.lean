/-!
# What Base64 text means (RFC 4648), independent of the code

Bytes and texts are read as bit streams, most significant bit first: every byte is 8 bits, every alphabet
character is 6 bits.
-/
namespace Verif.Base64.Spec

/-- The RFC 4648 alphabet, table 1. -/
def alphabet : List Char :=
  "ABCDEFGHIJKLMNOPQRSTUVWXYZabcdefghijklmnopqrstuvwxyz0123456789+/".toList

/-- The character for a 6 bit group, as its ASCII code. -/
def letter (s : BitVec 6) : BitVec 8 := BitVec.ofNat 8 ((alphabet.getD s.toNat '=').toNat)

/-- The ASCII code of `=`. -/
def pad : BitVec 8 := 0x3D#8

/-- The bits of a word, most significant first. -/
def bits {n : Nat} (w : BitVec n) : List Bool := (List.range n).map (fun i => w.getMsbD i)

/-- The bit stream of a byte vector. -/
def byteBits (bs : List (BitVec 8)) : List Bool := bs.flatMap bits

/-- The bit stream of a sequence of 6 bit groups. -/
def sextetBits (ss : List (BitVec 6)) : List Bool := ss.flatMap bits

/-- The 6 bit groups `ss` carry the bytes `bs`: the bit streams are equal up to fewer than 6 trailing zero bits. -/
def Carries (ss : List (BitVec 6)) (bs : List (BitVec 8)) : Prop :=
  ∃ k, k < 6 ∧ sextetBits ss = byteBits bs ++ List.replicate k false

/-- `txt` is the padded RFC 4648 encoding of `bs`. -/
def Encodes (bs : List (BitVec 8)) (txt : List (BitVec 8)) : Prop :=
  ∃ ss, Carries ss bs ∧ txt = ss.map letter ++ List.replicate ((3 - bs.length % 3) % 3) pad

end Verif.Base64.Spec
