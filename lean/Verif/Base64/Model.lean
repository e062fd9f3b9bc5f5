/-!
# Model of `graphql::internal::Base64`

Models `/repo/src/Base64.cpp` and `/repo/include/graphqlservice/internal/Base64.h`.

A `std::uint8_t` and a `char` are both an 8 bit word; `std::vector<std::uint8_t>` and
`std::string`/`std::string_view` are lists of them. `uint32_t`/`uint16_t` segments are `BitVec 32`/`BitVec 16`.
A C++ `throw std::logic_error` is `Except.error`. `reserve` calls have no observable effect and are left out.
-/
namespace Verif.Base64

/-- One `std::uint8_t` or one `char`, as its bit pattern. -/
abbrev Byte := BitVec 8

/-- The two kinds of `std::logic_error` thrown by the decoder (Base64.cpp:17, 62, 74, 87) and the encoder
(Base64.cpp:99). -/
inductive Err where
  | invalidCharacter   -- "invalid character in base64 encoded string"
  | invalidPadding     -- "invalid padding at the end of a base64 encoded string"
  | invalidSextet      -- "invalid 6-bit value"
deriving DecidableEq, Repr

/-- The value of an ASCII character literal. -/
def chr (c : Char) : Byte := BitVec.ofNat 8 c.toNat

/-- `padding`, Base64.h:60. -/
def padding : Byte := chr '='

/-- `Base64::fromBase64(char)`, Base64.h:33-41. The C++ compares signed `char`s; for the bounds used here
(all between `'0'` and `'z'`, i.e. below 128) comparing the unsigned bit patterns selects the same
characters, because a negative `char` fails the lower bound and its bit pattern, at least 128, fails the
upper bound. -/
def fromBase64Char (ch : Byte) : Byte :=
  if chr 'A' ≤ ch ∧ ch ≤ chr 'Z' then ch - chr 'A'
  else if chr 'a' ≤ ch ∧ ch ≤ chr 'z' then ch - chr 'a' + 26
  else if chr '0' ≤ ch ∧ ch ≤ chr '9' then ch - chr '0' + 52
  else if ch = chr '+' then 62
  else if ch = chr '/' then 63
  else 0xFF

/-- `Base64::toBase64(std::uint8_t)`, Base64.h:47-54. -/
def toBase64Char (i : Byte) : Byte :=
  if i < 26 then i + chr 'A'
  else if i < 52 then i - 26 + chr 'a'
  else if i < 62 then i - 52 + chr '0'
  else if i = 62 then chr '+'
  else if i = 63 then chr '/'
  else padding

/-- `Base64::verifyFromBase64`, Base64.cpp:11-21. -/
def verifyFromBase64 (ch : Byte) : Except Err Byte :=
  let result := fromBase64Char ch
  if result > 63 then .error .invalidCharacter else .ok result

/-- `Base64::verifyToBase64`, Base64.cpp:93-103. -/
def verifyToBase64 (i : Byte) : Except Err Byte :=
  let result := toBase64Char i
  if result = padding then .error .invalidSextet else .ok result

/-- The final check of `Base64::fromBase64`, Base64.cpp:83-90: what is left is 0 to 2 padding characters. -/
def fromBase64Finish (encoded : List Byte) (result : List Byte) : Except Err (List Byte) :=
  match encoded with
  | [] => .ok result
  | [a] => if a ≠ padding then .error .invalidPadding else .ok result
  | [a, b] => if a ≠ padding ∨ b ≠ padding then .error .invalidPadding else .ok result
  | _ :: _ :: _ :: _ => .error .invalidPadding

/-- The leftover handling at the end of `Base64::fromBase64`, Base64.cpp:49-90, for what the main loop left
in `encoded`; `result` is the bytes decoded so far.
C++ leaves the evaluation order of the operands of `|` unspecified; it only decides which of two identical
exceptions is thrown. -/
def fromBase64Tail (encoded : List Byte) (result : List Byte) : Except Err (List Byte) :=
  match encoded with
  | c0 :: c1 :: rest => do
    -- Base64.cpp:52-56
    let triplet : Bool := match rest with
      | c2 :: _ => c2 != padding
      | [] => false
    let tail ← match triplet, rest with
      | true, c2 :: _ => verifyFromBase64 c2
      | _, _ => pure 0
    let v0 ← verifyFromBase64 c0
    let v1 ← verifyFromBase64 c1
    let segment : BitVec 16 :=
      (v0.setWidth 16 <<< 10) ||| (v1.setWidth 16 <<< 4) ||| (tail.setWidth 16 >>> 2)
    if triplet then
      -- Base64.cpp:58-69
      if tail &&& 0x3 ≠ 0 then .error .invalidPadding
      else
        fromBase64Finish (rest.drop 1)
          (result ++ [((segment &&& 0xFF00) >>> 8).setWidth 8, (segment &&& 0xFF).setWidth 8])
    else
      -- Base64.cpp:70-80
      if segment &&& 0xFF ≠ 0 then .error .invalidPadding
      else fromBase64Finish rest (result ++ [((segment &&& 0xFF00) >>> 8).setWidth 8])
  | other => fromBase64Finish other result

/-- `Base64::fromBase64(std::string_view)`, Base64.cpp:23-91, with the decoded bytes so far in `result`.
The loop of lines 35-47 is the recursion; the early return for an empty text (lines 27-30) agrees with
falling through. -/
def fromBase64Loop (encoded : List Byte) (result : List Byte) : Except Err (List Byte) :=
  match encoded with
  | c0 :: c1 :: c2 :: c3 :: rest =>
    if c3 ≠ padding then do
      let v0 ← verifyFromBase64 c0
      let v1 ← verifyFromBase64 c1
      let v2 ← verifyFromBase64 c2
      let v3 ← verifyFromBase64 c3
      let segment : BitVec 32 :=
        (v0.setWidth 32 <<< 18) ||| (v1.setWidth 32 <<< 12) ||| (v2.setWidth 32 <<< 6) ||| v3.setWidth 32
      fromBase64Loop rest (result ++
        [((segment &&& 0xFF0000) >>> 16).setWidth 8,
         ((segment &&& 0xFF00) >>> 8).setWidth 8,
         (segment &&& 0xFF).setWidth 8])
    else fromBase64Tail encoded result
  | _ => fromBase64Tail encoded result

/-- `Base64::fromBase64(std::string_view)`, Base64.cpp:23-91. -/
def fromBase64 (encoded : List Byte) : Except Err (List Byte) :=
  match encoded with
  | [] => .ok []
  | _ => fromBase64Loop encoded []

/-- The body of `Base64::toBase64(const std::vector<std::uint8_t>&)`, Base64.cpp:105-150, with the text
appended so far in `result`; the loop of lines 120-132 is the recursion, the last two cases are the leftover
handling of lines 135-147. -/
def toBase64Loop (bytes : List Byte) (result : List Byte) : Except Err (List Byte) :=
  match bytes with
  | d0 :: d1 :: d2 :: rest => do
    let segment : BitVec 32 :=
      (d0.setWidth 32 <<< 16) ||| (d1.setWidth 32 <<< 8) ||| d2.setWidth 32
    let s0 ← verifyToBase64 (((segment &&& 0xFC0000) >>> 18).setWidth 8)
    let s1 ← verifyToBase64 (((segment &&& 0x3F000) >>> 12).setWidth 8)
    let s2 ← verifyToBase64 (((segment &&& 0xFC0) >>> 6).setWidth 8)
    let s3 ← verifyToBase64 ((segment &&& 0x3F).setWidth 8)
    toBase64Loop rest (result ++ [s0, s1, s2, s3])
  | [] => .ok result
  | [d0] => do
    let segment : BitVec 16 := (d0.setWidth 16 <<< 8) ||| 0
    let s0 ← verifyToBase64 (((segment &&& 0xFC00) >>> 10).setWidth 8)
    let s1 ← verifyToBase64 (((segment &&& 0x3F0) >>> 4).setWidth 8)
    .ok (result ++ [s0, s1, padding, padding])
  | [d0, d1] => do
    let segment : BitVec 16 := (d0.setWidth 16 <<< 8) ||| d1.setWidth 16
    let s0 ← verifyToBase64 (((segment &&& 0xFC00) >>> 10).setWidth 8)
    let s1 ← verifyToBase64 (((segment &&& 0x3F0) >>> 4).setWidth 8)
    let s2 ← verifyToBase64 (((segment &&& 0xF) <<< 2).setWidth 8)
    .ok (result ++ [s0, s1, s2, padding])

/-- `Base64::toBase64(const std::vector<std::uint8_t>&)`, Base64.cpp:105-150. -/
def toBase64 (bytes : List Byte) : Except Err (List Byte) :=
  match bytes with
  | [] => .ok []
  | _ => toBase64Loop bytes []

end Verif.Base64
