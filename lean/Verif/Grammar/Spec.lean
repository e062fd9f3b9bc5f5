import Verif.Value.Model

/-!
# Tokens: specification

The tokens of the concrete syntax, as text. A token is followed by the text `t` which is left; where the end of a token
depends on what follows, the specification says what `t` may not begin with.
-/
namespace Verif.Text
open Verif.Value

/-- `t` does not begin with a byte for which `p` holds. -/
def Ends (p : Byte → Bool) (t : Str) : Prop := ∀ c u, t = c :: u → p c = false

/-- `A`-`Z`, `a`-`z`, `_` -/
def nameStart (c : Byte) : Bool :=
  (0x41 ≤ c.toNat && c.toNat ≤ 0x5A) || (0x61 ≤ c.toNat && c.toNat ≤ 0x7A) || c.toNat == 0x5F
/-- `0`-`9` -/
def isDigit (c : Byte) : Bool := 0x30 ≤ c.toNat && c.toNat ≤ 0x39
/-- `A`-`Z`, `a`-`z`, `_`, `0`-`9` -/
def nameCont (c : Byte) : Bool := nameStart c || isDigit c
/-- `0`-`9`, `A`-`F`, `a`-`f` -/
def isHex (c : Byte) : Bool :=
  isDigit c || (0x41 ≤ c.toNat && c.toNat ≤ 0x46) || (0x61 ≤ c.toNat && c.toNat ≤ 0x66)

/-- A name. -/
def IsName (n : Str) : Prop := ∃ c cs, n = c :: cs ∧ nameStart c = true ∧ ∀ d ∈ cs, nameCont d = true

/-! ## Ignored text -/

/-- Space, line feed, carriage return, tab, vertical tab, form feed, or comma. -/
def isBlank (c : Byte) : Bool := (str " \n\r\t\x0b\x0c,").contains c

/-- What ignored text begins with. -/
def gapStart (c : Byte) : Bool := isBlank c || c == 0x23

/-- Ignored text before `t`: blanks, and comments up to the end of a line or the end of the input. -/
inductive Gap (t : Str) : Str → Prop where
  | nil : Gap t []
  | blank {c g} : isBlank c = true → Gap t g → Gap t (c :: g)
  | comment {cs g} : 0x0A ∉ cs → Gap t g → Gap t (0x23 :: cs ++ 0x0A :: g)
  | last {cs} : 0x0A ∉ cs → t = [] → Gap t (0x23 :: cs)

/-! ## Numbers -/

/-- One or more digits. -/
def Digits (d : Str) : Prop := d ≠ [] ∧ ∀ c ∈ d, isDigit c = true

/-- `IntegerPart` of the GraphQL specification: `0`, or digits which do not begin with `0`, with an optional `-`. -/
inductive IntPart : Str → Prop where
  | zero : IntPart (str "0")
  | negZero : IntPart (str "-0")
  | pos {c d} : isDigit c = true → c ≠ 0x30 → (∀ x ∈ d, isDigit x = true) → IntPart (c :: d)
  | neg {c d} : isDigit c = true → c ≠ 0x30 → (∀ x ∈ d, isDigit x = true) → IntPart (0x2D :: c :: d)

/-- `FractionalPart`: `.` and digits. -/
def Fraction (f : Str) : Prop := ∃ d, Digits d ∧ f = 0x2E :: d

/-- `ExponentPart`: `e` or `E`, an optional sign, and digits. -/
def Exponent (e : Str) : Prop :=
  ∃ c sign d, (c = 0x65 ∨ c = 0x45) ∧ (sign = [] ∨ sign = str "+" ∨ sign = str "-") ∧ Digits d ∧ e = c :: sign ++ d

/-- `IntValue` of the GraphQL specification -/
def IntValue (x : Str) : Prop := IntPart x

/-- `FloatValue` of the GraphQL specification -/
inductive FloatValue : Str → Prop where
  | fraction {i f} : IntPart i → Fraction f → FloatValue (i ++ f)
  | exponent {i e} : IntPart i → Exponent e → FloatValue (i ++ e)
  | both {i f e} : IntPart i → Fraction f → Exponent e → FloatValue (i ++ f ++ e)

/-! ## Strings -/

/-- The UTF-8 encoding of a code point below 0x10000. -/
def utf8Encode (c : Nat) : Str :=
  if c < 0x80 then [BitVec.ofNat 8 c]
  else if c < 0x800 then [BitVec.ofNat 8 (0xC0 + c / 0x40), BitVec.ofNat 8 (0x80 + c % 0x40)]
  else [BitVec.ofNat 8 (0xE0 + c / 0x1000), BitVec.ofNat 8 (0x80 + c / 0x40 % 0x40), BitVec.ofNat 8 (0x80 + c % 0x40)]

/-- `SourceCharacter`: tab, line feed, carriage return, or a code point from U+0020 to U+FFFF which is not a surrogate, in
UTF-8. -/
def SourceChar (x : Str) : Prop :=
  ∃ c, (c = 0x09 ∨ c = 0x0A ∨ c = 0x0D ∨ (0x20 ≤ c ∧ c ≤ 0xFFFF ∧ ¬ (0xD800 ≤ c ∧ c ≤ 0xDFFF))) ∧ x = utf8Encode c

/-- One or more groups of four hexadecimal digits, separated by `\u`. -/
inductive HexGroups : Str → Prop where
  | one {a b c d} : isHex a = true → isHex b = true → isHex c = true → isHex d = true → HexGroups [a, b, c, d]
  | more {a b c d hs} : isHex a = true → isHex b = true → isHex c = true → isHex d = true → HexGroups hs →
      HexGroups (a :: b :: c :: d :: str "\\u" ++ hs)

/-- The text between the quotes of a string literal, and its value. An escape sequence stands for itself without the
backslash; the other characters stand for themselves. A carriage return may not come before a line feed. -/
inductive Quoted : (body value : Str) → Prop where
  | nil : Quoted [] []
  | char {x body value} : SourceChar x → x ≠ str "\"" → x ≠ str "\\" → x ≠ str "\n" →
      ¬ (x = str "\r" ∧ str "\n" <+: body) → Quoted body value → Quoted (x ++ body) (x ++ value)
  | escape {c body value} : c ∈ str "\"\\/bfnrt" → Quoted body value → Quoted (0x5C :: c :: body) (c :: value)
  | unicode {hs body value} : HexGroups hs → ¬ str "\\u" <+: body → Quoted body value →
      Quoted (str "\\u" ++ hs ++ body) (str "u" ++ hs ++ value)

/-- The text between `"""` and `"""`: `"""` may only be in it after a backslash. -/
inductive Block : Str → Prop where
  | nil : Block []
  | char {x body} : SourceChar x → ¬ str "\"\"\"" <+: x ++ body ++ str "\"\"\"" →
      ¬ str "\\\"\"\"" <+: x ++ body ++ str "\"\"\"" → Block body → Block (x ++ body)
  | escape {body} : Block body → Block (str "\\\"\"\"" ++ body)

/-- A string literal before `t`, with its value: the text between the quotes, without the backslash of each escape
sequence; in a block string, the text between the quotes. -/
inductive StringLit (t : Str) : (text value : Str) → Prop where
  | quoted {body value} : Quoted body value → ¬ (body = [] ∧ str "\"" <+: t) →
      StringLit t (str "\"" ++ body ++ str "\"") value
  | block {body} : Block body → StringLit t (str "\"\"\"" ++ body ++ str "\"\"\"") body

end Verif.Text
