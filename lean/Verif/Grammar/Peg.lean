import Verif.Value.Model

/-!
# PEGTL: parsing expressions and parse trees

The combinators of PEGTL which the grammar of `/repo/include/graphqlservice/internal/Grammar.h` uses, by their documented
semantics (the library itself is not in `/repo`), with `parse_tree`.

* A rule succeeds and consumes a part of the input, fails without consuming anything, or throws `parse_error`.
* `plus`, `list`, `rep`, `until`, `if_must` and keywords are defined from the others, as in PEGTL's documentation.
* Simplification: the message of a `parse_error` is modelled, its position is not.
-/
namespace Verif.Peg
open Verif.Value

/-- Parsing expressions; `N` has the names of the rules. -/
inductive Rule (N : Type) where
  /-- `one<...>`, `range<...>`, `any`: one byte of a set -/
  | one (p : Byte → Bool)
  /-- `string<...>` -/
  | lit (s : Str)
  /-- `utf8::range<lo, hi>` -/
  | utf8 (lo hi : Nat)
  | eof
  /-- `success` -/
  | empty
  | seq (a b : Rule N)
  | sor (a b : Rule N)
  | star (a : Rule N)
  | opt (a : Rule N)
  | notAt (a : Rule N)
  /-- `must<a>`, with `ast_control<a>::error_message` -/
  | must (message : Str) (a : Rule N)
  /-- a `struct` of the grammar -/
  | ref (n : N)

/-- What `parse_tree` does with the nodes of a rule, by the selector: discard it and keep its children, make a node
(`std::true_type`), or make a node which is replaced by its child if it has exactly one (`parse_tree::fold_one`). -/
inductive Sel where
  | discard
  | store
  | foldOne
deriving DecidableEq

/-- `ast_node`, SyntaxTree.h:27-142: the rule, the position where it begins (`left`: how many bytes of the input are left
there), the text it matched, and the children. `_unescaped` is a cache, see `Tree.lean`. -/
inductive Node (N : Type) where
  | mk (rule : N) (left : Nat) (content : Str) (children : List (Node N))

namespace Node
variable {N : Type}
def rule : Node N → N | mk r _ _ _ => r
def left : Node N → Nat | mk _ l _ _ => l
def content : Node N → Str | mk _ _ c _ => c
def children : Node N → List (Node N) | mk _ _ _ cs => cs
end Node

/-- The result of a rule: the nodes it made and the input which is left, local failure, or `parse_error`. -/
inductive Res (N : Type) where
  | ok (nodes : List (Node N)) (rest : Str)
  | fail
  | raise (message : Str)

/-- A continuation byte of UTF-8. -/
def isCont (b : Byte) : Bool := b &&& 0xC0 == 0x80

/-- `internal::peek_utf8::peek`: the code point and the number of bytes, if the input begins with well-formed UTF-8. -/
def peekUtf8 : Str → Option (Nat × Nat)
  | [] => none
  | a :: s =>
    if a.toNat < 0x80 then some (a.toNat, 1)
    else if a &&& 0xE0 == 0xC0 then
      match s with
      | b :: _ =>
        let c := (a.toNat % 0x20) * 0x40 + b.toNat % 0x40
        if isCont b && 0x80 ≤ c then some (c, 2) else none
      | _ => none
    else if a &&& 0xF0 == 0xE0 then
      match s with
      | b :: d :: _ =>
        let c := (a.toNat % 0x10) * 0x1000 + (b.toNat % 0x40) * 0x40 + d.toNat % 0x40
        if isCont b && isCont d && 0x800 ≤ c && !(0xD800 ≤ c && c ≤ 0xDFFF) then some (c, 3) else none
      | _ => none
    else if a &&& 0xF8 == 0xF0 then
      match s with
      | b :: d :: e :: _ =>
        let c := (a.toNat % 0x8) * 0x40000 + (b.toNat % 0x40) * 0x1000 + (d.toNat % 0x40) * 0x40 + e.toNat % 0x40
        if isCont b && isCont d && isCont e && 0x10000 ≤ c && c ≤ 0x10FFFF then some (c, 4) else none
      | _ => none
    else none

/-- The input which a rule has consumed when `rest` is left of `s`. -/
def consumed (s rest : Str) : Str := s.take (s.length - rest.length)

variable {N : Type}

/-- The nodes of a rule which succeeded: `ast_node::start`, `ast_node::success`, SyntaxTree.h:71-90, and the selector. -/
def finish (sel : Sel) (n : N) (s : Str) (nodes : List (Node N)) (rest : Str) : List (Node N) :=
  match sel with
  | .discard => nodes
  | .store => [.mk n s.length (consumed s rest) nodes]
  | .foldOne =>
    match nodes with
    | [x] => [x]
    | _ => [.mk n s.length (consumed s rest) nodes]

/-- Matching a rule; `none` if it does not come to an end in `fuel` nested calls. -/
def run (g : N → Rule N) (sel : N → Sel) : (fuel : Nat) → Rule N → Str → Option (Res N)
  | 0, _, _ => none
  | _ + 1, .one p, s =>
    match s with
    | [] => some .fail
    | c :: t => if p c then some (.ok [] t) else some .fail
  | _ + 1, .lit l, s => if l.isPrefixOf s then some (.ok [] (s.drop l.length)) else some .fail
  | _ + 1, .utf8 lo hi, s =>
    match peekUtf8 s with
    | some (c, n) => if lo ≤ c ∧ c ≤ hi then some (.ok [] (s.drop n)) else some .fail
    | none => some .fail
  | _ + 1, .eof, s => if s.isEmpty then some (.ok [] s) else some .fail
  | _ + 1, .empty, s => some (.ok [] s)
  | f + 1, .seq a b, s =>
    match run g sel f a s with
    | none => none
    | some .fail => some .fail
    | some (.raise m) => some (.raise m)
    | some (.ok xs t) =>
      match run g sel f b t with
      | none => none
      | some .fail => some .fail
      | some (.raise m) => some (.raise m)
      | some (.ok ys u) => some (.ok (xs ++ ys) u)
  | f + 1, .sor a b, s =>
    match run g sel f a s with
    | none => none
    | some .fail => run g sel f b s
    | some r => some r
  | f + 1, .star a, s =>
    match run g sel f a s with
    | none => none
    | some .fail => some (.ok [] s)
    | some (.raise m) => some (.raise m)
    | some (.ok xs t) =>
      match run g sel f (.star a) t with
      | none => none
      | some (.ok ys u) => some (.ok (xs ++ ys) u)
      | some r => some r
  | f + 1, .opt a, s =>
    match run g sel f a s with
    | some .fail => some (.ok [] s)
    | r => r
  | f + 1, .notAt a, s =>
    match run g sel f a s with
    | none => none
    | some .fail => some (.ok [] s)
    | some (.raise m) => some (.raise m)
    | some (.ok _ _) => some .fail
  | f + 1, .must m a, s =>
    match run g sel f a s with
    | some .fail => some (.raise m)
    | r => r
  | f + 1, .ref n, s =>
    match run g sel f (g n) s with
    | some (.ok xs t) => some (.ok (finish (sel n) n s xs t) t)
    | r => r

/-! ## Derived combinators -/
namespace Rule

/-- `seq<a, b, c, ...>` -/
def seqs : List (Rule N) → Rule N
  | [] => .empty
  | [a] => a
  | a :: as => .seq a (seqs as)

/-- `sor<a, b, c, ...>` -/
def sors : List (Rule N) → Rule N
  | [] => .notAt .empty
  | [a] => a
  | a :: as => .sor a (sors as)

/-- `plus<a>` -/
def plus (a : Rule N) : Rule N := .seq a (.star a)
/-- `list<a, sep>` -/
def list (a sep : Rule N) : Rule N := .seq a (.star (.seq sep a))
/-- `rep<n, a>` -/
def rep (n : Nat) (a : Rule N) : Rule N := seqs (List.replicate n a)
/-- `one<'c'>` -/
def chr (c : Char) : Rule N := .one (· == BitVec.ofNat 8 c.toNat)
/-- `one<'a', 'b', ...>` -/
def oneOf (s : String) : Rule N := .one fun b => (str s).contains b
/-- `range<'a', 'b'>` -/
def range (a b : Char) : Rule N := .one fun c => a.toNat ≤ c.toNat && c.toNat ≤ b.toNat
/-- `any` -/
def any : Rule N := .one fun _ => true
/-- `ascii::eol` with the default `eol::lf_crlf` -/
def eol : Rule N := .sor (.lit (str "\n")) (.lit (str "\r\n"))
/-- `eolf` -/
def eolf : Rule N := .sor .eof eol
/-- `until<a>` -/
def «until» (a : Rule N) : Rule N := .seq (.star (.seq (.notAt a) any)) a
/-- `space` -/
def space : Rule N := .one fun b => (str " \n\r\t\x0b\x0c").contains b
/-- `digit` -/
def digit : Rule N := range '0' '9'
/-- `identifier_first` -/
def identifierFirst : Rule N := .one fun c =>
  (0x41 ≤ c.toNat && c.toNat ≤ 0x5A) || (0x61 ≤ c.toNat && c.toNat ≤ 0x7A) || c.toNat == 0x5F
/-- `identifier_other` -/
def identifierOther : Rule N := .one fun c =>
  (0x41 ≤ c.toNat && c.toNat ≤ 0x5A) || (0x61 ≤ c.toNat && c.toNat ≤ 0x7A) || c.toNat == 0x5F ||
    (0x30 ≤ c.toNat && c.toNat ≤ 0x39)
/-- `identifier` -/
def identifier : Rule N := .seq identifierFirst (.star identifierOther)
/-- `xdigit` -/
def xdigit : Rule N := .one fun c =>
  (0x30 ≤ c.toNat && c.toNat ≤ 0x39) || (0x41 ≤ c.toNat && c.toNat ≤ 0x46) || (0x61 ≤ c.toNat && c.toNat ≤ 0x66)
/-- `keyword<...>` -/
def keyword (s : String) : Rule N := .seq (.lit (str s)) (.notAt identifierOther)
/-- `utf8::bom` -/
def bom : Rule N := .utf8 0xFEFF 0xFEFF

end Rule

end Verif.Peg
