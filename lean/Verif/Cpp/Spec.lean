import Verif.Grammar.Spec
import Mathlib.Logic.Basic

/-!
# The part of C++ in which generated code is written: text, tokens, syntax

A specification, not a model of anything in `/repo`: how a C++ compiler reads text. It follows the C++17 standard
([lex], [expr.post], [dcl.enum], [dcl.fct.def]) for the part which is used, and rejects everything else.

* Text becomes tokens (`Lexes`): identifiers and numbers are as long as possible, words of the language are not identifiers,
  `R"d(...)d"` ends at the first `)d"`, a string can have the suffix `sv`.
* Tokens are declarations, statements and expressions (`tokens`: how each of them is written).

Simplifications: only the bytes of ASCII letters are letters of identifiers; there are no comments, directives, escapes in
strings, or line ends other than `\n` (phase 1 of translation could change `\r\n`).
-/
namespace Verif.Cpp
open Verif.Value Verif.Text

/-- An ASCII character. -/
abbrev chr (c : Char) : Byte := BitVec.ofNat 8 c.toNat

/-! ## Tokens -/

inductive Tok where
  /-- an identifier -/
  | word (s : Str)
  /-- a word of the language -/
  | keyword (s : Str)
  | number (s : Str)
  /-- a string, and whether it is a `std::string_view` -/
  | text (s : Str) (view : Bool)
  /-- an operator or punctuator -/
  | punct (s : Str)
deriving DecidableEq

/-- [lex.key], and the alternative representations of operators [lex.digraph] -/
def keywords : List Str :=
  ["alignas", "alignof", "and", "and_eq", "asm", "auto", "bitand", "bitor", "bool", "break", "case", "catch", "char",
   "char16_t", "char32_t", "char8_t", "class", "co_await", "co_return", "co_yield", "compl", "concept", "const",
   "const_cast", "consteval", "constexpr", "constinit", "continue", "decltype", "default", "delete", "do", "double",
   "dynamic_cast", "else", "enum", "explicit", "export", "extern", "false", "float", "for", "friend", "goto", "if",
   "inline", "int", "long", "mutable", "namespace", "new", "noexcept", "not", "not_eq", "nullptr", "operator", "or",
   "or_eq", "private", "protected", "public", "register", "reinterpret_cast", "requires", "return", "short", "signed",
   "sizeof", "static", "static_assert", "static_cast", "struct", "switch", "template", "this", "thread_local", "throw",
   "true", "try", "typedef", "typeid", "typename", "union", "unsigned", "using", "virtual", "void", "volatile",
   "wchar_t", "while", "xor", "xor_eq"].map str

/-- An identifier or a word of the language. -/
def wordTok (w : Str) : Tok := if w ∈ keywords then .keyword w else .word w

/-- White space between tokens. -/
def isSpace (c : Byte) : Bool := c == chr ' ' || c == chr '\t' || c == chr '\n'

/-- The text before the first `close`, and the text behind it. -/
def upTo (close : Str) : Str → Option (Str × Str)
  | [] => none
  | c :: s =>
    if close.isPrefixOf (c :: s) then some ([], (c :: s).drop close.length)
    else (upTo close s).map fun r => (c :: r.1, r.2)

/-- `s` has no `close` in it. -/
def NoClose (close s : Str) : Prop := ∀ a b, s ≠ a ++ close ++ b

/-- A raw string after `R"`, [lex.string]. -/
def rawText (s : Str) : Option (Str × Str) :=
  let delimiter := s.takeWhile (· != chr '(')
  match s.dropWhile (· != chr '(') with
  | [] => none
  | _ :: rest =>
    if delimiter.length ≤ 16 && delimiter.all nameCont then upTo (str ")" ++ delimiter ++ str "\"") rest else none

/-- An ordinary string after `"`. -/
def plainText (s : Str) : Option (Str × Str) :=
  let ordinary := fun c => c != chr '"' && c != chr '\\' && c != chr '\n'
  match s.dropWhile ordinary with
  | c :: rest => if c = chr '"' then some (s.takeWhile ordinary, rest) else none
  | [] => none

/-- A string with its suffix. -/
def suffixed (r : Str × Str) : Option (Tok × Str) :=
  let suffix := r.2.takeWhile nameCont
  if suffix = [] then some (.text r.1 false, r.2)
  else if suffix = str "sv" then some (.text r.1 true, r.2.dropWhile nameCont)
  else none

/-- `.` and digits, if there is a `.`, and the text behind it. -/
def fractionText : Str → Str × Str
  | [] => ([], [])
  | c :: s => if c = chr '.' then (c :: s.takeWhile isDigit, s.dropWhile isDigit) else ([], c :: s)

/-- `e`, a sign or not, and digits, if there is an `e`, and the text behind it. -/
def exponentText : Str → Option (Str × Str)
  | [] => some ([], [])
  | c :: s =>
    if c = chr 'e' ∨ c = chr 'E' then
      match s with
      | [] => none
      | d :: s =>
        if d = chr '+' ∨ d = chr '-' then
          if s.takeWhile isDigit = [] then none else some (c :: d :: s.takeWhile isDigit, s.dropWhile isDigit)
        else
          if (d :: s).takeWhile isDigit = [] then none else some (c :: (d :: s).takeWhile isDigit, (d :: s).dropWhile isDigit)
    else some ([], c :: s)

/-- A decimal number without a suffix, [lex.icon], [lex.fcon], which is as long as possible, [lex.ppnumber]. -/
def numberText (s : Str) : Option (Str × Str) :=
  let f := fractionText (s.dropWhile isDigit)
  match exponentText f.2 with
  | none => none
  | some (e, r) =>
    match r with
    | [] => some (s.takeWhile isDigit ++ f.1 ++ e, [])
    | d :: rest => if nameCont d || d == chr '.' || d == chr '\'' then none else some (s.takeWhile isDigit ++ f.1 ++ e, d :: rest)

/-- An operator which depends on the character behind it. (`>>` is two brackets, [temp.names]: nothing is shifted here.) -/
def operatorText (c : Byte) : Str → Option (Tok × Str)
  | [] => none
  | d :: rest =>
    if c = chr ':' ∧ d = chr ':' then some (.punct (str "::"), rest)
    else if c = chr '-' ∧ d = chr '>' then some (.punct (str "->"), rest)
    else if c = chr '&' ∧ d = chr '&' then some (.punct (str "&&"), rest)
    else if c = chr '<' ∧ (nameStart d ∨ d = chr ' ' ∨ d = chr '>') then some (.punct [c], d :: rest)
    else if c = chr '>' ∧ d ∈ str "( &:\n>" then some (.punct [c], d :: rest)
    else if c ∈ str "=&?:-" ∧ d = chr ' ' then some (.punct [c], d :: rest)
    else if c = chr '.' ∧ nameStart d then some (.punct [c], d :: rest)
    else if c = chr '-' ∧ isDigit d then some (.punct [c], d :: rest)
    else if c = chr '=' ∧ d = chr '=' then some (.punct (str "=="), rest)
    else if c = chr '!' ∧ nameStart d then some (.punct [c], d :: rest)
    else if c = chr '&' ∧ d = chr ')' then some (.punct [c], d :: rest)
    else if c = chr ':' ∧ d = chr '\n' then some (.punct [c], d :: rest)
    else none

/-- The first token of a text which does not begin with white space, and the text behind it. -/
def token : Str → Option (Tok × Str)
  | [] => none
  | c :: s =>
    if nameStart c then
      let w := c :: s.takeWhile nameCont
      match s.dropWhile nameCont with
      | [] => some (wordTok w, [])
      | d :: rest =>
        if d = chr '"' then if w = str "R" then (rawText rest).bind suffixed else none
        else some (wordTok w, d :: rest)
    else if isDigit c then
      (numberText (c :: s)).map fun r => (.number r.1, r.2)
    else if c = chr '"' then (plainText s).bind suffixed
    else if c ∈ str "(){}[],;" then some (.punct [c], s)
    else operatorText c s

/-- The tokens of a text. -/
inductive Lexes : Str → List Tok → Prop where
  | done : Lexes [] []
  | space {c s toks} : isSpace c = true → Lexes s toks → Lexes (c :: s) toks
  | token {s t rest toks} : token s = some (t, rest) → Lexes rest toks → Lexes s (t :: toks)

/-! ## Syntax -/

/-- `a::b::c` -/
structure Path where
  head : Str
  tail : List Str := []
deriving DecidableEq

inductive Expr where
  | name (p : Path)
  | text (s : Str) (view : Bool)
  /-- `f(a, b)` -/
  | call (f : Path) (args : List Expr)
  /-- `x->m(a, b)` -/
  | method (x m : Str) (args : List Expr)
  /-- `a[i]` -/
  | index (a : Path) (i : Expr)
  /-- `static_cast<t>(e)` -/
  | staticCast (t : Path) (e : Expr)
  /-- `std::static_pointer_cast<const t>(e)` -/
  | pointerCast (t : Path) (e : Expr)
  /-- `{ a, b }` -/
  | braces (es : List Expr)

inductive Stmt where
  | expr (e : Expr)
  /-- `auto x = e;` -/
  | auto (x : Str) (e : Expr)

/-- `std::shared_ptr<t> x` or `const std::shared_ptr<t>& x` -/
structure Param where
  byReference : Bool
  type : Path
  name : Str

inductive Decl where
  /-- `enum class name { a, b };` -/
  | enumClass (name : Str) (values : List Str)
  /-- `static const std::array<std::string_view, size> name = { "a"sv, "b"sv };` -/
  | array (size : Nat) (name : Str) (values : List Str)
  /-- `void name(params) { body }` -/
  | function (name : Str) (params : List Param) (body : List Stmt)

def p (s : String) : Tok := .punct (str s)
def kw (s : String) : Tok := .keyword (str s)

/-- A name of one word. -/
def word (s : Str) : Path := ⟨s, []⟩

/-- `a::b`, ... of words which are known. -/
def path (a : String) (b : List String) : Path := ⟨str a, b.map str⟩

/-- Lists with commas between the elements. -/
def commaTokens : List (List Tok) → List Tok
  | [] => []
  | [x] => x
  | x :: y :: rest => x ++ p "," :: commaTokens (y :: rest)

def Path.tokens (q : Path) : List Tok := .word q.head :: q.tail.flatMap fun s => [p "::", .word s]

mutual
def Expr.tokens : Expr → List Tok
  | .name q => q.tokens
  | .text s view => [.text s view]
  | .call f args => f.tokens ++ [p "("] ++ Expr.listTokens args ++ [p ")"]
  | .method x m args => [.word x, p "->", .word m, p "("] ++ Expr.listTokens args ++ [p ")"]
  | .index a i => a.tokens ++ [p "["] ++ i.tokens ++ [p "]"]
  | .staticCast t e => [kw "static_cast", p "<"] ++ t.tokens ++ [p ">", p "("] ++ e.tokens ++ [p ")"]
  | .pointerCast t e =>
    (path "std" ["static_pointer_cast"]).tokens ++ [p "<", kw "const"] ++ t.tokens ++ [p ">", p "("] ++ e.tokens ++ [p ")"]
  | .braces es => [p "{"] ++ Expr.listTokens es ++ [p "}"]
termination_by structural x => x
def Expr.listTokens : List Expr → List Tok
  | [] => []
  | e :: es => e.tokens ++ Expr.moreTokens es
termination_by structural x => x
def Expr.moreTokens : List Expr → List Tok
  | [] => []
  | e :: es => [p ","] ++ e.tokens ++ Expr.moreTokens es
termination_by structural x => x
end

def Stmt.tokens : Stmt → List Tok
  | .expr e => e.tokens ++ [p ";"]
  | .auto x e => [kw "auto", .word x, p "="] ++ e.tokens ++ [p ";"]

def Param.tokens (q : Param) : List Tok :=
  (if q.byReference then [kw "const"] else []) ++ (path "std" ["shared_ptr"]).tokens ++ [p "<"] ++ q.type.tokens ++ [p ">"] ++
  (if q.byReference then [p "&"] else []) ++ [.word q.name]

def Decl.tokens : Decl → List Tok
  | .enumClass name values =>
    [kw "enum", kw "class", .word name, p "{"] ++ commaTokens (values.map fun v => [.word v]) ++ [p "}", p ";"]
  | .array size name values =>
    [kw "static", kw "const"] ++ (path "std" ["array"]).tokens ++ [p "<"] ++ (path "std" ["string_view"]).tokens ++
    [p ",", .number (str (toString size)), p ">", .word name, p "=", p "{"] ++
    commaTokens (values.map fun v => [.text v true]) ++ [p "}", p ";"]
  | .function name params body =>
    [kw "void", .word name, p "("] ++ commaTokens (params.map Param.tokens) ++ [p ")", p "{"] ++ body.flatMap Stmt.tokens ++ [p "}"]

/-- What a compiler reads. -/
def Reads (text : Str) (ds : List Decl) : Prop := Lexes text (ds.flatMap Decl.tokens)

end Verif.Cpp
