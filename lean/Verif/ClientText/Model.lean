import Verif.Value.Model

/-!
# The request text in a generated client

Models `RequestLoader::getRequestText` with `trimWhitespace` (`/repo/src/RequestLoader.cpp:111-114`, 640-657) and the text
which `Generator::outputGetRequestImplementation` writes for `GetRequestText` (`/repo/src/ClientGenerator.cpp:686-706`),
and what this text is for a C++ compiler.

The request text is what is in the file (RequestLoader.cpp:27-29); `std::endl` is a line feed. (Text mode, which replaces
line ends on some platforms, is not modelled.)
-/
namespace Verif.ClientText
open Verif.Value

/-- `std::isspace` in the "C" locale, RequestLoader.cpp:642-644. (The argument is negative for bytes from 0x80 on, for
which C++ does not define the result; here it is `false`, as in the common implementations.) -/
def isSpace (c : Byte) : Bool := (str " \n\r\t\x0b\x0c").contains c

/-- `trimWhitespace`, RequestLoader.cpp:640-657: `skip` counts from the front, `length` ends behind the last byte which is
not white space. -/
def trimWhitespace (content : Str) : Str :=
  let skip := (content.takeWhile isSpace).length
  let length := content.length - (content.reverse.takeWhile isSpace).length
  if skip ≤ length then (content.drop skip).take (length - skip) else content

/-- The lines which `std::getline` gives, one after the other: `line` is what was read since the last line feed. At the end
of the input there is one more line if it is not empty. -/
def linesFrom (line : Str) : Str → List Str
  | [] => if line.isEmpty then [] else [line]
  | c :: rest => if c = 0x0A then line :: linesFrom [] rest else linesFrom (line ++ [c]) rest

/-- The loop `for (std::string line; std::getline(request, line);)`, ClientGenerator.cpp:694-699. -/
def getLines (text : Str) : List Str := linesFrom [] text

/-- What is between the parentheses of the raw string literal, ClientGenerator.cpp:688-701. -/
def literalBody (text : Str) : Str :=
  str "\n" ++ (getLines text).flatMap (fun line => str "\t\t" ++ line ++ str "\n") ++ str "\t"

/-- The initializer of `s_request`, ClientGenerator.cpp:688-702: from `R` up to the semicolon. -/
def literalText (requestText : Str) : Str :=
  str "R\"gql(" ++ literalBody (trimWhitespace requestText) ++ str ")gql\"s"

/-- `)gql"` -/
def delimiter : Str := str ")gql\""

/-- The characters of a raw string literal with the delimiter `gql`, and what comes after it: it ends with the first
`)gql"` (C++17 [lex.pptoken]/3.1, [lex.string]/2). -/
def rawCharacters : Str → Option (Str × Str)
  | [] => none
  | c :: rest =>
    if delimiter.isPrefixOf (c :: rest) then some ([], (c :: rest).drop delimiter.length)
    else (rawCharacters rest).map fun r => (c :: r.1, r.2)

/-- The value of the `std::string` literal `R"gql(...)gql"s`, if the text is one. -/
def stringLiteral (source : Str) : Option Str :=
  if (str "R\"gql(").isPrefixOf source then
    match rawCharacters (source.drop (str "R\"gql(").length) with
    | some (value, suffix) => if suffix = str "s" then some value else none
    | none => none
  else none

/-- What `GetRequestText()` of the generated client gives, if the generated code can be compiled. -/
def getRequestText (requestText : Str) : Option Str := stringLiteral (literalText requestText)

end Verif.ClientText
