import Verif.Grammar.Eval

/-!
# Parsing a document

The functions of `/repo/src/SyntaxTree.cpp` which parse text, and the text of a string literal.
-/
namespace Verif.Peg
open Verif.Value

/-- What `parse_tree::parse` does: gives the children of the root, gives a null pointer, or throws `parse_error`. -/
inductive Parsed where
  | tree (children : List (Node R))
  | null
  | error (message : Str)

/-- `parse_tree::parse<n, ast_node, sel, nothing, ast_control>(memory_input<>(s))`. Matching may in principle not come to
an end, so this is a relation. -/
inductive Parse (n : R) (sel : R → Sel) (s : Str) : Parsed → Prop where
  | tree {fuel xs t} : run grammar sel fuel (.ref n) s = some (.ok xs t) → Parse n sel s (.tree xs)
  | null {fuel} : run grammar sel fuel (.ref n) s = some .fail → Parse n sel s .null
  | error {fuel m} : run grammar sel fuel (.ref n) s = some (.raise m) → Parse n sel s (.error m)

/-- Try the grammar `first`; if it throws `parse_error`, try `again`. -/
inductive ParseWith (first again : R) (sel : R → Sel) (s : Str) : Parsed → Prop where
  | first {x} : Parse first sel s x → (∀ m, x ≠ .error m) → ParseWith first again sel s x
  | again {m x} : Parse first sel s (.error m) → Parse again sel s x → ParseWith first again sel s x

/-- `parseString`, SyntaxTree.cpp:794-818, and `operator"" _graphql`, SyntaxTree.cpp:855-882; `parseFile`,
SyntaxTree.cpp:820-851, does the same with the bytes of a file. -/
def ParseString (s : Str) (x : Parsed) : Prop :=
  ParseWith .executable_document .mixed_document executableSelector s x

/-- `parseSchemaString`, SyntaxTree.cpp:735-759; `parseSchemaFile`, SyntaxTree.cpp:761-792, does the same with the bytes of
a file. -/
def ParseSchemaString (s : Str) (x : Parsed) : Prop :=
  ParseWith .schema_document .mixed_document schemaSelector s x

/-- The value of an escaped character: `ast_selector<escaped_char>::transform`, SyntaxTree.cpp:157-208 -/
def escapedChar : Byte → Str
  | 0x62#8 => [0x08]
  | 0x66#8 => [0x0C]
  | 0x6E#8 => [0x0A]
  | 0x72#8 => [0x0D]
  | 0x74#8 => [0x09]
  | c => [c]

/-- `ast_node::unescaped_view`, SyntaxTree.cpp:40-97, after the `transform` functions of the selectors,
SyntaxTree.cpp:157-234. `unescapeJ` is PEGTL's `unescape::unescape_j::apply`. -/
def unescaped (unescapeJ : Str → Str) (x : Node R) : Str :=
  match x.rule with
  | .escaped_char => (x.content.take 1).flatMap escapedChar
  | .string_quote_character => x.content
  | .block_escape_sequence => str "\"\"\""
  | .block_quote_character => x.content
  | r =>
    match x.children with
    | [] => if x.content ≠ [] ∧ r = .escaped_unicode then unescapeJ x.content else []
    | [y] => y.content
    | ys => ys.flatMap Node.content

end Verif.Peg
