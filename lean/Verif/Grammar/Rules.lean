import Verif.Grammar.Peg

/-!
# The grammar

Generated by `tools/grammar.py` from `/repo/include/graphqlservice/internal/Grammar.h` (every `struct` of the grammar, in
order), and the selectors and error messages of `/repo/src/SyntaxTree.cpp`. A `struct` which is derived from another one
has the same expression; a `struct` which is used in another one is a reference. `bof` is `empty`: it is only used where
parsing begins.
-/
namespace Verif.Peg
open Verif.Value Rule

/-- The names of the rules. -/
inductive R where
  | source_character
  | comment
  | ignored
  | name
  | variable_name_content
  | variable_name
  | null_keyword
  | quote_token
  | backslash_token
  | escaped_unicode_codepoint
  | escaped_unicode_content
  | escaped_unicode
  | escaped_char
  | string_escape_sequence_content
  | string_escape_sequence
  | string_quote_character
  | string_quote_content
  | string_quote
  | block_quote_token
  | block_escape_sequence
  | block_quote_character
  | block_quote_content
  | block_quote
  | string_value
  | nonzero_digit
  | zero_digit
  | negative_sign
  | integer_part
  | integer_value
  | fractional_part_content
  | fractional_part
  | exponent_indicator
  | sign
  | exponent_part_content
  | exponent_part
  | float_value
  | true_keyword
  | false_keyword
  | bool_value
  | enum_value
  | operation_type
  | alias_name
  | «alias»
  | argument_name
  | argument_content
  | argument
  | arguments_content
  | arguments
  | list_value_content
  | list_value
  | object_field_name
  | object_field_content
  | object_field
  | object_value_content
  | object_value
  | variable_value
  | input_value_content
  | input_value
  | list_entry
  | default_value_content
  | default_value
  | named_type
  | list_type_content
  | list_type
  | nonnull_type
  | type_name_content
  | type_name
  | variable_content
  | «variable»
  | variable_definitions_content
  | variable_definitions
  | directive_name
  | directive_content
  | directive
  | directives
  | field_name
  | field_start
  | field_arguments
  | field_directives
  | field_selection_set
  | field_content
  | field
  | on_keyword
  | fragment_name
  | fragment_token
  | fragment_spread
  | type_condition_content
  | type_condition
  | inline_fragment
  | fragement_spread_or_inline_fragment_content
  | fragement_spread_or_inline_fragment
  | selection
  | selection_set_content
  | selection_set
  | operation_name
  | operation_definition_operation_type_content
  | operation_definition
  | fragment_definition_content
  | fragment_definition
  | executable_definition
  | schema_keyword
  | root_operation_definition_content
  | root_operation_definition
  | schema_definition_content
  | schema_definition
  | scalar_keyword
  | description
  | scalar_name
  | scalar_type_definition_start
  | scalar_type_definition_content
  | scalar_type_definition
  | type_keyword
  | arguments_definition_start
  | arguments_definition_content
  | arguments_definition
  | field_definition_start
  | field_definition_content
  | field_definition
  | fields_definition_content
  | fields_definition
  | interface_type
  | implements_interfaces_content
  | implements_interfaces
  | object_name
  | object_type_definition_start
  | object_type_definition_object_name
  | object_type_definition_implements_interfaces
  | object_type_definition_directives
  | object_type_definition_fields_definition
  | object_type_definition_content
  | object_type_definition
  | interface_keyword
  | interface_name
  | interface_type_definition_start
  | interface_type_definition_interface_name
  | interface_type_definition_directives
  | interface_type_definition_fields_definition
  | interface_type_definition_content
  | interface_type_definition
  | union_keyword
  | union_name
  | union_type
  | union_member_types_start
  | union_member_types_content
  | union_member_types
  | union_type_definition_start
  | union_type_definition_directives
  | union_type_definition_content
  | union_type_definition
  | enum_keyword
  | enum_name
  | enum_value_definition_start
  | enum_value_definition_content
  | enum_value_definition
  | enum_values_definition_start
  | enum_values_definition_content
  | enum_values_definition
  | enum_type_definition_start
  | enum_type_definition_name
  | enum_type_definition_directives
  | enum_type_definition_enum_values_definition
  | enum_type_definition_content
  | enum_type_definition
  | input_keyword
  | input_field_definition_start
  | input_field_definition_type_name
  | input_field_definition_default_value
  | input_field_definition_directives
  | input_field_definition_content
  | input_field_definition
  | input_fields_definition_start
  | input_fields_definition_content
  | input_fields_definition
  | input_object_type_definition_start
  | input_object_type_definition_object_name
  | input_object_type_definition_directives
  | input_object_type_definition_fields_definition
  | input_object_type_definition_content
  | input_object_type_definition
  | type_definition
  | executable_directive_location
  | type_system_directive_location
  | directive_location
  | directive_locations
  | directive_definition_start
  | directive_definition_content
  | directive_definition
  | type_system_definition
  | extend_keyword
  | operation_type_definition
  | schema_extension_start
  | schema_extension_operation_type_definitions
  | schema_extension_content
  | schema_extension
  | scalar_type_extension_start
  | scalar_type_extension_content
  | scalar_type_extension
  | object_type_extension_start
  | object_type_extension_implements_interfaces
  | object_type_extension_directives
  | object_type_extension_fields_definition
  | object_type_extension_content
  | object_type_extension
  | interface_type_extension_start
  | interface_type_extension_content
  | interface_type_extension
  | union_type_extension_start
  | union_type_extension_content
  | union_type_extension
  | enum_type_extension_start
  | enum_type_extension_content
  | enum_type_extension
  | input_object_type_extension_start
  | input_object_type_extension_content
  | input_object_type_extension
  | type_extension
  | type_system_extension
  | mixed_definition
  | mixed_document_content
  | mixed_document
  | executable_document_content
  | executable_document
  | schema_type_definition
  | schema_document_content
  | schema_document
deriving DecidableEq, Repr

/-- `ast_control<Rule>::error_message`, SyntaxTree.cpp:551-733 -/
def message : R → Str
  | .variable_name_content => str "Expected http://spec.graphql.org/June2018/#Variable"
  | .quote_token => str "Expected \""
  | .escaped_unicode_content => str "Expected http://spec.graphql.org/June2018/#EscapedUnicode"
  | .string_escape_sequence_content => str "Expected http://spec.graphql.org/June2018/#EscapedCharacter"
  | .string_quote_content => str "Expected http://spec.graphql.org/June2018/#StringCharacter"
  | .block_quote_token => str "Expected \"\"\""
  | .block_quote_content => str "Expected http://spec.graphql.org/June2018/#BlockStringCharacter"
  | .fractional_part_content => str "Expected http://spec.graphql.org/June2018/#FractionalPart"
  | .exponent_part_content => str "Expected http://spec.graphql.org/June2018/#ExponentPart"
  | .argument_content => str "Expected http://spec.graphql.org/June2018/#Argument"
  | .arguments_content => str "Expected http://spec.graphql.org/June2018/#Arguments"
  | .list_value_content => str "Expected http://spec.graphql.org/June2018/#ListValue"
  | .object_field_content => str "Expected http://spec.graphql.org/June2018/#ObjectField"
  | .object_value_content => str "Expected http://spec.graphql.org/June2018/#ObjectValue"
  | .input_value_content => str "Expected http://spec.graphql.org/June2018/#Value"
  | .default_value_content => str "Expected http://spec.graphql.org/June2018/#DefaultValue"
  | .list_type_content => str "Expected http://spec.graphql.org/June2018/#ListType"
  | .type_name_content => str "Expected http://spec.graphql.org/June2018/#Type"
  | .variable_content => str "Expected http://spec.graphql.org/June2018/#VariableDefinition"
  | .variable_definitions_content => str "Expected http://spec.graphql.org/June2018/#VariableDefinitions"
  | .directive_content => str "Expected http://spec.graphql.org/June2018/#Directive"
  | .field_content => str "Expected http://spec.graphql.org/June2018/#Field"
  | .type_condition_content => str "Expected http://spec.graphql.org/June2018/#TypeCondition"
  | .fragement_spread_or_inline_fragment_content => str "Expected http://spec.graphql.org/June2018/#FragmentSpread or http://spec.graphql.org/June2018/#InlineFragment"
  | .selection_set_content => str "Expected http://spec.graphql.org/June2018/#SelectionSet"
  | .operation_definition_operation_type_content => str "Expected http://spec.graphql.org/June2018/#OperationDefinition"
  | .fragment_definition_content => str "Expected http://spec.graphql.org/June2018/#FragmentDefinition"
  | .root_operation_definition_content => str "Expected http://spec.graphql.org/June2018/#RootOperationTypeDefinition"
  | .schema_definition_content => str "Expected http://spec.graphql.org/June2018/#SchemaDefinition"
  | .scalar_type_definition_content => str "Expected http://spec.graphql.org/June2018/#ScalarTypeDefinition"
  | .arguments_definition_content => str "Expected http://spec.graphql.org/June2018/#ArgumentsDefinition"
  | .field_definition_content => str "Expected http://spec.graphql.org/June2018/#FieldDefinition"
  | .fields_definition_content => str "Expected http://spec.graphql.org/June2018/#FieldsDefinition"
  | .implements_interfaces_content => str "Expected http://spec.graphql.org/June2018/#ImplementsInterfaces"
  | .object_type_definition_content => str "Expected http://spec.graphql.org/June2018/#ObjectTypeDefinition"
  | .interface_type_definition_content => str "Expected http://spec.graphql.org/June2018/#InterfaceTypeDefinition"
  | .union_member_types_content => str "Expected http://spec.graphql.org/June2018/#UnionMemberTypes"
  | .union_type_definition_content => str "Expected http://spec.graphql.org/June2018/#UnionTypeDefinition"
  | .enum_value_definition_content => str "Expected http://spec.graphql.org/June2018/#EnumValueDefinition"
  | .enum_values_definition_content => str "Expected http://spec.graphql.org/June2018/#EnumValuesDefinition"
  | .enum_type_definition_content => str "Expected http://spec.graphql.org/June2018/#EnumTypeDefinition"
  | .input_field_definition_content => str "Expected http://spec.graphql.org/June2018/#InputValueDefinition"
  | .input_fields_definition_content => str "Expected http://spec.graphql.org/June2018/#InputFieldsDefinition"
  | .input_object_type_definition_content => str "Expected http://spec.graphql.org/June2018/#InputObjectTypeDefinition"
  | .directive_definition_content => str "Expected http://spec.graphql.org/June2018/#DirectiveDefinition"
  | .schema_extension_content => str "Expected http://spec.graphql.org/June2018/#SchemaExtension"
  | .scalar_type_extension_content => str "Expected http://spec.graphql.org/June2018/#ScalarTypeExtension"
  | .object_type_extension_content => str "Expected http://spec.graphql.org/June2018/#ObjectTypeExtension"
  | .interface_type_extension_content => str "Expected http://spec.graphql.org/June2018/#InterfaceTypeExtension"
  | .union_type_extension_content => str "Expected http://spec.graphql.org/June2018/#UnionTypeExtension"
  | .enum_type_extension_content => str "Expected http://spec.graphql.org/June2018/#EnumTypeExtension"
  | .input_object_type_extension_content => str "Expected http://spec.graphql.org/June2018/#InputObjectTypeExtension"
  | .mixed_document_content => str "Expected http://spec.graphql.org/June2018/#Document"
  | .executable_document_content => str "Expected executable http://spec.graphql.org/June2018/#Document"
  | .schema_document_content => str "Expected schema type http://spec.graphql.org/June2018/#Document"
  | _ => []

/-- `must<n>` -/
def need (n : R) : Rule R := .must (message n) (.ref n)

namespace G

/-- Grammar.h:63-65 -/
def source_character : Rule R := Rule.sors [Rule.one fun c => c == 0x0009 || c == 0x000A || c == 0x000D,
    Rule.utf8 0x0020 0xFFFF]

/-- Grammar.h:68-70 -/
def comment : Rule R := Rule.seqs [Rule.chr '#', Rule.«until» Rule.eolf]

/-- Grammar.h:73-75 -/
def ignored : Rule R := Rule.sors [Rule.space, Rule.chr ',', .ref .comment]

/-- Grammar.h:78-80 -/
def name : Rule R := Rule.identifier

/-- Grammar.h:82-84 -/
def variable_name_content : Rule R := G.name

/-- Grammar.h:87-89 -/
def variable_name : Rule R := Rule.seqs [Rule.chr '$', need .variable_name_content]

/-- Grammar.h:92-94 -/
def null_keyword : Rule R := Rule.keyword "null"

/-- Grammar.h:96-98 -/
def quote_token : Rule R := Rule.chr '"'

/-- Grammar.h:100-102 -/
def backslash_token : Rule R := Rule.chr '\\'

/-- Grammar.h:104-106 -/
def escaped_unicode_codepoint : Rule R := Rule.rep 4 Rule.xdigit

/-- Grammar.h:108-110 -/
def escaped_unicode_content : Rule R := Rule.list (.ref .escaped_unicode_codepoint) (Rule.seqs [.ref
    .backslash_token, Rule.chr 'u'])

/-- Grammar.h:113-115 -/
def escaped_unicode : Rule R := Rule.seqs [Rule.chr 'u', need .escaped_unicode_content]

/-- Grammar.h:118-120 -/
def escaped_char : Rule R := Rule.one fun c => (str "\"\\/bfnrt").contains c

/-- Grammar.h:122-124 -/
def string_escape_sequence_content : Rule R := Rule.sors [.ref .escaped_unicode, .ref .escaped_char]

/-- Grammar.h:126-128 -/
def string_escape_sequence : Rule R := Rule.seqs [.ref .backslash_token, need .string_escape_sequence_content]

/-- Grammar.h:130-133 -/
def string_quote_character : Rule R := Rule.plus (Rule.seqs [Rule.notAt (.ref .backslash_token), Rule.notAt
    (.ref .quote_token), Rule.notAt Rule.eol, .ref .source_character])

/-- Grammar.h:135-138 -/
def string_quote_content : Rule R := Rule.seqs [Rule.star (Rule.sors [.ref .string_escape_sequence, .ref
    .string_quote_character]), need .quote_token]

/-- Grammar.h:141-143 -/
def string_quote : Rule R := Rule.seqs [.ref .quote_token, need .string_quote_content]

/-- Grammar.h:145-147 -/
def block_quote_token : Rule R := Rule.rep 3 (.ref .quote_token)

/-- Grammar.h:149-151 -/
def block_escape_sequence : Rule R := Rule.seqs [.ref .backslash_token, .ref .block_quote_token]

/-- Grammar.h:153-156 -/
def block_quote_character : Rule R := Rule.plus (Rule.seqs [Rule.notAt (.ref .block_quote_token), Rule.notAt
    (.ref .block_escape_sequence), .ref .source_character])

/-- Grammar.h:158-161 -/
def block_quote_content : Rule R := Rule.seqs [Rule.star (Rule.sors [.ref .block_escape_sequence, .ref
    .block_quote_character]), need .block_quote_token]

/-- Grammar.h:164-166 -/
def block_quote : Rule R := Rule.seqs [.ref .block_quote_token, need .block_quote_content]

/-- Grammar.h:169-171 -/
def string_value : Rule R := Rule.sors [.ref .block_quote, .ref .string_quote]

/-- Grammar.h:174-176 -/
def nonzero_digit : Rule R := Rule.range '1' '9'

/-- Grammar.h:178-180 -/
def zero_digit : Rule R := Rule.chr '0'

/-- Grammar.h:183-185 -/
def negative_sign : Rule R := Rule.chr '-'

/-- Grammar.h:188-190 -/
def integer_part : Rule R := Rule.seqs [Rule.opt (.ref .negative_sign), Rule.sors [.ref .zero_digit, Rule.seqs
    [.ref .nonzero_digit, Rule.star Rule.digit]]]

/-- Grammar.h:193-195 -/
def integer_value : Rule R := G.integer_part

/-- Grammar.h:197-199 -/
def fractional_part_content : Rule R := Rule.plus Rule.digit

/-- Grammar.h:202-204 -/
def fractional_part : Rule R := Rule.seqs [Rule.chr '.', need .fractional_part_content]

/-- Grammar.h:207-209 -/
def exponent_indicator : Rule R := Rule.one fun c => (str "eE").contains c

/-- Grammar.h:212-214 -/
def sign : Rule R := Rule.one fun c => (str "+-").contains c

/-- Grammar.h:216-218 -/
def exponent_part_content : Rule R := Rule.seqs [Rule.opt (.ref .sign), Rule.plus Rule.digit]

/-- Grammar.h:221-223 -/
def exponent_part : Rule R := Rule.seqs [.ref .exponent_indicator, need .exponent_part_content]

/-- Grammar.h:226-229 -/
def float_value : Rule R := Rule.seqs [.ref .integer_part, Rule.sors [.ref .fractional_part, .ref
    .exponent_part, Rule.seqs [.ref .fractional_part, .ref .exponent_part]]]

/-- Grammar.h:231-233 -/
def true_keyword : Rule R := Rule.keyword "true"

/-- Grammar.h:235-237 -/
def false_keyword : Rule R := Rule.keyword "false"

/-- Grammar.h:240-242 -/
def bool_value : Rule R := Rule.sors [.ref .true_keyword, .ref .false_keyword]

/-- Grammar.h:245-247 -/
def enum_value : Rule R := Rule.seqs [Rule.notAt (Rule.seqs [.ref .true_keyword, .ref .false_keyword, .ref
    .null_keyword]), .ref .name]

/-- Grammar.h:250-254 -/
def operation_type : Rule R := Rule.sors [Rule.keyword "query", Rule.keyword "mutation", Rule.keyword "subscription"]

/-- Grammar.h:256-258 -/
def alias_name : Rule R := G.name

/-- Grammar.h:261-263 -/
def «alias» : Rule R := Rule.seqs [.ref .alias_name, Rule.star (.ref .ignored), Rule.chr ':']

/-- Grammar.h:265-267 -/
def argument_name : Rule R := G.name

/-- Grammar.h:271-273 -/
def argument_content : Rule R := Rule.seqs [Rule.star (.ref .ignored), Rule.chr ':', Rule.star (.ref
    .ignored), .ref .input_value]

/-- Grammar.h:276-278 -/
def argument : Rule R := Rule.seqs [.ref .argument_name, need .argument_content]

/-- Grammar.h:280-283 -/
def arguments_content : Rule R := Rule.seqs [Rule.star (.ref .ignored), Rule.list (.ref .argument) (Rule.plus
    (.ref .ignored)), Rule.star (.ref .ignored), Rule.must (str "Expected )") (Rule.chr ')')]

/-- Grammar.h:286-288 -/
def arguments : Rule R := Rule.seqs [Rule.chr '(', need .arguments_content]

/-- Grammar.h:292-295 -/
def list_value_content : Rule R := Rule.seqs [Rule.star (.ref .ignored), Rule.opt (Rule.list (.ref
    .list_entry) (Rule.plus (.ref .ignored))), Rule.star (.ref .ignored), Rule.must (str "Expected ]")
    (Rule.chr ']')]

/-- Grammar.h:298-300 -/
def list_value : Rule R := Rule.seqs [Rule.chr '[', need .list_value_content]

/-- Grammar.h:302-304 -/
def object_field_name : Rule R := G.name

/-- Grammar.h:306-308 -/
def object_field_content : Rule R := Rule.seqs [Rule.star (.ref .ignored), Rule.chr ':', Rule.star (.ref
    .ignored), .ref .input_value]

/-- Grammar.h:311-313 -/
def object_field : Rule R := Rule.seqs [.ref .object_field_name, need .object_field_content]

/-- Grammar.h:315-318 -/
def object_value_content : Rule R := Rule.seqs [Rule.star (.ref .ignored), Rule.opt (Rule.list (.ref
    .object_field) (Rule.plus (.ref .ignored))), Rule.star (.ref .ignored), Rule.must (str "Expected }")
    (Rule.chr '}')]

/-- Grammar.h:321-323 -/
def object_value : Rule R := Rule.seqs [Rule.chr '{', need .object_value_content]

/-- Grammar.h:325-327 -/
def variable_value : Rule R := G.variable_name

/-- Grammar.h:329-333 -/
def input_value_content : Rule R := Rule.sors [.ref .list_value, .ref .object_value, .ref .variable_value,
    .ref .float_value, .ref .integer_value, .ref .string_value, .ref .bool_value, .ref .null_keyword, .ref
    .enum_value]

/-- Grammar.h:336-338 -/
def input_value : Rule R := need .input_value_content

/-- Grammar.h:340-342 -/
def list_entry : Rule R := G.input_value_content

/-- Grammar.h:344-346 -/
def default_value_content : Rule R := Rule.seqs [Rule.star (.ref .ignored), .ref .input_value]

/-- Grammar.h:349-351 -/
def default_value : Rule R := Rule.seqs [Rule.chr '=', need .default_value_content]

/-- Grammar.h:354-356 -/
def named_type : Rule R := G.name

/-- Grammar.h:361-364 -/
def list_type_content : Rule R := Rule.seqs [Rule.star (.ref .ignored), Rule.sors [.ref .nonnull_type, .ref
    .list_type, .ref .named_type], Rule.star (.ref .ignored), Rule.must (str "Expected ]") (Rule.chr ']')]

/-- Grammar.h:367-369 -/
def list_type : Rule R := Rule.seqs [Rule.chr '[', need .list_type_content]

/-- Grammar.h:372-374 -/
def nonnull_type : Rule R := Rule.seqs [Rule.sors [.ref .list_type, .ref .named_type], Rule.star (.ref
    .ignored), Rule.chr '!']

/-- Grammar.h:376-378 -/
def type_name_content : Rule R := Rule.sors [.ref .nonnull_type, .ref .list_type, .ref .named_type]

/-- Grammar.h:381-383 -/
def type_name : Rule R := need .type_name_content

/-- Grammar.h:385-388 -/
def variable_content : Rule R := Rule.seqs [Rule.star (.ref .ignored), Rule.chr ':', Rule.star (.ref
    .ignored), .ref .type_name, Rule.opt (Rule.seqs [Rule.star (.ref .ignored), .ref .default_value])]

/-- Grammar.h:391-393 -/
def «variable» : Rule R := Rule.seqs [.ref .variable_name, need .variable_content]

/-- Grammar.h:395-398 -/
def variable_definitions_content : Rule R := Rule.seqs [Rule.star (.ref .ignored), Rule.list (.ref
    .«variable») (Rule.plus (.ref .ignored)), Rule.star (.ref .ignored), Rule.must (str "Expected )")
    (Rule.chr ')')]

/-- Grammar.h:401-403 -/
def variable_definitions : Rule R := Rule.seqs [Rule.chr '(', need .variable_definitions_content]

/-- Grammar.h:405-407 -/
def directive_name : Rule R := G.name

/-- Grammar.h:409-411 -/
def directive_content : Rule R := Rule.seqs [.ref .directive_name, Rule.opt (Rule.seqs [Rule.star (.ref
    .ignored), .ref .arguments])]

/-- Grammar.h:414-416 -/
def directive : Rule R := Rule.seqs [Rule.chr '@', need .directive_content]

/-- Grammar.h:419-421 -/
def directives : Rule R := Rule.list (.ref .directive) (Rule.plus (.ref .ignored))

/-- Grammar.h:425-427 -/
def field_name : Rule R := G.name

/-- Grammar.h:429-431 -/
def field_start : Rule R := Rule.seqs [Rule.opt (Rule.seqs [.ref .«alias», Rule.star (.ref .ignored)]), .ref
    .field_name]

/-- Grammar.h:433-435 -/
def field_arguments : Rule R := Rule.opt (Rule.seqs [Rule.star (.ref .ignored), .ref .arguments])

/-- Grammar.h:437-439 -/
def field_directives : Rule R := Rule.seqs [Rule.star (.ref .ignored), .ref .directives]

/-- Grammar.h:441-443 -/
def field_selection_set : Rule R := Rule.seqs [Rule.star (.ref .ignored), .ref .selection_set]

/-- Grammar.h:445-449 -/
def field_content : Rule R := Rule.sors [Rule.seqs [.ref .field_arguments, Rule.opt (.ref .field_directives),
    .ref .field_selection_set], Rule.seqs [.ref .field_arguments, .ref .field_directives], .ref
    .field_arguments]

/-- Grammar.h:452-454 -/
def field : Rule R := Rule.seqs [.ref .field_start, need .field_content]

/-- Grammar.h:456-458 -/
def on_keyword : Rule R := Rule.keyword "on"

/-- Grammar.h:461-463 -/
def fragment_name : Rule R := Rule.seqs [Rule.notAt (.ref .on_keyword), .ref .name]

/-- Grammar.h:465-467 -/
def fragment_token : Rule R := Rule.lit (str "...")

/-- Grammar.h:470-472 -/
def fragment_spread : Rule R := Rule.seqs [Rule.star (.ref .ignored), .ref .fragment_name, Rule.opt (Rule.seqs
    [Rule.star (.ref .ignored), .ref .directives])]

/-- Grammar.h:474-476 -/
def type_condition_content : Rule R := Rule.seqs [Rule.plus (.ref .ignored), .ref .named_type]

/-- Grammar.h:479-481 -/
def type_condition : Rule R := Rule.seqs [.ref .on_keyword, need .type_condition_content]

/-- Grammar.h:484-488 -/
def inline_fragment : Rule R := Rule.seqs [Rule.opt (Rule.seqs [Rule.star (.ref .ignored), .ref
    .type_condition]), Rule.opt (Rule.seqs [Rule.star (.ref .ignored), .ref .directives]), Rule.star (.ref
    .ignored), .ref .selection_set]

/-- Grammar.h:490-492 -/
def fragement_spread_or_inline_fragment_content : Rule R := Rule.sors [.ref .fragment_spread, .ref
    .inline_fragment]

/-- Grammar.h:494-497 -/
def fragement_spread_or_inline_fragment : Rule R := Rule.seqs [.ref .fragment_token, need
    .fragement_spread_or_inline_fragment_content]

/-- Grammar.h:500-502 -/
def selection : Rule R := Rule.sors [.ref .field, .ref .fragement_spread_or_inline_fragment]

/-- Grammar.h:504-507 -/
def selection_set_content : Rule R := Rule.seqs [Rule.star (.ref .ignored), Rule.list (.ref .selection)
    (Rule.plus (.ref .ignored)), Rule.star (.ref .ignored), Rule.must (str "Expected }") (Rule.chr '}')]

/-- Grammar.h:510-512 -/
def selection_set : Rule R := Rule.seqs [Rule.chr '{', need .selection_set_content]

/-- Grammar.h:514-516 -/
def operation_name : Rule R := G.name

/-- Grammar.h:518-522 -/
def operation_definition_operation_type_content : Rule R := Rule.seqs [Rule.opt (Rule.seqs [Rule.plus (.ref
    .ignored), .ref .operation_name]), Rule.opt (Rule.seqs [Rule.star (.ref .ignored), .ref
    .variable_definitions]), Rule.opt (Rule.seqs [Rule.star (.ref .ignored), .ref .directives]), Rule.star
    (.ref .ignored), .ref .selection_set]

/-- Grammar.h:525-528 -/
def operation_definition : Rule R := Rule.sors [Rule.seqs [.ref .operation_type, need
    .operation_definition_operation_type_content], .ref .selection_set]

/-- Grammar.h:530-534 -/
def fragment_definition_content : Rule R := Rule.seqs [Rule.plus (.ref .ignored), .ref .fragment_name,
    Rule.plus (.ref .ignored), .ref .type_condition, Rule.opt (Rule.seqs [Rule.star (.ref .ignored), .ref
    .directives]), Rule.star (.ref .ignored), .ref .selection_set]

/-- Grammar.h:537-539 -/
def fragment_definition : Rule R := Rule.seqs [Rule.keyword "fragment", need .fragment_definition_content]

/-- Grammar.h:542-544 -/
def executable_definition : Rule R := Rule.sors [.ref .fragment_definition, .ref .operation_definition]

/-- Grammar.h:546-548 -/
def schema_keyword : Rule R := Rule.keyword "schema"

/-- Grammar.h:550-552 -/
def root_operation_definition_content : Rule R := Rule.seqs [Rule.star (.ref .ignored), Rule.chr ':',
    Rule.star (.ref .ignored), .ref .named_type]

/-- Grammar.h:555-557 -/
def root_operation_definition : Rule R := Rule.seqs [.ref .operation_type, need
    .root_operation_definition_content]

/-- Grammar.h:559-563 -/
def schema_definition_content : Rule R := Rule.seqs [Rule.opt (Rule.seqs [Rule.star (.ref .ignored), .ref
    .directives]), Rule.star (.ref .ignored), Rule.chr '{', Rule.star (.ref .ignored), Rule.list (.ref
    .root_operation_definition) (Rule.plus (.ref .ignored)), Rule.star (.ref .ignored), Rule.must (str "Expected }")
    (Rule.chr '}')]

/-- Grammar.h:566-568 -/
def schema_definition : Rule R := Rule.seqs [.ref .schema_keyword, need .schema_definition_content]

/-- Grammar.h:570-572 -/
def scalar_keyword : Rule R := Rule.keyword "scalar"

/-- Grammar.h:575-577 -/
def description : Rule R := G.string_value

/-- Grammar.h:579-581 -/
def scalar_name : Rule R := G.name

/-- Grammar.h:583-585 -/
def scalar_type_definition_start : Rule R := Rule.seqs [Rule.opt (Rule.seqs [.ref .description, Rule.star
    (.ref .ignored)]), .ref .scalar_keyword]

/-- Grammar.h:587-590 -/
def scalar_type_definition_content : Rule R := Rule.seqs [Rule.plus (.ref .ignored), .ref .scalar_name,
    Rule.opt (Rule.seqs [Rule.star (.ref .ignored), .ref .directives])]

/-- Grammar.h:593-596 -/
def scalar_type_definition : Rule R := Rule.seqs [.ref .scalar_type_definition_start, need
    .scalar_type_definition_content]

/-- Grammar.h:598-600 -/
def type_keyword : Rule R := Rule.keyword "type"

/-- Grammar.h:604-606 -/
def arguments_definition_start : Rule R := Rule.chr '('

/-- Grammar.h:608-611 -/
def arguments_definition_content : Rule R := Rule.seqs [Rule.star (.ref .ignored), Rule.list (.ref
    .input_field_definition) (Rule.plus (.ref .ignored)), Rule.star (.ref .ignored), Rule.must (str "Expected )")
    (Rule.chr ')')]

/-- Grammar.h:614-616 -/
def arguments_definition : Rule R := Rule.seqs [.ref .arguments_definition_start, need
    .arguments_definition_content]

/-- Grammar.h:618-620 -/
def field_definition_start : Rule R := Rule.seqs [Rule.opt (Rule.seqs [.ref .description, Rule.star (.ref
    .ignored)]), .ref .field_name]

/-- Grammar.h:622-626 -/
def field_definition_content : Rule R := Rule.seqs [Rule.opt (Rule.seqs [Rule.star (.ref .ignored), .ref
    .arguments_definition]), Rule.star (.ref .ignored), Rule.chr ':', Rule.star (.ref .ignored), .ref
    .type_name, Rule.opt (Rule.seqs [Rule.star (.ref .ignored), .ref .directives])]

/-- Grammar.h:629-631 -/
def field_definition : Rule R := Rule.seqs [.ref .field_definition_start, need .field_definition_content]

/-- Grammar.h:633-636 -/
def fields_definition_content : Rule R := Rule.seqs [Rule.star (.ref .ignored), Rule.list (.ref
    .field_definition) (Rule.plus (.ref .ignored)), Rule.star (.ref .ignored), Rule.must (str "Expected }")
    (Rule.chr '}')]

/-- Grammar.h:639-641 -/
def fields_definition : Rule R := Rule.seqs [Rule.chr '{', need .fields_definition_content]

/-- Grammar.h:643-645 -/
def interface_type : Rule R := G.named_type

/-- Grammar.h:647-651 -/
def implements_interfaces_content : Rule R := Rule.seqs [Rule.opt (Rule.seqs [Rule.star (.ref .ignored),
    Rule.chr '&']), Rule.star (.ref .ignored), Rule.list (.ref .interface_type) (Rule.seqs [Rule.star (.ref
    .ignored), Rule.chr '&', Rule.star (.ref .ignored)])]

/-- Grammar.h:654-657 -/
def implements_interfaces : Rule R := Rule.seqs [Rule.keyword "implements", need
    .implements_interfaces_content]

/-- Grammar.h:659-661 -/
def object_name : Rule R := G.name

/-- Grammar.h:663-665 -/
def object_type_definition_start : Rule R := Rule.seqs [Rule.opt (Rule.seqs [.ref .description, Rule.star
    (.ref .ignored)]), .ref .type_keyword]

/-- Grammar.h:667-669 -/
def object_type_definition_object_name : Rule R := Rule.seqs [Rule.plus (.ref .ignored), .ref .object_name]

/-- Grammar.h:671-673 -/
def object_type_definition_implements_interfaces : Rule R := Rule.opt (Rule.seqs [Rule.plus (.ref .ignored),
    .ref .implements_interfaces])

/-- Grammar.h:675-677 -/
def object_type_definition_directives : Rule R := Rule.seqs [Rule.star (.ref .ignored), .ref .directives]

/-- Grammar.h:679-681 -/
def object_type_definition_fields_definition : Rule R := Rule.seqs [Rule.star (.ref .ignored), .ref
    .fields_definition]

/-- Grammar.h:683-690 -/
def object_type_definition_content : Rule R := Rule.seqs [.ref .object_type_definition_object_name, Rule.sors
    [Rule.seqs [.ref .object_type_definition_implements_interfaces, Rule.opt (.ref
    .object_type_definition_directives), .ref .object_type_definition_fields_definition], Rule.seqs [.ref
    .object_type_definition_implements_interfaces, .ref .object_type_definition_directives], .ref
    .object_type_definition_implements_interfaces]]

/-- Grammar.h:693-696 -/
def object_type_definition : Rule R := Rule.seqs [.ref .object_type_definition_start, need
    .object_type_definition_content]

/-- Grammar.h:698-700 -/
def interface_keyword : Rule R := Rule.keyword "interface"

/-- Grammar.h:702-704 -/
def interface_name : Rule R := G.name

/-- Grammar.h:706-708 -/
def interface_type_definition_start : Rule R := Rule.seqs [Rule.opt (Rule.seqs [.ref .description, Rule.star
    (.ref .ignored)]), .ref .interface_keyword]

/-- Grammar.h:710-712 -/
def interface_type_definition_interface_name : Rule R := Rule.seqs [Rule.plus (.ref .ignored), .ref
    .interface_name]

/-- Grammar.h:714-716 -/
def interface_type_definition_directives : Rule R := Rule.opt (Rule.seqs [Rule.star (.ref .ignored), .ref
    .directives])

/-- Grammar.h:718-720 -/
def interface_type_definition_fields_definition : Rule R := Rule.seqs [Rule.star (.ref .ignored), .ref
    .fields_definition]

/-- Grammar.h:722-728 -/
def interface_type_definition_content : Rule R := Rule.seqs [.ref .interface_type_definition_interface_name,
    Rule.sors [Rule.seqs [.ref .interface_type_definition_directives, .ref
    .interface_type_definition_fields_definition], .ref .interface_type_definition_directives]]

/-- Grammar.h:731-734 -/
def interface_type_definition : Rule R := Rule.seqs [.ref .interface_type_definition_start, need
    .interface_type_definition_content]

/-- Grammar.h:736-738 -/
def union_keyword : Rule R := Rule.keyword "union"

/-- Grammar.h:740-742 -/
def union_name : Rule R := G.name

/-- Grammar.h:744-746 -/
def union_type : Rule R := G.named_type

/-- Grammar.h:748-750 -/
def union_member_types_start : Rule R := Rule.chr '='

/-- Grammar.h:752-756 -/
def union_member_types_content : Rule R := Rule.seqs [Rule.opt (Rule.seqs [Rule.star (.ref .ignored), Rule.chr
    '|']), Rule.star (.ref .ignored), Rule.list (.ref .union_type) (Rule.seqs [Rule.star (.ref .ignored),
    Rule.chr '|', Rule.star (.ref .ignored)])]

/-- Grammar.h:759-761 -/
def union_member_types : Rule R := Rule.seqs [.ref .union_member_types_start, need
    .union_member_types_content]

/-- Grammar.h:763-765 -/
def union_type_definition_start : Rule R := Rule.seqs [Rule.opt (Rule.seqs [.ref .description, Rule.star (.ref
    .ignored)]), .ref .union_keyword]

/-- Grammar.h:767-769 -/
def union_type_definition_directives : Rule R := Rule.opt (Rule.seqs [Rule.star (.ref .ignored), .ref
    .directives])

/-- Grammar.h:771-776 -/
def union_type_definition_content : Rule R := Rule.seqs [Rule.plus (.ref .ignored), .ref .union_name,
    Rule.sors [Rule.seqs [.ref .union_type_definition_directives, Rule.seqs [Rule.star (.ref .ignored), .ref
    .union_member_types]], .ref .union_type_definition_directives]]

/-- Grammar.h:779-781 -/
def union_type_definition : Rule R := Rule.seqs [.ref .union_type_definition_start, need
    .union_type_definition_content]

/-- Grammar.h:783-785 -/
def enum_keyword : Rule R := Rule.keyword "enum"

/-- Grammar.h:787-789 -/
def enum_name : Rule R := G.name

/-- Grammar.h:791-793 -/
def enum_value_definition_start : Rule R := Rule.seqs [Rule.opt (Rule.seqs [.ref .description, Rule.star (.ref
    .ignored)]), .ref .enum_value]

/-- Grammar.h:795-797 -/
def enum_value_definition_content : Rule R := Rule.opt (Rule.seqs [Rule.star (.ref .ignored), .ref
    .directives])

/-- Grammar.h:800-802 -/
def enum_value_definition : Rule R := Rule.seqs [.ref .enum_value_definition_start, need
    .enum_value_definition_content]

/-- Grammar.h:804-806 -/
def enum_values_definition_start : Rule R := Rule.chr '{'

/-- Grammar.h:808-811 -/
def enum_values_definition_content : Rule R := Rule.seqs [Rule.star (.ref .ignored), Rule.list (.ref
    .enum_value_definition) (Rule.plus (.ref .ignored)), Rule.star (.ref .ignored), Rule.must (str "Expected }")
    (Rule.chr '}')]

/-- Grammar.h:814-817 -/
def enum_values_definition : Rule R := Rule.seqs [.ref .enum_values_definition_start, need
    .enum_values_definition_content]

/-- Grammar.h:819-821 -/
def enum_type_definition_start : Rule R := Rule.seqs [Rule.opt (Rule.seqs [.ref .description, Rule.star (.ref
    .ignored)]), .ref .enum_keyword]

/-- Grammar.h:823-825 -/
def enum_type_definition_name : Rule R := Rule.seqs [Rule.plus (.ref .ignored), .ref .enum_name]

/-- Grammar.h:827-829 -/
def enum_type_definition_directives : Rule R := Rule.opt (Rule.seqs [Rule.star (.ref .ignored), .ref
    .directives])

/-- Grammar.h:831-833 -/
def enum_type_definition_enum_values_definition : Rule R := Rule.seqs [Rule.star (.ref .ignored), .ref
    .enum_values_definition]

/-- Grammar.h:835-840 -/
def enum_type_definition_content : Rule R := Rule.seqs [.ref .enum_type_definition_name, Rule.sors [Rule.seqs
    [.ref .enum_type_definition_directives, .ref .enum_type_definition_enum_values_definition], .ref
    .enum_type_definition_directives]]

/-- Grammar.h:843-845 -/
def enum_type_definition : Rule R := Rule.seqs [.ref .enum_type_definition_start, need
    .enum_type_definition_content]

/-- Grammar.h:847-849 -/
def input_keyword : Rule R := Rule.keyword "input"

/-- Grammar.h:851-853 -/
def input_field_definition_start : Rule R := Rule.seqs [Rule.opt (Rule.seqs [.ref .description, Rule.star
    (.ref .ignored)]), .ref .argument_name]

/-- Grammar.h:855-857 -/
def input_field_definition_type_name : Rule R := Rule.seqs [Rule.star (.ref .ignored), Rule.chr ':', Rule.star
    (.ref .ignored), .ref .type_name]

/-- Grammar.h:859-861 -/
def input_field_definition_default_value : Rule R := Rule.opt (Rule.seqs [Rule.star (.ref .ignored), .ref
    .default_value])

/-- Grammar.h:863-865 -/
def input_field_definition_directives : Rule R := Rule.seqs [Rule.star (.ref .ignored), .ref .directives]

/-- Grammar.h:867-872 -/
def input_field_definition_content : Rule R := Rule.seqs [.ref .input_field_definition_type_name, Rule.sors
    [Rule.seqs [.ref .input_field_definition_default_value, .ref .input_field_definition_directives], .ref
    .input_field_definition_default_value]]

/-- Grammar.h:875-878 -/
def input_field_definition : Rule R := Rule.seqs [.ref .input_field_definition_start, need
    .input_field_definition_content]

/-- Grammar.h:880-882 -/
def input_fields_definition_start : Rule R := Rule.chr '{'

/-- Grammar.h:884-887 -/
def input_fields_definition_content : Rule R := Rule.seqs [Rule.star (.ref .ignored), Rule.list (.ref
    .input_field_definition) (Rule.plus (.ref .ignored)), Rule.star (.ref .ignored), Rule.must (str "Expected }")
    (Rule.chr '}')]

/-- Grammar.h:890-893 -/
def input_fields_definition : Rule R := Rule.seqs [.ref .input_fields_definition_start, need
    .input_fields_definition_content]

/-- Grammar.h:895-897 -/
def input_object_type_definition_start : Rule R := Rule.seqs [Rule.opt (Rule.seqs [.ref .description,
    Rule.star (.ref .ignored)]), .ref .input_keyword]

/-- Grammar.h:899-901 -/
def input_object_type_definition_object_name : Rule R := Rule.seqs [Rule.plus (.ref .ignored), .ref
    .object_name]

/-- Grammar.h:903-905 -/
def input_object_type_definition_directives : Rule R := Rule.opt (Rule.seqs [Rule.star (.ref .ignored), .ref
    .directives])

/-- Grammar.h:907-909 -/
def input_object_type_definition_fields_definition : Rule R := Rule.seqs [Rule.star (.ref .ignored), .ref
    .input_fields_definition]

/-- Grammar.h:911-917 -/
def input_object_type_definition_content : Rule R := Rule.seqs [.ref
    .input_object_type_definition_object_name, Rule.sors [Rule.seqs [.ref
    .input_object_type_definition_directives, .ref .input_object_type_definition_fields_definition], .ref
    .input_object_type_definition_directives]]

/-- Grammar.h:920-923 -/
def input_object_type_definition : Rule R := Rule.seqs [.ref .input_object_type_definition_start, need
    .input_object_type_definition_content]

/-- Grammar.h:926-930 -/
def type_definition : Rule R := Rule.sors [.ref .scalar_type_definition, .ref .object_type_definition, .ref
    .interface_type_definition, .ref .union_type_definition, .ref .enum_type_definition, .ref
    .input_object_type_definition]

/-- Grammar.h:933-939 -/
def executable_directive_location : Rule R := Rule.sors [Rule.keyword "QUERY", Rule.keyword "MUTATION",
    Rule.keyword "SUBSCRIPTION", Rule.keyword "FIELD", Rule.keyword "FRAGMENT_DEFINITION", Rule.keyword "FRAGMENT_SPREAD"
    , Rule.keyword "INLINE_FRAGMENT"]

/-- Grammar.h:942-949 -/
def type_system_directive_location : Rule R := Rule.sors [Rule.keyword "SCHEMA", Rule.keyword "SCALAR",
    Rule.keyword "OBJECT", Rule.keyword "FIELD_DEFINITION", Rule.keyword "ARGUMENT_DEFINITION", Rule.keyword "INTERFACE"
    , Rule.keyword "UNION", Rule.keyword "ENUM", Rule.keyword "ENUM_VALUE", Rule.keyword "INPUT_OBJECT",
    Rule.keyword "INPUT_FIELD_DEFINITION"]

/-- Grammar.h:952-954 -/
def directive_location : Rule R := Rule.sors [.ref .executable_directive_location, .ref
    .type_system_directive_location]

/-- Grammar.h:957-961 -/
def directive_locations : Rule R := Rule.seqs [Rule.opt (Rule.seqs [Rule.chr '|', Rule.star (.ref .ignored)]),
    Rule.list (.ref .directive_location) (Rule.seqs [Rule.star (.ref .ignored), Rule.chr '|', Rule.star (.ref
    .ignored)])]

/-- Grammar.h:963-966 -/
def directive_definition_start : Rule R := Rule.seqs [Rule.opt (Rule.seqs [.ref .description, Rule.star (.ref
    .ignored)]), Rule.keyword "directive"]

/-- Grammar.h:968-972 -/
def directive_definition_content : Rule R := Rule.seqs [Rule.star (.ref .ignored), Rule.chr '@', .ref
    .directive_name, Rule.opt (Rule.seqs [Rule.star (.ref .ignored), .ref .arguments_definition]), Rule.plus
    (.ref .ignored), .ref .on_keyword, Rule.plus (.ref .ignored), .ref .directive_locations]

/-- Grammar.h:975-977 -/
def directive_definition : Rule R := Rule.seqs [.ref .directive_definition_start, need
    .directive_definition_content]

/-- Grammar.h:980-982 -/
def type_system_definition : Rule R := Rule.sors [.ref .schema_definition, .ref .type_definition, .ref
    .directive_definition]

/-- Grammar.h:984-986 -/
def extend_keyword : Rule R := Rule.keyword "extend"

/-- Grammar.h:989-991 -/
def operation_type_definition : Rule R := G.root_operation_definition

/-- Grammar.h:993-995 -/
def schema_extension_start : Rule R := Rule.seqs [.ref .extend_keyword, Rule.plus (.ref .ignored), .ref
    .schema_keyword]

/-- Grammar.h:997-1001 -/
def schema_extension_operation_type_definitions : Rule R := Rule.seqs [Rule.chr '{', Rule.star (.ref
    .ignored), Rule.list (.ref .operation_type_definition) (Rule.plus (.ref .ignored)), Rule.star (.ref
    .ignored), Rule.must (str "Expected }") (Rule.chr '}')]

/-- Grammar.h:1003-1007 -/
def schema_extension_content : Rule R := Rule.seqs [Rule.star (.ref .ignored), Rule.sors [Rule.seqs [Rule.opt
    (.ref .directives), .ref .schema_extension_operation_type_definitions], .ref .directives]]

/-- Grammar.h:1010-1012 -/
def schema_extension : Rule R := Rule.seqs [.ref .schema_extension_start, need .schema_extension_content]

/-- Grammar.h:1014-1016 -/
def scalar_type_extension_start : Rule R := Rule.seqs [.ref .extend_keyword, Rule.plus (.ref .ignored), .ref
    .scalar_keyword]

/-- Grammar.h:1018-1020 -/
def scalar_type_extension_content : Rule R := Rule.seqs [Rule.star (.ref .ignored), .ref .scalar_name,
    Rule.star (.ref .ignored), .ref .directives]

/-- Grammar.h:1023-1025 -/
def scalar_type_extension : Rule R := Rule.seqs [.ref .scalar_type_extension_start, need
    .scalar_type_extension_content]

/-- Grammar.h:1027-1029 -/
def object_type_extension_start : Rule R := Rule.seqs [.ref .extend_keyword, Rule.plus (.ref .ignored), .ref
    .type_keyword]

/-- Grammar.h:1031-1033 -/
def object_type_extension_implements_interfaces : Rule R := Rule.seqs [Rule.plus (.ref .ignored), .ref
    .implements_interfaces]

/-- Grammar.h:1035-1037 -/
def object_type_extension_directives : Rule R := Rule.seqs [Rule.star (.ref .ignored), .ref .directives]

/-- Grammar.h:1039-1041 -/
def object_type_extension_fields_definition : Rule R := Rule.seqs [Rule.star (.ref .ignored), .ref
    .fields_definition]

/-- Grammar.h:1043-1051 -/
def object_type_extension_content : Rule R := Rule.seqs [Rule.plus (.ref .ignored), .ref .object_name,
    Rule.sors [Rule.seqs [Rule.opt (.ref .object_type_extension_implements_interfaces), Rule.opt (.ref
    .object_type_extension_directives), .ref .object_type_extension_fields_definition], Rule.seqs [Rule.opt
    (.ref .object_type_extension_implements_interfaces), .ref .object_type_extension_directives], .ref
    .object_type_extension_implements_interfaces]]

/-- Grammar.h:1054-1056 -/
def object_type_extension : Rule R := Rule.seqs [.ref .object_type_extension_start, need
    .object_type_extension_content]

/-- Grammar.h:1058-1060 -/
def interface_type_extension_start : Rule R := Rule.seqs [.ref .extend_keyword, Rule.plus (.ref .ignored),
    .ref .interface_keyword]

/-- Grammar.h:1062-1066 -/
def interface_type_extension_content : Rule R := Rule.seqs [Rule.plus (.ref .ignored), .ref .interface_name,
    Rule.star (.ref .ignored), Rule.sors [Rule.seqs [Rule.opt (Rule.seqs [.ref .directives, Rule.star (.ref
    .ignored)]), .ref .fields_definition], .ref .directives]]

/-- Grammar.h:1069-1072 -/
def interface_type_extension : Rule R := Rule.seqs [.ref .interface_type_extension_start, need
    .interface_type_extension_content]

/-- Grammar.h:1074-1076 -/
def union_type_extension_start : Rule R := Rule.seqs [.ref .extend_keyword, Rule.plus (.ref .ignored), .ref
    .union_keyword]

/-- Grammar.h:1078-1082 -/
def union_type_extension_content : Rule R := Rule.seqs [Rule.plus (.ref .ignored), .ref .union_name, Rule.star
    (.ref .ignored), Rule.sors [Rule.seqs [Rule.opt (Rule.seqs [.ref .directives, Rule.star (.ref .ignored)]),
    .ref .union_member_types], .ref .directives]]

/-- Grammar.h:1085-1087 -/
def union_type_extension : Rule R := Rule.seqs [.ref .union_type_extension_start, need
    .union_type_extension_content]

/-- Grammar.h:1089-1091 -/
def enum_type_extension_start : Rule R := Rule.seqs [.ref .extend_keyword, Rule.plus (.ref .ignored), .ref
    .enum_keyword]

/-- Grammar.h:1093-1097 -/
def enum_type_extension_content : Rule R := Rule.seqs [Rule.plus (.ref .ignored), .ref .enum_name, Rule.star
    (.ref .ignored), Rule.sors [Rule.seqs [Rule.opt (Rule.seqs [.ref .directives, Rule.star (.ref .ignored)]),
    .ref .enum_values_definition], .ref .directives]]

/-- Grammar.h:1100-1102 -/
def enum_type_extension : Rule R := Rule.seqs [.ref .enum_type_extension_start, need
    .enum_type_extension_content]

/-- Grammar.h:1104-1106 -/
def input_object_type_extension_start : Rule R := Rule.seqs [.ref .extend_keyword, Rule.plus (.ref .ignored),
    .ref .input_keyword]

/-- Grammar.h:1108-1112 -/
def input_object_type_extension_content : Rule R := Rule.seqs [Rule.plus (.ref .ignored), .ref .object_name,
    Rule.star (.ref .ignored), Rule.sors [Rule.seqs [Rule.opt (Rule.seqs [.ref .directives, Rule.star (.ref
    .ignored)]), .ref .input_fields_definition], .ref .directives]]

/-- Grammar.h:1115-1118 -/
def input_object_type_extension : Rule R := Rule.seqs [.ref .input_object_type_extension_start, need
    .input_object_type_extension_content]

/-- Grammar.h:1121-1125 -/
def type_extension : Rule R := Rule.sors [.ref .scalar_type_extension, .ref .object_type_extension, .ref
    .interface_type_extension, .ref .union_type_extension, .ref .enum_type_extension, .ref
    .input_object_type_extension]

/-- Grammar.h:1128-1130 -/
def type_system_extension : Rule R := Rule.sors [.ref .schema_extension, .ref .type_extension]

/-- Grammar.h:1133-1135 -/
def mixed_definition : Rule R := Rule.sors [.ref .executable_definition, .ref .type_system_definition, .ref
    .type_system_extension]

/-- Grammar.h:1137-1142 -/
def mixed_document_content : Rule R := Rule.seqs [Rule.empty, Rule.opt Rule.bom, Rule.star (.ref .ignored),
    Rule.list (.ref .mixed_definition) (Rule.star (.ref .ignored)), Rule.star (.ref .ignored), Rule.eof]

/-- Grammar.h:1145-1147 -/
def mixed_document : Rule R := need .mixed_document_content

/-- Grammar.h:1149-1154 -/
def executable_document_content : Rule R := Rule.seqs [Rule.empty, Rule.opt Rule.bom, Rule.star (.ref
    .ignored), Rule.list (.ref .executable_definition) (Rule.star (.ref .ignored)), Rule.star (.ref .ignored),
    Rule.eof]

/-- Grammar.h:1157-1159 -/
def executable_document : Rule R := need .executable_document_content

/-- Grammar.h:1162-1164 -/
def schema_type_definition : Rule R := Rule.sors [.ref .type_system_definition, .ref .type_system_extension]

/-- Grammar.h:1166-1171 -/
def schema_document_content : Rule R := Rule.seqs [Rule.empty, Rule.opt Rule.bom, Rule.star (.ref .ignored),
    Rule.list (.ref .schema_type_definition) (Rule.star (.ref .ignored)), Rule.star (.ref .ignored), Rule.eof]

/-- Grammar.h:1174-1176 -/
def schema_document : Rule R := need .schema_document_content

end G

/-- The expression of each rule. -/
def grammar : R → Rule R
  | .source_character => G.source_character
  | .comment => G.comment
  | .ignored => G.ignored
  | .name => G.name
  | .variable_name_content => G.variable_name_content
  | .variable_name => G.variable_name
  | .null_keyword => G.null_keyword
  | .quote_token => G.quote_token
  | .backslash_token => G.backslash_token
  | .escaped_unicode_codepoint => G.escaped_unicode_codepoint
  | .escaped_unicode_content => G.escaped_unicode_content
  | .escaped_unicode => G.escaped_unicode
  | .escaped_char => G.escaped_char
  | .string_escape_sequence_content => G.string_escape_sequence_content
  | .string_escape_sequence => G.string_escape_sequence
  | .string_quote_character => G.string_quote_character
  | .string_quote_content => G.string_quote_content
  | .string_quote => G.string_quote
  | .block_quote_token => G.block_quote_token
  | .block_escape_sequence => G.block_escape_sequence
  | .block_quote_character => G.block_quote_character
  | .block_quote_content => G.block_quote_content
  | .block_quote => G.block_quote
  | .string_value => G.string_value
  | .nonzero_digit => G.nonzero_digit
  | .zero_digit => G.zero_digit
  | .negative_sign => G.negative_sign
  | .integer_part => G.integer_part
  | .integer_value => G.integer_value
  | .fractional_part_content => G.fractional_part_content
  | .fractional_part => G.fractional_part
  | .exponent_indicator => G.exponent_indicator
  | .sign => G.sign
  | .exponent_part_content => G.exponent_part_content
  | .exponent_part => G.exponent_part
  | .float_value => G.float_value
  | .true_keyword => G.true_keyword
  | .false_keyword => G.false_keyword
  | .bool_value => G.bool_value
  | .enum_value => G.enum_value
  | .operation_type => G.operation_type
  | .alias_name => G.alias_name
  | .«alias» => G.«alias»
  | .argument_name => G.argument_name
  | .argument_content => G.argument_content
  | .argument => G.argument
  | .arguments_content => G.arguments_content
  | .arguments => G.arguments
  | .list_value_content => G.list_value_content
  | .list_value => G.list_value
  | .object_field_name => G.object_field_name
  | .object_field_content => G.object_field_content
  | .object_field => G.object_field
  | .object_value_content => G.object_value_content
  | .object_value => G.object_value
  | .variable_value => G.variable_value
  | .input_value_content => G.input_value_content
  | .input_value => G.input_value
  | .list_entry => G.list_entry
  | .default_value_content => G.default_value_content
  | .default_value => G.default_value
  | .named_type => G.named_type
  | .list_type_content => G.list_type_content
  | .list_type => G.list_type
  | .nonnull_type => G.nonnull_type
  | .type_name_content => G.type_name_content
  | .type_name => G.type_name
  | .variable_content => G.variable_content
  | .«variable» => G.«variable»
  | .variable_definitions_content => G.variable_definitions_content
  | .variable_definitions => G.variable_definitions
  | .directive_name => G.directive_name
  | .directive_content => G.directive_content
  | .directive => G.directive
  | .directives => G.directives
  | .field_name => G.field_name
  | .field_start => G.field_start
  | .field_arguments => G.field_arguments
  | .field_directives => G.field_directives
  | .field_selection_set => G.field_selection_set
  | .field_content => G.field_content
  | .field => G.field
  | .on_keyword => G.on_keyword
  | .fragment_name => G.fragment_name
  | .fragment_token => G.fragment_token
  | .fragment_spread => G.fragment_spread
  | .type_condition_content => G.type_condition_content
  | .type_condition => G.type_condition
  | .inline_fragment => G.inline_fragment
  | .fragement_spread_or_inline_fragment_content => G.fragement_spread_or_inline_fragment_content
  | .fragement_spread_or_inline_fragment => G.fragement_spread_or_inline_fragment
  | .selection => G.selection
  | .selection_set_content => G.selection_set_content
  | .selection_set => G.selection_set
  | .operation_name => G.operation_name
  | .operation_definition_operation_type_content => G.operation_definition_operation_type_content
  | .operation_definition => G.operation_definition
  | .fragment_definition_content => G.fragment_definition_content
  | .fragment_definition => G.fragment_definition
  | .executable_definition => G.executable_definition
  | .schema_keyword => G.schema_keyword
  | .root_operation_definition_content => G.root_operation_definition_content
  | .root_operation_definition => G.root_operation_definition
  | .schema_definition_content => G.schema_definition_content
  | .schema_definition => G.schema_definition
  | .scalar_keyword => G.scalar_keyword
  | .description => G.description
  | .scalar_name => G.scalar_name
  | .scalar_type_definition_start => G.scalar_type_definition_start
  | .scalar_type_definition_content => G.scalar_type_definition_content
  | .scalar_type_definition => G.scalar_type_definition
  | .type_keyword => G.type_keyword
  | .arguments_definition_start => G.arguments_definition_start
  | .arguments_definition_content => G.arguments_definition_content
  | .arguments_definition => G.arguments_definition
  | .field_definition_start => G.field_definition_start
  | .field_definition_content => G.field_definition_content
  | .field_definition => G.field_definition
  | .fields_definition_content => G.fields_definition_content
  | .fields_definition => G.fields_definition
  | .interface_type => G.interface_type
  | .implements_interfaces_content => G.implements_interfaces_content
  | .implements_interfaces => G.implements_interfaces
  | .object_name => G.object_name
  | .object_type_definition_start => G.object_type_definition_start
  | .object_type_definition_object_name => G.object_type_definition_object_name
  | .object_type_definition_implements_interfaces => G.object_type_definition_implements_interfaces
  | .object_type_definition_directives => G.object_type_definition_directives
  | .object_type_definition_fields_definition => G.object_type_definition_fields_definition
  | .object_type_definition_content => G.object_type_definition_content
  | .object_type_definition => G.object_type_definition
  | .interface_keyword => G.interface_keyword
  | .interface_name => G.interface_name
  | .interface_type_definition_start => G.interface_type_definition_start
  | .interface_type_definition_interface_name => G.interface_type_definition_interface_name
  | .interface_type_definition_directives => G.interface_type_definition_directives
  | .interface_type_definition_fields_definition => G.interface_type_definition_fields_definition
  | .interface_type_definition_content => G.interface_type_definition_content
  | .interface_type_definition => G.interface_type_definition
  | .union_keyword => G.union_keyword
  | .union_name => G.union_name
  | .union_type => G.union_type
  | .union_member_types_start => G.union_member_types_start
  | .union_member_types_content => G.union_member_types_content
  | .union_member_types => G.union_member_types
  | .union_type_definition_start => G.union_type_definition_start
  | .union_type_definition_directives => G.union_type_definition_directives
  | .union_type_definition_content => G.union_type_definition_content
  | .union_type_definition => G.union_type_definition
  | .enum_keyword => G.enum_keyword
  | .enum_name => G.enum_name
  | .enum_value_definition_start => G.enum_value_definition_start
  | .enum_value_definition_content => G.enum_value_definition_content
  | .enum_value_definition => G.enum_value_definition
  | .enum_values_definition_start => G.enum_values_definition_start
  | .enum_values_definition_content => G.enum_values_definition_content
  | .enum_values_definition => G.enum_values_definition
  | .enum_type_definition_start => G.enum_type_definition_start
  | .enum_type_definition_name => G.enum_type_definition_name
  | .enum_type_definition_directives => G.enum_type_definition_directives
  | .enum_type_definition_enum_values_definition => G.enum_type_definition_enum_values_definition
  | .enum_type_definition_content => G.enum_type_definition_content
  | .enum_type_definition => G.enum_type_definition
  | .input_keyword => G.input_keyword
  | .input_field_definition_start => G.input_field_definition_start
  | .input_field_definition_type_name => G.input_field_definition_type_name
  | .input_field_definition_default_value => G.input_field_definition_default_value
  | .input_field_definition_directives => G.input_field_definition_directives
  | .input_field_definition_content => G.input_field_definition_content
  | .input_field_definition => G.input_field_definition
  | .input_fields_definition_start => G.input_fields_definition_start
  | .input_fields_definition_content => G.input_fields_definition_content
  | .input_fields_definition => G.input_fields_definition
  | .input_object_type_definition_start => G.input_object_type_definition_start
  | .input_object_type_definition_object_name => G.input_object_type_definition_object_name
  | .input_object_type_definition_directives => G.input_object_type_definition_directives
  | .input_object_type_definition_fields_definition => G.input_object_type_definition_fields_definition
  | .input_object_type_definition_content => G.input_object_type_definition_content
  | .input_object_type_definition => G.input_object_type_definition
  | .type_definition => G.type_definition
  | .executable_directive_location => G.executable_directive_location
  | .type_system_directive_location => G.type_system_directive_location
  | .directive_location => G.directive_location
  | .directive_locations => G.directive_locations
  | .directive_definition_start => G.directive_definition_start
  | .directive_definition_content => G.directive_definition_content
  | .directive_definition => G.directive_definition
  | .type_system_definition => G.type_system_definition
  | .extend_keyword => G.extend_keyword
  | .operation_type_definition => G.operation_type_definition
  | .schema_extension_start => G.schema_extension_start
  | .schema_extension_operation_type_definitions => G.schema_extension_operation_type_definitions
  | .schema_extension_content => G.schema_extension_content
  | .schema_extension => G.schema_extension
  | .scalar_type_extension_start => G.scalar_type_extension_start
  | .scalar_type_extension_content => G.scalar_type_extension_content
  | .scalar_type_extension => G.scalar_type_extension
  | .object_type_extension_start => G.object_type_extension_start
  | .object_type_extension_implements_interfaces => G.object_type_extension_implements_interfaces
  | .object_type_extension_directives => G.object_type_extension_directives
  | .object_type_extension_fields_definition => G.object_type_extension_fields_definition
  | .object_type_extension_content => G.object_type_extension_content
  | .object_type_extension => G.object_type_extension
  | .interface_type_extension_start => G.interface_type_extension_start
  | .interface_type_extension_content => G.interface_type_extension_content
  | .interface_type_extension => G.interface_type_extension
  | .union_type_extension_start => G.union_type_extension_start
  | .union_type_extension_content => G.union_type_extension_content
  | .union_type_extension => G.union_type_extension
  | .enum_type_extension_start => G.enum_type_extension_start
  | .enum_type_extension_content => G.enum_type_extension_content
  | .enum_type_extension => G.enum_type_extension
  | .input_object_type_extension_start => G.input_object_type_extension_start
  | .input_object_type_extension_content => G.input_object_type_extension_content
  | .input_object_type_extension => G.input_object_type_extension
  | .type_extension => G.type_extension
  | .type_system_extension => G.type_system_extension
  | .mixed_definition => G.mixed_definition
  | .mixed_document_content => G.mixed_document_content
  | .mixed_document => G.mixed_document
  | .executable_document_content => G.executable_document_content
  | .executable_document => G.executable_document
  | .schema_type_definition => G.schema_type_definition
  | .schema_document_content => G.schema_document_content
  | .schema_document => G.schema_document

/-- `ast_selector`, SyntaxTree.cpp:104-409 -/
def astSelector : R → Sel
  | .operation_type => .store  -- SyntaxTree.cpp:113
  | .list_value => .store  -- SyntaxTree.cpp:118
  | .object_field_name => .store  -- SyntaxTree.cpp:123
  | .object_field => .store  -- SyntaxTree.cpp:128
  | .object_value => .store  -- SyntaxTree.cpp:133
  | .variable_value => .store  -- SyntaxTree.cpp:138
  | .integer_value => .store  -- SyntaxTree.cpp:143
  | .float_value => .store  -- SyntaxTree.cpp:148
  | .escaped_unicode => .store  -- SyntaxTree.cpp:153
  | .escaped_char => .store  -- SyntaxTree.cpp:158
  | .string_quote_character => .store  -- SyntaxTree.cpp:210
  | .block_escape_sequence => .store  -- SyntaxTree.cpp:219
  | .block_quote_character => .store  -- SyntaxTree.cpp:228
  | .string_value => .store  -- SyntaxTree.cpp:237
  | .true_keyword => .store  -- SyntaxTree.cpp:242
  | .false_keyword => .store  -- SyntaxTree.cpp:247
  | .null_keyword => .store  -- SyntaxTree.cpp:252
  | .enum_value => .store  -- SyntaxTree.cpp:257
  | .field_name => .store  -- SyntaxTree.cpp:262
  | .argument_name => .store  -- SyntaxTree.cpp:267
  | .argument => .store  -- SyntaxTree.cpp:272
  | .arguments => .store  -- SyntaxTree.cpp:277
  | .directive_name => .store  -- SyntaxTree.cpp:282
  | .directive => .store  -- SyntaxTree.cpp:287
  | .directives => .store  -- SyntaxTree.cpp:292
  | .«variable» => .store  -- SyntaxTree.cpp:297
  | .scalar_name => .store  -- SyntaxTree.cpp:302
  | .named_type => .store  -- SyntaxTree.cpp:307
  | .list_type => .store  -- SyntaxTree.cpp:312
  | .nonnull_type => .store  -- SyntaxTree.cpp:317
  | .default_value => .store  -- SyntaxTree.cpp:322
  | .operation_definition => .store  -- SyntaxTree.cpp:327
  | .fragment_definition => .store  -- SyntaxTree.cpp:332
  | .schema_definition => .store  -- SyntaxTree.cpp:337
  | .scalar_type_definition => .store  -- SyntaxTree.cpp:342
  | .object_type_definition => .store  -- SyntaxTree.cpp:347
  | .interface_type_definition => .store  -- SyntaxTree.cpp:352
  | .union_type_definition => .store  -- SyntaxTree.cpp:357
  | .enum_type_definition => .store  -- SyntaxTree.cpp:362
  | .input_object_type_definition => .store  -- SyntaxTree.cpp:367
  | .directive_definition => .store  -- SyntaxTree.cpp:372
  | .schema_extension => .store  -- SyntaxTree.cpp:377
  | .scalar_type_extension => .store  -- SyntaxTree.cpp:382
  | .object_type_extension => .store  -- SyntaxTree.cpp:387
  | .interface_type_extension => .store  -- SyntaxTree.cpp:392
  | .union_type_extension => .store  -- SyntaxTree.cpp:397
  | .enum_type_extension => .store  -- SyntaxTree.cpp:402
  | .input_object_type_extension => .store  -- SyntaxTree.cpp:407
  | _ => .discard

/-- `schema_selector`, SyntaxTree.cpp:411-494 -/
def schemaSelector : R → Sel
  | .description => .store  -- SyntaxTree.cpp:417
  | .object_name => .store  -- SyntaxTree.cpp:422
  | .interface_name => .store  -- SyntaxTree.cpp:427
  | .union_name => .store  -- SyntaxTree.cpp:432
  | .enum_name => .store  -- SyntaxTree.cpp:437
  | .root_operation_definition => .store  -- SyntaxTree.cpp:442
  | .interface_type => .store  -- SyntaxTree.cpp:447
  | .input_field_definition => .store  -- SyntaxTree.cpp:452
  | .input_fields_definition => .store  -- SyntaxTree.cpp:457
  | .arguments_definition => .store  -- SyntaxTree.cpp:462
  | .field_definition => .store  -- SyntaxTree.cpp:467
  | .fields_definition => .store  -- SyntaxTree.cpp:472
  | .union_type => .store  -- SyntaxTree.cpp:477
  | .enum_value_definition => .store  -- SyntaxTree.cpp:482
  | .directive_location => .store  -- SyntaxTree.cpp:487
  | .operation_type_definition => .store  -- SyntaxTree.cpp:492
  | n => astSelector n

/-- `executable_selector`, SyntaxTree.cpp:496-549 -/
def executableSelector : R → Sel
  | .variable_name => .store  -- SyntaxTree.cpp:502
  | .alias_name => .store  -- SyntaxTree.cpp:507
  | .«alias» => .foldOne  -- SyntaxTree.cpp:512
  | .operation_name => .store  -- SyntaxTree.cpp:517
  | .fragment_name => .store  -- SyntaxTree.cpp:522
  | .field => .store  -- SyntaxTree.cpp:527
  | .fragment_spread => .store  -- SyntaxTree.cpp:532
  | .inline_fragment => .store  -- SyntaxTree.cpp:537
  | .selection_set => .store  -- SyntaxTree.cpp:542
  | .type_condition => .store  -- SyntaxTree.cpp:547
  | n => astSelector n

end Verif.Peg
