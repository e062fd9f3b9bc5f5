import Verif.Grammar.Rules
import Verif.Grammar.PegProps

/-!
# The grammar is well-formed

Generated by `tools/grammar.py`: which rules may match the empty text, and the order in which rules call each other before
anything is consumed. The theorem checks this for every rule of the grammar.
-/
namespace Verif.Peg

def nulTable : R → Bool
  | .field_arguments => true
  | .field_content => true
  | .object_type_definition_implements_interfaces => true
  | .interface_type_definition_directives => true
  | .union_type_definition_directives => true
  | .enum_value_definition_content => true
  | .enum_type_definition_directives => true
  | .input_field_definition_default_value => true
  | .input_object_type_definition_directives => true
  | _ => false

def rankTable : R → Nat
  | .mixed_document | .schema_document => 10
  | .mixed_document_content | .schema_document_content => 9
  | .mixed_definition | .schema_type_definition => 8
  | .type_system_definition => 7
  | .default_value_content | .arguments_definition_content | .fields_definition_content
  | .enum_values_definition_content | .input_fields_definition_content | .type_definition => 6
  | .list_value_content | .input_value | .selection_set_content | .scalar_type_definition
  | .field_definition | .object_type_definition | .interface_type_definition | .union_type_definition
  | .enum_value_definition | .enum_type_definition | .input_field_definition
  | .input_object_type_definition | .directive_definition => 5
  | .input_value_content | .list_entry | .selection | .scalar_type_definition_start
  | .field_definition_start | .object_type_definition_start | .interface_type_definition_start
  | .union_type_definition_start | .enum_value_definition_start | .enum_type_definition_start
  | .input_field_definition_start | .input_object_type_definition_start | .directive_definition_start
  | .type_system_extension | .executable_document => 4
  | .block_quote_content | .string_value | .type_name | .field_content | .field
  | .fragement_spread_or_inline_fragment_content | .description | .object_type_definition_content
  | .interface_type_definition_content | .enum_type_definition_content | .input_field_definition_content
  | .input_object_type_definition_content | .type_extension | .executable_document_content => 3
  | .string_quote_content | .block_quote_character | .block_quote | .float_value | .argument_content
  | .arguments_content | .object_field_content | .object_value_content | .list_type_content
  | .type_name_content | .variable_content | .variable_definitions_content | .field_start
  | .field_arguments | .field_directives | .field_selection_set | .fragment_spread
  | .type_condition_content | .inline_fragment | .operation_definition_operation_type_content
  | .fragment_definition_content | .executable_definition | .root_operation_definition_content
  | .schema_definition_content | .scalar_type_definition_content | .field_definition_content
  | .implements_interfaces_content | .object_type_definition_object_name
  | .object_type_definition_implements_interfaces | .object_type_definition_directives
  | .object_type_definition_fields_definition | .interface_type_definition_interface_name
  | .interface_type_definition_directives | .interface_type_definition_fields_definition
  | .union_member_types_content | .union_type_definition_directives | .union_type_definition_content
  | .enum_value_definition_content | .enum_type_definition_name | .enum_type_definition_directives
  | .enum_type_definition_enum_values_definition | .input_field_definition_type_name
  | .input_field_definition_default_value | .input_field_definition_directives
  | .input_object_type_definition_object_name | .input_object_type_definition_directives
  | .input_object_type_definition_fields_definition | .directive_locations
  | .directive_definition_content | .schema_extension_content | .schema_extension
  | .scalar_type_extension_content | .scalar_type_extension
  | .object_type_extension_implements_interfaces | .object_type_extension_directives
  | .object_type_extension_fields_definition | .object_type_extension_content | .object_type_extension
  | .interface_type_extension_content | .interface_type_extension | .union_type_extension_content
  | .union_type_extension | .enum_type_extension_content | .enum_type_extension
  | .input_object_type_extension_content | .input_object_type_extension => 2
  | .ignored | .escaped_unicode_content | .string_escape_sequence_content | .string_escape_sequence
  | .string_quote_character | .string_quote | .block_quote_token | .block_escape_sequence
  | .integer_part | .integer_value | .exponent_part_content | .exponent_part | .bool_value | .enum_value
  | .«alias» | .argument | .object_field | .nonnull_type | .«variable» | .directive_content
  | .directives | .fragment_name | .type_condition | .fragement_spread_or_inline_fragment
  | .operation_definition | .root_operation_definition | .schema_definition | .arguments_definition
  | .union_member_types | .enum_values_definition | .input_fields_definition | .directive_location
  | .operation_type_definition | .schema_extension_start | .scalar_type_extension_start
  | .object_type_extension_start | .interface_type_extension_start | .union_type_extension_start
  | .enum_type_extension_start | .input_object_type_extension_start => 1
  | _ => 0

theorem wellFormed : WellFormed grammar nulTable rankTable where
  null n := by cases n <;> decide
  order n := by cases n <;> rfl
  loop n := by cases n <;> rfl

end Verif.Peg
