C01 proved
  Verif.Base64.C01_base64_roundtrip
  Verif.Base64.C01_base64_injective
C02 proved
  Verif.Base64.C02_base64_encodes
  Verif.Base64.C02_base64_shape
C03 proved
  Verif.Base64.C03_base64_decode_iff
  Verif.Base64.C03_base64_rejects
  Verif.Base64.C03_base64_accepted_unique
  # The exact set of accepted texts: one = is tolerated after complete groups, two after a partial group.
C04 proved
  Verif.Value.C04_map_history
  Verif.Value.C04_map_built
C05 proved
  Verif.Value.C05_copy_same
  Verif.Value.C05_copy_throws_iff
  Verif.Value.C05_eq_type
  Verif.Value.C05_copy_full_false
  # C05_copy_full_false shows that the unconditional claim fails (an empty scalar cannot be copied).
C06 proved
  Verif.Value.C06_get_table
  Verif.Value.C06_get_value
  Verif.Value.C06_set
  Verif.Value.C06_release
  Verif.Value.C06_release_id
  Verif.Value.C06_release_id_loses_text
  # The ID exception in the statement is witnessed by C06_release_id_loses_text.
C07 proved
  Verif.Json.C07_json_roundtrip
  Verif.Json.C07_nul_truncates
  Verif.Json.C07_empty_scalar_throws
  # RapidJSON itself is an assumption (see DESIGN.md): the Writer's calls are read back as the same calls.
C08 proved
  Verif.Json.C08_json_integers
  Verif.Json.C08_accepted_integer
C09 proved
  Verif.SortedMap.C09_sorted_map_refines_finite_map
  Verif.SortedMap.C09_sorted_set_refines_finite_set
  Verif.SortedMap.C09_initializer_list
C10 proved
  Verif.SortedMap.C10_shorter_or_less_strict_total
  Verif.SortedMap.C10_name_table
C44 proved
  Verif.Json.C44_prefix_safe
  Verif.Json.C44_truncated_accepted
C12 proved
  Verif.Errors.C12_error_shape
  Verif.Errors.C12_client_reads_errors
  Verif.Errors.C12_what
C17 proved
  Verif.Modifiers.C17_require_iff
  Verif.Modifiers.C17_unique
  Verif.Modifiers.C17_typed
  Verif.Modifiers.C17_find
  Verif.Modifiers.C17_error_names_argument
  Verif.Modifiers.C17_builtin
C39 proved
  Verif.Errors.C39_split_response
  Verif.Errors.C39_order_irrelevant
  Verif.Errors.C39_not_an_object
C40 proved
  Verif.Modifiers.C40_variable_roundtrip
  Verif.Modifiers.C40_variable_through_json
  Verif.Modifiers.C40_response_roundtrip
  Verif.Modifiers.C40_builtin_leaves
  Verif.Modifiers.C40_client_leaf
  Verif.Modifiers.C40_list_parse_accepts_anything
  # For leaf types whose values are never null, as the built-in ones; a custom scalar whose value is null is indistinguishable from an absent one.
C11 proved
  Verif.Errors.C11_path_root_to_leaf
  Verif.Errors.C11_path_injective
  Verif.Exec.C11_field_paths
  Verif.Exec.C11_set_paths
  Verif.Exec.C14_failure
  Verif.Exec.Demo.C11_future_without_path
  Verif.Exec.Demo.C11_unknown_field
  # The two Demo theorems witness the exceptions in the statement. C14_failure gives the exact path of a throwing accessor.
C13 proved
  Verif.Exec.C13_members
  Verif.Exec.C13_once
  Verif.Exec.C13_all_names
  Verif.Exec.firsts_spec
  Verif.Exec.Demo.C13_skipped_name_lost
  Verif.Exec.Demo.C13_not_merged
  # The Demo theorems show where the code deviates from the GraphQL specification.
C14 proved
  Verif.Exec.C14_siblings
  Verif.Exec.C14_value_alone
  Verif.Exec.C14_failure
  Verif.Exec.C14_contained
  Verif.Exec.Demo.C14_directive_fails_parent
C15 proved
  Verif.Exec.C15_decision
  Verif.Exec.C15_skip_include
  Verif.Exec.C15_include_ignored
  Verif.Exec.C15_written
  # C15_include_ignored witnesses the exception in the statement (a deviation from the GraphQL specification).
C16 proved
  Verif.Exec.C16_literal_value
  Verif.Exec.C16_arguments
  # For integer literals which fit 32 bits; std::atoi is undefined for others.
C18 proved
  Verif.Exec.C18_shape
  Verif.Exec.C18_list
  Verif.Exec.C18_future
  Verif.Exec.Demo.C18_elements_dropped
C19 proved
  Verif.Exec.C19_mismatch
  Verif.Exec.C19_finding_enum
  Verif.Exec.Demo.C19_absent_not_reported
C21 proved
  Verif.Exec.C21_order
  Verif.Exec.C21_order_alone
  Verif.Exec.C21_accessor_first
  Verif.Exec.C21_immediate
  Verif.Exec.C21_serial
  Verif.Exec.Demo.C21_objects_deferred
  # C21_objects_deferred: mutation fields of object types are not serial (a deviation from the GraphQL specification).
C22 proved
  Verif.Request.C22_selected_or_failed
  Verif.Request.C22_executes
  Verif.Request.C22_missing
  Verif.Request.C22_subscription
  Verif.Request.C22_invalid
  Verif.Request.C22_fragments
  Verif.Request.expand_sound
  Verif.Request.Expands_unique
  Verif.Request.Demo.C22_no_name_runs_first
  Verif.Request.Demo.C22_root_failure_escapes
C23 proved
  Verif.Request.C23_variables
  Verif.Request.C23_fails
  Verif.Request.C22_selected_or_failed
  Verif.Request.Demo.C23_fragment_directives_without_defaults
  Verif.Subs.Demo.C23_subscription_without_defaults
  # The Demo theorems witness the exceptions in the statement.
C24 proved
  Verif.Subs.C24_keys_distinct
  Verif.Subs.C24_new_key
  Verif.Subs.C24_unsubscribe_total
  Verif.Subs.C24_no_calls
  Verif.Subs.history_active
  Verif.Subs.Demo.C24_key_reused
  Verif.Subs.Demo.C24_called_after_unsubscribe
  # Histories with calls from inside callbacks. The Demo theorems witness the exceptions.
C25 proved
  Verif.Subs.C25_deliver
  Verif.Subs.C25_not_supported
  Verif.Subs.C25_defined
  Verif.Subs.eventDocument_eq
  Verif.Subs.Demo.C25_begin_throws
  Verif.Subs.Demo.C25_skipped_root
  Verif.Subs.Demo.C25_fragment_at_root
C26 proved
  Verif.Subs.C26_literal
  Verif.Subs.C26_filtered
  Verif.Subs.C26_deliver_literal
  Verif.Subs.C26_deliver_filtered
  Verif.Subs.Demo.C26_plain_deliver
C27 proved
  Verif.Subs.C27_subscribe_fails
  Verif.Subs.C27_notification_fails
  Verif.Subs.C27_unknown_key
  Verif.Subs.C27_unsubscribe_fails
  Verif.Subs.Demo.C27_throwing_accessor
C45 proved
  Verif.Resp.C45_equal_iff_same
  Verif.Resp.C45_symmetric
  Verif.Resp.C45_transitive
  Verif.Resp.C45_reflexive
C46 proved
  Verif.Exec.C46_innermost_directives
  Verif.Exec.C46_not_inherited
  # A fragment definition's own directives are only merged, never used to skip it.
C47 proved
  Verif.Subs.C47_registered
  # For documents whose fields have non-empty names, as the grammar demands.
C20 proved
  Verif.Validation.C20_validation_terminates
  Verif.Validation.C20_no_cycles
  Verif.Validation.C20_accepted_documents_expand
  Verif.Validation.Examples.C20_cyclic_fragment_accepted
  # The last one is the finding: a document with a cyclic fragment which is accepted.
C28 proved
  Verif.Validation.C28_variable_usage
  Verif.Validation.C28_variable_in_fragment
C29 proved
  Verif.Validation.C29_literal_accepted_iff
  Verif.Validation.C29_accepted_literals_inhabit
  Verif.Validation.C29_accepted_arguments_inhabit
  Verif.Validation.Examples.C29_directive_without_arguments
  Verif.Validation.Examples.C29_null_for_non_null
  Verif.Validation.Examples.C29_no_list_coercion
  Verif.Validation.Examples.C29_repeated_arguments_unchecked
C30 proved
  Verif.Validation.C30_document_structure
  Verif.Validation.Examples.C30_variables_in_custom_scalars
C31 proved
  Verif.Validation.C31_errors_independent_of_history
  Verif.Request.C31_validate_again
  Verif.Request.C31_validated_flag
  Verif.Validation.Examples.C31_unsupported_operation_leaks
  Verif.Request.Demo.C31_other_service
  # The last two are findings: an operation of a type which the schema does not have leaves its variables behind; a document validated by one service is not validated by another one.
C32 proved
  Verif.Validation.C32_fields_exist
  Verif.Validation.Examples.C32_below_repeated_unchecked
C33 proved
  Verif.Validation.C33_fields_agree
  Verif.Validation.Examples.C33_conflict_accepted
C48 proved
  Verif.Validation.C48_accepts_iff_valid
  Verif.Validation.C48_accepts_iff_valid_after
  Verif.Validation.Spec.C48_find_iff
  Verif.Validation.Spec.C48_isComposite_iff
  Verif.Validation.Spec.C48_overlap_iff
  Verif.Validation.Spec.C48_findArgument_iff
  Verif.Validation.Spec.C48_findDirective_iff
  Verif.Validation.Spec.C48_findField_iff
  Verif.Validation.Spec.C48_findVariable_iff
  Verif.Validation.Spec.C48_operationType_iff
  Verif.Validation.Spec.C48_operationLocation
  Verif.Validation.Examples.good_valid
C36 proved
  Verif.Schema.Wrap.C36_interned
  Verif.Schema.Wrap.C36_wraps
  Verif.Schema.Wrap.C36_no_race
  Verif.Schema.Wrap.C36_no_deadlock
  Verif.Schema.Wrap.Example.race_example
  Verif.Schema.Wrap.Example.wrong_kind_is_shared
C37 proved
  Verif.TypeSystem.C37_lookup
  Verif.TypeSystem.Example.built
  Verif.TypeSystem.Example.replaced_type
C38 proved
  Verif.TypeSystem.C38_introspection
  Verif.TypeSystem.C38_members
  Verif.TypeSystem.C38_schema
  Verif.TypeSystem.Example.stale_possible_type
C49 proved
  Verif.TypeSystem.C49_type_identity
  Verif.TypeSystem.C49_type_exists
  Verif.TypeSystem.Example.expression
C34 proved
  Verif.Peg.string_literal
  Verif.Peg.plain_value
  Verif.Peg.description_plain
  Verif.Peg.escape_not_unescaped
  Verif.Peg.unicode_not_unescaped
  Verif.Peg.block_escape_kept
  Verif.Peg.description_first_part
  # The last four are the findings: escape sequences are not decoded, and a description is cut at its first escape sequence.
C35 proved
  Verif.Peg.integer_literal
  Verif.Peg.float_literal
  Verif.Peg.number_literal_spec
  Verif.Peg.float_both
  Verif.Peg.float_both_document
  # The last two are the finding: a float with fraction and exponent is rejected.
C50 proved
  Verif.Peg.parseString_total
  Verif.Peg.parseSchemaString_total
  Verif.Peg.parseString_placed
  Verif.Peg.parseSchemaString_placed
C51 proved
  Verif.Peg.parseString_mixed
  Verif.Peg.parseSchemaString_mixed
C41 proved
  Verif.Gen.C41_modifiers
  Verif.Gen.C41_injective
  Verif.Gen.C41_schema_type
  Verif.Gen.C41_unwrap
  Verif.Gen.C41_introspection_expression
  Verif.Gen.C41_input_type
  Verif.Gen.C41_output_type
  Verif.Gen.C41_resolver_type
  Verif.Gen.C41_template_arguments
  Verif.Gen.C41_values
  Verif.Gen.C41_scalar_reads_null
  # The last one is the exception: null is read for a custom scalar type T!.
C42 proved
  Verif.Gen.C42_order
  Verif.Gen.C42_cycle
  Verif.Gen.C42_collected
  Verif.Gen.C42_client
  Verif.Gen.OrderExample.C42_list_rejected
  Verif.Gen.OrderExample.C42_wrong_name
  Verif.Gen.OrderExample.C42_client_nonNull
  # The last three are findings: lists count as containment, the named type may be outside of the cycle, and clientgen ignores fields B! and [B].
C43 proved
  Verif.Gen.C43_function
  Verif.Gen.C43_names
  Verif.Gen.C43_closed
  Verif.Gen.C43_namespaces
  Verif.Gen.C43_enclosed
  Verif.Gen.C43_include_guard
  Verif.Gen.C43_not_injective
  Verif.Gen.C43_keyword
  Verif.Gen.C43_include_guard_invalid
  # The last three are findings.
C52 proved
  Verif.Peg.C52_sound
  Verif.Peg.C52_complete
  Verif.Peg.C52_unambiguous
  Verif.Peg.C52_rejected
  Verif.Peg.example_parse
  Verif.Peg.C52_separator
  # The last one is a finding.
C53 proved
  Verif.Gen.C53_load
  Verif.Gen.C53_default
  Verif.Gen.C53_problems
  Verif.Gen.C53_kinds
  Verif.Gen.C53_indices
  Verif.Gen.example_load
  Verif.Gen.C53_finding_enum_deprecation
  Verif.Gen.C53_finding_early_extension
  Verif.Gen.C53_finding_scalar_extension
  Verif.Gen.C53_finding_variable
  # The last four are findings.
C54 proved
  Verif.Gen.C54_accept
  Verif.Gen.C54_errors
  Verif.Gen.C54_result
  Verif.Gen.C54_cycle
  Verif.Gen.example_validate
  Verif.Gen.example_validate_fields
  Verif.Gen.C54_finding_arguments
  Verif.Gen.C54_finding_indices
  Verif.Gen.C54_finding_duplicate
  # The last three are findings.
C55 proved
  Verif.Gen.C55_build
  Verif.Gen.C55_generated
  Verif.Gen.C55_accepted
  Verif.Gen.freshAddrs_exists
  Verif.Gen.example_build
  Verif.Gen.C55_finding_unbuilt
  Verif.Gen.C55_finding_directive
  # The last two are findings.
C56 proved
  Verif.Gen.Client.C56_response
  Verif.Gen.Client.C56_total
  Verif.Gen.Client.C56_terminates
  Verif.Gen.Client.C56_rejected
  Verif.Gen.Client.good_response
  Verif.Gen.Client.good_members
  Verif.Gen.Client.small_total
  Verif.Gen.Client.C56_cyclic_never_ends
  Verif.Gen.Client.C56_repeated_field_lost
  Verif.Gen.Client.C56_unknown_fragment
  Verif.Gen.Client.C56_missing_operation
  # The last four are findings.
C57 proved
  Verif.Gen.Client.C57_parse_iff
  Verif.Gen.Client.C57_answers
  Verif.Gen.Client.C57_order
  Verif.Gen.Client.rex_read
  Verif.Gen.Client.rex_value
  Verif.Gen.Client.C57_inconsistent_throws
  Verif.Gen.Client.C57_unsafe_enum_value
  Verif.Gen.Client.C57_lenient
  # The last three are findings.
C58 proved
  Verif.Gen.Service.C58_passed
  Verif.Gen.Service.C58_given
  Verif.Gen.Service.C58_received
  Verif.Gen.Service.C58_iff
  Verif.Gen.Service.C58_bound
  Verif.Gen.Service.find_passed
  Verif.Gen.Service.C58_nullable_default_ignored
  Verif.Gen.Service.C58_invalid_replaced
  Verif.Gen.Service.C58_not_an_object
  Verif.Gen.Service.C58_default_never_ends
  # The last four are findings.
C59 proved
  Verif.Gen.Service.C59_roundtrip
  Verif.Gen.Service.C59_json
  Verif.Gen.Service.redValue_built
  Verif.Gen.Service.C59_unsafe_enum
  Verif.Gen.Service.C59_null_scalar
  # The last two are findings.
C60 proved
  Verif.Sound.C60_execution
  Verif.Sound.C60_request
  Verif.Sound.C60_no_errors
  Verif.Sound.Examples.service_for
  Verif.Sound.Examples.good_ready
  Verif.Sound.Examples.good_supplied
  Verif.Sound.Examples.good_answered
  Verif.Sound.Examples.C60_unknown_field
  Verif.Sound.Examples.C60_condition_without_argument
  Verif.Sound.Examples.C60_undeclared_variable
  Verif.Sound.Examples.C60_null_pointer
  # The last four are findings.
C61 proved
  Verif.Sound.C61_end_to_end
  Verif.Sound.Examples.good_answer
  Verif.Sound.Examples.good_end_to_end
C62 proved
  Verif.View.C62_validator
  Verif.View.C62_document
  Verif.View.C62_standard
  Verif.View.example_document
  Verif.View.C62_finding_query
  Verif.View.C62_finding_mutations
  Verif.View.C62_finding_skip
  Verif.View.C62_finding_grows
  # The last four are findings.
C63 proved
  Verif.Peg.C63_sound
  Verif.Peg.C63_complete
  Verif.Peg.C63_unambiguous
  Verif.Peg.C63_rejected
  Verif.Peg.C63_loaded
  Verif.Peg.C63_introspection
  Verif.Peg.schema_parse
  Verif.Peg.C63_finding_split
  Verif.Peg.C63_finding_cut
  Verif.Peg.C63_finding_true
  Verif.Peg.C63_separator
  # The last four are findings.
C64 proved
  Verif.Intro.C64_reports
  Verif.Intro.C64_answers
  Verif.Intro.Examples.example_document
  Verif.Intro.C64_finding_unknown
  # The last one is a finding.
C65 proved
  Verif.Async.defined_iff
  Verif.Async.schedules_end
  Verif.Async.no_deadlock
  Verif.Async.answered_ended
  Verif.Async.answer_same
  Verif.Async.answer_comes
  Verif.Async.events_all
  Verif.Async.events_same
  Verif.Async.deferred_order
  Verif.Async.mutation_order
  Verif.Async.accessors_serial
  Verif.Async.accessor_locked
  Verif.Async.valid_sets
  Verif.Async.valid_answer
  Verif.Async.Demo.good_threads
  Verif.Async.Demo.C65_failed_set_still_works
  # The last one is a finding.
C66 proved
  Verif.Async.unvalidated_same
  Verif.Async.unvalidated_mutation
  Verif.Async.unvalidated_valid
  Verif.Async.unvalidated_answer
C67 proved
  Verif.Async.deliver_defined_iff
  Verif.Async.deliver_no_deadlock
  Verif.Async.deliver_ended
  Verif.Async.deliver_same
  Verif.Async.deliver_comes
  Verif.Async.deliver_events_all
  Verif.Async.deliver_events_same
  Verif.Async.deliver_deferred_order
  Verif.Async.deliver_accessors_serial
  Verif.Async.deliver_accessor_locked
  Verif.Async.subscribe_same
  Verif.Async.unsubscribe_same
  Verif.Async.Demo.C67_later_callbacks
  # The last one is a finding. Schedules are finite by Verif.Async.schedules_end (C65).
C68 proved
  Verif.ClientText.C68_request_text
  Verif.ClientText.C68_request_object
  Verif.ClientText.C68_validated
  Verif.ClientText.C68_same_answer
  Verif.ClientText.SameAnswer.data
  Verif.ClientText.C68_byte_order_mark
  Verif.ClientText.C68_delimiter
  Verif.ClientText.C68_block_string
  # The last three are findings: each shows that an exception in the statement is needed. Answers are those of the sequential model (Request); C65 relates it to schedules.
C69 proved
  Verif.Gen.Client.C69_operation
  Verif.Gen.Client.C69_variables
  Verif.Gen.Client.C69_input_types
  Verif.Gen.Client.C69_enums
  Verif.Gen.Client.C69_total
  Verif.Gen.Client.C69_terminates_iff
  Verif.Gen.Client.C69_variable_default
  # The last two are the exception of the statement. The members of the response are those of C56; the order of the input types is C42.
C70 proved
  Verif.Life.C70_operation
  Verif.Life.C70_fragments
  Verif.Life.C70_paths
  Verif.Life.C70_nothing_left
  Verif.Life.C70_deliver
  Verif.Life.C70_deliver_paths
  Verif.Life.C70_finding_callbacks
  Verif.Life.C70_finding_futures
  Verif.Life.C70_finding_paths
  Verif.Life.C70_finding_kept
  # The last four are findings: each is an exception of the statement. Failures of std::async itself (std::system_error) and std::bad_alloc are not modelled.
C71 proved
  Verif.GenText.C71_code
  Verif.GenText.C71_one_meaning
  Verif.GenText.C71_schema
  Verif.GenText.C71_separate_files
  Verif.GenText.Demo.C71_introspection
  Verif.GenText.Demo.C71_finding_words
  Verif.GenText.Demo.C71_finding_name
  Verif.GenText.Demo.C71_finding_value
  Verif.GenText.Demo.C71_finding_description
  Verif.GenText.Demo.C71_finding_enum
  Verif.GenText.Demo.C71_finding_twice
  # The findings show that the conditions on names and texts are needed. The part of C++ which is used is specified in Cpp/Spec.lean and GenText/Calls.lean.
C72 proved
  Verif.Respell.C72_tokens
  Verif.Respell.C72_spaced
  Verif.Respell.C72_same_document
  Verif.Respell.C72_same_answer
  Verif.Respell.C72_spaced_answer
  Verif.Respell.C72_example
  Verif.Respell.C72_finding_rejected
  # Composition of the grammar (C52), the validator (C68) and execution (C68). The last theorem is the exception of the statement.
C73 proved
  Verif.GenCode.C73_code
  Verif.GenCode.C73_default
  Verif.GenCode.C73_convert
  Verif.GenCode.C73_arguments
  Verif.GenCode.C73_example
  Verif.GenCode.C73_example_run
  Verif.GenCode.C73_raw_string
  Verif.GenCode.C73_zero
  Verif.GenCode.C73_six_digits
  Verif.GenCode.C73_minus_zero
  Verif.GenCode.C73_clash
  # The last five are the exceptions of the statement. The part of C++ which is used is specified in Cpp/Spec.lean, Cpp/CodeSpec.lean and GenCode/Run.lean.
C74 proved
  Verif.GenObject.C74_code
  Verif.GenObject.C74_types
  Verif.GenObject.C74_methods
  Verif.GenObject.C74_fields
  Verif.GenObject.C74_answer
  Verif.GenObject.C74_typename
  Verif.GenObject.C74_unknown
  Verif.GenObject.C74_example
  Verif.GenObject.C74_twice
  # The text of resolve_schema and resolve_type, which is the same for all schemas, and of the stubs is not modelled. The part of C++ which is used is specified in Cpp/ObjectSpec.lean and GenObject/Run.lean.
C75 proved
  Verif.GenTypes.C75_code
  Verif.GenTypes.C75_enumerators
  Verif.GenTypes.C75_argument
  Verif.GenTypes.C75_result
  Verif.GenTypes.C75_roundtrip
  Verif.GenTypes.C75_convert
  Verif.GenTypes.C75_arguments
  Verif.GenTypes.C75_structs
  Verif.GenTypes.C75_compiles
  Verif.GenTypes.C75_example
  Verif.GenTypes.C75_keyword
  Verif.GenTypes.C75_meaning
  Verif.GenTypes.C75_recursive
  # The last three are the exceptions of the statement. The part of C++ which is used is specified in Cpp/TypeSpec.lean and GenTypes/Run.lean.

C76 proved
  Verif.GenClass.C76_code
  Verif.GenClass.C76_order
  Verif.GenClass.C76_resolvers
  Verif.GenClass.C76_calls
  Verif.GenClass.C76_abstract
  Verif.GenClass.C76_stubs
  Verif.GenClass.C76_overrides
  Verif.GenClass.demo_ok
  Verif.GenClass.demo_call
  Verif.GenClass.C76_empty_object
  Verif.GenClass.C76_common_field
  Verif.GenClass.C76_mutation_interface
  Verif.GenClass.C76_covariant
  Verif.GenClass.C76_object_name
  # The last five are the exceptions of the statement. The part of C++ which is used is specified in Cpp/ClassSpec.lean and GenClass/Run.lean.

C77 proved
  Verif.GenStub.C77_code
  Verif.GenStub.C77_resolvers
  Verif.GenStub.C77_none
  Verif.GenStub.C77_definitions
  Verif.GenStub.C77_not_implemented
  Verif.GenStub.C77_operations_code
  Verif.GenStub.C77_parameters
  Verif.GenStub.C77_operations
  Verif.GenStub.C77_find
  Verif.GenStub.C77_repeated
  Verif.GenStub.stub_example
  Verif.GenStub.answer_example
  Verif.GenStub.operations_example
  Verif.GenStub.repeated_example
  # The part of C++ which is used is specified in Cpp/StubSpec.lean and GenStub/Run.lean.

C78 proved
  Verif.GenHidden.C78_none
  Verif.GenHidden.C78_code
  Verif.GenHidden.C78_rest
  Verif.GenHidden.C78_methods
  Verif.GenHidden.C78_answer
  Verif.GenHidden.C78_introspection
  Verif.GenHidden.C78_finding_unknown
  Verif.GenHidden.schema_text
  Verif.GenHidden.type_text
  Verif.GenHidden.C78_example
  # The part of C++ which is used is specified in Cpp/HiddenSpec.lean and GenHidden/Run.lean.

C79 proved
  Verif.GenService.C79_service
  Verif.GenService.C79_names
  Verif.GenService.C79_roots
  Verif.GenService.C79_answers
  Verif.GenService.C79_example
  # C64, C74, C77 and C78 together: the service of GenService/Spec.lean is made of the generated code; the accessors are the user's.
