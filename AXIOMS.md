# Axioms of the theorems of the manifest

Output of `#print axioms`.

* `Cddl.C01_validation_returns`: propext, Classical.choice, Quot.sound
* `Cddl.C01_validate_returns`: propext, Classical.choice, Quot.sound
* `Cddl.C01_data_returns`: propext, Classical.choice, Quot.sound
* `Cddl.C44_returns`: propext, Classical.choice, Quot.sound
* `Cddl.C02_no_panic`: propext, Classical.choice, Quot.sound
* `Cddl.C02_no_panic_cbor`: propext, Classical.choice, Quot.sound
* `Cddl.C02_no_panic_json`: propext, Classical.choice, Quot.sound
* `Cddl.C03_no_mapCut`: propext, Classical.choice, Quot.sound
* `Cddl.C03_no_mapCut_table`: propext, Classical.choice, Quot.sound
* `Cddl.C04_prelude`: propext, Classical.choice, Quot.sound
* `Cddl.C04_uint_xor_nint`: propext, Classical.choice, Quot.sound
* `Cddl.C04_disjoint`: propext, Classical.choice, Quot.sound
* `Cddl.C05_literal`: propext, Classical.choice, Quot.sound
* `Cddl.C05_unique`: propext, Classical.choice, Quot.sound
* `Cddl.C06_accepts`: propext, Classical.choice, Quot.sound
* `Cddl.C06_fatal`: propext, Classical.choice, Quot.sound
* `Cddl.C06_mismatch`: propext, Classical.choice, Quot.sound
* `Cddl.C07_flatten`: propext, Classical.choice, Quot.sound
* `Cddl.C07_duplicate`: propext, Classical.choice, Quot.sound
* `Cddl.C07_assoc`: propext, Classical.choice, Quot.sound
* `Cddl.C07_order`: propext, Classical.choice, Quot.sound
* `Cddl.C07_order_needs`: propext, Classical.choice, Quot.sound
* `Cddl.C08_int_range`: propext, Classical.choice, Quot.sound
* `Cddl.C08_float_range`: propext, Classical.choice, Quot.sound
* `Cddl.C08_empty`: propext, Classical.choice, Quot.sound
* `Cddl.C08_mixed`: propext, Classical.choice, Quot.sound
* `Cddl.C08_no_numbers`: propext, Classical.choice, Quot.sound
* `Cddl.C09_integer_controls`: propext, Classical.choice, Quot.sound
* `Cddl.C09_bad_argument`: propext, Classical.choice, Quot.sound
* `Cddl.C10_size_uint`: propext, Classical.choice, Quot.sound
* `Cddl.C10_size_uint_range`: propext, Classical.choice, Quot.sound
* `Cddl.C10_size_single`: propext, Classical.choice, Quot.sound
* `Cddl.C10_size_empty`: propext, Classical.choice, Quot.sound
* `Cddl.C10_bad_size`: propext, Classical.choice, Quot.sound
* `Cddl.C10_bad_size_range`: propext, Classical.choice, Quot.sound
* `Cddl.C11_size_tstr`: propext, Classical.choice, Quot.sound
* `Cddl.C11_size_bstr`: propext, Classical.choice, Quot.sound
* `Cddl.C12_record`: propext, Classical.choice, Quot.sound
* `Cddl.C12_length`: propext, Classical.choice, Quot.sound
* `Cddl.C13_keys_ignored`: propext, Classical.choice, Quot.sound
* `Cddl.C13_keys_added`: propext, Classical.choice, Quot.sound
* `Cddl.C13_named_entries`: propext, Classical.choice, Quot.sound
* `Cddl.C13_keyed_one`: propext, Classical.choice, Quot.sound
* `Cddl.C13_keyed_length`: propext, Classical.choice, Quot.sound
* `Cddl.C14_homogeneous_partial`: propext, Classical.choice, Quot.sound
* `Cddl.C14_only_arrays`: propext, Classical.choice, Quot.sound
* `Cddl.C14_upper_zero_refuted`: propext, Classical.choice, Quot.sound
* `Cddl.C14_exact`: propext, Classical.choice, Quot.sound
* `Cddl.C14_not_array`: propext, Classical.choice, Quot.sound
* `Cddl.C15_sound_partial`: propext, Classical.choice, Quot.sound
* `Cddl.C15_array_partial`: propext, Classical.choice, Quot.sound
* `Cddl.C15_no_rules_partial`: propext, Classical.choice, Quot.sound
* `Cddl.C15_nested_group_refuted`: propext, Classical.choice, Quot.sound
* `Cddl.C15_unwrap_refuted`: propext, Classical.choice, Quot.sound
* `Cddl.C15_repetition_refuted`: propext, Classical.choice, Quot.sound
* `Cddl.C15_sound_refuted`: propext, Classical.choice, Quot.sound
* `Cddl.C15_checked_partial`: propext, Classical.choice, Quot.sound
* `Cddl.C15_json_str_partial`: propext, Classical.choice, Quot.sound
* `Cddl.C15_cbor_bytes_partial`: propext, Classical.choice, Quot.sound
* `Cddl.C15_json_str_refuted`: propext, Classical.choice, Quot.sound
* `Cddl.C16_map_partial`: propext, Classical.choice, Quot.sound
* `Cddl.C16_nested_group_refuted`: propext, Classical.choice, Quot.sound
* `Cddl.C16_unwrap_refuted`: propext, Classical.choice, Quot.sound
* `Cddl.C17_array_partial`: propext, Classical.choice, Quot.sound
* `Cddl.C17_map_partial`: propext, Classical.choice, Quot.sound
* `Cddl.C17_next_alternative_partial`: propext, Classical.choice, Quot.sound
* `Cddl.C17_tuples`: propext, Classical.choice, Quot.sound
* `Cddl.C17_records`: propext, Classical.choice, Quot.sound
* `Cddl.C17_array_refuted`: propext, Classical.choice, Quot.sound
* `Cddl.C17_map_refuted`: propext, Classical.choice, Quot.sound
* `Cddl.C18_record`: propext, Classical.choice, Quot.sound
* `Cddl.C18_not_map`: propext, Classical.choice, Quot.sound
* `Cddl.C19_order`: propext, Classical.choice, Quot.sound
* `Cddl.C20_wildcard_occur`: propext, Classical.choice, Quot.sound
* `Cddl.C20_wildcard`: propext, Classical.choice, Quot.sound
* `Cddl.C20_upper_zero`: propext, Classical.choice, Quot.sound
* `Cddl.C21_cut`: propext, Classical.choice, Quot.sound
* `Cddl.C21_cut_result`: propext, Classical.choice, Quot.sound
* `Cddl.C21_no_cut`: propext, Classical.choice, Quot.sound
* `Cddl.C21_cut_choice`: propext, Classical.choice, Quot.sound
* `Cddl.C21_cut_in_group`: propext, Classical.choice, Quot.sound
* `Cddl.C22_missing_rules_not_masked_partial`: propext, Classical.choice, Quot.sound
* `Cddl.C22_missing_rules_keys_partial`: propext, Classical.choice, Quot.sound
* `Cddl.C22_limit_not_masked_partial`: propext, Classical.choice, Quot.sound
* `Cddl.C22_passed_on`: propext, Classical.choice, Quot.sound
* `Cddl.C22_map_key_refuted`: propext, Classical.choice, Quot.sound
* `Cddl.C23_wrong_arity`: propext, Classical.choice, Quot.sound
* `Cddl.C23_right_arity`: propext, Classical.choice, Quot.sound
* `Cddl.C23_direct`: propext, Classical.choice, Quot.sound
* `Cddl.C24_instantiate`: propext, Classical.choice, Quot.sound
* `Cddl.C24_parameter`: propext, Classical.choice, Quot.sound
* `Cddl.C24_callee_independent`: propext, Classical.choice, Quot.sound
* `Cddl.C24_rename_parameters`: propext, Classical.choice, Quot.sound
* `Cddl.C24_rename_rules`: propext, Classical.choice, Quot.sound
* `Cddl.C25_within_limit`: propext, Classical.choice, Quot.sound
* `Cddl.C25_beyond_limit`: propext, Classical.choice, Quot.sound
* `Cddl.C25_cycle`: propext, Classical.choice, Quot.sound
* `Cddl.C26_only_reachable`: propext, Classical.choice, Quot.sound
* `Cddl.C26_unreachable_rule`: propext, Classical.choice, Quot.sound
* `Cddl.C27_missing_rule`: propext, Classical.choice, Quot.sound
* `Cddl.C27_lookup_error`: propext, Classical.choice, Quot.sound
* `Cddl.C28_conversion`: propext, Classical.choice, Quot.sound
* `Cddl.C28_untagged`: propext, Classical.choice, Quot.sound
* `Cddl.C28_tagged`: propext, Classical.choice, Quot.sound
* `Cddl.C28_duplicate_keys`: propext, Classical.choice, Quot.sound
* `Cddl.C28_order`: propext, Classical.choice, Quot.sound
* `Cddl.C29_conversion`: propext, Classical.choice, Quot.sound
* `Cddl.C29_numbers`: propext, Classical.choice, Quot.sound
* `Cddl.C29_object_order`: propext, Classical.choice, Quot.sound
* `Cddl.C30_agree`: propext, Classical.choice, Quot.sound
* `Cddl.C31_total_order`: propext, Classical.choice, Quot.sound
* `Cddl.C31_equality`: propext, Classical.choice, Quot.sound
* `Cddl.C31_cbor_maps`: propext, Classical.choice, Quot.sound
* `Cddl.C31_json_maps`: propext, Classical.choice, Quot.sound
* `Cddl.C31_order`: propext, Classical.choice, Quot.sound
* `Cddl.C31_in_order`: propext, Classical.choice, Quot.sound
* `Cddl.C32_accepts`: propext, Classical.choice, Quot.sound
* `Cddl.C32_undecodable`: propext, Classical.choice, Quot.sound
* `Cddl.C32_not_bytes`: propext, Classical.choice, Quot.sound
* `Cddl.C33_accepts`: propext, Classical.choice, Quot.sound
* `Cddl.C33_any_member`: propext, Classical.choice, Quot.sound
* `Cddl.C33_fatal`: propext, Classical.choice, Quot.sound
* `Cddl.C33_not_a_group`: propext, Classical.choice, Quot.sound
* `Cddl.C33_map_entry`: propext, Classical.choice, Quot.sound
* `Cddl.C33_map_accepts`: propext, Classical.choice, Quot.sound
* `Cddl.C33_map_inline_refuted`: propext, Classical.choice, Quot.sound
* `Cddl.C34_array_group`: propext, Classical.choice, Quot.sound
* `Cddl.C34_map_group`: propext, Classical.choice, Quot.sound
* `Cddl.C34_array_reference`: propext, Classical.choice, Quot.sound
* `Cddl.C34_map_reference`: propext, Classical.choice, Quot.sound
* `Cddl.C34_nested_group_refuted`: propext, Classical.choice, Quot.sound
* `Cddl.C34_group_as_type`: propext, Classical.choice, Quot.sound
* `Cddl.C34_unwrap_wrong`: propext, Classical.choice, Quot.sound
* `Cddl.C35_no_panic`: propext, Classical.choice, Quot.sound
* `Cddl.C35_well_formed`: propext, Classical.choice, Quot.sound
* `Cddl.C35_type_rule`: propext, Classical.choice, Quot.sound
* `Cddl.C35_parsed_full`: propext, Classical.choice, Quot.sound
* `Cddl.C35_from_text`: propext, Classical.choice, Quot.sound
* `Cddl.C35_needs_full`: propext
* `Cddl.C35_errors`: propext
* `Cddl.C36_last_wins`: propext, Classical.choice, Quot.sound
* `Cddl.C36_undefined`: propext, Classical.choice, Quot.sound
* `Cddl.C36_drop_overridden`: propext, Classical.choice, Quot.sound
* `Cddl.C36_order`: propext, Classical.choice, Quot.sound
* `Cddl.C36_order_validate`: propext, Classical.choice, Quot.sound
* `Cddl.C36_order_needs_distinct`: propext
* `Cddl.C37_prelude`: propext, Classical.choice, Quot.sound
* `Cddl.C37_prelude_misuse`: propext, Classical.choice, Quot.sound
* `Cddl.C37_never_referenced`: propext, Classical.choice, Quot.sound
* `Cddl.C37_redefinition_ignored`: propext, Classical.choice, Quot.sound
* `Cddl.C37_unsupported`: propext, Classical.choice, Quot.sound
* `Cddl.C37_user_names`: propext, Classical.choice, Quot.sound
* `Cddl.C38_parse`: propext, Classical.choice, Quot.sound
* `Cddl.C38_flatten`: propext, Quot.sound
* `Cddl.C38_from_str`: propext, Classical.choice, Quot.sound
* `Cddl.C39_returns`: propext, Classical.choice, Quot.sound
* `Cddl.C39_slice_returns`: propext, Classical.choice, Quot.sound
* `Cddl.C40_leading`: propext, Classical.choice, Quot.sound
* `Cddl.C40_gaps`: propext, Classical.choice, Quot.sound
* `Cddl.C40_trailing`: propext, Classical.choice, Quot.sound
* `Cddl.C40_insert`: propext, Classical.choice, Quot.sound
* `Cddl.C40_layouts`: propext, Classical.choice, Quot.sound
* `Cddl.C40_between`: propext, Classical.choice, Quot.sound
* `Cddl.C41_literal`: propext, Classical.choice, Quot.sound
* `Cddl.C41_rule`: propext, Classical.choice, Quot.sound
* `Cddl.C41_too_large_partial`: propext, Classical.choice, Quot.sound
* `Cddl.C41_too_large_rule`: propext, Classical.choice, Quot.sound
* `Cddl.C41_refuted`: propext, Classical.choice, Quot.sound
* `Cddl.C41_alternative_refuted`: propext, Classical.choice, Quot.sound
* `Cddl.C47_sound`: propext, Classical.choice, Quot.sound
* `Cddl.C42_roundtrip`: propext, Classical.choice, Quot.sound
* `Cddl.C42_layout`: propext, Classical.choice, Quot.sound
* `Cddl.C42_unambiguous`: propext, Classical.choice, Quot.sound
* `Cddl.C42_injective`: propext, Classical.choice, Quot.sound
* `Cddl.C42_parsed`: propext, Classical.choice, Quot.sound
* `Cddl.C42_image`: propext, Classical.choice, Quot.sound
* `Cddl.C43_covers`: propext, Classical.choice, Quot.sound
* `Cddl.C43_parse`: propext, Classical.choice, Quot.sound
* `Cddl.C43_open_comment`: propext, Classical.choice, Quot.sound
* `Cddl.C44_cbor_bytes`: propext, Classical.choice, Quot.sound
* `Cddl.C44_json_str`: propext, Classical.choice, Quot.sound
* `Cddl.C44_reuse_cbor`: propext, Classical.choice, Quot.sound
* `Cddl.C44_reuse_json`: propext, Classical.choice, Quot.sound
* `Cddl.C44_json_cbor`: propext, Classical.choice, Quot.sound
* `Cddl.C44_answers`: propext, Classical.choice, Quot.sound
* `Cddl.C44_layout`: propext, Classical.choice, Quot.sound
* `Cddl.C44_reprint`: propext, Classical.choice, Quot.sound
* `Cddl.C45_within`: propext, Classical.choice, Quot.sound
* `Cddl.C45_beyond`: propext, Classical.choice, Quot.sound
* `Cddl.C46_flatten_iff`: propext, Classical.choice, Quot.sound
* `Cddl.C46_unique`: propext, Classical.choice, Quot.sound
* `Cddl.C46_fails_iff`: propext, Classical.choice, Quot.sound
* `Cddl.C47_rejects`: propext, Classical.choice, Quot.sound
* `Cddl.C47_no_equals`: propext, Classical.choice, Quot.sound
* `Cddl.C48_display`: propext, Classical.choice, Quot.sound
* `Cddl.C48_fatal`: propext, Classical.choice, Quot.sound
* `Cddl.C49_complete`: propext, Classical.choice, Quot.sound
* `Cddl.C49_checked`: propext, Classical.choice, Quot.sound
* `Cddl.C49_exact`: propext, Classical.choice, Quot.sound
* `Cddl.C49_json_str`: propext, Classical.choice, Quot.sound
* `Cddl.C49_cbor_bytes`: propext, Classical.choice, Quot.sound
* `Cddl.C49_refuted`: propext, Classical.choice, Quot.sound
* `Cddl.C50_generic`: propext, Classical.choice, Quot.sound
* `Cddl.C50_plain`: propext, Classical.choice, Quot.sound
* `Cddl.C50_table`: propext, Classical.choice, Quot.sound
* `Cddl.C50_text`: propext, Classical.choice, Quot.sound
* `Cddl.C51_meaning`: propext, Classical.choice, Quot.sound
* `Cddl.C51_tables`: propext, Classical.choice, Quot.sound
* `Cddl.C51_json_str`: propext, Classical.choice, Quot.sound
* `Cddl.C51_cbor_bytes`: propext, Classical.choice, Quot.sound
* `Cddl.C51_refuted`: propext, Classical.choice, Quot.sound
* `Cddl.C52_meaning`: propext, Classical.choice, Quot.sound
* `Cddl.C52_tables`: propext, Classical.choice, Quot.sound
* `Cddl.C52_json_str`: propext, Classical.choice, Quot.sound
* `Cddl.C52_cbor_bytes`: propext, Classical.choice, Quot.sound
* `Cddl.C53_join`: propext, Classical.choice, Quot.sound
* `Cddl.C53_lines`: propext, Classical.choice, Quot.sound
* `Cddl.C53_flatten`: propext, Classical.choice, Quot.sound
* `Cddl.C53_more_rules`: propext, Classical.choice, Quot.sound
* `Cddl.C53_more_rules_before`: propext, Classical.choice, Quot.sound
* `Cddl.C54_plan`: propext, Classical.choice, Quot.sound
* `Cddl.C54_checked`: propext, Classical.choice, Quot.sound
* `Cddl.C54_json_str`: propext, Classical.choice, Quot.sound
* `Cddl.C54_cbor_bytes`: propext, Classical.choice, Quot.sound
* `Cddl.C54_exact`: propext, Classical.choice, Quot.sound
* `Cddl.C54_exact_json`: propext, Classical.choice, Quot.sound
* `Cddl.C54_exact_cbor`: propext, Classical.choice, Quot.sound
* `Cddl.C54_refuted`: propext, Classical.choice, Quot.sound
* `Cddl.C55_checked`: propext, Classical.choice, Quot.sound
* `Cddl.C55_lower`: propext
* `Cddl.C55_json_str`: propext, Classical.choice, Quot.sound
* `Cddl.C55_cbor_bytes`: propext, Classical.choice, Quot.sound
* `Cddl.C55_exact`: propext, Classical.choice, Quot.sound
* `Cddl.C55_exact_json`: propext, Classical.choice, Quot.sound
* `Cddl.C55_exact_cbor`: propext, Classical.choice, Quot.sound
* `Cddl.C55_refuted`: propext, Classical.choice, Quot.sound
* `Cddl.C56_json`: propext, Classical.choice, Quot.sound
* `Cddl.C56_cbor`: propext, Classical.choice, Quot.sound
* `Cddl.C56_printed_json`: propext, Classical.choice, Quot.sound
* `Cddl.C56_accepted_json`: propext, Classical.choice, Quot.sound
* `Cddl.C56_loosened_json`: propext, Classical.choice, Quot.sound
* `Cddl.C56_loosened_cbor`: propext, Classical.choice, Quot.sound
* `Cddl.C57_flatten`: propext, Classical.choice, Quot.sound
* `Cddl.C57_json`: propext, Classical.choice, Quot.sound
* `Cddl.C57_cbor`: propext, Classical.choice, Quot.sound
* `Cddl.C58_regexp`: propext, Classical.choice, Quot.sound
* `Cddl.C58_mismatch`: propext, Classical.choice, Quot.sound
* `Cddl.C58_translated`: propext, Quot.sound
* `Cddl.C58_refused`: propext, Quot.sound
* `Cddl.C58_text`: propext, Classical.choice, Quot.sound
* `Cddl.C59_type`: propext, Classical.choice, Quot.sound
* `Cddl.C59_literal`: propext, Classical.choice, Quot.sound
* `Cddl.C59_range`: propext, Classical.choice, Quot.sound
* `Cddl.C59_choice`: propext, Classical.choice, Quot.sound
* `Cddl.C59_tuple`: propext, Classical.choice, Quot.sound
* `Cddl.C59_record`: propext, Classical.choice, Quot.sound
* `Cddl.C59_container`: propext, Classical.choice, Quot.sound
* `Cddl.C59_too_few`: propext, Classical.choice, Quot.sound
* `Cddl.C59_no_key`: propext, Classical.choice, Quot.sound
* `Cddl.C59_no_pair`: propext, Classical.choice, Quot.sound
* `Cddl.C59_control`: propext, Classical.choice, Quot.sound
* `Cddl.C59_bad_control`: propext, Classical.choice, Quot.sound
* `Cddl.C59_bad_size`: propext, Classical.choice, Quot.sound
* `Cddl.C59_size_tstr`: propext, Classical.choice, Quot.sound
* `Cddl.C59_size_bstr`: propext, Classical.choice, Quot.sound
* `Cddl.C59_size_uint`: propext, Classical.choice, Quot.sound
* `Cddl.C59_size_uint_over`: propext, Classical.choice, Quot.sound
* `Cddl.C59_size_uint_range`: propext, Classical.choice, Quot.sound
* `Cddl.C59_cbor`: propext, Classical.choice, Quot.sound
* `Cddl.C59_choiceify`: propext, Classical.choice, Quot.sound
* `Cddl.C59_sign`: propext, Classical.choice, Quot.sound
* `Cddl.C60_rule`: propext, Classical.choice, Quot.sound
* `Cddl.C60_schema`: propext, Classical.choice, Quot.sound
* `Cddl.C60_exclusive`: propext, Classical.choice, Quot.sound
* `Cddl.C60_text`: propext, Classical.choice, Quot.sound
* `Cddl.C60_kinds`: propext, Classical.choice, Quot.sound
* `Cddl.C60_answer`: propext, Classical.choice, Quot.sound
* `Cddl.C61_type`: propext, Classical.choice, Quot.sound
* `Cddl.C61_map_entry`: propext, Classical.choice, Quot.sound
* `Cddl.C61_array_entry`: propext, Classical.choice, Quot.sound
* `Cddl.C61_unwrap`: propext, Classical.choice, Quot.sound
* `Cddl.C62_blame`: propext, Classical.choice, Quot.sound
* `Cddl.C62_slice`: propext, Classical.choice, Quot.sound
* `Cddl.C62_snippet`: propext, Classical.choice, Quot.sound
* `Cddl.C62_snippet_refuted`: propext, Classical.choice, Quot.sound
* `Cddl.C63_flatten`: propext, Classical.choice, Quot.sound
* `Cddl.C63_answers`: propext, Classical.choice, Quot.sound
* `Cddl.C63_json`: propext, Classical.choice, Quot.sound
* `Cddl.C63_cbor`: propext, Classical.choice, Quot.sound
* `Cddl.C64_array`: propext, Classical.choice, Quot.sound
* `Cddl.C64_array_loop`: propext, Classical.choice, Quot.sound
* `Cddl.C64_map`: propext, Classical.choice, Quot.sound
* `Cddl.C64_map_loop`: propext, Classical.choice, Quot.sound
* `Cddl.C64_idle`: propext, Classical.choice, Quot.sound
* `Cddl.C64_idle_array`: propext, Classical.choice, Quot.sound
* `Cddl.C64_idle_map`: propext, Classical.choice, Quot.sound
* `Cddl.C64_refuted`: propext, Classical.choice, Quot.sound
* `Cddl.C65_array`: propext, Classical.choice, Quot.sound
* `Cddl.C65_map`: propext, Classical.choice, Quot.sound
* `Cddl.C65_array_accepts`: propext, Classical.choice, Quot.sound
* `Cddl.C65_map_accepts`: propext, Classical.choice, Quot.sound
* `Cddl.C65_rule`: propext, Classical.choice, Quot.sound
* `Cddl.C65_refuted`: propext, Classical.choice, Quot.sound
* `Cddl.C66_same`: propext, Classical.choice, Quot.sound
* `Cddl.C66_brackets`: propext, Classical.choice, Quot.sound
* `Cddl.C66_exponential`: propext, Classical.choice, Quot.sound
* `Cddl.C66_none_left_out`: propext, Classical.choice, Quot.sound
* `Cddl.C66_none_invented`: propext, Classical.choice, Quot.sound
* `Cddl.C67_array`: propext, Classical.choice, Quot.sound
* `Cddl.C67_map`: propext, Classical.choice, Quot.sound
* `Cddl.C67_array_accepts`: propext, Classical.choice, Quot.sound
* `Cddl.C67_map_accepts`: propext, Classical.choice, Quot.sound
* `Cddl.C67_lost`: propext, Classical.choice, Quot.sound
* `Cddl.C68_bound`: propext, Classical.choice, Quot.sound
* `Cddl.C68_linear`: propext, Classical.choice, Quot.sound
* `Cddl.C68_tight`: propext, Classical.choice, Quot.sound
* `Cddl.C68_parens_needed`: propext, Classical.choice, Quot.sound
* `Cddl.C69_quadratic`: propext, Classical.choice, Quot.sound
* `Cddl.C69_linear`: propext, Classical.choice, Quot.sound
* `Cddl.C69_square`: propext, Classical.choice, Quot.sound
* `Cddl.C69_exponential`: propext, Classical.choice, Quot.sound
* `Cddl.C69_counted`: propext, Classical.choice, Quot.sound
* `Cddl.C69_none_left_out`: propext, Classical.choice, Quot.sound
* `Cddl.C69_none_invented`: propext, Classical.choice, Quot.sound
* `Cddl.C70_enough`: propext, Classical.choice, Quot.sound
* `Cddl.C70_less`: propext, Classical.choice, Quot.sound
* `Cddl.C70_needed`: propext, Classical.choice, Quot.sound
* `Cddl.C70_unbounded`: propext, Classical.choice, Quot.sound
* `Cddl.C71_generic`: propext, Classical.choice, Quot.sound
* `Cddl.C71_plain`: propext, Classical.choice, Quot.sound
* `Cddl.C71_idle`: propext, Classical.choice, Quot.sound
* `Cddl.C71_refuted`: propext, Classical.choice, Quot.sound
* `Cddl.C72_total`: propext, Classical.choice, Quot.sound
* `Cddl.C72_size`: propext, Classical.choice, Quot.sound
* `Cddl.C72_depth`: propext, Classical.choice, Quot.sound
* `Cddl.C72_depth_plain`: propext, Classical.choice, Quot.sound
* `Cddl.C72_calls`: propext, Classical.choice, Quot.sound
* `Cddl.C72_calls_plain`: propext, Classical.choice, Quot.sound
* `Cddl.C73_same`: propext, Classical.choice, Quot.sound
* `Cddl.C73_unsupported`: propext, Classical.choice, Quot.sound
* `Cddl.C73_no_panic`: propext, Classical.choice, Quot.sound
* `Cddl.C73_returns`: propext, Classical.choice, Quot.sound
* `Cddl.C73_budget`: propext, Classical.choice, Quot.sound
* `Cddl.C73_yields`: propext, Classical.choice, Quot.sound
* `Cddl.C73_agrees`: propext, Classical.choice, Quot.sound
* `Cddl.C73_key_refuted`: propext, Classical.choice, Quot.sound
* `Cddl.C74_tables`: propext, Classical.choice, Quot.sound
* `Cddl.C74_json`: propext, Classical.choice, Quot.sound
* `Cddl.C74_cbor`: propext, Classical.choice, Quot.sound
* `Cddl.C74_expand`: propext, Classical.choice, Quot.sound
* `Cddl.C74_no_generics`: propext, Quot.sound
* `Cddl.C74_accepts`: propext, Classical.choice, Quot.sound
* `Cddl.C74_nonrecursive`: propext, Classical.choice, Quot.sound
* `Cddl.C74_refuted`: propext, Classical.choice, Quot.sound
* `Cddl.C74_key_names`: propext, Classical.choice, Quot.sound
* `Cddl.C75_own`: propext, Classical.choice, Quot.sound
* `Cddl.C75_text`: propext, Classical.choice, Quot.sound
* `Cddl.C75_cbor`: propext, Classical.choice, Quot.sound
* `Cddl.C75_json`: propext, Classical.choice, Quot.sound
* `Cddl.C75_mismatch`: propext, Classical.choice, Quot.sound
* `Cddl.C75_finite`: propext, Classical.choice, Quot.sound
* `Cddl.C75_example`: propext, Classical.choice, Quot.sound
* `Cddl.C76_blind`: propext, Classical.choice, Quot.sound
* `Cddl.C76_literals`: propext, Classical.choice, Quot.sound
* `Cddl.C76_schema`: propext, Classical.choice, Quot.sound
* `Cddl.C76_cbor`: propext, Classical.choice, Quot.sound
* `Cddl.C76_json`: propext, Classical.choice, Quot.sound
* `Cddl.C76_low`: propext, Quot.sound
* `Cddl.C76_nan`: propext, Classical.choice, Quot.sound
* `Cddl.C76_integers`: propext, Classical.choice, Quot.sound
* `Cddl.C76_example`: propext, Classical.choice, Quot.sound
* `Cddl.C76_map_example`: propext, Classical.choice, Quot.sound
* `Cddl.C77_alphabet`: propext, Classical.choice, Quot.sound
* `Cddl.C77_refused`: propext, Classical.choice, Quot.sound
* `Cddl.C77_tag`: propext, Classical.choice, Quot.sound
* `Cddl.C77_extend`: propext, Classical.choice, Quot.sound
* `Cddl.C77_control`: propext, Classical.choice, Quot.sound
* `Cddl.C77_control_error`: propext, Classical.choice, Quot.sound
* `Cddl.C77_answer`: propext, Classical.choice, Quot.sound
* `Cddl.C77_tags_dropped`: propext, Classical.choice, Quot.sound
* `Cddl.C77_exact`: propext, Classical.choice, Quot.sound
* `Cddl.C78_complete`: propext, Classical.choice, Quot.sound
* `Cddl.C78_refused`: propext, Classical.choice, Quot.sound
* `Cddl.C78_cut_bracket`: propext, Classical.choice, Quot.sound
* `Cddl.C78_cut_literal`: propext, Classical.choice, Quot.sound
* `Cddl.C78_one_bracket`: propext, Classical.choice, Quot.sound
* `Cddl.C78_other_bracket`: propext, Classical.choice, Quot.sound
* `Cddl.C79_joined`: propext, Classical.choice, Quot.sound
* `Cddl.C79_text`: propext, Classical.choice, Quot.sound
* `Cddl.C79_assoc`: propext, Quot.sound
* `Cddl.C79_nothing`: propext, Quot.sound
* `Cddl.C79_above`: propext, Classical.choice, Quot.sound
* `Cddl.C79_below`: propext, Classical.choice, Quot.sound
* `Cddl.C79_below_refuted`: propext, Classical.choice, Quot.sound
* `Cddl.C80_reported`: propext, Classical.choice, Quot.sound
* `Cddl.C80_slice`: propext, Classical.choice, Quot.sound
* `Cddl.C80_entry`: propext, Classical.choice, Quot.sound
* `Cddl.C80_literal`: propext, Classical.choice, Quot.sound
* `Cddl.C80_integer_part`: propext, Classical.choice, Quot.sound
* `Cddl.C80_generic_key`: propext, Classical.choice, Quot.sound
* `Cddl.C80_swallowed`: propext, Classical.choice, Quot.sound
* `Cddl.C81_same`: propext, Classical.choice, Quot.sound
* `Cddl.C81_rules`: propext, Classical.choice, Quot.sound
* `Cddl.C81_cbor`: propext, Classical.choice, Quot.sound
* `Cddl.C81_json`: propext, Classical.choice, Quot.sound
* `Cddl.C81_texts`: propext, Classical.choice, Quot.sound
* `Cddl.C81_integers`: propext, Classical.choice, Quot.sound
* `Cddl.C81_bytes`: propext, Classical.choice, Quot.sound
* `Cddl.C81_example`: propext, Classical.choice, Quot.sound
* `Cddl.C81_size_example`: propext, Classical.choice, Quot.sound
* `Cddl.C82_reword`: propext, Classical.choice, Quot.sound
* `Cddl.C82_rules`: propext, Classical.choice, Quot.sound
* `Cddl.C82_cbor`: propext, Classical.choice, Quot.sound
* `Cddl.C82_json`: propext, Classical.choice, Quot.sound
* `Cddl.C82_tree`: propext, Classical.choice, Quot.sound
* `Cddl.C82_text`: propext, Classical.choice, Quot.sound
* `Cddl.C82_schema`: propext, Classical.choice, Quot.sound
* `Cddl.C82_order_refuted`: propext, Classical.choice, Quot.sound
* `Cddl.C82_example`: propext, Classical.choice, Quot.sound
* `Cddl.C82_schema_example`: propext, Classical.choice, Quot.sound
* `Cddl.C83_asked`: propext, Classical.choice, Quot.sound
* `Cddl.C83_rules`: propext, Classical.choice, Quot.sound
* `Cddl.C83_json`: propext, Classical.choice, Quot.sound
* `Cddl.C83_none`: propext, Classical.choice, Quot.sound
* `Cddl.C83_print`: propext, Classical.choice, Quot.sound
* `Cddl.C83_example`: propext, Classical.choice, Quot.sound
* `Cddl.C84_endless`: propext, Classical.choice, Quot.sound
* `Cddl.C84_error`: propext, Classical.choice, Quot.sound
* `Cddl.C84_rules`: propext, Classical.choice, Quot.sound
* `Cddl.C84_calls`: propext, Classical.choice, Quot.sound
* `Cddl.C84_example`: propext, Classical.choice, Quot.sound
* `Cddl.C85_array`: propext, Classical.choice, Quot.sound
* `Cddl.C85_map`: propext, Classical.choice, Quot.sound
* `Cddl.C85_parts`: propext, Classical.choice, Quot.sound
* `Cddl.C85_absent`: propext, Classical.choice, Quot.sound
* `Cddl.C85_json`: propext, Classical.choice, Quot.sound
* `Cddl.C85_example`: propext, Classical.choice, Quot.sound
* `Cddl.C85_absent_example`: propext, Classical.choice, Quot.sound
* `Cddl.C86_array`: propext, Classical.choice, Quot.sound
* `Cddl.C86_map`: propext, Classical.choice, Quot.sound
* `Cddl.C86_key`: propext, Classical.choice, Quot.sound
* `Cddl.C86_json`: propext, Classical.choice, Quot.sound
* `Cddl.C86_example`: propext, Classical.choice, Quot.sound
* `Cddl.C86_key_example`: propext, Classical.choice, Quot.sound
* `Cddl.C87_generic`: propext, Classical.choice, Quot.sound
* `Cddl.C87_plain`: propext, Classical.choice, Quot.sound
* `Cddl.C87_json`: propext, Classical.choice, Quot.sound
* `Cddl.C87_json_plain`: propext, Classical.choice, Quot.sound
* `Cddl.C87_cbor`: propext, Classical.choice, Quot.sound
* `Cddl.C87_example`: propext, Classical.choice, Quot.sound
* `Cddl.C87_tight`: propext, Classical.choice, Quot.sound
* `Cddl.C87_any_needed`: propext, Classical.choice, Quot.sound
* `Cddl.C88_array`: propext, Classical.choice, Quot.sound
* `Cddl.C88_map`: propext, Classical.choice, Quot.sound
* `Cddl.C88_array_least`: propext, Classical.choice, Quot.sound
* `Cddl.C88_map_least`: propext, Classical.choice, Quot.sound
* `Cddl.C88_tuple`: propext, Classical.choice, Quot.sound
* `Cddl.C88_json`: propext, Classical.choice, Quot.sound
* `Cddl.C88_example`: propext, Classical.choice, Quot.sound
* `Cddl.C88_least_example`: propext, Classical.choice, Quot.sound
* `Cddl.C88_failed_options`: propext, Classical.choice, Quot.sound
* `Cddl.C89_types`: propext, Classical.choice, Quot.sound
* `Cddl.C89_json`: propext, Classical.choice, Quot.sound
* `Cddl.C89_example`: propext, Classical.choice, Quot.sound
* `Cddl.C89_optional`: propext, Classical.choice, Quot.sound
* `Cddl.C90_keys`: propext, Classical.choice, Quot.sound
* `Cddl.C90_twice`: propext, Classical.choice, Quot.sound
* `Cddl.C90_same_key`: propext, Classical.choice, Quot.sound
* `Cddl.C90_calls`: propext, Classical.choice, Quot.sound
* `Cddl.C90_example`: propext, Classical.choice, Quot.sound
* `Cddl.C90_optional`: propext, Classical.choice, Quot.sound
* `Cddl.C90_count_example`: propext, Classical.choice, Quot.sound
* `Cddl.C91_array_least`: propext, Classical.choice, Quot.sound
* `Cddl.C91_array_most`: propext, Classical.choice, Quot.sound
* `Cddl.C91_map_most`: propext, Classical.choice, Quot.sound
* `Cddl.C91_map_between`: propext, Classical.choice, Quot.sound
* `Cddl.C91_json`: propext, Classical.choice, Quot.sound
* `Cddl.C91_example`: propext, Classical.choice, Quot.sound
* `Cddl.C91_map_example`: propext, Classical.choice, Quot.sound
* `Cddl.C92_types`: propext, Classical.choice, Quot.sound
* `Cddl.C92_calls`: propext, Classical.choice, Quot.sound
* `Cddl.C92_contradictions`: propext, Classical.choice, Quot.sound
* `Cddl.C92_example`: propext, Classical.choice, Quot.sound
* `Cddl.C92_optional`: propext, Classical.choice, Quot.sound
