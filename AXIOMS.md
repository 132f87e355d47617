# Axioms of the property theorems

Collected with Lean's `collectAxioms` (what `#print axioms` prints).

| Theorem | Axioms |
|---|---|
| `C01_flat_file` | propext, Classical.choice, Quot.sound |
| `C02_flat_file` | propext, Classical.choice, Quot.sound |
| `C02_position` | propext, Classical.choice, Quot.sound |
| `C03_flat_file` | propext, Classical.choice, Quot.sound |
| `C04_data_run` | propext, Classical.choice, Quot.sound |
| `C04_non_resident` | propext, Classical.choice, Quot.sound |
| `C04_non_resident_succeeds` | propext, Classical.choice, Quot.sound |
| `C04_resident` | propext, Classical.choice, Quot.sound |
| `C05_list` | propext, Classical.choice, Quot.sound |
| `C05_list_failed` | propext, Classical.choice, Quot.sound |
| `C05_non_resident` | propext, Classical.choice, Quot.sound |
| `C05_non_resident_failed` | propext, Classical.choice, Quot.sound |
| `C05_resident` | propext, Classical.choice, Quot.sound |
| `C06_list` | propext, Classical.choice, Quot.sound |
| `C06_non_resident` | propext, Classical.choice, Quot.sound |
| `C06_resident` | propext, Classical.choice, Quot.sound |
| `C06_terminates` | propext, Classical.choice, Quot.sound |
| `C07_before_first_byte_partial` | propext, Classical.choice, Quot.sound |
| `C07_contiguous_partial` | propext, Classical.choice, Quot.sound |
| `C07_interrupted_partial` | propext, Classical.choice, Quot.sound |
| `C07_negation` | propext |
| `C08_only_encodings` | propext, Classical.choice, Quot.sound |
| `C08_roundtrip` | propext, Classical.choice, Quot.sound |
| `C09_ended_stays_ended` | propext, Classical.choice, Quot.sound |
| `C09_exact` | propext, Classical.choice, Quot.sound |
| `C09_exact_at_end` | propext |
| `C09_few_runs` | propext, Classical.choice, Quot.sound |
| `C09_no_panic` | propext, Classical.choice, Quot.sound |
| `C09_progress` | propext, Classical.choice, Quot.sound |
| `C09_terminates` | propext, Classical.choice, Quot.sound |
| `C10_negation` | propext |
| `C10_reachable` | propext, Classical.choice, Quot.sound |
| `C10_same_error_partial` | propext, Classical.choice, Quot.sound |
| `C10_still_an_error` | propext, Classical.choice, Quot.sound |
| `C10_too_big_partial` | propext, Classical.choice, Quot.sound |
| `C11_flat_file_partial` | propext, Classical.choice, Quot.sound |
| `C11_negation` | propext, Classical.choice, Quot.sound |
| `C11_nothing_moves` | propext, Quot.sound |
| `C12_roundtrip` | propext, Classical.choice, Quot.sound |
| `C13_first_mismatch_reported` | propext, Quot.sound |
| `C13_ok_means_all_match` | propext, Quot.sound |
| `C13_torn_write` | propext, Classical.choice, Quot.sound |
| `C14_negation` | propext, Quot.sound |
| `C14_no_panic_partial` | propext, Classical.choice, Quot.sound |
| `C14_panic_iff` | propext, Classical.choice, Quot.sound |
| `C15_accept_iff` | propext, Classical.choice, Quot.sound |
| `C15_no_panic` | propext, Classical.choice, Quot.sound |
| `C15_refuse_iff` | propext, Classical.choice, Quot.sound |
| `C16_geometry` | propext, Classical.choice, Quot.sound |
| `C17_negation` | propext, Classical.choice, Quot.sound |
| `C17_record_partial` | propext, Classical.choice, Quot.sound |
| `C17_rejected` | propext, Classical.choice, Quot.sound |
| `C17_sound` | propext, Classical.choice, Quot.sound |
| `C18_disjoint` | propext, Quot.sound |
| `C18_opened` | propext, Classical.choice, Quot.sound |
| `C18_tiles` | propext, Classical.choice, Quot.sound |
| `C18_wellformed` | propext, Classical.choice, Quot.sound |
| `C19_negation` | none |
| `C19_used_part_partial` | propext, Classical.choice, Quot.sound |
| `C20_name` | propext, Quot.sound |
| `C20_name_string` | propext, Quot.sound |
| `C20_resident_value` | propext, Classical.choice, Quot.sound |
| `C20_resident_value_exact` | propext, Classical.choice, Quot.sound |
| `C21_negation` | propext |
| `C21_no_panic_partial` | propext, Classical.choice, Quot.sound |
| `C21_value_length` | propext, Classical.choice, Quot.sound |
| `C22_first_match` | propext, Classical.choice, Quot.sound |
| `C22_no_panic` | propext, Classical.choice, Quot.sound |
| `C22_not_found_iff` | propext, Classical.choice, Quot.sound |
| `C23_groups_exist` | propext, Classical.choice, Quot.sound |
| `C23_no_list` | propext, Classical.choice, Quot.sound |
| `C23_split_value` | propext, Classical.choice, Quot.sound |
| `C23_with_list` | propext, Classical.choice, Quot.sound |
| `C24_arbitrary_resident` | propext, Classical.choice, Quot.sound |
| `C24_few_entries` | propext, Classical.choice, Quot.sound |
| `C24_no_panic_non_resident` | propext, Classical.choice, Quot.sound |
| `C24_no_panic_resident` | propext, Classical.choice, Quot.sound |
| `C24_non_resident` | propext, Classical.choice, Quot.sound |
| `C24_progress` | propext, Classical.choice, Quot.sound |
| `C24_resident` | propext, Classical.choice, Quot.sound |
| `C25_contents` | propext, Classical.choice, Quot.sound |
| `C25_inorder` | propext, Classical.choice, Quot.sound |
| `C26_find` | propext, Classical.choice, Quot.sound |
| `C26_find_unique` | propext, Classical.choice, Quot.sound |
| `C26_not_first` | propext, Classical.choice, Quot.sound |
| `C27_cyclic_entries` | propext, Classical.choice, Quot.sound |
| `C27_cyclic_find` | propext, Classical.choice, Quot.sound |
| `C27_entries_acyclic_partial` | propext, Classical.choice, Quot.sound |
| `C27_entries_acyclic_sane` | propext, Classical.choice, Quot.sound |
| `C27_entries_end_partial` | propext, Classical.choice, Quot.sound |
| `C27_find_acyclic_partial` | propext, Classical.choice, Quot.sound |
| `C27_find_acyclic_sane` | propext, Classical.choice, Quot.sound |
| `C27_find_ends_partial` | propext, Classical.choice, Quot.sound |
| `C27_negation` | propext, Classical.choice, Quot.sound |
| `C27_only_cycles` | propext, Classical.choice, Quot.sound |
| `C27_only_cycles_sane` | propext, Classical.choice, Quot.sound |
| `C27_tree_acyclic` | propext, Classical.choice, Quot.sound |
| `C28_entry` | propext, Classical.choice, Quot.sound |
| `C28_inside` | propext, Classical.choice, Quot.sound |
| `C28_iterate` | propext, Classical.choice, Quot.sound |
| `C28_last_entry` | propext, Classical.choice, Quot.sound |
| `C28_record_entries` | propext, Quot.sound |
| `C28_record_has_subnodes` | propext, Quot.sound |
| `C28_root_entries` | propext, Quot.sound |
| `C29_entry_partial` | propext, Classical.choice, Quot.sound |
| `C29_find_partial` | propext, Classical.choice, Quot.sound |
| `C29_node_negation` | propext |
| `C29_node_step_partial` | propext, Classical.choice, Quot.sound |
| `C29_record_accessors_partial` | propext, Classical.choice, Quot.sound |
| `C29_record_negation` | none |
| `C29_record_partial` | propext, Classical.choice, Quot.sound |
| `C29_root` | propext, Quot.sound |
| `C29_root_entries_partial` | propext, Quot.sound |
| `C29_root_negation` | none |
| `C29_subnodes_partial` | propext, Classical.choice, Quot.sound |
| `C29_traversal_partial` | propext, Classical.choice, Quot.sound |
| `C30_bad_offsets` | propext, Classical.choice, Quot.sound |
| `C30_mismatch` | propext, Classical.choice, Quot.sound |
| `C30_only_that_record` | propext, Classical.choice, Quot.sound |
| `C30_returns_record` | propext, Classical.choice, Quot.sound |
| `C31_lexicographic` | propext, Classical.choice, Quot.sound |
| `C31_panics_without_table` | propext |
| `C31_refl` | propext, Classical.choice, Quot.sound |
| `C31_swap` | propext, Classical.choice, Quot.sound |
| `C31_total` | propext, Classical.choice, Quot.sound |
| `C31_trans` | propext, Classical.choice, Quot.sound |
| `C32_accepted_iff` | propext, Quot.sound |
| `C32_lookup` | propext, Quot.sound |
| `C32_no_data` | propext, Classical.choice, Quot.sound |
| `C32_read` | propext, Classical.choice, Quot.sound |
| `C33_case_blind` | propext, Classical.choice, Quot.sound |
| `C33_find` | propext, Classical.choice, Quot.sound |
| `C33_find_unique` | propext, Classical.choice, Quot.sound |
| `C34_accept_partial` | propext, Classical.choice, Quot.sound |
| `C34_monotone` | propext, Classical.choice, Quot.sound |
| `C34_negation` | propext, Quot.sound |
| `C34_precision` | propext, Classical.choice, Quot.sound |
| `C34_reject` | propext, Classical.choice, Quot.sound |
| `C34_roundtrip` | propext, Classical.choice, Quot.sound |
| `C35_agree_partial` | propext, Classical.choice, Quot.sound |
| `C35_negation_before_1970` | none |
| `C35_negation_far_future` | propext, Classical.choice, Quot.sound |
| `C36_injective` | propext, Classical.choice, Quot.sound |
| `C36_roundtrip` | propext, Classical.choice, Quot.sound |
| `C36_split` | propext, Classical.choice, Quot.sound |
| `C37_lcn_add` | propext, Classical.choice, Quot.sound |
| `C37_lcn_position` | none |
| `C37_position_add` | propext, Quot.sound |
| `C37_vcn_offset` | none |
| `C38_file_name` | propext, Classical.choice, Quot.sound |
| `C38_flags` | propext, Quot.sound |
| `C38_index_root` | propext, Quot.sound |
| `C38_index_root_attribute` | propext, Quot.sound |
| `C38_index_root_nonresident` | propext, Quot.sound |
| `C38_namespace` | propext, Quot.sound |
| `C38_never_panics` | none |
| `C38_object_id` | propext, Classical.choice, Quot.sound |
| `C38_other_type` | propext |
| `C38_resident` | propext, Classical.choice, Quot.sound |
| `C38_resident_ok_iff` | propext, Quot.sound |
| `C38_standard_information` | propext, Classical.choice, Quot.sound |
| `C38_volume_information` | propext, Classical.choice, Quot.sound |
| `C38_volume_name` | propext, Classical.choice, Quot.sound |
| `C39_address_holds_byte` | propext, Quot.sound |
| `C39_boundary_negation` | propext |
| `C39_fresh_seek` | propext, Classical.choice, Quot.sound |
| `C39_seek_after_history` | propext, Classical.choice, Quot.sound |
| `C39_split` | propext, Classical.choice, Quot.sound |
| `C40_deviation_partial` | propext, Classical.choice, Quot.sound |
| `C40_negation` | propext |
| `C41_interleaving` | propext, Classical.choice, Quot.sound |
| `C42_device_failures_partial` | propext, Classical.choice, Quot.sound |
| `C42_negation` | propext |
| `C43_intact_partial` | propext, Classical.choice, Quot.sound |
| `C43_negation` | propext |
| `C43_passed_over_partial` | propext, Classical.choice, Quot.sound |
| `C43_read_after_seek` | propext, Classical.choice, Quot.sound |
| `C44_consecutive_negation` | propext |
| `C44_drift` | propext, Classical.choice, Quot.sound |
| `C44_end_negation` | propext |
| `C44_failed_negation` | propext |
| `C44_new` | propext, Classical.choice, Quot.sound |
| `C44_positions_partial` | propext, Classical.choice, Quot.sound |
| `C44_read_after_seek_partial` | propext, Classical.choice, Quot.sound |
| `C44_room` | propext, Classical.choice, Quot.sound |
| `C44_seek` | propext, Quot.sound |
| `C44_whole_sectors` | propext, Quot.sound |
| `C45_canonical_iff_partial` | propext, Quot.sound |
| `C45_groups_partial` | propext, Quot.sound |
| `C45_injective` | propext, Classical.choice, Quot.sound |
| `C45_length_partial` | propext, Quot.sound |
| `C45_negation` | propext, Classical.choice, Quot.sound |
| `C46_data` | propext, Classical.choice, Quot.sound |
| `C46_find_attribute` | propext, Classical.choice, Quot.sound |
| `C46_hidden_stream` | propext, Classical.choice, Quot.sound |
| `C46_panics_without_table` | propext, Classical.choice, Quot.sound |
| `C47_name` | propext, Classical.choice, Quot.sound |
| `C48_directory_index` | propext, Classical.choice, Quot.sound |
| `C48_find` | propext, Classical.choice, Quot.sound |
| `C48_list` | propext, Classical.choice, Quot.sound |
| `C48_not_a_directory` | propext, Quot.sound |
| `C48_open` | propext, Classical.choice, Quot.sound |
| `C49_negation` | propext |
| `C49_no_panic_partial` | propext, Classical.choice, Quot.sound |
| `C50_apart_partial` | propext, Classical.choice, Quot.sound |
| `C50_negation` | propext, Classical.choice, Quot.sound |
| `C51_negation` | propext, Classical.choice, Quot.sound |
| `C51_own_runs_only_partial` | propext, Classical.choice, Quot.sound |
| `C52_all_records` | propext, Classical.choice, Quot.sound |
| `C52_bad_record` | propext, Classical.choice, Quot.sound |
| `C53_copy` | propext, Classical.choice, Quot.sound |
| `C53_copy_all` | propext, Classical.choice, Quot.sound |
| `C53_short_negation` | propext, Classical.choice, Quot.sound |
| `C54_attributes` | propext, Classical.choice, Quot.sound |
| `C54_dir` | propext, Quot.sound |
| `C54_get` | propext, Quot.sound |
| `C54_index` | propext, Classical.choice, Quot.sound |
| `C54_interrupted_negation` | propext |
| `C54_read` | propext, Classical.choice, Quot.sound |
| `C54_seek` | propext, Classical.choice, Quot.sound |
| `C54_shell` | propext, Classical.choice, Quot.sound |
| `C54_success` | none |
| `C54_values` | propext, Classical.choice, Quot.sound |
| `C54_volume` | propext, Classical.choice, Quot.sound |
| `C55_info` | propext, Classical.choice, Quot.sound |
| `C55_structured_iff` | propext, Classical.choice, Quot.sound |
| `C55_volume_info` | propext, Classical.choice, Quot.sound |
| `C55_volume_name` | propext, Classical.choice, Quot.sound |
| `C56_best` | propext, Classical.choice, Quot.sound |
| `C57_back_iff` | propext, Classical.choice, Quot.sound |
| `C57_cd` | propext |
| `C57_current` | propext, Classical.choice, Quot.sound |
| `C57_negation` | propext, Classical.choice, Quot.sound |
| `C57_session_partial` | propext, Classical.choice, Quot.sound |
| `C57_start` | propext, Quot.sound |
| `C57_up` | propext, Classical.choice, Quot.sound |
| `C58_command` | propext, Classical.choice, Quot.sound |
| `C58_command_alone` | propext, Classical.choice, Quot.sound |
| `C58_output` | propext |
| `C58_record_number` | propext, Classical.choice, Quot.sound |
| `C58_stream` | propext |
| `C58_utf16` | propext, Classical.choice, Quot.sound |
| `C58_utf16_injective` | propext, Classical.choice, Quot.sound |
| `C59_by_name` | propext, Classical.choice, Quot.sound |
| `C59_by_number` | propext, Classical.choice, Quot.sound |
| `C59_cd` | propext, Classical.choice, Quot.sound |
| `C59_dir` | propext, Classical.choice, Quot.sound |
| `C59_end_to_end_partial` | propext, Classical.choice, Quot.sound |
| `C59_get` | propext, Classical.choice, Quot.sound |
| `C59_get_no_stream` | propext, Classical.choice, Quot.sound |
| `C59_no_such_file` | propext, Classical.choice, Quot.sound |
| `C59_start_partial` | propext, Classical.choice, Quot.sound |
| `C60_dir` | propext, Quot.sound |
| `C60_end_to_end` | propext, Classical.choice, Quot.sound |
| `C60_get` | propext, Quot.sound |
| `C60_programs` | propext, Classical.choice, Quot.sound |
| `C60_reader` | propext, Quot.sound |
| `C60_reader_ok` | propext, Quot.sound |
| `C60_same_or_reports` | propext, Quot.sound |
| `C60_shell` | propext, Classical.choice, Quot.sound |
| `C60_stack` | propext, Classical.choice, Quot.sound |
| `C60_stack_honest` | propext, Classical.choice, Quot.sound |
| `C60_stack_padded` | propext, Classical.choice, Quot.sound |
| `C60_stack_request` | propext, Classical.choice, Quot.sound |
| `C61_as_one_request` | propext, Classical.choice, Quot.sound |
| `C61_end_negation` | propext, Classical.choice, Quot.sound |
| `C61_negation` | propext, Classical.choice, Quot.sound |
| `C61_open_partial` | propext, Classical.choice, Quot.sound |
| `C61_pieces` | propext, Classical.choice, Quot.sound |
| `C61_run_partial` | propext, Classical.choice, Quot.sound |
| `C62_command` | propext, Classical.choice, Quot.sound |
| `C62_determined` | propext, Classical.choice, Quot.sound |
| `C62_fileinfo` | propext, Classical.choice, Quot.sound |
| `C62_fsinfo` | propext, Classical.choice, Quot.sound |
| `C62_no_file` | propext, Classical.choice, Quot.sound |
| `C62_nothing_hidden` | propext, Classical.choice, Quot.sound |
| `C62_shown_is_found` | propext, Classical.choice, Quot.sound |
| `C63_attr` | propext, Classical.choice, Quot.sound |
| `C63_command` | propext, Classical.choice, Quot.sound |
| `C63_determined` | propext, Classical.choice, Quot.sound |
| `C63_fileinfo_disagrees` | propext, Classical.choice, Quot.sound |
| `C63_no_file` | propext, Classical.choice, Quot.sound |
| `C63_nothing_hidden` | propext, Classical.choice, Quot.sound |
| `C63_runs_locate` | propext, Classical.choice, Quot.sound |
| `C64_after_end` | propext, Classical.choice, Quot.sound |
| `C64_all_lines` | propext, Classical.choice, Quot.sound |
| `C64_announced` | propext, Classical.choice, Quot.sound |
| `C64_attr` | propext, Classical.choice, Quot.sound |
| `C64_cd_nowhere` | propext, Classical.choice, Quot.sound |
| `C64_command` | propext, Classical.choice, Quot.sound |
| `C64_contents` | propext, Classical.choice, Quot.sound |
| `C64_cut` | propext, Classical.choice, Quot.sound |
| `C64_dir` | propext, Classical.choice, Quot.sound |
| `C64_fileinfo` | propext, Classical.choice, Quot.sound |
| `C64_fsinfo` | propext, Classical.choice, Quot.sound |
| `C64_get` | propext, Classical.choice, Quot.sound |
| `C64_get_no_file` | propext, Classical.choice, Quot.sound |
| `C64_help` | propext, Classical.choice, Quot.sound |
| `C64_host` | propext, Classical.choice, Quot.sound |
| `C64_no_error_ends` | propext, Classical.choice, Quot.sound |
| `C64_no_file` | propext, Classical.choice, Quot.sound |
| `C64_one_result` | propext, Classical.choice, Quot.sound |
| `C64_only_cd` | propext, Classical.choice, Quot.sound |
| `C64_panic_ends` | propext, Classical.choice, Quot.sound |
| `C64_panic_from` | propext, Classical.choice, Quot.sound |
| `C64_panic_negation` | propext, Classical.choice, Quot.sound |
| `C64_prompts` | propext, Classical.choice, Quot.sound |
| `C64_second_get` | propext, Classical.choice, Quot.sound |
| `C64_stack` | propext, Classical.choice, Quot.sound |
| `C64_typed` | propext, Classical.choice, Quot.sound |
| `C64_walk` | propext, Classical.choice, Quot.sound |
| `C64_walk_and_get` | propext, Classical.choice, Quot.sound |
| `C65_history` | none |
| `C65_reader` | propext, Quot.sound |
| `C65_results` | propext, Classical.choice, Quot.sound |
| `C65_run_negation` | propext |
| `C65_same_or_reports` | propext, Quot.sound |
| `C65_stack` | propext, Classical.choice, Quot.sound |
| `C65_two_readers` | propext, Quot.sound |
| `C66_location_partial` | propext, Classical.choice, Quot.sound |
| `C66_negation` | propext, Classical.choice, Quot.sound |
| `C67_attributes` | propext, Quot.sound |
| `C67_attributes_raw` | none |
| `C67_data_runs` | propext |
| `C67_index_entries` | propext, Quot.sound |
| `C67_list_entries` | propext |
| `C67_node` | propext |
| `C67_records` | propext |
| `C68_attributes_negation` | propext |
| `C68_attributes_partial` | propext, Classical.choice, Quot.sound |
| `C68_index_gaps_partial` | propext, Classical.choice, Quot.sound |
| `C68_index_negation` | propext |
| `C68_list_entries` | propext, Classical.choice, Quot.sound |
| `C68_records_partial` | propext, Classical.choice, Quot.sound |
| `C68_rewind_partial` | propext, Classical.choice, Quot.sound |
| `C68_value_negation` | propext |
| `C69_errors` | propext |
| `C69_errors_back` | propext |
| `C69_interrupted_negation` | propext |
| `C69_is_empty` | propext, Classical.choice, Quot.sound |
| `C69_read_exact` | propext |
| `C69_read_to_end_any_partial` | propext, Classical.choice, Quot.sound |
| `C69_read_to_end_partial` | propext, Classical.choice, Quot.sound |
| `C69_std_file` | propext, Classical.choice, Quot.sound |
| `C69_stream_position` | propext, Quot.sound |
| `C70_attribute` | propext, Classical.choice, Quot.sound |
| `C70_attributes` | propext, Classical.choice, Quot.sound |
| `C70_file` | propext, Classical.choice, Quot.sound |
| `C70_index` | propext, Classical.choice, Quot.sound |
| `C70_iterators` | propext, Classical.choice, Quot.sound |
| `C70_value` | propext, Classical.choice, Quot.sound |
| `C70_volume` | propext, Classical.choice, Quot.sound |
| `C71_attribute_length` | propext, Classical.choice, Quot.sound |
| `C71_attribute_length_negation` | propext, Classical.choice, Quot.sound |
| `C71_attribute_length_partial` | propext, Classical.choice, Quot.sound |
| `C71_entry_size` | propext, Classical.choice, Quot.sound |
| `C71_entry_size_negation` | propext, Classical.choice, Quot.sound |
| `C71_entry_size_partial` | propext, Classical.choice, Quot.sound |
| `C71_file_sizes` | propext, Classical.choice, Quot.sound |
| `C71_index_root_negation` | propext, Classical.choice, Quot.sound |
| `C71_index_sizes_negation` | propext, Classical.choice, Quot.sound |
| `C71_index_sizes_partial` | propext, Classical.choice, Quot.sound |
| `C71_name_length_negation` | propext, Classical.choice, Quot.sound |
| `C71_numbers` | propext, Classical.choice, Quot.sound |
| `C71_position` | propext, Classical.choice, Quot.sound |
| `C71_structured` | propext, Classical.choice, Quot.sound |
| `C71_structured_partial` | propext, Classical.choice, Quot.sound |
| `C71_tells_partial` | propext, Classical.choice, Quot.sound |
| `C71_template` | propext, Classical.choice, Quot.sound |
| `C71_total_sectors_negation` | propext, Classical.choice, Quot.sound |
| `C71_volume_information_negation` | propext, Classical.choice, Quot.sound |
| `C72_checked_partial` | propext, Classical.choice, Quot.sound |
| `C72_deleted_negation` | propext, Classical.choice, Quot.sound |
| `C72_live` | propext, Classical.choice, Quot.sound |
| `C72_negation` | propext, Classical.choice, Quot.sound |
| `C72_number` | propext, Classical.choice, Quot.sound |
| `C72_sequence_ignored` | propext, Classical.choice, Quot.sound |
| `C73_final` | propext, Classical.choice, Quot.sound |
| `C73_negation` | propext, Classical.choice, Quot.sound |
| `C73_non_resident` | propext, Classical.choice, Quot.sound |
| `C73_resident` | propext, Classical.choice, Quot.sound |
| `C73_same_partial` | propext, Classical.choice, Quot.sound |
| `C73_sound_lists` | propext, Classical.choice, Quot.sound |
| `C74_attribute` | propext, Classical.choice, Quot.sound |
| `C74_directory_negation` | propext, Classical.choice, Quot.sound |
| `C74_file` | propext, Classical.choice, Quot.sound |
| `C74_index_entry` | propext, Classical.choice, Quot.sound |
| `C74_shown` | propext, Classical.choice, Quot.sound |
| `C74_structured` | propext, Classical.choice, Quot.sound |
| `C74_tells` | propext, Classical.choice, Quot.sound |
| `C74_text` | propext, Classical.choice, Quot.sound |
| `C75_aligned` | propext, Classical.choice, Quot.sound |
| `C75_attr_partial` | propext, Classical.choice, Quot.sound |
| `C75_attribute_row` | propext, Classical.choice, Quot.sound |
| `C75_dir_negation` | propext, Classical.choice, Quot.sound |
| `C75_dir_partial` | propext, Classical.choice, Quot.sound |
| `C75_fileinfo_partial` | propext, Classical.choice, Quot.sound |
| `C75_fsinfo_lines` | propext, Classical.choice, Quot.sound |
| `C75_fsinfo_partial` | propext, Classical.choice, Quot.sound |
| `C75_lines` | propext |
| `C75_name_lines` | propext, Classical.choice, Quot.sound |
| `C75_record_lines` | propext, Classical.choice, Quot.sound |
| `C75_record_number` | propext, Classical.choice, Quot.sound |
| `C75_row` | propext, Classical.choice, Quot.sound |
| `C75_run_row` | propext, Classical.choice, Quot.sound |
| `C75_std_lines` | propext, Classical.choice, Quot.sound |
| `C76_apart` | propext, Classical.choice, Quot.sound |
| `C76_argument` | propext, Classical.choice, Quot.sound |
| `C76_attr_partial` | propext, Classical.choice, Quot.sound |
| `C76_cd_partial` | propext, Classical.choice, Quot.sound |
| `C76_colon` | propext, Classical.choice, Quot.sound |
| `C76_fileinfo_partial` | propext, Classical.choice, Quot.sound |
| `C76_get_partial` | propext, Classical.choice, Quot.sound |
| `C76_input` | propext, Quot.sound |
| `C76_lossless` | propext, Classical.choice, Quot.sound |
| `C76_negation` | propext, Classical.choice, Quot.sound |
| `C76_shown` | propext, Classical.choice, Quot.sound |
| `C76_slash` | propext, Classical.choice, Quot.sound |
| `C76_surrogate` | propext, Classical.choice, Quot.sound |
| `C76_unknown` | propext, Classical.choice, Quot.sound |
| `C77_attribute` | propext, Quot.sound |
| `C77_attribute_errors` | propext |
| `C77_data_runs` | propext, Classical.choice, Quot.sound |
| `C77_data_runs_start` | propext, Quot.sound |
| `C77_entry_data` | propext, Quot.sound |
| `C77_entry_errors` | propext |
| `C77_file` | propext, Classical.choice, Quot.sound |
| `C77_file_errors_partial` | propext, Quot.sound |
| `C77_find_partial` | propext, Classical.choice, Quot.sound |
| `C77_index_entries_partial` | propext, Classical.choice, Quot.sound |
| `C77_index_new_partial` | propext, Classical.choice, Quot.sound |
| `C77_index_record` | propext, Classical.choice, Quot.sound |
| `C77_index_record_errors_partial` | propext, Quot.sound |
| `C77_index_records` | propext, Classical.choice, Quot.sound |
| `C77_index_root_partial` | propext, Classical.choice, Quot.sound |
| `C77_key` | propext, Quot.sound |
| `C77_list_entry_bytes` | propext, Classical.choice, Quot.sound |
| `C77_list_non_resident` | propext, Classical.choice, Quot.sound |
| `C77_list_resident_partial` | propext, Classical.choice, Quot.sound |
| `C77_list_start_partial` | propext, Classical.choice, Quot.sound |
| `C77_negation_list` | propext |
| `C77_negation_mismatch` | none |
| `C77_negation_root` | propext |
| `C77_node_entries` | propext, Classical.choice, Quot.sound |
| `C77_record_entries` | propext, Quot.sound |
| `C77_record_errors_partial` | propext, Quot.sound |
| `C77_subnodes` | propext, Classical.choice, Quot.sound |
| `C78_entries` | propext, Classical.choice, Quot.sound |
| `C78_file` | propext, Classical.choice, Quot.sound |
| `C78_find` | propext, Classical.choice, Quot.sound |
| `C78_new` | propext, Quot.sound |
| `C78_shell` | propext, Classical.choice, Quot.sound |
| `C78_value` | propext, Classical.choice, Quot.sound |
| `C78_volume_attributes` | propext, Quot.sound |
| `C78_volume_directory` | propext, Quot.sound |
| `C78_volume_file` | propext, Quot.sound |
| `C78_volume_info` | propext, Quot.sound |
| `C78_volume_lookup` | propext, Quot.sound |
| `C78_volume_session` | propext, Classical.choice, Quot.sound |
| `C78_volume_stream` | propext, Quot.sound |
| `C78_volume_value` | propext, Quot.sound |
| `C79_file` | propext, Classical.choice, Quot.sound |
| `C79_find` | propext, Classical.choice, Quot.sound |
| `C79_index_record` | propext, Classical.choice, Quot.sound |
| `C79_list` | propext, Classical.choice, Quot.sound |
| `C79_loads` | propext, Classical.choice, Quot.sound |
| `C79_record` | propext, Quot.sound |
| `C79_small` | propext, Classical.choice, Quot.sound |
| `C79_value` | propext, Classical.choice, Quot.sound |
| `C80_no_allocation` | propext, Classical.choice, Quot.sound |
| `C80_no_panic` | propext, Classical.choice, Quot.sound |
| `C80_opened` | propext, Classical.choice, Quot.sound |
| `C81_command` | propext, Classical.choice, Quot.sound |
| `C81_keyless` | propext |
| `C81_keyless_negation` | propext |
| `C81_shell` | propext, Classical.choice, Quot.sound |
| `C81_start` | propext, Classical.choice, Quot.sound |
| `C82_command_partial` | propext, Classical.choice, Quot.sound |
| `C82_hangs` | propext, Classical.choice, Quot.sound |
| `C82_numbers` | propext, Classical.choice, Quot.sound |
| `C82_only_cycles` | propext, Classical.choice, Quot.sound |
| `C82_shell_partial` | propext, Classical.choice, Quot.sound |
| `C83_exact_partial` | propext, Classical.choice, Quot.sound |
| `C83_negation` | propext, Classical.choice, Quot.sound |
| `C83_sparse` | propext, Classical.choice, Quot.sound |
| `C83_split_partial` | propext, Classical.choice, Quot.sound |
| `C83_unnoticed` | propext, Quot.sound |
| `C83_whole` | propext, Classical.choice, Quot.sound |
| `C84_exact_partial` | propext, Classical.choice, Quot.sound |
| `C84_ignored` | propext, Classical.choice, Quot.sound |
| `C84_negation` | propext, Classical.choice, Quot.sound |
| `C84_plain_partial` | propext, Classical.choice, Quot.sound |
| `C84_reported` | propext, Quot.sound |
| `C84_split_partial` | propext, Classical.choice, Quot.sound |
| `C85_attributes` | propext |
| `C85_data` | propext |
| `C85_directory` | propext |
| `C85_entries` | propext, Quot.sound |
| `C85_file` | propext |
| `C85_find` | propext, Quot.sound |
| `C85_find_file` | propext, Classical.choice, Quot.sound |
| `C85_fixup` | propext, Classical.choice, Quot.sound |
| `C85_fixup_negation` | propext, Classical.choice, Quot.sound |
| `C85_fixup_refused_partial` | propext, Classical.choice, Quot.sound |
| `C85_history` | propext |
| `C85_index_record` | propext, Classical.choice, Quot.sound |
| `C85_inorder` | propext, Classical.choice, Quot.sound |
| `C85_list` | propext |
| `C85_no_end` | propext, Classical.choice, Quot.sound |
| `C85_node` | propext, Quot.sound |
| `C85_open` | propext |
| `C85_read` | propext |
| `C85_record` | propext, Classical.choice, Quot.sound |
| `C85_record_negation` | propext |
| `C85_sizes` | propext, Quot.sound |
| `C85_split` | propext, Quot.sound |
| `C85_split_file` | propext, Classical.choice, Quot.sound |
| `C85_subnode` | propext, Classical.choice, Quot.sound |
| `C85_value_negation` | propext |
| `C85_value_partial` | propext, Classical.choice, Quot.sound |
| `C85_wraps` | propext, Quot.sound |
| `C86_exact_partial` | propext, Classical.choice, Quot.sound |
| `C86_in_order` | propext, Classical.choice, Quot.sound |
| `C86_list_unnoticed` | propext, Classical.choice, Quot.sound |
| `C86_order_negation` | propext, Classical.choice, Quot.sound |
| `C86_owner_negation` | propext, Classical.choice, Quot.sound |
| `C86_owner_unnoticed` | propext, Classical.choice, Quot.sound |
| `C86_stale_negation` | propext, Classical.choice, Quot.sound |
| `C87_copy_partial` | propext, Classical.choice, Quot.sound |
| `C87_empty_negation` | propext |
| `C87_read_partial` | propext, Classical.choice, Quot.sound |
| `C87_shift_negation` | propext |
| `C87_small_partial` | propext, Quot.sound |
| `C87_split_partial` | propext, Classical.choice, Quot.sound |
| `C88_attribute` | propext, Quot.sound |
| `C88_record_negation` | propext |
| `C88_record_partial` | propext, Quot.sound |
| `C88_record_wraps` | propext, Quot.sound |
| `C88_root_accepted` | propext, Quot.sound |
| `C88_root_negation` | propext |
| `C88_root_refused_partial` | propext, Quot.sound |
| `C88_root_used_wraps` | propext, Quot.sound |
| `C88_root_wraps` | propext, Quot.sound |
| `C89_depth_partial` | propext, Classical.choice, Quot.sound |
| `C89_file` | propext, Classical.choice, Quot.sound |
| `C89_grows` | propext, Classical.choice, Quot.sound |
| `C89_held` | propext, Classical.choice, Quot.sound |
| `C89_negation` | propext |
| `C89_node` | propext, Classical.choice, Quot.sound |
| `C89_record` | propext, Classical.choice, Quot.sound |
| `C89_root_any` | propext, Classical.choice, Quot.sound |
| `C89_tree_partial` | propext, Classical.choice, Quot.sound |
| `C89_volume_partial` | propext, Classical.choice, Quot.sound |
