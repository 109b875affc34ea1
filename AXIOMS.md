# Axioms

What `#print axioms` reports for each claimed theorem (written by tools/gen_axioms.py). The axioms are those of Lean itself.

| property | theorem | axioms |
|---|---|---|
| C01 | `Oelint.C01_parsing_is_lossless` | propext, Classical.choice, Quot.sound |
| C02 | `Oelint.C02_lines` | propext, Classical.choice, Quot.sound |
| C03 | `Oelint.C03_one_item_per_chunk` | propext, Classical.choice, Quot.sound |
| C04 | `Oelint.C04_no_inline_python_left` | propext, Classical.choice, Quot.sound |
| C05 | `Oelint.C05_inline_scope` | propext, Quot.sound |
| C06 | `Oelint.C06_raw_from_realraw` | propext, Classical.choice, Quot.sound |
| C07 | `Oelint.C07_every_file_can_be_added_partial` | propext, Classical.choice, Quot.sound |
| C07 | `Oelint.C07_preprocessing_partial` | propext, Classical.choice, Quot.sound |
| C07 | `Oelint.C07_counterexample_continuation` | propext |
| C07 | `Oelint.C07_counterexample_function` | propext |
| C07 | `Oelint.C07_false` | propext |
| C07 | `Oelint.C07_add_file_succeeds_partial` | propext, Classical.choice, Quot.sound |
| C07 | `Oelint.C07_session_succeeds_partial` | propext, Classical.choice, Quot.sound |
| C07 | `Oelint.C07_counterexample_name` | propext |
| C08 | `Oelint.C08_chunk_boundaries` | propext, Classical.choice, Quot.sound |
| C09 | `Oelint.C09_new_syntax_is_sticky` | propext, Classical.choice, Quot.sound |
| C10 | `Oelint.C10_capital_names` | propext, Classical.choice, Quot.sound |
| C10 | `Oelint.C10_assignment` | propext, Classical.choice, Quot.sound |
| C10 | `Oelint.C10_one_item_per_assignment` | propext, Classical.choice, Quot.sound |
| C11 | `Oelint.C11_comments_always_win` | propext, Classical.choice, Quot.sound |
| C12 | `Oelint.C12_include_reports` | propext, Classical.choice, Quot.sound |
| C12 | `Oelint.C12_inherit_reports` | propext, Classical.choice, Quot.sound |
| C12 | `Oelint.C12_reported_files_are_loaded` | propext, Classical.choice, Quot.sound |
| C12 | `Oelint.C12_counterexample` | propext, Quot.sound |
| C13 | `Oelint.C13_unset_partial` | propext, Classical.choice, Quot.sound |
| C13 | `Oelint.C13_unset_flag_partial` | propext, Classical.choice, Quot.sound |
| C13 | `Oelint.C13_observed_partial` | propext, Classical.choice, Quot.sound |
| C13 | `Oelint.C13_counterexample` | propext, Quot.sound |
| C13 | `Oelint.C13_false` | propext, Quot.sound |
| C14 | `Oelint.C14_inline_branch` | propext, Classical.choice, Quot.sound |
| C14 | `Oelint.C14_inline_branch_in_raw` | propext, Classical.choice, Quot.sound |
| C15 | `Oelint.C15_unknown_inline_code` | propext, Classical.choice, Quot.sound |
| C16 | `Oelint.C16_blocks_restored_partial` | propext, Classical.choice, Quot.sound |
| C16 | `Oelint.C16_unknown_code_restored_partial` | propext, Classical.choice, Quot.sound |
| C16 | `Oelint.C16_false` | propext |
| C16 | `Oelint.C16_counterexample_empty` | propext |
| C17 | `Oelint.C17_overrides_split_off` | propext, Classical.choice, Quot.sound |
| C18 | `Oelint.C18_no_piece_is_lost` | propext, Classical.choice, Quot.sound |
| C19 | `Oelint.C19_function_names_recompose_partial` | propext, Classical.choice, Quot.sound |
| C19 | `Oelint.C19_counterexample` | propext |
| C20 | `Oelint.C20_modifiers_agree` | propext, Classical.choice, Quot.sound |
| C21 | `Oelint.C21_var_value_stripped` | propext, Classical.choice, Quot.sound |
| C22 | `Oelint.C22_maximal_runs` | propext, Classical.choice, Quot.sound |
| C22 | `Oelint.C22_tokens_partial` | propext, Classical.choice, Quot.sound |
| C22 | `Oelint.C22_join_split` | propext, Classical.choice, Quot.sound |
| C22 | `Oelint.C22_words` | propext, Quot.sound |
| C22 | `Oelint.C22_mark_counterexample` | none |
| C23 | `Oelint.C23_constraints_dropped` | propext, Classical.choice, Quot.sound |
| C23 | `Oelint.C23_names_only` | propext, Classical.choice, Quot.sound |
| C24 | `Oelint.C24_entries` | propext, Classical.choice, Quot.sound |
| C24 | `Oelint.C24_empty_means_none` | propext |
| C25 | `Oelint.C25_words` | propext, Classical.choice, Quot.sound |
| C26 | `Oelint.C26_addtask` | propext, Classical.choice, Quot.sound |
| C26 | `Oelint.C26_deltask` | propext, Classical.choice, Quot.sound |
| C27 | `Oelint.C27_add_constants` | propext, Classical.choice, Quot.sound |
| C28 | `Oelint.C28_remove_constants` | propext, Classical.choice, Quot.sound |
| C29 | `Oelint.C29_override_constants` | propext, Classical.choice, Quot.sound |
| C30 | `Oelint.C30_get_by_path` | propext, Classical.choice, Quot.sound |
| C31 | `Oelint.C31_this_call_partial` | propext, Classical.choice, Quot.sound |
| C31 | `Oelint.C31_known_paths_partial` | propext, Classical.choice, Quot.sound |
| C31 | `Oelint.C31_out_of_reach_partial` | propext, Classical.choice, Quot.sound |
| C31 | `Oelint.C31_add_add` | propext |
| C31 | `Oelint.C31_override_add` | propext |
| C31 | `Oelint.C31_false` | propext, Quot.sound |
| C32 | `Oelint.C32_filters_are_exact` | propext, Classical.choice, Quot.sound |
| C32 | `Oelint.C32_no_filter` | propext, Classical.choice, Quot.sound |
| C33 | `Oelint.C33_sorted_and_unique` | propext, Quot.sound |
| C33 | `Oelint.C33_composition` | propext, Classical.choice, Quot.sound |
| C33 | `Oelint.C33_combined_filter` | propext, Quot.sound |
| C34 | `Oelint.C34_caching_invisible_partial` | propext, Classical.choice, Quot.sound |
| C34 | `Oelint.C34_false` | propext |
| C34 | `Oelint.C34_failed_remove_false` | propext |
| C34 | `Oelint.C34_failed_addFile_false` | propext |
| C34 | `Oelint.C34_failed_finalize_false` | propext |
| C35 | `Oelint.C35_question_changes_nothing` | propext, Classical.choice, Quot.sound |
| C35 | `Oelint.C35_questions_change_nothing_partial` | propext, Classical.choice, Quot.sound |
| C35 | `Oelint.C35_false` | propext, Quot.sound |
| C36 | `Oelint.C36_append` | none |
| C36 | `Oelint.C36_remove` | propext, Classical.choice, Quot.sound |
| C36 | `Oelint.C36_remove_undoes_append` | propext, Classical.choice, Quot.sound |
| C37 | `Oelint.C37_stashlist_partial` | propext, Classical.choice, Quot.sound |
| C37 | `Oelint.C37_extend_does_nothing` | none |
| C37 | `Oelint.C37_false` | propext |
| C37 | `Oelint.C37_iadd_loses_the_type` | none |
| C38 | `Oelint.C38_class_loaded_once` | propext, Classical.choice, Quot.sound |
| C39 | `Oelint.C39_includes_linked_partial` | propext, Classical.choice, Quot.sound |
| C39 | `Oelint.C39_class_linked_once_partial` | propext, Classical.choice, Quot.sound |
| C39 | `Oelint.C39_counterexample` | propext, Quot.sound |
| C40 | `Oelint.C40_seen_again` | propext, Classical.choice, Quot.sound |
| C40 | `Oelint.C40_retry_partial` | propext, Classical.choice, Quot.sound |
| C40 | `Oelint.C40_counterexample` | propext |
| C41 | `Oelint.C41_matching_linked_partial` | propext, Classical.choice, Quot.sound |
| C41 | `Oelint.C41_linked_matching_partial` | propext, Classical.choice, Quot.sound |
| C41 | `Oelint.C41_order_independent_partial` | propext, Classical.choice, Quot.sound |
| C41 | `Oelint.C41_percent_whole` | propext |
| C41 | `Oelint.C41_same_stem` | propext |
| C41 | `Oelint.C41_order_counterexample` | propext |
| C41 | `Oelint.C41_stem_counterexample` | propext |
| C42 | `Oelint.C42_append_after_recipe` | propext, Classical.choice, Quot.sound |
| C42 | `Oelint.C42_recipe_added_later` | propext, Classical.choice, Quot.sound |
| C43 | `Oelint.C43_first_include_partial` | propext, Classical.choice, Quot.sound |
| C43 | `Oelint.C43_first_inherit_partial` | propext, Classical.choice, Quot.sound |
| C43 | `Oelint.C43_two_includes_counterexample` | propext |
| C43 | `Oelint.C43_nested_include_counterexample` | propext |
| C43 | `Oelint.C43_two_classes_counterexample` | propext |
| C44 | `Oelint.C44_finalize_partial` | propext, Classical.choice, Quot.sound |
| C44 | `Oelint.C44_one_pass` | propext, Classical.choice, Quot.sound |
| C44 | `Oelint.C44_counterexample` | propext |
| C45 | `Oelint.C45_included_from` | propext, Classical.choice, Quot.sound |
| C45 | `Oelint.C45_add_file_keeps` | propext, Quot.sound |
| C46 | `Oelint.C46_file_lists` | propext, Classical.choice, Quot.sound |
| C46 | `Oelint.C46_recipes_added` | propext, Classical.choice, Quot.sound |
| C46 | `Oelint.C46_item_flags` | propext, Classical.choice, Quot.sound |
| C47 | `Oelint.C47_add_file_terminates_partial` | propext, Classical.choice, Quot.sound |
| C47 | `Oelint.C47_self_include_counterexample` | propext, Classical.choice, Quot.sound |
| C48 | `Oelint.C48_hashed` | propext, Quot.sound |
| C48 | `Oelint.C48_fingerprint` | propext, Quot.sound |
| C48 | `Oelint.C48_add_file` | propext, Quot.sound |
| C48 | `Oelint.C48_other_calls` | propext, Quot.sound |
| C49 | `Oelint.C49_expansion_terminates` | propext, Classical.choice, Quot.sound |
| C49 | `Oelint.C49_depth` | propext, Classical.choice, Quot.sound |
| C50 | `Oelint.C50_no_reference` | propext, Classical.choice, Quot.sound |
| C50 | `Oelint.C50_unknown_or_spared` | propext, Classical.choice, Quot.sound |
| C50 | `Oelint.C50_among_others` | propext, Classical.choice, Quot.sound |
| C51 | `Oelint.C51_expansion_substitutes` | propext, Classical.choice, Quot.sound |
| C51 | `Oelint.C51_acyclic_definitions` | propext, Classical.choice, Quot.sound |
| C51 | `Oelint.C51_first_assignment` | propext, Classical.choice, Quot.sound |
| C52 | `Oelint.C52_operators_partial` | propext, Classical.choice, Quot.sound |
| C52 | `Oelint.C52_weak_counterexample` | propext |
| C52 | `Oelint.C52_inline_counterexample` | propext |
| C53 | `Oelint.C53_modifiers_partial` | propext, Classical.choice, Quot.sound |
| C53 | `Oelint.C53_whole_items_partial` | propext, Classical.choice, Quot.sound |
| C53 | `Oelint.C53_substring_counterexample` | propext |
| C53 | `Oelint.C53_remove_first_counterexample` | propext |
| C54 | `Oelint.C54_unset_partial` | propext, Classical.choice, Quot.sound |
| C54 | `Oelint.C54_flag_partial` | propext, Classical.choice, Quot.sound |
| C54 | `Oelint.C54_counterexample` | propext |
| C54 | `Oelint.C54_name_counterexample` | propext |
| C55 | `Oelint.C55_other_spelling_partial` | propext, Classical.choice, Quot.sound |
| C55 | `Oelint.C55_counterexample` | propext |
| C56 | `Oelint.C56_name_and_version` | propext, Classical.choice, Quot.sound |
| C56 | `Oelint.C56_no_version` | propext, Quot.sound |
| C56 | `Oelint.C56_more_parts` | propext, Classical.choice, Quot.sound |
| C57 | `Oelint.C57_base_name` | propext, Classical.choice, Quot.sound |
| C57 | `Oelint.C57_one_base_name` | propext, Classical.choice, Quot.sound |
| C57 | `Oelint.C57_all_parts` | propext, Classical.choice, Quot.sound |
| C58 | `Oelint.C58_source_components` | propext, Classical.choice, Quot.sound |
| C58 | `Oelint.C58_raises` | propext, Quot.sound |
| C58 | `Oelint.C58_mirrors_functional` | propext, Classical.choice, Quot.sound |
| C58 | `Oelint.C58_options_read_back_partial` | propext, Classical.choice, Quot.sound |
| C58 | `Oelint.C58_false` | propext, Quot.sound |
| C59 | `Oelint.C59_find_local_or_layer_partial` | propext, Classical.choice, Quot.sound |
| C59 | `Oelint.C59_layer_root_partial` | propext, Classical.choice, Quot.sound |
| C59 | `Oelint.C59_nearest` | propext, Quot.sound |
| C59 | `Oelint.C59_two_slashes_counterexample` | none |
| C59 | `Oelint.C59_own_directory_counterexample` | none |
| C60 | `Oelint.C60_package_names` | propext, Classical.choice, Quot.sound |
| C61 | `Oelint.C61_patterns` | propext, Classical.choice, Quot.sound |
| C61 | `Oelint.C61_raises` | propext, Classical.choice, Quot.sound |
| C61 | `Oelint.C61_answers` | propext, Classical.choice, Quot.sound |
| C61 | `Oelint.C61_dynamic_packages_partial` | propext, Classical.choice, Quot.sound |
| C61 | `Oelint.C61_false` | propext, Classical.choice, Quot.sound |
| C62 | `Oelint.C62_images_and_package_groups` | propext, Classical.choice, Quot.sound |
| C62 | `Oelint.C62_any_collection` | propext, Classical.choice, Quot.sound |
| C63 | `Oelint.C63_timeouts_contained_partial` | none |
| C63 | `Oelint.C63_finditer_raises` | none |
| C64 | `Oelint.C64_attribute_constants_partial` | propext, Classical.choice, Quot.sound |
| C64 | `Oelint.C64_counterexample` | propext, Classical.choice, Quot.sound |
| C64 | `Oelint.C64_missing_file` | propext, Classical.choice, Quot.sound |
| C65 | `Oelint.C65_getVar_partial` | propext, Classical.choice, Quot.sound |
| C65 | `Oelint.C65_false` | propext, Quot.sound |
| C66 | `Oelint.C66_named_resources` | propext, Classical.choice, Quot.sound |
| C66 | `Oelint.C66_raises` | propext, Classical.choice, Quot.sound |
| C67 | `Oelint.C67_flag_assignment_partial` | propext, Classical.choice, Quot.sound |
| C67 | `Oelint.C67_counterexample` | propext, Quot.sound |
| C68 | `Oelint.C68_export_partial` | propext, Classical.choice, Quot.sound |
| C68 | `Oelint.C68_counterexample` | propext, Quot.sound |
| C68 | `Oelint.C68_counterexample_operator` | propext, Quot.sound |
| C69 | `Oelint.C69_python_function_partial` | propext, Classical.choice, Quot.sound |
| C69 | `Oelint.C69_counterexample` | propext, Quot.sound |
| C70 | `Oelint.C70_function_partial` | propext, Classical.choice, Quot.sound |
| C70 | `Oelint.C70_counterexample` | propext, Quot.sound |
| C71 | `Oelint.C71_body_partial` | propext, Classical.choice, Quot.sound |
| C71 | `Oelint.C71_counterexample` | propext, Quot.sound |
| C72 | `Oelint.C72_include_partial` | propext, Classical.choice, Quot.sound |
| C72 | `Oelint.C72_observed_partial` | propext, Classical.choice, Quot.sound |
| C72 | `Oelint.C72_counterexample` | propext, Quot.sound |
| C73 | `Oelint.C73_inherit` | propext, Classical.choice, Quot.sound |
| C74 | `Oelint.C74_names_as_written` | propext, Classical.choice, Quot.sound |
| C75 | `Oelint.C75_addpylib_partial` | propext, Classical.choice, Quot.sound |
| C75 | `Oelint.C75_counterexample` | propext, Quot.sound |
| C76 | `Oelint.C76_statement` | propext, Classical.choice, Quot.sound |
| C76 | `Oelint.C76_recipe` | propext, Classical.choice, Quot.sound |
| C76 | `Oelint.C76_one_line_statements` | propext, Classical.choice, Quot.sound |
| C77 | `Oelint.C77_read` | propext, Classical.choice, Quot.sound |
| C77 | `Oelint.C77_add` | propext, Classical.choice, Quot.sound |
| C77 | `Oelint.C77_remove` | propext, Classical.choice, Quot.sound |
| C77 | `Oelint.C77_override` | propext, Classical.choice, Quot.sound |
| C78 | `Oelint.C78_layer` | propext, Classical.choice, Quot.sound |
| C78 | `Oelint.C78_no_layer` | propext |
| C78 | `Oelint.C78_add_file` | propext, Classical.choice, Quot.sound |
| C78 | `Oelint.C78_add_file_keeps` | propext, Classical.choice, Quot.sound |
| C78 | `Oelint.C78_recognised` | propext, Classical.choice, Quot.sound |
| C79 | `Oelint.C79_query_returns_every_item` | propext, Classical.choice, Quot.sound |
| C79 | `Oelint.C79_add_file_adds` | propext, Classical.choice, Quot.sound |
| C79 | `Oelint.C79_failing_add_file_keeps` | propext, Classical.choice, Quot.sound |
| C79 | `Oelint.C79_remove_takes_out` | propext, Classical.choice, Quot.sound |
| C80 | `Oelint.C80_only_several_lines_partial` | propext, Classical.choice, Quot.sound |
| C80 | `Oelint.C80_several_lines_partial` | propext, Classical.choice, Quot.sound |
| C80 | `Oelint.C80_counterexample_blank` | propext, Classical.choice, Quot.sound |
| C80 | `Oelint.C80_counterexample_escape` | propext, Classical.choice, Quot.sound |
| C80 | `Oelint.C80_counterexample_inline` | propext, Classical.choice, Quot.sound |
| C81 | `Oelint.C81_links` | propext, Classical.choice, Quot.sound |
| C81 | `Oelint.C81_count` | propext, Classical.choice, Quot.sound |
| C81 | `Oelint.C81_counterexample` | propext |
| C82 | `Oelint.C82_files` | propext, Classical.choice, Quot.sound |
| C83 | `Oelint.C83_no_placeholder` | propext, Classical.choice, Quot.sound |
| C83 | `Oelint.C83_own_value_partial` | propext, Classical.choice, Quot.sound |
| C83 | `Oelint.C83_counterexample` | propext, Classical.choice, Quot.sound |
| C84 | `Oelint.C84_load` | propext, Classical.choice, Quot.sound |
| C84 | `Oelint.C84_newlines` | propext, Classical.choice, Quot.sound |
| C84 | `Oelint.C84_fallback` | propext, Classical.choice, Quot.sound |
| C84 | `Oelint.C84_constructor` | propext, Classical.choice, Quot.sound |
| C85 | `Oelint.C85_loaded` | propext, Classical.choice, Quot.sound |
| C85 | `Oelint.C85_usable` | propext, Classical.choice, Quot.sound |
| C85 | `Oelint.C85_documented_types_partial` | propext, Classical.choice, Quot.sound |
| C85 | `Oelint.C85_kept_partial` | propext, Classical.choice, Quot.sound |
| C85 | `Oelint.C85_counterexample` | propext, Classical.choice, Quot.sound |
| C86 | `Oelint.C86_base_set_expands` | propext, Classical.choice, Quot.sound |
| C86 | `Oelint.C86_standard_names` | propext, Classical.choice, Quot.sound |
| C86 | `Oelint.C86_images` | propext, Classical.choice, Quot.sound |
| C87 | `Oelint.C87_not_read_partial` | propext, Quot.sound |
| C87 | `Oelint.C87_forgotten_partial` | propext, Quot.sound |
| C87 | `Oelint.C87_counterexample` | propext |
| C88 | `Oelint.C88_line_ends` | propext, Quot.sound |
| C89 | `Oelint.C89_no_inline` | propext, Classical.choice, Quot.sound |
| C89 | `Oelint.C89_statements` | propext, Classical.choice, Quot.sound |
| C90 | `Oelint.C90_known_names` | propext, Classical.choice, Quot.sound |
| C90 | `Oelint.C90_other_stash` | propext, Classical.choice, Quot.sound |
| C91 | `Oelint.C91_sorted` | propext, Classical.choice, Quot.sound |
| C91 | `Oelint.C91_questions_partial` | propext, Classical.choice, Quot.sound |
| C91 | `Oelint.C91_dynamic_partial` | propext, Classical.choice, Quot.sound |
| C91 | `Oelint.C91_same_members` | propext, Quot.sound |
| C91 | `Oelint.C91_add_file_partial` | propext, Classical.choice, Quot.sound |
| C91 | `Oelint.C91_fingerprint_partial` | propext, Classical.choice, Quot.sound |
| C91 | `Oelint.C91_references_partial` | propext, Classical.choice, Quot.sound |
| C91 | `Oelint.C91_references_fingerprint_partial` | propext, Classical.choice, Quot.sound |
| C91 | `Oelint.C91_finalize` | propext, Classical.choice, Quot.sound |
| C91 | `Oelint.C91_counterexample` | propext |
| C91 | `Oelint.C91_fingerprint_counterexample` | propext |
| C91 | `Oelint.C91_references_counterexample` | propext |
| C92 | `Oelint.C92_items_partial` | propext, Classical.choice, Quot.sound |
| C92 | `Oelint.C92_plain_partial` | propext, Classical.choice, Quot.sound |
| C92 | `Oelint.C92_counterexample` | propext |
| C92 | `Oelint.C92_reference_counterexample` | propext |
| C93 | `Oelint.C93_attributes` | propext, Classical.choice, Quot.sound |
| C93 | `Oelint.C93_one_object` | propext, Quot.sound |
| C93 | `Oelint.C93_seen_partial` | propext, Classical.choice, Quot.sound |
| C93 | `Oelint.C93_after_update` | propext, Classical.choice, Quot.sound |
| C93 | `Oelint.C93_counterexample` | propext, Quot.sound |
| C93 | `Oelint.C93_surprises` | propext |
| C94 | `Oelint.C94_paths` | propext, Classical.choice, Quot.sound |
| C94 | `Oelint.C94_extension` | propext, Classical.choice, Quot.sound |
| C94 | `Oelint.C94_same_file` | propext, Classical.choice, Quot.sound |
| C94 | `Oelint.C94_elsewhere_partial` | propext, Classical.choice, Quot.sound |
| C94 | `Oelint.C94_nothing_relative_partial` | propext, Classical.choice, Quot.sound |
| C94 | `Oelint.C94_files` | propext, Classical.choice, Quot.sound |
| C94 | `Oelint.C94_counterexample` | propext |
| C95 | `Oelint.C95_not_needed` | propext, Classical.choice, Quot.sound |
| C96 | `Oelint.C96_item` | propext, Classical.choice, Quot.sound |
| C96 | `Oelint.C96_fingerprint` | propext, Classical.choice, Quot.sound |
| C97 | `Oelint.C97_lines` | propext, Classical.choice, Quot.sound |
| C97 | `Oelint.C97_loads_nothing` | propext, Classical.choice, Quot.sound |
| C98 | `Oelint.C98_values` | propext, Classical.choice, Quot.sound |
| C98 | `Oelint.C98_without_file` | propext, Classical.choice, Quot.sound |
| C98 | `Oelint.C98_one_text` | propext, Quot.sound |
| C99 | `Oelint.C99_quiet` | propext, Quot.sound |
| C99 | `Oelint.C99_add_file` | propext, Classical.choice, Quot.sound |
| C99 | `Oelint.C99_other_calls` | propext, Quot.sound |
| C99 | `Oelint.C99_once` | propext, Classical.choice, Quot.sound |
| C99 | `Oelint.C99_origins` | propext, Classical.choice, Quot.sound |
| C99 | `Oelint.C99_same` | propext, Quot.sound |
| C100 | `Oelint.C100_independent_partial` | propext, Classical.choice, Quot.sound |
| C100 | `Oelint.C100_next_reply_partial` | propext, Classical.choice, Quot.sound |
| C100 | `Oelint.C100_shared_constants` | propext, Classical.choice, Quot.sound |
| C100 | `Oelint.C100_false` | propext, Quot.sound |
| C101 | `Oelint.C101_loaded` | propext |
| C101 | `Oelint.C101_current_partial` | propext, Classical.choice, Quot.sound |
| C101 | `Oelint.C101_addFile_partial` | propext, Classical.choice, Quot.sound |
| C101 | `Oelint.C101_reloaded_partial` | propext, Classical.choice, Quot.sound |
| C101 | `Oelint.C101_edited` | propext, Quot.sound |
| C101 | `Oelint.C101_false` | propext |
| C102 | `Oelint.C102_edit` | propext, Classical.choice, Quot.sound |
| C102 | `Oelint.C102_fix` | propext, Classical.choice, Quot.sound |
| C103 | `Oelint.C103_match` | propext, Classical.choice, Quot.sound |
| C103 | `Oelint.C103_search` | propext, Classical.choice, Quot.sound |
| C103 | `Oelint.C103_kind` | propext, Classical.choice, Quot.sound |
| C103 | `Oelint.C103_same_text` | propext, Classical.choice, Quot.sound |
| C103 | `Oelint.C103_shipped` | propext, Classical.choice, Quot.sound |
| C104 | `Oelint.C104_order_partial` | propext, Classical.choice, Quot.sound |
| C104 | `Oelint.C104_plain_partial` | propext, Classical.choice, Quot.sound |
| C104 | `Oelint.C104_counterexample` | propext |
| C105 | `Oelint.C105_undisturbed_partial` | propext, Classical.choice, Quot.sound |
| C105 | `Oelint.C105_files_partial` | propext, Classical.choice, Quot.sound |
| C105 | `Oelint.C105_shared_include_counterexample` | propext |
| C105 | `Oelint.C105_shared_append_counterexample` | propext |
| C106 | `Oelint.C106_nothing_left_partial` | propext, Classical.choice, Quot.sound |
| C106 | `Oelint.C106_settled_partial` | propext, Classical.choice, Quot.sound |
| C106 | `Oelint.C106_stray_dollar_counterexample` | propext |
| C106 | `Oelint.C106_left_counterexample` | propext, Quot.sound |
| C107 | `Oelint.C107_order_only` | propext, Classical.choice, Quot.sound |
| C107 | `Oelint.C107_edit_partial` | propext, Classical.choice, Quot.sound |
| C107 | `Oelint.C107_comments_partial` | propext, Classical.choice, Quot.sound |
| C107 | `Oelint.C107_includes_negation` | propext, Quot.sound |
| C108 | `Oelint.C108_negation` | propext, Classical.choice, Quot.sound |
| C108 | `Oelint.C108_remove_takes_more` | propext |
| C108 | `Oelint.C108_last_call_partial` | propext, Classical.choice, Quot.sound |
| C108 | `Oelint.C108_add_order_partial` | propext, Classical.choice, Quot.sound |
| C109 | `Oelint.C109_piecewise_partial` | propext, Classical.choice, Quot.sound |
| C109 | `Oelint.C109_negation` | propext |
| C110 | `Oelint.C110_only_referred` | propext, Classical.choice, Quot.sound |
| C110 | `Oelint.C110_whatever_else` | propext, Classical.choice, Quot.sound |
| C110 | `Oelint.C110_edit` | propext, Classical.choice, Quot.sound |
| C111 | `Oelint.C111_own_statements` | propext, Classical.choice, Quot.sound |
| C111 | `Oelint.C111_edit` | propext, Classical.choice, Quot.sound |
| C112 | `Oelint.C112_assignment_partial` | propext, Classical.choice, Quot.sound |
| C112 | `Oelint.C112_as_on_one_line_partial` | propext, Classical.choice, Quot.sound |
| C112 | `Oelint.C112_inherit_partial` | propext, Classical.choice, Quot.sound |
| C112 | `Oelint.C112_negation` | propext, Quot.sound |
| C112 | `Oelint.C112_negation_word` | propext, Quot.sound |
| C113 | `Oelint.C113_same_variable` | propext, Classical.choice, Quot.sound |
| C113 | `Oelint.C113_expandTerm` | propext, Classical.choice, Quot.sound |
| C113 | `Oelint.C113_expandVar` | propext, Classical.choice, Quot.sound |
| C113 | `Oelint.C113_file` | propext, Classical.choice, Quot.sound |
| C114 | `Oelint.C114_same_text_partial` | propext, Classical.choice, Quot.sound |
| C114 | `Oelint.C114_one_assignment_partial` | propext, Classical.choice, Quot.sound |
| C114 | `Oelint.C114_base_set_partial` | propext, Classical.choice, Quot.sound |
| C114 | `Oelint.C114_negation` | propext |
| C115 | `Oelint.C115_operators` | propext, Classical.choice, Quot.sound |
| C115 | `Oelint.C115_modifiers` | propext, Classical.choice, Quot.sound |
| C116 | `Oelint.C116_recipe` | propext, Classical.choice, Quot.sound |
| C116 | `Oelint.C116_one_line_entries` | propext, Classical.choice, Quot.sound |
| C117 | `Oelint.C117_references` | propext, Classical.choice, Quot.sound |
| C117 | `Oelint.C117_unique` | propext, Classical.choice, Quot.sound |
| C117 | `Oelint.C117_values` | propext, Classical.choice, Quot.sound |
| C118 | `Oelint.C118_values` | propext, Classical.choice, Quot.sound |
| C118 | `Oelint.C118_references` | propext, Classical.choice, Quot.sound |
| C118 | `Oelint.C118_order` | propext, Classical.choice, Quot.sound |
| C119 | `Oelint.C119_values` | propext, Classical.choice, Quot.sound |
| C119 | `Oelint.C119_references` | propext, Classical.choice, Quot.sound |
| C119 | `Oelint.C119_in_place` | propext, Classical.choice, Quot.sound |
| C120 | `Oelint.C120_values` | propext, Classical.choice, Quot.sound |
| C120 | `Oelint.C120_references` | propext, Classical.choice, Quot.sound |
| C120 | `Oelint.C120_in_place` | propext, Classical.choice, Quot.sound |
| C121 | `Oelint.C121_packages` | propext, Classical.choice, Quot.sound |
| C121 | `Oelint.C121_dynamic` | propext, Classical.choice, Quot.sound |
| C121 | `Oelint.C121_inherited` | propext, Classical.choice, Quot.sound |
| C121 | `Oelint.C121_included` | propext, Classical.choice, Quot.sound |
| C121 | `Oelint.C121_appended` | propext, Classical.choice, Quot.sound |
| C121 | `Oelint.C121_dynamic_inherited` | propext, Classical.choice, Quot.sound |
| C121 | `Oelint.C121_dynamic_included` | propext, Classical.choice, Quot.sound |
| C121 | `Oelint.C121_dynamic_appended` | propext, Classical.choice, Quot.sound |
| C122 | `Oelint.C122_plain` | propext, Classical.choice, Quot.sound |
| C122 | `Oelint.C122_inherited` | propext, Classical.choice, Quot.sound |
| C122 | `Oelint.C122_included` | propext, Classical.choice, Quot.sound |
| C122 | `Oelint.C122_appended` | propext, Classical.choice, Quot.sound |
| C123 | `Oelint.C123_sources` | propext, Classical.choice, Quot.sound |
| C123 | `Oelint.C123_inherited` | propext, Classical.choice, Quot.sound |
| C123 | `Oelint.C123_included` | propext, Classical.choice, Quot.sound |
| C123 | `Oelint.C123_appended` | propext, Classical.choice, Quot.sound |
| C124 | `Oelint.C124_terms` | propext, Classical.choice, Quot.sound |
| C124 | `Oelint.C124_values` | propext, Classical.choice, Quot.sound |
| C124 | `Oelint.C124_packages` | propext, Classical.choice, Quot.sound |
| C124 | `Oelint.C124_dynamic` | propext, Classical.choice, Quot.sound |
| C124 | `Oelint.C124_session` | propext, Classical.choice, Quot.sound |
| C124 | `Oelint.C124_unusable` | propext, Quot.sound |
| C125 | `Oelint.C125_values_partial` | propext, Classical.choice, Quot.sound |
| C125 | `Oelint.C125_references_partial` | propext, Classical.choice, Quot.sound |
| C125 | `Oelint.C125_inherit_values_partial` | propext, Classical.choice, Quot.sound |
| C125 | `Oelint.C125_inherit_references_partial` | propext, Classical.choice, Quot.sound |
| C125 | `Oelint.C125_include_at_end_counterexample` | propext |
| C125 | `Oelint.C125_inherit_at_end_counterexample` | propext |
