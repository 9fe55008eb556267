# Axioms of the property theorems

From `#print axioms`; all names are in `Verif.Props`.

## none

`C24_plain_import`, `C34_caches`, `C47_last_wins`

## propext

`C04_hook_called_twice`, `C05_swig_not_processed`, `C08_script_relative_import_accepted`, `C08_script_in_graph`, `C12_excluded_but_loaded`, `C15_not_implied`, `C18_implied_missing`, `C19_half_done`, `C20_registration`, `C20_hook_asked_twice`, `C23_is_optional_is_global`, `C29_unreadable_hides`, `C32_dangling_link`, `C34_restored`, `C35_no_such_path`, `C35_directory_like_module`, `C37_equal_code_objects`, `C38_class_names_read`, `C38_closure_names_read`, `C41_submodule`, `C41_sibling`, `C41_cycle`, `C41_alias`, `C43_namespace`, `C43_extension`, `C44_drained`, `C44_distribution_drained_partial`, `C44_distribution_not_drained`, `C50_other_name`, `C52_other_name`, `C55_relative_ignored`, `C55_attributes_are_roots`, `C56_invalid_becomes_root`, `C57_mypyc_root`, `C59_orphan`, `C60_fake_left`, `C62_reexport_order`, `C62_behind_order`, `C62_choice_order`, `C62_link_order`, `C62_global_order`, `C63_turtledemo`, `C63_turtledemo_import`, `C63_excluded`, `C63_names`, `C63_script_twice`, `C64_class_global`, `C63_turtledemo`, `C70_unreadable`, `C76_other_spelling`, `C77_not_ascii`, `C82_foreign`, `C82_foreign_hook`, `C84_lookups`, `C84_unreadable_hides`

## propext, Quot.sound

`C01_unique_ids`, `C01_unique_ids_op`, `C02_no_dangling`, `C03_grows_op`, `C03_grows_run`, `C08_relative_package`, `C08_components_exist`, `C08_one_dot_module`, `C08_one_dot_package`, `C13_missing_step`, `C17_known`, `C17_unreadable`, `C17_added`, `C19_again`, `C19_named`, `C19_unknown`, `C20_missing`, `C20_post`, `C21_first_say`, `C22_ast_scan_exactly_once`, `C22_count`, `C23_counterexample_trystar`, `C24_record_names_partial`, `C24_counterexample_two_asnames`, `C26_roundtrip`, `C26_files`, `C28_retry`, `C29_first_match_partial`, `C29_until`, `C29_error`, `C30_distributions`, `C30_exact`, `C34_command_line`, `C35_first_subdirectory_only`, `C36_moved`, `C36_invalid_package`, `C37_class_marked_as_function`, `C37_function_missed`, `C37_long_name_fails`, `C37_looks_back`, `C44_not_lost`, `C45_declines`, `C46_other`, `C46_no_source`, `C46_adds`, `C47_accepted`, `C48_rest_processed`, `C55_unparsable`, `C55_text_unparsable`, `C60_kept`, `C60_only_fakes`, `C65_entries`, `C70_injection`, `C72_masked`, `C72_asserts`, `C72_interrupted`, `C74_fares`, `C74_served`, `C78_no_code`, `C78_class_body`, `C82_bad_code`, `C83_unlabelled`, `C84_until`, `C84_all_partial`, `C84_body`

## propext, Classical.choice, Quot.sound

`C04_one_round`, `C04_hooks_once_partial`, `C05_called_or_queued`, `C05_only_scheduled`, `C05_exactly_once`, `C05_every_node_partial`, `C06_imports_first`, `C07_completed`, `C07_every_import_has_edge`, `C07_target`, `C07_scanned_module`, `C07_scanned_script`, `C09_invalid_relative`, `C10_linked_to_package`, `C10_well_formed_names`, `C11_excluded_stays`, `C11_excluded_observable`, `C12_excluded_partial`, `C13_excluded_step`, `C13_excluded`, `C13_missing`, `C14_configured`, `C14_target_linked`, `C15_implied_partial`, `C16_result`, `C16_again`, `C18_missing_partial`, `C19_linked`, `C19_all_linked`, `C20_missing_log`, `C21_all_asked`, `C22_occurrences_are_nested`, `C23_ast_flags_partial`, `C25_split_package_ok`, `C25_split_package_error`, `C25_error_is_value_error`, `C25_accepted_iff`, `C25_reassemble`, `C27_names`, `C28_one_object`, `C31_report`, `C32_sections`, `C32_links`, `C32_links_partial`, `C33_statements`, `C33_clusters`, `C35_flagged`, `C35_directory_partial`, `C35_zip`, `C35_graph_flagged`, `C35_graph_directory_partial`, `C35_graph_zip`, `C35_graph_no_file`, `C36_class_partial`, `C36_invalid`, `C36_imports`, `C36_globals`, `C36_kinds`, `C36_makes_modules`, `C37_terminates`, `C37_records_partial`, `C37_index_unique`, `C38_written_partial`, `C38_read_partial`, `C39_explained`, `C40_package`, `C40_module`, `C40_queued`, `C40_run_package`, `C41_star_partial`, `C41_chain_partial`, `C41_depth_first`, `C41_loaded_chain_partial`, `C42_terminates`, `C42_outcome`, `C43_call_partial`, `C43_tree_partial`, `C45_supplies`, `C47_meaning`, `C47_roots`, `C47_excluded_partial`, `C47_order_partial`, `C48_after_failures`, `C48_next_call`, `C49_import_module`, `C50_namespace_partial`, `C51_stdlib_names`, `C52_main_partial`, `C53_package`, `C53_module`, `C53_package_in_graph`, `C53_module_in_graph`, `C54_written`, `C54_usage`, `C54_not_built`, `C54_unwritable`, `C54_status`, `C55_roots`, `C55_source_partial`, `C55_text_partial`, `C56_add_module`, `C56_import_module`, `C56_below_invalid`, `C57_roots_asked`, `C57_one_operation`, `C58_module`, `C58_script`, `C59_reachable`, `C59_all_listed`, `C60_lost`, `C60_swig_lost`, `C61_nothing_else`, `C61_exact`, `C61_built`, `C62_order_partial`, `C63_no_failure`, `C63_returns`, `C63_total`, `C63_finite`, `C63_in_worlds`, `C64_stored_partial`, `C65_table_partial`, `C66_installed`, `C66_project`, `C67_command`, `C67_distributions`, `C68_read`, `C68_export`, `C68_written`, `C68_injection`, `C68_unreadable`, `C69_picture`, `C69_command`, `C70_read`, `C70_export`, `C70_written`, `C71_page`, `C71_command`, `C72_found`, `C72_missing`, `C73_passed_on`, `C74_total`, `C74_unknown`, `C74_collections_abc`, `C74_alias`, `C75_shown`, `C75_graph`, `C75_command`, `C76_means`, `C76_normpath`, `C76_text`, `C76_same`, `C76_file`, `C76_files`, `C76_plain`, `C76_normal_only`, `C76_relative`, `C77_fields`, `C77_all`, `C77_value`, `C77_distribution`, `C78_uses_partial`, `C78_sound`, `C79_import_module`, `C79_add_module`, `C79_import_package`, `C80_picture`, `C80_page`, `C80_command_dot`, `C80_command_html`, `C81_told`, `C81_in_graph`, `C82_exceptions`, `C82_no_lookup_error`, `C82_result`, `C82_node_for_spec`, `C82_together`, `C83_exceptions`, `C83_lookup_partial`, `C84_objects`, `C85_exceptions_partial`, `C85_unknown_distribution`
