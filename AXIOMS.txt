'Idm.C01_escape_value_lossless' depends on axioms: [propext, Classical.choice, Quot.sound]
'Idm.C01_name_lossless_partial' depends on axioms: [propext, Classical.choice, Quot.sound]
'Idm.C01_trailing_blank_fails' depends on axioms: [propext]
'Idm.C01_name_exact' depends on axioms: [propext, Classical.choice, Quot.sound]
'Idm.C02_normalize_idempotent_partial' depends on axioms: [propext, Classical.choice, Quot.sound]
'Idm.C02_trailing_blank_fails' depends on axioms: [propext]
'Idm.C02_escaped_type_fails' depends on axioms: [propext]
'Idm.C02_normalize_exact' depends on axioms: [propext, Classical.choice, Quot.sound]
'Idm.C03_normal_form_iff_same_name_partial' depends on axioms: [propext, Classical.choice, Quot.sound]
'Idm.C03_collision' depends on axioms: [propext]
'Idm.C04_escaped_type_fails' depends on axioms: [propext, Quot.sound]
'Idm.C04_store_is_a_map' depends on axioms: [propext, Classical.choice, Quot.sound]
'Idm.rfc4514_nameOk' does not depend on any axioms
'Idm.C05_search_exact' depends on axioms: [propext, Classical.choice, Quot.sound]
'Idm.C06_parents_first' depends on axioms: [propext, Classical.choice, Quot.sound]
'Idm.C07_search_terminates' depends on axioms: [propext, Classical.choice, Quot.sound]
'Idm.C07_no_cycle' depends on axioms: [propext, Classical.choice, Quot.sound]
'Idm.C08_refused_changes_nothing' depends on axioms: [propext]
'Idm.C09_before_or_after' depends on axioms: [propext, Quot.sound]
'Idm.C09_crash_keeps_answered' depends on axioms: [propext, Quot.sound]
'Idm.C09_packet_steps' depends on axioms: [propext, Quot.sound]
'Idm.C10_parent_exists' depends on axioms: [propext, Classical.choice, Quot.sound]
'Idm.C10_nonleaf_kept' depends on axioms: [propext, Classical.choice, Quot.sound]
'Idm.C100_loads_partial' depends on axioms: [propext, Classical.choice, Quot.sound]
'Idm.C100_search_partial' depends on axioms: [propext, Classical.choice, Quot.sound]
'Idm.C100_bind_partial' depends on axioms: [propext, Classical.choice, Quot.sound]
'Idm.C100_spelling_fails' depends on axioms: [propext]
'Idm.C100_bind_exact_partial' depends on axioms: [propext, Classical.choice, Quot.sound]
'Idm.C100_search_first_partial' depends on axioms: [propext, Classical.choice, Quot.sound]
'Idm.C101_serves_partial' depends on axioms: [propext, Classical.choice, Quot.sound]
'Idm.C101_search_partial' depends on axioms: [propext, Classical.choice, Quot.sound]
'Idm.C101_bind_partial' depends on axioms: [propext, Classical.choice, Quot.sound]
'Idm.C101_starts' depends on axioms: [propext, Classical.choice, Quot.sound]
'Idm.C101_bad' depends on axioms: [propext, Classical.choice, Quot.sound]
'Idm.C101_one_latest' depends on axioms: [propext, Classical.choice, Quot.sound]
'Idm.C102_db_cut' depends on axioms: [propext, Quot.sound]
'Idm.C102_one_answer' depends on axioms: [propext, Quot.sound]
'Idm.C102_ldif_cut' depends on axioms: [propext, Classical.choice, Quot.sound]
'Idm.C102_ldif_one_answer' depends on axioms: [propext, Quot.sound]
'Idm.C103_close_all' depends on axioms: [propext]
'Idm.C103_close_once' depends on axioms: [propext, Classical.choice, Quot.sound]
'Idm.C104_same_for_all_partial' depends on axioms: [propext, Quot.sound]
'Idm.C104_anonymous_fails' depends on axioms: [propext]
'Idm.C104_password_fails' depends on axioms: [propext]
'Idm.C105_template' depends on axioms: [propext, Classical.choice, Quot.sound]
'Idm.C105_exact' depends on axioms: [propext, Classical.choice, Quot.sound]
'Idm.C105_confined' depends on axioms: [propext, Quot.sound]
'Idm.C105_becomes' depends on axioms: [propext, Classical.choice, Quot.sound]
'Idm.C105_fails' depends on axioms: [propext, Classical.choice, Quot.sound]
'Idm.C105_outside' depends on axioms: [propext, Classical.choice, Quot.sound]
'Idm.C105_variables' depends on axioms: [propext, Classical.choice, Quot.sound]
'Idm.C106_new_partial' depends on axioms: [propext, Classical.choice, Quot.sound]
'Idm.C106_life_partial' depends on axioms: [propext, Classical.choice, Quot.sound]
'Idm.C106_record_partial' depends on axioms: [propext, Classical.choice, Quot.sound]
'Idm.C106_login_partial' depends on axioms: [propext, Classical.choice, Quot.sound]
'Idm.C107_search_partial' depends on axioms: [propext, Classical.choice, Quot.sound]
'Idm.C107_record_partial' depends on axioms: [propext, Classical.choice, Quot.sound]
'Idm.C107_bind_partial' depends on axioms: [propext, Classical.choice, Quot.sound]
'Idm.C107_one_counts' depends on axioms: [propext, Classical.choice, Quot.sound]
'Idm.C107_pages_partial' depends on axioms: [propext, Classical.choice, Quot.sound]
'Idm.C108_unfilled_fails' depends on axioms: [propext, Classical.choice, Quot.sound]
'Idm.C108_filled_partial' depends on axioms: [propext, Classical.choice, Quot.sound]
'Idm.C108_login_partial' depends on axioms: [propext, Classical.choice, Quot.sound]
'Idm.C109_served_partial' depends on axioms: [propext, Classical.choice, Quot.sound]
'Idm.C109_search_partial' depends on axioms: [propext, Classical.choice, Quot.sound]
'Idm.C109_bind_partial' depends on axioms: [propext, Classical.choice, Quot.sound]
'Idm.C109_spelling_fails' depends on axioms: [propext, Classical.choice, Quot.sound]
'Idm.C109_action_fails' depends on axioms: [propext, Quot.sound]
'Idm.C109_password_fails' depends on axioms: [propext, Classical.choice, Quot.sound]
'Idm.C11_names_unique' depends on axioms: [propext, Classical.choice, Quot.sound]
'Idm.C110_alone' depends on axioms: [propext, Classical.choice, Quot.sound]
'Idm.C110_mixes' depends on axioms: [propext, Classical.choice, Quot.sound]
'Idm.C110_related_fails' depends on axioms: [propext, Quot.sound]
'Idm.C111_never_adds' depends on axioms: [propext, Classical.choice, Quot.sound]
'Idm.C111_same_partial' depends on axioms: [propext, Classical.choice, Quot.sound]
'Idm.C111_configured' depends on axioms: [propext, Quot.sound]
'Idm.C111_loses_fails' depends on axioms: [propext]
'Idm.C112_repeat_partial' depends on axioms: [propext, Classical.choice, Quot.sound]
'Idm.C112_wire_partial' depends on axioms: [propext, Classical.choice, Quot.sound]
'Idm.C112_values' depends on axioms: [propext, Classical.choice, Quot.sound]
'Idm.C112_order_fails' depends on axioms: [propext]
'Idm.C113_spelling_partial' depends on axioms: [propext, Classical.choice, Quot.sound]
'Idm.C113_sharp_fails' depends on axioms: [propext, Classical.choice, Quot.sound]
'Idm.C114_add_delete' depends on axioms: [propext, Classical.choice, Quot.sound]
'Idm.C114_delete_add' depends on axioms: [propext, Classical.choice, Quot.sound]
'Idm.C114_add_values' depends on axioms: [propext, Classical.choice, Quot.sound]
'Idm.C114_replace_values' depends on axioms: [propext, Classical.choice, Quot.sound]
'Idm.C114_rename_partial' depends on axioms: [propext, Classical.choice, Quot.sound]
'Idm.C114_rename_fails' depends on axioms: [propext, Quot.sound]
'Idm.C114_present_fails' depends on axioms: [propext, Quot.sound]
'Idm.C115_filters_partial' depends on axioms: [propext, Classical.choice, Quot.sound]
'Idm.C115_walk_partial' depends on axioms: [propext, Classical.choice, Quot.sound]
'Idm.C115_attributes_partial' depends on axioms: [propext, Classical.choice, Quot.sound]
'Idm.C115_again_partial' depends on axioms: [propext, Classical.choice, Quot.sound]
'Idm.C115_ldif_filters_partial' depends on axioms: [propext, Classical.choice, Quot.sound]
'Idm.C115_ldif_again_partial' depends on axioms: [propext, Classical.choice, Quot.sound]
'Idm.C115_ldif_or_fails' depends on axioms: [propext]
'Idm.C115_ldif_and_fails' depends on axioms: [propext]
'Idm.C116_adds' depends on axioms: [propext, Classical.choice, Quot.sound]
'Idm.C116_only' depends on axioms: [propext, Classical.choice, Quot.sound]
'Idm.C116_load' depends on axioms: [propext, Classical.choice, Quot.sound]
'Idm.C116_ldif_loads' depends on axioms: [propext, Quot.sound]
'Idm.C116_ldif_search' depends on axioms: [propext, Classical.choice, Quot.sound]
'Idm.C116_ldif_bind' depends on axioms: [propext, Classical.choice, Quot.sound]
'Idm.C117_codes' depends on axioms: [propext, Classical.choice, Quot.sound]
'Idm.C117_bolt_partial' depends on axioms: [propext, Classical.choice, Quot.sound]
'Idm.C117_ldif_partial' depends on axioms: [propext, Classical.choice, Quot.sound]
'Idm.C117_config_partial' depends on axioms: [propext, Classical.choice, Quot.sound]
'Idm.C117_no_password_fails' depends on axioms: [propext, Classical.choice, Quot.sound]
'Idm.C117_ldif_fails' depends on axioms: [propext, Quot.sound]
'Idm.C117_config_fails' depends on axioms: [propext, Quot.sound]
'Idm.C118_packet' depends on axioms: [propext, Quot.sound]
'Idm.C118_session_partial' depends on axioms: [propext, Classical.choice, Quot.sound]
'Idm.C118_config_partial' depends on axioms: [propext, Classical.choice, Quot.sound]
'Idm.C119_write' depends on axioms: [propext, Quot.sound]
'Idm.C119_anonymous' depends on axioms: [propext, Quot.sound]
'Idm.C119_user' depends on axioms: [propext, Classical.choice, Quot.sound]
'Idm.C12_below_base_partial' depends on axioms: [propext, Classical.choice, Quot.sound]
'Idm.C12_below_base_fails' depends on axioms: [propext, Quot.sound]
'Idm.C120_loads' depends on axioms: [propext, Classical.choice, Quot.sound]
'Idm.C120_search' depends on axioms: [propext, Classical.choice, Quot.sound]
'Idm.C120_bind' depends on axioms: [propext, Classical.choice, Quot.sound]
'Idm.C120_load' depends on axioms: [propext, Classical.choice, Quot.sound]
'Idm.C121_search' depends on axioms: [propext, Classical.choice, Quot.sound]
'Idm.C121_bind' depends on axioms: [propext, Classical.choice, Quot.sound]
'Idm.C122_search' depends on axioms: [propext, Classical.choice, Quot.sound]
'Idm.C122_bind' depends on axioms: [propext, Classical.choice, Quot.sound]
'Idm.C123_search' depends on axioms: [propext, Classical.choice, Quot.sound]
'Idm.C123_ldif_search' depends on axioms: [propext, Classical.choice, Quot.sound]
'Idm.C124_packet' depends on axioms: [propext]
'Idm.C124_session' depends on axioms: [propext, Quot.sound]
'Idm.C125_types_fails' depends on axioms: [propext]
'Idm.C125_critical_fails' depends on axioms: [propext]
'Idm.C125_ignored_partial' depends on axioms: [propext, Quot.sound]
'Idm.C125_ldif_ignored_partial' depends on axioms: [propext, Quot.sound]
'Idm.C126_kept_partial' depends on axioms: [propext, Classical.choice, Quot.sound]
'Idm.C126_ldif_kept_partial' depends on axioms: [propext, Classical.choice, Quot.sound]
'Idm.C126_abandon_fails' depends on axioms: [propext]
'Idm.C126_compare_fails' depends on axioms: [propext]
'Idm.C126_bind_fails' depends on axioms: [propext, Quot.sound]
'Idm.C127_refused_partial' depends on axioms: [propext, Classical.choice, Quot.sound]
'Idm.C127_code_fails' depends on axioms: [propext, Classical.choice, Quot.sound]
'Idm.C127_change_fails' depends on axioms: [propext]
'Idm.C128_given' depends on axioms: [propext, Classical.choice, Quot.sound]
'Idm.C129_stays_partial' depends on axioms: [propext, Classical.choice, Quot.sound]
'Idm.C129_spelling_fails' depends on axioms: [propext, Quot.sound]
'Idm.C13_rename_partial' depends on axioms: [propext, Classical.choice, Quot.sound]
'Idm.C13_repeated_type_fails' depends on axioms: [propext, Quot.sound]
'Idm.C130_exists' depends on axioms: [propext, Classical.choice, Quot.sound]
'Idm.C130_count' depends on axioms: [propext, Classical.choice, Quot.sound]
'Idm.C131_sent' depends on axioms: [propext, Classical.choice, Quot.sound]
'Idm.C131_admin' depends on axioms: [propext, Classical.choice, Quot.sound]
'Idm.C132_added_partial' depends on axioms: [propext, Classical.choice, Quot.sound]
'Idm.C132_modified_partial' depends on axioms: [propext, Classical.choice, Quot.sound]
'Idm.C132_kept_partial' depends on axioms: [propext, Classical.choice, Quot.sound]
'Idm.C132_renamed_partial' depends on axioms: [propext, Classical.choice, Quot.sound]
'Idm.C132_moved_partial' depends on axioms: [propext, Classical.choice, Quot.sound]
'Idm.C132_modified_moved_partial' depends on axioms: [propext, Classical.choice, Quot.sound]
'Idm.C133_gone_partial' depends on axioms: [propext, Classical.choice, Quot.sound]
'Idm.C133_two_deletes_fails' depends on axioms: [propext]
'Idm.C133_moved_partial' depends on axioms: [propext, Classical.choice, Quot.sound]
'Idm.C134_fresh_partial' depends on axioms: [propext, Classical.choice, Quot.sound]
'Idm.C14_fresh_start' depends on axioms: [propext, Classical.choice, Quot.sound]
'Idm.C15_sequential_partial' depends on axioms: [propext, Quot.sound]
'Idm.C15_sequential_fails' depends on axioms: [propext]
'Idm.C15_values_partial' depends on axioms: [propext, Classical.choice, Quot.sound]
'Idm.C16_modify_touches_only_named' depends on axioms: [propext, Quot.sound]
'Idm.C17_add_is_union_partial' depends on axioms: [propext, Classical.choice, Quot.sound]
'Idm.C17_replace_is_exact_partial' depends on axioms: [propext, Classical.choice, Quot.sound]
'Idm.C17_delete_is_difference_partial' depends on axioms: [propext, Classical.choice, Quot.sound]
'Idm.C17_empty_attribute_disappears' depends on axioms: [propext, Quot.sound]
'Idm.C17_duplicate_names_fails' depends on axioms: [propext]
'Idm.C17_all_entries_partial' depends on axioms: [propext, Classical.choice, Quot.sound]
'Idm.C18_refused_iff_removes_rdn_value' depends on axioms: [propext, Quot.sound]
'Idm.C18_rdn_values_kept_partial' depends on axioms: [propext, Classical.choice, Quot.sound]
'Idm.C18_duplicate_names_fails' depends on axioms: [propext]
'Idm.C18_request_refused_iff' depends on axioms: [propext, Classical.choice, Quot.sound]
'Idm.C19_anonymous_changes_nothing' depends on axioms: [propext, Quot.sound]
'Idm.C19_unbound_connection_changes_nothing' depends on axioms: [propext, Classical.choice, Quot.sound]
'Idm.C19_writes_refused_partial' depends on axioms: [propext, Quot.sound]
'Idm.C19_stats_fails' depends on axioms: [propext]
'Idm.C19_overlapping' depends on axioms: [propext, Quot.sound]
'Idm.C20_non_admin_packet' depends on axioms: [propext, Classical.choice, Quot.sound]
'Idm.C20_without_admin' depends on axioms: [propext, Classical.choice, Quot.sound]
'Idm.C21_identity' depends on axioms: [propext, Quot.sound]
'Idm.C21_log' depends on axioms: [propext]
'Idm.C21_identity_all_connections' depends on axioms: [propext, Classical.choice, Quot.sound]
'Idm.C21_overlapping' depends on axioms: [propext, Quot.sound]
'Idm.C22_bind_exact' depends on axioms: [propext, Classical.choice, Quot.sound]
'Idm.C22_needs_password' depends on axioms: [propext, Classical.choice, Quot.sound]
'Idm.C23_cleartext' depends on axioms: [propext, Quot.sound]
'Idm.C23_argon2_roundtrip' depends on axioms: [propext, Quot.sound]
'Idm.C23_cleartext_roundtrip_partial' depends on axioms: [propext, Quot.sound]
'Idm.C23_argon2' depends on axioms: [propext, Quot.sound]
'Idm.C23_crypt' depends on axioms: [propext, Quot.sound]
'Idm.C23_ssha' depends on axioms: [propext, Quot.sound]
'Idm.C23_unknown_scheme' depends on axioms: [propext, Quot.sound]
'Idm.C23_never_false' depends on axioms: [propext]
'Idm.C23_cleartext_brace_fails' depends on axioms: [propext]
'Idm.C23_panics' depends on axioms: [propext, Quot.sound]
'Idm.C24_generated' depends on axioms: [propext, Quot.sound]
'Idm.C24_generated_total' depends on axioms: [propext, Quot.sound]
'Idm.C25_generated_password_fails' depends on axioms: [propext]
'Idm.C25_generated_password_partial' depends on axioms: [propext, Classical.choice, Quot.sound]
'Idm.C26_change_takes_effect_partial' depends on axioms: [propext, Classical.choice, Quot.sound]
'Idm.C26_old_password_checked_partial' depends on axioms: [propext, Classical.choice, Quot.sound]
'Idm.C26_ligature_fails' depends on axioms: [propext]
'Idm.C26_renamed_base_fails' depends on axioms: [propext, Quot.sound]
'Idm.C27_crash_causes_partial' depends on axioms: [propext, Classical.choice, Quot.sound]
'Idm.C27_hang_causes_partial' depends on axioms: [propext, Classical.choice, Quot.sound]
'Idm.C27_anonymous_partial' depends on axioms: [propext, Classical.choice, Quot.sound]
'Idm.C27_writes_safe' depends on axioms: [propext, Classical.choice, Quot.sound]
'Idm.C27_searches_safe' depends on axioms: [propext, Classical.choice, Quot.sound]
'Idm.C27_binds_safe' depends on axioms: [propext, Classical.choice, Quot.sound]
'Idm.C27_substring_fails' depends on axioms: [propext]
'Idm.C27_change_fails' depends on axioms: [propext]
'Idm.C27_not_owner_fails' depends on axioms: [propext]
'Idm.C27_root_fails' depends on axioms: [propext]
'Idm.C27_old_password_fails' depends on axioms: [propext]
'Idm.C27_control_fails' depends on axioms: [propext]
'Idm.C28_ids' depends on axioms: [propext, Quot.sound]
'Idm.C28_one_final_partial' depends on axioms: [propext, Quot.sound]
'Idm.C28_closed' depends on axioms: [propext, Quot.sound]
'Idm.C28_stats_fails' depends on axioms: [propext]
'Idm.C29_filter_partial' depends on axioms: [propext, Classical.choice, Quot.sound]
'Idm.C29_unsupported' depends on axioms: [propext, Classical.choice, Quot.sound]
'Idm.C29_no_entry_lost_partial' depends on axioms: [propext, Classical.choice, Quot.sound]
'Idm.C29_substring_fails' depends on axioms: [propext]
'Idm.C29_negated_substring_fails' depends on axioms: [propext, Quot.sound]
'Idm.C29_empty_substring_panics' depends on axioms: [propext]
'Idm.C29_first_component_partial' depends on axioms: [propext, Quot.sound]
'Idm.C29_first_unsupported_partial' depends on axioms: [propext, Quot.sound]
'Idm.C30_scope_partial' depends on axioms: [propext, Classical.choice, Quot.sound]
'Idm.C30_subtree_partial' depends on axioms: [propext]
'Idm.C30_bad_name' depends on axioms: [propext]
'Idm.C30_subtree_fails' depends on axioms: [propext, Classical.choice, Quot.sound]
'Idm.C30_escaped_comma_fails' depends on axioms: [propext, Classical.choice, Quot.sound]
'Idm.C30_root_fails' depends on axioms: [propext, Classical.choice, Quot.sound]
'Idm.C30_semicolon_fails' depends on axioms: [propext, Classical.choice, Quot.sound]
'Idm.C31_selected' depends on axioms: [propext, Classical.choice, Quot.sound]
'Idm.C31_once_partial' depends on axioms: [propext, Classical.choice, Quot.sound]
'Idm.C31_repeated_fails' does not depend on any axioms
'Idm.C31_times' depends on axioms: [propext, Classical.choice, Quot.sound]
'Idm.C32_size_limit' depends on axioms: [propext, Classical.choice, Quot.sound]
'Idm.C33_search_exact_partial' depends on axioms: [propext, Classical.choice, Quot.sound]
'Idm.C33_no_base_partial' depends on axioms: [propext, Classical.choice, Quot.sound]
'Idm.C33_names_parse' depends on axioms: [propext, Quot.sound]
'Idm.C33_unparsable_name_fails' depends on axioms: [propext]
'Idm.C33_escaped_comma_fails' depends on axioms: [propext]
'Idm.C33_search_first_partial' depends on axioms: [propext, Classical.choice, Quot.sound]
'Idm.C33_case_fails' depends on axioms: [propext, Quot.sound]
'Idm.C34_only_successful_writes_change' depends on axioms: [propext, Quot.sound]
'Idm.C34_database_is_a_history' depends on axioms: [propext, Classical.choice, Quot.sound]
'Idm.C34_overlapping' depends on axioms: [propext, Classical.choice, Quot.sound]
'Idm.C35_longest_partial' depends on axioms: [propext, Quot.sound]
'Idm.C35_any_order_partial' depends on axioms: [propext, Quot.sound]
'Idm.C35_write_goes_to_chosen' depends on axioms: [propext, Quot.sound]
'Idm.C35_tie_fails' does not depend on any axioms
'Idm.C35_middle_fails' depends on axioms: [propext]
'Idm.C35_case_fails' depends on axioms: [propext]
'Idm.C35_most_commas' depends on axioms: [propext, Quot.sound]
'Idm.C36_serialisable' depends on axioms: [propext, Quot.sound]
'Idm.C36_packets' depends on axioms: [propext, Quot.sound]
'Idm.C37_never_sent' depends on axioms: [propext, Classical.choice, Quot.sound]
'Idm.C37_blind' depends on axioms: [propext, Classical.choice, Quot.sound]
'Idm.C37_default_idx' does not depend on any axioms
'Idm.C37_indexed_fails' depends on axioms: [propext, Quot.sound]
'Idm.C38_sound_partial' depends on axioms: [propext, Classical.choice, Quot.sound]
'Idm.C38_subtree_partial' depends on axioms: [propext, Classical.choice, Quot.sound]
'Idm.C38_middle_fails' depends on axioms: [propext, Classical.choice, Quot.sound]
'Idm.C38_paged_base_fails' depends on axioms: [propext, Classical.choice, Quot.sound]
'Idm.C38_sound_first_partial' depends on axioms: [propext, Classical.choice, Quot.sound]
'Idm.C38_escaped_comma_fails' depends on axioms: [propext, Classical.choice, Quot.sound]
'Idm.C39_search_exact_partial' depends on axioms: [propext, Classical.choice, Quot.sound]
'Idm.C39_objectClass_or_fails' depends on axioms: [propext, Classical.choice, Quot.sound]
'Idm.C39_negation_fails' depends on axioms: [propext, Classical.choice, Quot.sound]
'Idm.C39_substring_case_fails' depends on axioms: [propext, Classical.choice, Quot.sound]
'Idm.C39_search_first_partial' depends on axioms: [propext, Classical.choice, Quot.sound]
'Idm.C39_case_fails' depends on axioms: [propext, Classical.choice, Quot.sound]
'Idm.C39_plain_names' depends on axioms: [propext, Classical.choice, Quot.sound]
'Idm.C39_escaped_names' depends on axioms: [propext, Classical.choice, Quot.sound]
'Idm.C39_elsewhere' depends on axioms: [propext]
'Idm.C39_itself' depends on axioms: [propext, Quot.sound]
'Idm.C39_escaped_comma_fails' depends on axioms: [propext, Classical.choice, Quot.sound]
'Idm.C40_no_duplicates' depends on axioms: [propext, Classical.choice, Quot.sound]
'Idm.C41_pages_partial' depends on axioms: [propext, Classical.choice, Quot.sound]
'Idm.C41_last_page_fails' depends on axioms: [propext]
'Idm.C41_cut_fails' depends on axioms: [propext]
'Idm.C41_handed_over' depends on axioms: [propext]
'Idm.C41_schedules' depends on axioms: [propext, Quot.sound]
'Idm.C41_ldif_schedules' depends on axioms: [propext, Quot.sound]
'Idm.C41_page_contents' depends on axioms: [propext, Classical.choice, Quot.sound]
'Idm.C41_first_control' depends on axioms: [propext, Quot.sound]
'Idm.C42_continue_partial' depends on axioms: [propext, Classical.choice, Quot.sound]
'Idm.C42_abandon_fails' depends on axioms: [propext]
'Idm.C42_progress' depends on axioms: [propext]
'Idm.C42_bounded' depends on axioms: [propext, Classical.choice, Quot.sound]
'Idm.C42_final' depends on axioms: [propext]
'Idm.C42_answered' depends on axioms: [propext, Classical.choice, Quot.sound]
'Idm.C42_abandon_forever_fails' depends on axioms: [propext, Quot.sound]
'Idm.C43_data_unchanged' depends on axioms: [propext, Classical.choice, Quot.sound]
'Idm.C43_writes_refused' depends on axioms: [propext, Quot.sound]
'Idm.C43_no_write_succeeds' depends on axioms: [propext, Quot.sound]
'Idm.C43_password_refused' depends on axioms: [propext, Quot.sound]
'Idm.C44_bind_exact' depends on axioms: [propext, Classical.choice, Quot.sound]
'Idm.C44_named' depends on axioms: [propext]
'Idm.C44_anonymous' depends on axioms: [propext, Quot.sound]
'Idm.C44_search_refused' depends on axioms: [propext, Classical.choice, Quot.sound]
'Idm.C45_failed_keeps' depends on axioms: [propext]
'Idm.C45_failed_same_answers' depends on axioms: [propext, Quot.sound]
'Idm.C45_succeeds_replaces' depends on axioms: [propext]
'Idm.C45_reload_succeeds_iff' depends on axioms: [propext, Quot.sound]
'Idm.C45_reload_reachable' depends on axioms: [propext]
'Idm.C45_one_version' depends on axioms: [propext, Classical.choice, Quot.sound]
'Idm.C45_current_version' depends on axioms: [propext, Classical.choice, Quot.sound]
'Idm.C45_middleware_fails' depends on axioms: [propext]
'Idm.C46_duplicates_rejected' depends on axioms: [propext, Quot.sound]
'Idm.C46_same_name_rejected' depends on axioms: [propext, Classical.choice, Quot.sound]
'Idm.C46_spacing_fails' depends on axioms: [propext]
'Idm.C46_case_fails' depends on axioms: [propext]
'Idm.C47_bind_exact' depends on axioms: [propext, Classical.choice, Quot.sound]
'Idm.C47_search_ignores_conf' depends on axioms: [propext, Quot.sound]
'Idm.C48_export_load_partial' depends on axioms: [propext, Classical.choice, Quot.sound]
'Idm.C48_empty_fails' depends on axioms: [propext]
'Idm.C48_renamed_base_fails' depends on axioms: [propext, Quot.sound]
'Idm.C48_no_value_fails' depends on axioms: [propext, Quot.sound]
'Idm.C48_space_fails' depends on axioms: [propext, Quot.sound]
'Idm.C49_load_stops' depends on axioms: [propext, Quot.sound]
'Idm.C49_load_directory_partial' depends on axioms: [propext, Classical.choice, Quot.sound]
'Idm.C49_unreadable' depends on axioms: [propext]
'Idm.C49_bad_name_fails' depends on axioms: [propext]
'Idm.C49_version_fails' depends on axioms: [propext, Classical.choice, Quot.sound]
'Idm.C49_cut_name_fails' depends on axioms: [propext]
'Idm.C50_entry_of_add_partial' depends on axioms: [propext, Quot.sound]
'Idm.C50_add_stores_partial' depends on axioms: [propext, Classical.choice, Quot.sound]
'Idm.C50_repeated_type_fails' depends on axioms: [propext]
'Idm.C50_last_occurrence' depends on axioms: [propext, Quot.sound]
'Idm.C50_add_stores_last_partial' depends on axioms: [propext, Classical.choice, Quot.sound]
'Idm.C51_copy_partial' depends on axioms: [propext, Classical.choice, Quot.sound]
'Idm.C51_between_partial' depends on axioms: [propext, Classical.choice, Quot.sound]
'Idm.C51_exact_partial' depends on axioms: [propext, Classical.choice, Quot.sound]
'Idm.C51_max_kept' depends on axioms: [propext, Classical.choice, Quot.sound]
'Idm.C51_max_zero' depends on axioms: [propext, Classical.choice, Quot.sound]
'Idm.C51_max_fails' depends on axioms: [propext, Quot.sound]
'Idm.C52_count_finishes_partial' depends on axioms: [propext, Classical.choice, Quot.sound]
'Idm.C52_add_blocks' depends on axioms: [propext, Classical.choice, Quot.sound]
'Idm.C52_add_never' depends on axioms: [propext, Classical.choice, Quot.sound]
'Idm.C52_adds_fails' depends on axioms: [propext, Classical.choice, Quot.sound]
'Idm.C53_confined' depends on axioms: [propext, Quot.sound]
'Idm.C53_opened' depends on axioms: [propext, Quot.sound]
'Idm.C53_reaches' depends on axioms: [propext, Classical.choice, Quot.sound]
'Idm.C54_fresh_partial' depends on axioms: [propext, Quot.sound]
'Idm.C54_start_partial' depends on axioms: [propext, Quot.sound]
'Idm.C54_set' depends on axioms: [propext]
'Idm.C54_wrap_fails' depends on axioms: [propext, Quot.sound]
'Idm.C54_files_fails' does not depend on any axioms
'Idm.C55_unused_partial' depends on axioms: [propext, Classical.choice, Quot.sound]
'Idm.C55_consecutive_partial' depends on axioms: [propext, Quot.sound]
'Idm.C55_zero_fails' depends on axioms: [propext]
'Idm.C55_wrap_fails' depends on axioms: [propext, Quot.sound]
'Idm.C56_reported_partial' depends on axioms: [propext, Classical.choice, Quot.sound]
'Idm.C56_too_few' depends on axioms: [propext, Classical.choice, Quot.sound]
'Idm.C56_five_fields_fails' depends on axioms: [propext, Classical.choice, Quot.sound]
'Idm.C57_not_lost' depends on axioms: [propext]
'Idm.C57_due_starts' does not depend on any axioms
'Idm.C57_no_more' depends on axioms: [propext, Quot.sound]
'Idm.C58_closed_partial' depends on axioms: [propext, Quot.sound]
'Idm.C58_still_served_fails' depends on axioms: [propext, Quot.sound]
'Idm.C58_stranded_fails' depends on axioms: [propext, Quot.sound]
'Idm.C59_filter_text_partial' depends on axioms: [propext, Classical.choice, Quot.sound]
'Idm.C59_empty_component_fails' depends on axioms: [propext]
'Idm.C59_dn_attributes_fails' depends on axioms: [propext]
'Idm.C59_utf8' depends on axioms: [propext, Classical.choice, Quot.sound]
'Idm.C59_bytes_refused' depends on axioms: [propext, Classical.choice, Quot.sound]
'Idm.C60_admin_performs' depends on axioms: [propext, Quot.sound]
'Idm.C60_others_refused' depends on axioms: [propext, Quot.sound]
'Idm.C60_bad_name_refused' depends on axioms: [propext]
'Idm.C60_admin_directory_partial' depends on axioms: [propext, Classical.choice, Quot.sound]
'Idm.C60_metrics_fails' depends on axioms: [propext]
'Idm.C61_text_names_entry_partial' depends on axioms: [propext, Classical.choice, Quot.sound]
'Idm.C61_parses_partial' depends on axioms: [propext, Classical.choice, Quot.sound]
'Idm.C61_escaped_type_fails' depends on axioms: [propext, Quot.sound]
'Idm.C61_unparsable_name_fails' depends on axioms: [propext, Quot.sound]
'Idm.C62_limit_partial' depends on axioms: [propext, Classical.choice, Quot.sound]
'Idm.C62_exceeded_fails' depends on axioms: [propext]
'Idm.C62_wrap_fails' depends on axioms: [propext]
'Idm.C62_one_page' depends on axioms: [propext, Classical.choice, Quot.sound]
'Idm.C62_paged' depends on axioms: [propext, Quot.sound]
'Idm.C63_load_keeps_partial' depends on axioms: [propext, Classical.choice, Quot.sound]
'Idm.C63_overwrite_fails' depends on axioms: [propext, Quot.sound]
'Idm.C64_all_lines_partial' depends on axioms: [propext]
'Idm.C64_long_line_fails' depends on axioms: [propext, Quot.sound]
'Idm.C64_photo_fails' depends on axioms: [propext, Quot.sound]
'Idm.C65_comments_partial' depends on axioms: [propext]
'Idm.C65_data_partial' depends on axioms: [propext, Classical.choice, Quot.sound]
'Idm.C65_engine_partial' depends on axioms: [propext, Classical.choice, Quot.sound]
'Idm.C65_continued_fails' does not depend on any axioms
'Idm.C65_data_fails' depends on axioms: [propext, Classical.choice, Quot.sound]
'Idm.C66_kept_partial' depends on axioms: [propext, Quot.sound]
'Idm.C66_all_printed' depends on axioms: [propext, Quot.sound]
'Idm.C66_zero_fails' depends on axioms: [propext]
'Idm.C66_number_read' depends on axioms: [propext, Classical.choice, Quot.sound]
'Idm.C67_given_password' depends on axioms: [propext, Quot.sound]
'Idm.C67_cleartext_partial' depends on axioms: [propext, Quot.sound]
'Idm.C67_cleartext_fails' depends on axioms: [propext]
'Idm.C67_printed' depends on axioms: [propext, Classical.choice, Quot.sound]
'Idm.C67_unknown_scheme' depends on axioms: [propext, Classical.choice, Quot.sound]
'Idm.C67_no_password_fails' depends on axioms: [propext, Quot.sound]
'Idm.C68_argon2' depends on axioms: [propext, Quot.sound]
'Idm.C68_cleartext_partial' depends on axioms: [propext, Quot.sound]
'Idm.C68_percent_fails' depends on axioms: [propext]
'Idm.C69_serves_partial' depends on axioms: [propext, Quot.sound]
'Idm.C69_dead_listener_fails' depends on axioms: [propext, Quot.sound]
'Idm.C70_only_on_signal' depends on axioms: [propext, Quot.sound]
'Idm.C70_taken_partial' depends on axioms: [propext]
'Idm.C70_dropped_fails' depends on axioms: [propext, Quot.sound]
'Idm.C70_early_fails' depends on axioms: [propext, Quot.sound]
'Idm.C71_returns' depends on axioms: [propext, Quot.sound]
'Idm.C71_second_signal' does not depend on any axioms
'Idm.C71_clean' does not depend on any axioms
'Idm.C72_directory' depends on axioms: [propext, Quot.sound]
'Idm.C72_entries_partial' depends on axioms: [propext, Classical.choice, Quot.sound]
'Idm.C72_version_fails' depends on axioms: [propext, Classical.choice, Quot.sound]
'Idm.C72_templates_partial' depends on axioms: [propext, Classical.choice, Quot.sound]
'Idm.C72_version_partial' depends on axioms: [propext, Classical.choice, Quot.sound]
'Idm.C73_variables' depends on axioms: [propext, Quot.sound]
'Idm.C73_with' depends on axioms: [propext, Quot.sound]
'Idm.C74_no_deadlock' depends on axioms: [propext, Classical.choice, Quot.sound]
'Idm.C74_answered' depends on axioms: [propext, Classical.choice, Quot.sound]
'Idm.C75_records' depends on axioms: [propext, Classical.choice, Quot.sound]
'Idm.C75_ldif_partial' depends on axioms: [propext, Classical.choice, Quot.sound]
'Idm.C75_values' depends on axioms: [propext]
'Idm.C75_numbers' depends on axioms: [propext, Classical.choice, Quot.sound]
'Idm.C75_number_text' depends on axioms: [propext, Quot.sound]
'Idm.C75_dn_partial' depends on axioms: [propext, Classical.choice, Quot.sound]
'Idm.C75_dn_fails' depends on axioms: [propext]
'Idm.C76_reply' depends on axioms: [propext, Classical.choice, Quot.sound]
'Idm.C76_stream' depends on axioms: [propext, Classical.choice, Quot.sound]
'Idm.C76_codes_bolt' depends on axioms: [propext, Classical.choice, Quot.sound]
'Idm.C76_codes_ldif' depends on axioms: [propext, Classical.choice, Quot.sound]
'Idm.C76_compare_fails' depends on axioms: [propext]
'Idm.C76_undefined_code_fails' depends on axioms: [propext]
'Idm.C77_read' depends on axioms: [propext, Quot.sound]
'Idm.C77_incomplete' depends on axioms: [propext, Classical.choice, Quot.sound]
'Idm.C77_chunks' depends on axioms: [propext, Quot.sound]
'Idm.C77_requests' depends on axioms: [propext, Classical.choice, Quot.sound]
'Idm.C77_requests_controls' depends on axioms: [propext, Classical.choice, Quot.sound]
'Idm.C77_paging' depends on axioms: [propext, Classical.choice, Quot.sound]
'Idm.C77_pages' depends on axioms: [propext, Classical.choice, Quot.sound]
'Idm.C77_password' depends on axioms: [propext, Quot.sound]
'Idm.C77_connection' depends on axioms: [propext, Classical.choice, Quot.sound]
'Idm.C77_any_bytes' depends on axioms: [propext]
'Idm.C77_other_controls' depends on axioms: [propext]
'Idm.C78_read_partial' depends on axioms: [propext, Classical.choice, Quot.sound]
'Idm.C78_same_entry_partial' depends on axioms: [propext, Classical.choice, Quot.sound]
'Idm.C78_blank_after_backslash_fails' depends on axioms: [propext]
'Idm.C79_writes_partial' depends on axioms: [propext, Classical.choice, Quot.sound]
'Idm.C79_bind' depends on axioms: [propext, Classical.choice, Quot.sound]
'Idm.C79_password_partial' depends on axioms: [propext, Classical.choice, Quot.sound]
'Idm.C79_search_partial' depends on axioms: [propext, Quot.sound]
'Idm.C79_kind_fails' depends on axioms: [propext]
'Idm.C79_password_fails' depends on axioms: [propext]
'Idm.C80_options' depends on axioms: [propext, Quot.sound]
'Idm.C81_outcome' depends on axioms: [propext, Quot.sound]
'Idm.C81_tls' depends on axioms: [propext, Quot.sound]
'Idm.C81_ldif_base_fails' depends on axioms: [propext]
'Idm.C81_base_partial' depends on axioms: [propext, Classical.choice, Quot.sound]
'Idm.C81_blank_base_fails' depends on axioms: [propext, Quot.sound]
'Idm.C82_administrator_partial' depends on axioms: [propext, Classical.choice, Quot.sound]
'Idm.C82_no_administrator_partial' depends on axioms: [propext, Classical.choice, Quot.sound]
'Idm.C83_not_ignored' depends on axioms: [propext, Quot.sound]
'Idm.C83_reported' depends on axioms: [propext, Classical.choice, Quot.sound]
'Idm.C83_error_exit' depends on axioms: [propext]
'Idm.C83_exit_code' depends on axioms: [propext, Classical.choice, Quot.sound]
'Idm.C84_ready_fails' depends on axioms: [propext, Quot.sound]
'Idm.C84_once_partial' depends on axioms: [propext, Quot.sound]
'Idm.C85_overlapping_partial' depends on axioms: [propext, Classical.choice, Quot.sound]
'Idm.C85_one_version' depends on axioms: [propext, Classical.choice, Quot.sound]
'Idm.C85_bind_reload_fails' depends on axioms: [propext, Quot.sound]
'Idm.C85_shutdown_fails' depends on axioms: [propext, Quot.sound]
'Idm.C86_pages' depends on axioms: [propext, Classical.choice, Quot.sound]
'Idm.C86_whole' depends on axioms: [propext, Classical.choice, Quot.sound]
'Idm.C87_crash_causes_partial' depends on axioms: [propext, Classical.choice, Quot.sound]
'Idm.C87_answered_partial' depends on axioms: [propext, Classical.choice, Quot.sound]
'Idm.C87_substring_fails' depends on axioms: [propext, Quot.sound]
'Idm.C87_change_fails' depends on axioms: [propext, Quot.sound]
'Idm.C87_abandon_fails' depends on axioms: [propext, Classical.choice, Quot.sound]
'Idm.C88_exactly_once' depends on axioms: [propext, Classical.choice, Quot.sound]
'Idm.C88_directory_partial' depends on axioms: [propext, Classical.choice, Quot.sound]
'Idm.C88_added_is_found_partial' depends on axioms: [propext, Classical.choice, Quot.sound]
'Idm.C88_deleted_is_gone_partial' depends on axioms: [propext, Classical.choice, Quot.sound]
'Idm.C88_renamed_is_found_partial' depends on axioms: [propext, Classical.choice, Quot.sound]
'Idm.C88_old_name_is_gone_partial' depends on axioms: [propext, Classical.choice, Quot.sound]
'Idm.C88_added_as_sent_partial' depends on axioms: [propext, Classical.choice, Quot.sound]
'Idm.C88_password_partial' depends on axioms: [propext, Classical.choice, Quot.sound]
'Idm.C88_answers' depends on axioms: [propext, Classical.choice, Quot.sound]
'Idm.C89_what_is_printed_partial' depends on axioms: [propext, Quot.sound]
'Idm.C89_accepts' depends on axioms: [propext, Quot.sound]
'Idm.C89_unreadable_file_fails' does not depend on any axioms
'Idm.C89_file_newline_fails' depends on axioms: [propext]
'Idm.C90_read_partial' depends on axioms: [propext, Classical.choice, Quot.sound]
'Idm.C90_loaded_partial' depends on axioms: [propext, Classical.choice, Quot.sound]
'Idm.C90_one_reading' depends on axioms: [propext, Classical.choice, Quot.sound]
'Idm.C91_write' depends on axioms: [propext, Quot.sound]
'Idm.C91_export_partial' depends on axioms: [propext, Classical.choice, Quot.sound]
'Idm.C92_faulty_refused' depends on axioms: [propext, Classical.choice, Quot.sound]
'Idm.C92_unreadable_partial' depends on axioms: [propext]
'Idm.C92_directory_unreadable_partial' depends on axioms: [propext, Quot.sound]
'Idm.C92_directory_faulty_partial' depends on axioms: [propext, Classical.choice, Quot.sound]
'Idm.C92_broken_fails' depends on axioms: [propext, Classical.choice, Quot.sound]
'Idm.C93_login_partial' depends on axioms: [propext, Classical.choice, Quot.sound]
'Idm.C93_exact_partial' depends on axioms: [propext, Classical.choice, Quot.sound]
'Idm.C93_file_partial' depends on axioms: [propext, Classical.choice, Quot.sound]
'Idm.C93_no_password_fails' depends on axioms: [propext, Classical.choice, Quot.sound]
'Idm.C93_template_fails' depends on axioms: [propext, Classical.choice, Quot.sound]
'Idm.C93_becomes_partial' depends on axioms: [propext, Classical.choice, Quot.sound]
'Idm.C93_files_partial' depends on axioms: [propext, Classical.choice, Quot.sound]
'Idm.C93_served_partial' depends on axioms: [propext, Classical.choice, Quot.sound]
'Idm.C93_served_login_partial' depends on axioms: [propext, Classical.choice, Quot.sound]
'Idm.C94_names' depends on axioms: [propext, Quot.sound]
'Idm.C94_address' depends on axioms: [propext, Quot.sound]
'Idm.C95_search_partial' depends on axioms: [propext, Classical.choice, Quot.sound]
'Idm.C95_bind_partial' depends on axioms: [propext, Classical.choice, Quot.sound]
'Idm.C95_loads' depends on axioms: [propext, Classical.choice, Quot.sound]
'Idm.C95_spelling_fails' depends on axioms: [propext, Quot.sound]
'Idm.C95_search_first_partial' depends on axioms: [propext, Classical.choice, Quot.sound]
'Idm.C95_bind' depends on axioms: [propext, Classical.choice, Quot.sound]
'Idm.C96_collected_partial' depends on axioms: [propext, Classical.choice, Quot.sound]
'Idm.C96_never_down' depends on axioms: [propext, Classical.choice, Quot.sound]
'Idm.C96_max_fails' depends on axioms: [propext, Quot.sound]
'Idm.C96_add_blocks' depends on axioms: [propext, Classical.choice, Quot.sound]
'Idm.C97_fresh' depends on axioms: [propext, Quot.sound]
'Idm.C97_fresh_answers' depends on axioms: [propext, Quot.sound]
'Idm.C97_add' depends on axioms: [propext, Quot.sound]
'Idm.C97_delete' depends on axioms: [propext, Quot.sound]
'Idm.C97_modify' depends on axioms: [propext, Quot.sound]
'Idm.C97_rename' depends on axioms: [propext, Quot.sound]
'Idm.C97_no_handler' depends on axioms: [propext, Quot.sound]
'Idm.C97_bind' depends on axioms: [propext, Quot.sound]
'Idm.C97_search' depends on axioms: [propext, Quot.sound]
'Idm.C97_register_elsewhere' depends on axioms: [propext, Classical.choice, Quot.sound]
'Idm.C97_register_here' depends on axioms: [propext, Quot.sound]
'Idm.C97_one_per_suffix' depends on axioms: [propext, Quot.sound]
'Idm.C97_password' depends on axioms: [propext, Quot.sound]
'Idm.C97_addFunc' depends on axioms: [propext, Quot.sound]
'Idm.C97_bindFunc' depends on axioms: [propext, Quot.sound]
'Idm.C97_deleteFunc' depends on axioms: [propext, Quot.sound]
'Idm.C97_modifyFunc' depends on axioms: [propext, Quot.sound]
'Idm.C97_modifyDNFunc' depends on axioms: [propext, Quot.sound]
'Idm.C97_pwExopFunc' depends on axioms: [propext, Quot.sound]
'Idm.C97_searchFunc' depends on axioms: [propext, Quot.sound]
'Idm.C98_load_touches' depends on axioms: [propext]
'Idm.C98_load_refused' depends on axioms: [propext]
'Idm.C98_load_no_input' depends on axioms: [propext]
'Idm.C98_load_partial' depends on axioms: [propext, Classical.choice, Quot.sound]
'Idm.C98_export' depends on axioms: [propext, Quot.sound]
'Idm.C98_export_load_partial' depends on axioms: [propext, Classical.choice, Quot.sound]
'Idm.C98_newusers_input' depends on axioms: [propext, Classical.choice, Quot.sound]
'Idm.C98_newusers_exit_partial' depends on axioms: [propext, Classical.choice, Quot.sound]
'Idm.C98_in_use_fails' depends on axioms: [propext]
'Idm.C98_bare_fails' depends on axioms: [propext]
'Idm.C98_newusers_prefix_fails' depends on axioms: [propext]
'Idm.C98_load_locked' depends on axioms: [propext]
'Idm.C98_exporting_fails' depends on axioms: [propext]
'Idm.C98_newusers_broken' depends on axioms: [propext]
'Idm.C98_newusers_broken_fails' depends on axioms: [propext]
'Idm.C99_serves_partial' depends on axioms: [propext, Classical.choice, Quot.sound]
'Idm.C99_search_partial' depends on axioms: [propext, Classical.choice, Quot.sound]
'Idm.C99_bind_partial' depends on axioms: [propext, Classical.choice, Quot.sound]
'Idm.C99_starts' depends on axioms: [propext, Classical.choice, Quot.sound]
'Idm.C99_one_reading' depends on axioms: [propext, Classical.choice, Quot.sound] 
