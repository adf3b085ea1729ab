'Verif.Props.C01_time_roundtrip' depends on axioms: [propext, Classical.choice, Quot.sound]
'Verif.Props.C01_format_injective' depends on axioms: [propext, Classical.choice, Quot.sound]
'Verif.Props.C02_parse_accepts_iff' depends on axioms: [propext, Quot.sound]
'Verif.Props.C02_parse_rejects_iff' depends on axioms: [propext, Quot.sound]
'Verif.Props.C02_no_overflow_violated' depends on axioms: [propext, Classical.choice, Quot.sound]
'Verif.Props.C02_overflow_iff' depends on axioms: [propext, Quot.sound]
'Verif.Props.C03_color_with_alpha' depends on axioms: [propext, Quot.sound]
'Verif.Props.C03_color_without_alpha' depends on axioms: [propext, Quot.sound]
'Verif.Props.C03_rejects_nonhex_violated' depends on axioms: [propext, Classical.choice, Quot.sound]
'Verif.Props.C03_rejects_partial' depends on axioms: [propext, Quot.sound]
'Verif.Props.C04_uu_roundtrip' depends on axioms: [propext, Classical.choice, Quot.sound]
'Verif.Props.C04_encoded_line_charset' depends on axioms: [propext, Classical.choice, Quot.sound]
'Verif.Props.C05_normalize_spec' depends on axioms: [propext, Quot.sound]
'Verif.Props.C05_no_cr' depends on axioms: [propext, Quot.sound]
'Verif.Props.C05_content_preserved' depends on axioms: [propext, Quot.sound]
'Verif.Props.C05_idempotent' depends on axioms: [propext, Quot.sound]
'Verif.Props.C06_strip_bom' depends on axioms: [propext, Classical.choice, Quot.sound]
'Verif.Props.C06_detect_bom_sound' depends on axioms: [propext, Quot.sound]
'Verif.Props.C06_detect_bom_complete' depends on axioms: [propext, Quot.sound]
'Verif.Props.C07_truncate' depends on axioms: [propext, Classical.choice, Quot.sound]
'Verif.Props.C07_byteLen_is_utf8_length' depends on axioms: [propext]
'Verif.Props.C08_cover_partial' depends on axioms: [propext, Classical.choice, Quot.sound]
'Verif.Props.C08_all_partial' depends on axioms: [propext, Quot.sound]
'Verif.Props.C08_limit_violated' depends on axioms: [propext]
'Verif.Props.C08_cr_violated' depends on axioms: [propext, Classical.choice, Quot.sound]
'Verif.C09_total' depends on axioms: [propext, Classical.choice, Quot.sound]
'Verif.C09_sections_partial' depends on axioms: [propext, Classical.choice, Quot.sound]
'Verif.C09_unclosed_violated' depends on axioms: [propext, Classical.choice, Quot.sound]
'Verif.Ast.C10_text_last_partial' depends on axioms: [propext, Classical.choice, Quot.sound]
'Verif.Ast.C10_no_text_partial' depends on axioms: [propext, Classical.choice, Quot.sound]
'Verif.Ast.C10_default' depends on axioms: [propext, Classical.choice, Quot.sound]
'Verif.Ast.C10_blanks_violated' depends on axioms: [propext, Classical.choice, Quot.sound]
'Verif.Ast.C10_names_violated' depends on axioms: [propext, Classical.choice, Quot.sound]
'Verif.Ast.C10_text_middle_violated' depends on axioms: [propext, Classical.choice, Quot.sound]
'Verif.Ast.C11_round_trip_partial' depends on axioms: [propext, Classical.choice, Quot.sound]
'Verif.Ast.C11_default' depends on axioms: [propext, Classical.choice, Quot.sound]
'Verif.Ast.C11_parent_violated' depends on axioms: [propext, Classical.choice, Quot.sound]
'Verif.Ast.C11_star_violated' depends on axioms: [propext, Classical.choice, Quot.sound]
'Verif.Ast.C11_names_violated' depends on axioms: [propext, Classical.choice, Quot.sound]
'Verif.Props.C12_undo_restores_partial' depends on axioms: [propext, Classical.choice, Quot.sound]
'Verif.Props.C12_undo_insert' depends on axioms: [propext, Classical.choice, Quot.sound]
'Verif.Props.C12_undo_delete' depends on axioms: [propext, Classical.choice, Quot.sound]
'Verif.Props.C12_undo_replace_violated' depends on axioms: [propext, Classical.choice, Quot.sound]
'Verif.Props.C12_undo_replace_leaves_tail' depends on axioms: [propext, Classical.choice, Quot.sound]
'Verif.Props.C13_redo_after_undo_partial' depends on axioms: [propext, Classical.choice, Quot.sound]
'Verif.Props.C13_redo_twice_violated' depends on axioms: [propext, Quot.sound]
'Verif.Props.C13_redo_clears' depends on axioms: [propext, Classical.choice, Quot.sound]
'Verif.Props.C14_entry_limit' depends on axioms: [propext, Classical.choice, Quot.sound]
'Verif.Props.C14_memory_counter' depends on axioms: [propext, Classical.choice, Quot.sound]
'Verif.Props.C14_memory_limit' depends on axioms: [propext, Classical.choice, Quot.sound]
'Verif.Props.C14_evicts_oldest' depends on axioms: [propext, Classical.choice, Quot.sound]
'Verif.Props.C15_edit_exact' depends on axioms: [propext, Quot.sound]
'Verif.Props.C15_rejected_unchanged' depends on axioms: [propext]
'Verif.Props.C15_insert_delete_total' depends on axioms: [propext, Quot.sound]
'Verif.Props.C15_rejected_replace_violated' depends on axioms: [propext, Classical.choice, Quot.sound]
'Verif.Props.C15_replace_total_partial' depends on axioms: [propext, Quot.sound]
'Verif.Props.C16_constructors_ordered' depends on axioms: [propext, Quot.sound]
'Verif.Props.C16_new_symmetric' depends on axioms: [propext, Quot.sound]
'Verif.Props.C16_contains' depends on axioms: [propext]
'Verif.Props.C16_len' depends on axioms: [propext, Classical.choice, Quot.sound]
'Verif.Props.C16_overlaps' depends on axioms: [propext, Classical.choice, Quot.sound]
'Verif.Props.C16_overlaps_empty_violated' depends on axioms: [propext, Quot.sound]
'Verif.Props.C16_intersection' depends on axioms: [propext, Classical.choice, Quot.sound]
'Verif.Props.C16_union' depends on axioms: [propext, Classical.choice, Quot.sound]
'Verif.Props.C16_extend_to' depends on axioms: [propext, Classical.choice, Quot.sound]
'Verif.Props.C16_selection' depends on axioms: [propext, Quot.sound]
'Verif.Props.C16_selection_extend' depends on axioms: [propext, Quot.sound]
'Verif.Props.C17_position_roundtrip' depends on axioms: [propext, Classical.choice, Quot.sound]
'Verif.Props.C17_linecol_roundtrip' depends on axioms: [propext, Classical.choice, Quot.sound]
'Verif.Props.C17_rope_lines' depends on axioms: [propext]
'Verif.Props.C17_out_of_range' depends on axioms: [propext, Quot.sound]
'Verif.Props.C17_plain_line_column' depends on axioms: [propext, Quot.sound]
'Verif.Props.C18_session_limit' depends on axioms: [propext, Classical.choice, Quot.sound]
'Verif.Props.C18_active_exists' depends on axioms: [propext, Classical.choice, Quot.sound]
'Verif.Props.C18_limit_fixed' does not depend on any axioms
'Verif.Props.C18_isolation' depends on axioms: [propext, Quot.sound]
'Verif.Props.C18_effects' depends on axioms: [propext, Quot.sound]
'Verif.Props.C18_no_underflow' depends on axioms: [propext, Classical.choice, Quot.sound]
'Verif.Props.C19_ids_never_reused' depends on axioms: [propext, Quot.sound]
'Verif.Props.C19_registry_consistent' depends on axioms: [propext, Classical.choice, Quot.sound]
'Verif.Props.C19_service_order' depends on axioms: [propext, Classical.choice, Quot.sound]
'Verif.Props.C19_register_unregister' depends on axioms: [propext, Classical.choice, Quot.sound]
'Verif.Props.C19_filter' depends on axioms: [propext, Quot.sound]
'Verif.Props.C19_delivery_partial' depends on axioms: [propext, Quot.sound]
'Verif.Props.C19_delivery_failure' depends on axioms: [propext, Quot.sound]
'Verif.Props.C19_delivery_violated' depends on axioms: [propext, Quot.sound]
'Verif.Props.C20_commands_owned' depends on axioms: [propext, Classical.choice, Quot.sound]
'Verif.Props.C20_execute_finds_owner' depends on axioms: [propext, Classical.choice, Quot.sound]
'Verif.Props.C20_unload_removes' depends on axioms: [propext, Classical.choice, Quot.sound]
'Verif.Props.C20_data' depends on axioms: [propext]
'Verif.Props.C21_selection_partial' depends on axioms: [propext, Classical.choice, Quot.sound]
'Verif.Props.C21_clean_frame' depends on axioms: [propext, Classical.choice, Quot.sound]
'Verif.Props.C21_stale_index_violated' depends on axioms: [propext]
'Verif.Props.C21_second_section_violated' depends on axioms: [propext]
'Verif.Props.C22_exact_partial' depends on axioms: [propext, Classical.choice, Quot.sound]
'Verif.Props.C22_bad_time' depends on axioms: [propext, Quot.sound]
'Verif.Props.C22_exact_violated' depends on axioms: [propext, Quot.sound]
'Verif.Props.C23_never_inherits' depends on axioms: [propext, Classical.choice, Quot.sound]
'Verif.Props.C23_inheritance_violated' depends on axioms: [propext, Quot.sound]
'Verif.Props.C23_no_parent_partial' depends on axioms: [propext, Classical.choice, Quot.sound]
'Verif.Props.C24_separated_partial' depends on axioms: [propext, Classical.choice, Quot.sound]
'Verif.Props.C24_no_overlap_partial' depends on axioms: [propext, Classical.choice, Quot.sound]
'Verif.Props.C24_on_screen' depends on axioms: [propext, Classical.choice, Quot.sound]
'Verif.Props.C24_no_needless_move' depends on axioms: [propext, Classical.choice, Quot.sound]
'Verif.Props.C24_direction' depends on axioms: [propext, Classical.choice, Quot.sound]
'Verif.Props.C24_separated_violated' depends on axioms: [propext, Classical.choice, Quot.sound]
'Verif.Props.C24_history_partial' depends on axioms: [propext, Classical.choice, Quot.sound]
'Verif.Props.C24_process' depends on axioms: [propext, Classical.choice, Quot.sound]
'Verif.Props.C24_free_position_sound' depends on axioms: [propext, Classical.choice, Quot.sound]
'Verif.Props.C24_free_position_violated' depends on axioms: [propext, Classical.choice, Quot.sound]
'Verif.Props.C25_disjoint' depends on axioms: [propext, Classical.choice, Quot.sound]
'Verif.Props.C25_in_bounds_partial' depends on axioms: [propext, Classical.choice, Quot.sound]
'Verif.Props.C25_no_overflow' depends on axioms: [propext, Classical.choice, Quot.sound]
'Verif.Props.C25_in_bounds_violated' depends on axioms: [propext, Quot.sound]
'Verif.Props.C26_lookup_fresh' depends on axioms: [propext, Quot.sound]
'Verif.Props.C26_store_then_get' depends on axioms: [propext]
'Verif.Props.C26_below_capacity' depends on axioms: [propext, Quot.sound]
'Verif.Props.C26_bounded_partial' depends on axioms: [propext, Classical.choice, Quot.sound]
'Verif.Props.C26_bounded_violated' depends on axioms: [propext]
'Verif.Props.C26_counters' depends on axioms: [propext, Classical.choice, Quot.sound]
'Verif.Props.C27_merge' depends on axioms: [propext, Classical.choice, Quot.sound]
'Verif.Props.C27_all_covered' depends on axioms: [propext, Classical.choice, Quot.sound]
'Verif.Props.C27_contains_point' depends on axioms: [propext, Classical.choice, Quot.sound]
'Verif.Props.C27_intersects' depends on axioms: [propext, Classical.choice, Quot.sound]
'Verif.Props.C27_overlap_exact' depends on axioms: [propext, Classical.choice, Quot.sound]
'Verif.Props.C27_full_screen' depends on axioms: [propext, Classical.choice, Quot.sound]
'Verif.Props.C27_noted' depends on axioms: [propext, Classical.choice, Quot.sound]
'Verif.Props.C28_transparent_partial' depends on axioms: [propext, Classical.choice, Quot.sound]
'Verif.Props.C28_context_change_violated' depends on axioms: [propext, Classical.choice, Quot.sound]
'Verif.Props.C28_other_script_violated' depends on axioms: [propext, Classical.choice, Quot.sound]
'Verif.Props.C29_search_partial' depends on axioms: [propext, Classical.choice, Quot.sound]
'Verif.Props.C29_offsets_partial' depends on axioms: [propext, Classical.choice, Quot.sound]
'Verif.Props.C29_range_partial' depends on axioms: [propext, Classical.choice, Quot.sound]
'Verif.Props.C29_multibyte_violated' depends on axioms: [propext, Classical.choice, Quot.sound]
'Verif.Props.C29_empty_violated' depends on axioms: [propext, Classical.choice, Quot.sound]
'Verif.Props.C29_folding_violated' depends on axioms: [propext, Classical.choice, Quot.sound]
'Verif.Props.C29_index_violated' depends on axioms: [propext, Classical.choice, Quot.sound]
'Verif.Props.C29_index_partial' depends on axioms: [propext, Quot.sound]
'Verif.Props.C29_replace_partial' depends on axioms: [propext, Classical.choice, Quot.sound]
'Verif.Props.C29_replace_violated' depends on axioms: [propext, Classical.choice, Quot.sound]
'Verif.Props.C30_strip_exact' depends on axioms: [propext, Quot.sound]
'Verif.Props.C30_no_block' depends on axioms: [propext, Quot.sound]
'Verif.Props.C30_idempotent' depends on axioms: [propext, Quot.sound]
'Verif.Props.C30_untouched' depends on axioms: [propext, Quot.sound]
'Verif.Props.C30_convert_no_block' depends on axioms: [propext, Classical.choice, Quot.sound]
'Verif.Props.C31_export' depends on axioms: [propext, Classical.choice, Quot.sound]
'Verif.Props.C31_import' depends on axioms: [propext, Classical.choice, Quot.sound]
'Verif.Props.C31_roundtrip' depends on axioms: [propext, Classical.choice, Quot.sound]
'Verif.Props.C31_export_total_violated' depends on axioms: [propext, Classical.choice, Quot.sound]
'Verif.Props.C31_value_roundtrip_partial' depends on axioms: [propext, Classical.choice, Quot.sound]
'Verif.Props.C31_format_export' depends on axioms: [propext, Classical.choice, Quot.sound]
'Verif.Props.C31_format_import' depends on axioms: [propext, Classical.choice, Quot.sound]
'Verif.Props.C31_format_roundtrip' depends on axioms: [propext, Classical.choice, Quot.sound]
'Verif.Props.C32_export' depends on axioms: [propext, Classical.choice, Quot.sound]
'Verif.Props.C32_import' depends on axioms: [propext, Classical.choice, Quot.sound]
'Verif.Props.C32_import_short' depends on axioms: [propext, Classical.choice, Quot.sound]
'Verif.Props.C32_roundtrip' depends on axioms: [propext, Classical.choice, Quot.sound]
'Verif.Props.C32_value_roundtrip_partial' depends on axioms: [propext, Classical.choice, Quot.sound]
'Verif.Props.C32_format_export' depends on axioms: [propext, Classical.choice, Quot.sound]
'Verif.Props.C32_format_import' depends on axioms: [propext, Classical.choice, Quot.sound]
'Verif.Props.C32_format_import_short' depends on axioms: [propext, Classical.choice, Quot.sound]
'Verif.Props.C32_format_roundtrip' depends on axioms: [propext, Classical.choice, Quot.sound]
'Verif.Props.C33_visible_partial' depends on axioms: [propext, Classical.choice, Quot.sound]
'Verif.Props.C33_total_partial' depends on axioms: [propext, Classical.choice, Quot.sound]
'Verif.Props.C33_total_violated' depends on axioms: [propext, Classical.choice, Quot.sound]
'Verif.Props.C33_lone_backslash_violated' depends on axioms: [propext, Classical.choice, Quot.sound]
'Verif.Props.C33_nesting' depends on axioms: [propext, Classical.choice, Quot.sound]
'Verif.Props.C34_located' depends on axioms: [propext, Classical.choice, Quot.sound]
'Verif.Props.C34_ordered' depends on axioms: [propext, Classical.choice, Quot.sound]
'Verif.Props.C34_complete' depends on axioms: [propext, Classical.choice, Quot.sound]
'Verif.Props.C34_total_partial' depends on axioms: [propext, Classical.choice, Quot.sound]
'Verif.Props.C34_total_violated' depends on axioms: [propext, Classical.choice, Quot.sound]
'Verif.Props.C34_text' depends on axioms: [propext, Classical.choice, Quot.sound]
'Verif.Props.C34_unclosed_violated' depends on axioms: [propext, Classical.choice, Quot.sound]
'Verif.Props.C35_letters' depends on axioms: [propext, Classical.choice, Quot.sound]
'Verif.Props.C35_generate_partial' depends on axioms: [propext, Classical.choice, Quot.sound]
'Verif.Props.C35_refuses' depends on axioms: [propext, Classical.choice, Quot.sound]
'Verif.Props.C35_blanks_violated' depends on axioms: [propext, Classical.choice, Quot.sound]
'Verif.Props.C35_split' depends on axioms: [propext, Classical.choice, Quot.sound]
'Verif.Props.C35_split_at' depends on axioms: [propext, Classical.choice, Quot.sound]
'Verif.Props.C35_split_total_violated' depends on axioms: [propext, Classical.choice, Quot.sound]
'Verif.Props.C35_apply_equal' depends on axioms: [propext, Classical.choice, Quot.sound]
'Verif.Props.C35_apply_pattern_partial' depends on axioms: [propext, Classical.choice, Quot.sound]
'Verif.Props.C35_apply_words' depends on axioms: [propext, Classical.choice, Quot.sound]
'Verif.Props.C35_apply_empty_violated' depends on axioms: [propext, Classical.choice, Quot.sound]
'Verif.Props.C36_toggle_partial' depends on axioms: [propext, Classical.choice, Quot.sound]
'Verif.Props.C36_toggle_twice_partial' depends on axioms: [propext, Classical.choice, Quot.sound]
'Verif.Props.C36_toggle_all_violated' depends on axioms: [propext, Classical.choice, Quot.sound]
'Verif.Props.C36_toggle_panics_violated' depends on axioms: [propext, Classical.choice, Quot.sound]
'Verif.Props.C36_timing_partial' depends on axioms: [propext, Classical.choice, Quot.sound]
'Verif.Props.C36_ordered' depends on axioms: [propext, Classical.choice, Quot.sound]
'Verif.Props.C36_timing_selection_partial' depends on axioms: [propext, Classical.choice, Quot.sound]
'Verif.Props.C36_timing_all_violated' depends on axioms: [propext, Classical.choice, Quot.sound]
'Verif.Props.EventCmdExact.C36_toggle_exact' depends on axioms: [propext, Classical.choice, Quot.sound]
'Verif.Props.EventCmdExact.C36_timing_exact' depends on axioms: [propext, Classical.choice, Quot.sound]
'Verif.Props.C37_effect_partial' depends on axioms: [propext, Classical.choice, Quot.sound]
'Verif.Props.C37_comma_violated' depends on axioms: [propext, Classical.choice, Quot.sound]
'Verif.Props.C37_paren_violated' depends on axioms: [propext, Classical.choice, Quot.sound]
'Verif.Props.C37_multibyte_violated' depends on axioms: [propext, Classical.choice, Quot.sound]
'Verif.Props.EventCmdExact.C37_effect_exact' depends on axioms: [propext, Classical.choice, Quot.sound]
'Verif.Props.EventCmdExact.C37_effects_partial' depends on axioms: [propext, Classical.choice, Quot.sound]
'Verif.Props.C38_set_get' depends on axioms: [propext, Classical.choice, Quot.sound]
'Verif.Props.C38_missing' depends on axioms: [propext, Classical.choice, Quot.sound]
'Verif.Props.C38_get_partial' depends on axioms: [propext, Classical.choice, Quot.sound]
'Verif.Props.C38_set_partial' depends on axioms: [propext, Classical.choice, Quot.sound]
'Verif.Props.C38_others_partial' depends on axioms: [propext, Classical.choice, Quot.sound]
'Verif.Props.C38_delete_partial' depends on axioms: [propext, Classical.choice, Quot.sound]
'Verif.Props.C38_get_all_partial' depends on axioms: [propext, Classical.choice, Quot.sound]
'Verif.Props.C38_substring_violated' depends on axioms: [propext, Classical.choice, Quot.sound]
'Verif.Props.C38_delete_violated' depends on axioms: [propext, Classical.choice, Quot.sound]
'Verif.Props.C38_empty_violated' depends on axioms: [propext, Classical.choice, Quot.sound]
'Verif.Props.C38_comment_violated' depends on axioms: [propext, Classical.choice, Quot.sound]
'Verif.Props.InfoHistory.C38_history_partial' depends on axioms: [propext, Classical.choice, Quot.sound]
'Verif.Props.C39_delete_partial' depends on axioms: [propext, Classical.choice, Quot.sound]
'Verif.Props.C39_delete_last_partial' depends on axioms: [propext, Classical.choice, Quot.sound]
'Verif.Props.C39_missing' depends on axioms: [propext, Classical.choice, Quot.sound]
'Verif.Props.C39_prefix_violated' depends on axioms: [propext, Classical.choice, Quot.sound]
'Verif.Props.C39_comment_violated' depends on axioms: [propext, Classical.choice, Quot.sound]
'Verif.Props.C39_clone_partial' depends on axioms: [propext, Classical.choice, Quot.sound]
'Verif.Props.C39_clone_existing' depends on axioms: [propext, Classical.choice, Quot.sound]
'Verif.Props.C39_clone_refused_violated' depends on axioms: [propext, Classical.choice, Quot.sound]
'Verif.Props.C39_edit_partial' depends on axioms: [propext, Classical.choice, Quot.sound]
'Verif.Props.C39_rename_violated' depends on axioms: [propext, Classical.choice, Quot.sound]
'Verif.Props.C39_edit_ignored_violated' depends on axioms: [propext, Classical.choice, Quot.sound]
'Verif.Props.C40_chunks_partial' depends on axioms: [propext, Classical.choice, Quot.sound]
'Verif.Props.C40_lines' depends on axioms: [propext, Classical.choice, Quot.sound]
'Verif.Props.C40_carriage_return_violated' depends on axioms: [propext, Classical.choice, Quot.sound]
'Verif.Props.C40_bytes_violated' depends on axioms: [propext, Classical.choice, Quot.sound]
'Verif.Props.C40_sections_violated' depends on axioms: [propext, Classical.choice, Quot.sound]
'Verif.Props.C40_refused' depends on axioms: [propext, Classical.choice, Quot.sound]
'Verif.Props.C41_atomic' depends on axioms: [propext, Classical.choice, Quot.sound]
'Verif.Props.C42_counts' depends on axioms: [propext, Classical.choice, Quot.sound]
'Verif.Props.C42_verdict_partial' depends on axioms: [propext, Classical.choice, Quot.sound]
'Verif.Props.C42_cache_partial' depends on axioms: [propext, Classical.choice, Quot.sound]
'Verif.Props.C42_fresh' depends on axioms: [propext, Classical.choice, Quot.sound]
'Verif.Props.C42_force' depends on axioms: [propext, Classical.choice, Quot.sound]
'Verif.Props.C42_interval' depends on axioms: [propext, Classical.choice, Quot.sound]
'Verif.Props.C42_cache_violated' depends on axioms: [propext, Classical.choice, Quot.sound]
'Verif.Props.C42_limit_violated' depends on axioms: [propext, Classical.choice, Quot.sound]
'Verif.Props.C42_threshold_violated' depends on axioms: [propext, Classical.choice, Quot.sound]
'Verif.Props.Blend.C43_row' depends on axioms: [propext, Classical.choice, Quot.sound]
'Verif.Props.Blend.C43_pixels' depends on axioms: [propext, Classical.choice, Quot.sound]
'Verif.Props.C44_partial' depends on axioms: [propext, Classical.choice, Quot.sound]
'Verif.Props.C44_exact' depends on axioms: [propext, Classical.choice, Quot.sound]
'Verif.Props.C44_violated' depends on axioms: [propext, Classical.choice, Quot.sound]
'Verif.Props.Transform.C45_progress_partial' depends on axioms: [propext, Classical.choice, Quot.sound]
'Verif.Props.Transform.C45_bounce_violated' depends on axioms: [propext, Classical.choice, Quot.sound]
'Verif.Props.Alignment.C46_keypad' does not depend on any axioms
'Verif.Props.Alignment.C46_ssa_partial' depends on axioms: [propext]
'Verif.Props.Alignment.C46_rows_violated' depends on axioms: [propext]
'Verif.Props.Alignment.C46_agree_violated' depends on axioms: [propext]
'Verif.Props.C47_process_tag' depends on axioms: [propext, Quot.sound]
'Verif.Props.C47_process_section' depends on axioms: [propext, Quot.sound]
'Verif.Props.C47_duplicate' depends on axioms: [propext, Quot.sound]
'Verif.Props.C47_duplicate_section' depends on axioms: [propext, Quot.sound]
'Verif.Props.C47_remove' depends on axioms: [propext, Quot.sound]
'Verif.Props.C47_names' depends on axioms: [propext, Quot.sound]
'Verif.Props.C48_animation_max' depends on axioms: [propext, Classical.choice, Quot.sound]
'Verif.Props.C48_animation_monotone' depends on axioms: [propext, Classical.choice, Quot.sound]
'Verif.Props.C48_animation_total_partial' depends on axioms: [propext, Classical.choice, Quot.sound]
'Verif.Props.C48_animation_violated' depends on axioms: [propext, Classical.choice, Quot.sound]
'Verif.Props.C48_complexity' depends on axioms: [propext, Quot.sound]
'Verif.Props.C48_analyze' depends on axioms: [propext, Classical.choice, Quot.sound]
'Verif.Props.C49_total' depends on axioms: [propext, Classical.choice, Quot.sound]
'Verif.Props.C49_accepts' depends on axioms: [propext, Classical.choice, Quot.sound]
'Verif.Props.C49_pos_violated' depends on axioms: [propext, Classical.choice, Quot.sound]
'Verif.Props.C50_analyze' depends on axioms: [propext, Classical.choice, Quot.sound]
'Verif.Props.C50_symmetric' depends on axioms: [propext, Classical.choice, Quot.sound]
'Verif.Props.C50_relation' depends on axioms: [propext, Classical.choice, Quot.sound]
'Verif.Props.Segment.C51_stretches' depends on axioms: [propext, Classical.choice, Quot.sound]
'Verif.Props.Segment.C51_tagged' depends on axioms: [propext, Classical.choice, Quot.sound]
'Verif.Props.Segment.C51_unique' depends on axioms: [propext, Quot.sound]
'Verif.Props.Segment.C51_visible_partial' depends on axioms: [propext, Classical.choice, Quot.sound]
'Verif.Props.Segment.C51_drawing_violated' depends on axioms: [propext, Classical.choice, Quot.sound]
'Verif.Props.Segment.C51_backslash_violated' depends on axioms: [propext, Classical.choice, Quot.sound]
'Verif.Props.Segment.C51_total_violated' depends on axioms: [propext, Classical.choice, Quot.sound]
'Verif.Props.Segment.C52_split' depends on axioms: [propext, Classical.choice, Quot.sound]
'Verif.Props.Segment.C52_tags' depends on axioms: [propext, Classical.choice, Quot.sound]
'Verif.Props.C53_undo_execute_insert_partial' depends on axioms: [propext, Classical.choice, Quot.sound]
'Verif.Props.C53_undo_execute_violated' depends on axioms: [propext, Classical.choice, Quot.sound]
'Verif.Props.C53_set_property_violated' depends on axioms: [propext, Classical.choice, Quot.sound]
'Verif.Props.C54_operations' depends on axioms: [propext, Quot.sound]
'Verif.Props.C54_stats_violated' does not depend on any axioms
'Verif.Props.C54_stats_partial' depends on axioms: [propext, Classical.choice, Quot.sound]
'Verif.Props.C55_dependencies_violated' depends on axioms: [propext]
'Verif.Props.C55_unload_dependency_violated' depends on axioms: [propext, Quot.sound]
'Verif.Props.C55_dependencies_partial' depends on axioms: [propext, Classical.choice, Quot.sound]
'Verif.Props.C56_commands_stay_violated' depends on axioms: [propext]
'Verif.Props.C56_commands_stay_partial' depends on axioms: [propext, Classical.choice, Quot.sound]
'Verif.Props.C57_init_returns_violated' depends on axioms: [propext]
'Verif.Props.C57_init_returns_partial' depends on axioms: [propext]
'Verif.Props.C58_cycle_check_exact' depends on axioms: [propext, Quot.sound]
'Verif.Props.C59_write_region' depends on axioms: [propext, Classical.choice, Quot.sound]
'Verif.Props.C59_others_untouched' depends on axioms: [propext, Classical.choice, Quot.sound]
'Verif.Props.C59_in_bounds' depends on axioms: [propext, Quot.sound]
'Verif.Props.C59_others_untouched_violated' depends on axioms: [propext, Quot.sound]
'Verif.Props.C60_crop_exact' depends on axioms: [propext, Classical.choice, Quot.sound]
'Verif.Props.C60_scratch_clean' depends on axioms: [propext, Classical.choice, Quot.sound]
'Verif.Props.C61_incremental_violated' does not depend on any axioms
'Verif.Props.C61_paints_over_violated' depends on axioms: [propext]
'Verif.Props.C61_repaint' depends on axioms: [propext, Quot.sound]
'Verif.Props.C61_unchanged_partial' depends on axioms: [propext, Classical.choice, Quot.sound]
'Verif.Props.C62_independent_violated' depends on axioms: [propext, Classical.choice, Quot.sound]
'Verif.Props.C62_own_resolution_partial' depends on axioms: [propext]
'Verif.Props.C63_srt_roundtrip_partial' depends on axioms: [propext, Classical.choice, Quot.sound]
'Verif.Props.C63_srt_stripped_partial' depends on axioms: [propext, Classical.choice, Quot.sound]
'Verif.Props.C63_webvtt_roundtrip_partial' depends on axioms: [propext, Classical.choice, Quot.sound]
'Verif.Props.C63_srt_final_blank' depends on axioms: [propext, Classical.choice, Quot.sound]
'Verif.Props.C63_webvtt_final_blank' depends on axioms: [propext, Classical.choice, Quot.sound]
'Verif.Props.C63_blank_line_violated' depends on axioms: [propext, Classical.choice, Quot.sound]
'Verif.Props.C63_arrow_violated' depends on axioms: [propext, Classical.choice, Quot.sound]
'Verif.Props.C63_angle_violated' depends on axioms: [propext, Classical.choice, Quot.sound]
'Verif.Props.C64_outside' depends on axioms: [propext, Classical.choice, Quot.sound]
'Verif.Props.C64_set_all_partial' depends on axioms: [propext, Classical.choice, Quot.sound]
'Verif.Props.C64_offset_partial' depends on axioms: [propext, Classical.choice, Quot.sound]
'Verif.Props.C64_scale_partial' depends on axioms: [propext, Classical.choice, Quot.sound]
'Verif.Props.C64_custom_partial' depends on axioms: [propext, Classical.choice, Quot.sound]
'Verif.Props.C64_several_violated' depends on axioms: [propext, Classical.choice, Quot.sound]
'Verif.Props.C64_prefix_violated' depends on axioms: [propext, Classical.choice, Quot.sound]
'Verif.Props.C64_offset_violated' depends on axioms: [propext, Classical.choice, Quot.sound]
'Verif.Props.C64_unclosed_violated' depends on axioms: [propext, Classical.choice, Quot.sound]
'Verif.Props.C65_delete' depends on axioms: [propext, Classical.choice, Quot.sound]
'Verif.Props.C65_missing' depends on axioms: [propext, Classical.choice, Quot.sound]
'Verif.Props.C65_batch' depends on axioms: [propext, Classical.choice, Quot.sound]
'Verif.Props.C65_unterminated_violated' depends on axioms: [propext, Classical.choice, Quot.sound]
'Verif.Props.C66_merge_partial' depends on axioms: [propext, Classical.choice, Quot.sound]
'Verif.Props.C66_merge_between_violated' depends on axioms: [propext, Classical.choice, Quot.sound]
'Verif.Props.C66_merge_last_violated' depends on axioms: [propext, Classical.choice, Quot.sound]
'Verif.Props.C66_split_partial' depends on axioms: [propext, Classical.choice, Quot.sound]
'Verif.Props.C66_split_outside' depends on axioms: [propext, Classical.choice, Quot.sound]
'Verif.Props.C67_create_partial' depends on axioms: [propext, Classical.choice, Quot.sound]
'Verif.Props.C67_create_section' depends on axioms: [propext, Classical.choice, Quot.sound]
'Verif.Props.C67_before_format_violated' depends on axioms: [propext, Classical.choice, Quot.sound]
'Verif.Props.C67_duplicate_violated' depends on axioms: [propext, Classical.choice, Quot.sound]
'Verif.Props.C68_apply_partial' depends on axioms: [propext, Classical.choice, Quot.sound]
'Verif.Props.C68_filter_partial' depends on axioms: [propext, Classical.choice, Quot.sound]
'Verif.Props.C68_filter_violated' depends on axioms: [propext, Classical.choice, Quot.sound]
'Verif.Props.C68_length_violated' depends on axioms: [propext, Classical.choice, Quot.sound]
'Verif.Props.C68_text_violated' depends on axioms: [propext, Classical.choice, Quot.sound]
'Verif.Props.C68_blanks_violated' depends on axioms: [propext, Classical.choice, Quot.sound]
'Verif.Props.C68_again' depends on axioms: [propext, Classical.choice, Quot.sound]
'Verif.Props.C69_same_tags' depends on axioms: [propext, Classical.choice, Quot.sound]
'Verif.Props.C70_find_partial' depends on axioms: [propext, Classical.choice, Quot.sound]
'Verif.Props.C70_empty_violated' depends on axioms: [propext, Quot.sound]
'Verif.Props.C71_total' depends on axioms: [propext, Quot.sound]
'Verif.Props.C71_average_partial' depends on axioms: [propext, Quot.sound]
'Verif.Props.C71_duration_partial' depends on axioms: [propext, Quot.sound]
'Verif.Props.C71_overflow_violated' depends on axioms: [propext, Classical.choice, Quot.sound]
'Verif.Props.C72_sort' depends on axioms: [propext, Classical.choice, Quot.sound]
'Verif.C73_events' depends on axioms: [propext, Classical.choice, Quot.sound]
'Verif.C73_styles' depends on axioms: [propext, Classical.choice, Quot.sound]
'Verif.Props.C73_order' depends on axioms: [propext, Classical.choice, Quot.sound]
'Verif.C74_lines_partial' depends on axioms: [propext, Classical.choice, Quot.sound]
'Verif.C74_blank_violated' depends on axioms: [propext, Classical.choice, Quot.sound]
'Verif.Parser.C75_round_trip_partial' depends on axioms: [propext, Classical.choice, Quot.sound]
'Verif.Parser.C75_formats_violated' depends on axioms: [propext, Classical.choice, Quot.sound]
'Verif.Parser.C75_files_violated' depends on axioms: [propext, Classical.choice, Quot.sound]
'Verif.Parser.C75_parent_violated' depends on axioms: [propext, Classical.choice, Quot.sound]
'Verif.C76_fonts_partial' depends on axioms: [propext, Classical.choice, Quot.sound]
'Verif.C76_graphics_partial' depends on axioms: [propext, Classical.choice, Quot.sound]
'Verif.C76_add_partial' depends on axioms: [propext, Classical.choice, Quot.sound]
'Verif.C76_length_violated' depends on axioms: [propext, Classical.choice, Quot.sound]
'Verif.C76_second_violated' depends on axioms: [propext, Classical.choice, Quot.sound]
'Verif.C77_list' depends on axioms: [propext, Classical.choice, Quot.sound]
'Verif.C77_list_none' depends on axioms: [propext, Classical.choice, Quot.sound]
'Verif.C77_add_new' depends on axioms: [propext, Classical.choice, Quot.sound]
'Verif.C77_add_partial' depends on axioms: [propext, Classical.choice, Quot.sound]
'Verif.C77_add_violated' depends on axioms: [propext, Classical.choice, Quot.sound]
'Verif.C77_clear' depends on axioms: [propext, Classical.choice, Quot.sound]
'Verif.C77_remove_partial' depends on axioms: [propext, Classical.choice, Quot.sound]
'Verif.C77_remove_prefix_violated' depends on axioms: [propext, Classical.choice, Quot.sound]
'Verif.C77_remove_extent_violated' depends on axioms: [propext, Classical.choice, Quot.sound]
'Verif.Props.MediaHistory.C77_history_partial' depends on axioms: [propext, Classical.choice, Quot.sound]
'Verif.Props.MediaOps.C77_exists' depends on axioms: [propext, Classical.choice, Quot.sound]
'Verif.Props.MediaOps.C77_asking_partial' depends on axioms: [propext, Classical.choice, Quot.sound]
'Verif.Props.MediaOps.C77_exists_violated' depends on axioms: [propext, Classical.choice, Quot.sound]
'Verif.Props.Blend.C78_coverage_partial' depends on axioms: [propext, Classical.choice, Quot.sound]
'Verif.Props.Blend.C78_bitmap_partial' depends on axioms: [propext, Classical.choice, Quot.sound]
'Verif.Props.Blend.C78_far_violated' depends on axioms: [propext, Quot.sound]
'Verif.Props.Transform.C79_parse_partial' depends on axioms: [propext, Classical.choice, Quot.sound]
'Verif.Props.Transform.C79_alpha_violated' depends on axioms: [propext, Classical.choice, Quot.sound]
'Verif.Props.Transform.C79_accel_violated' depends on axioms: [propext, Classical.choice, Quot.sound]
'Verif.Props.Transform.C80_ends' depends on axioms: [propext, Classical.choice, Quot.sound]
'Verif.Props.Transform.C80_during_partial' depends on axioms: [propext, Classical.choice, Quot.sound]
'Verif.Props.Transform.C80_style_violated' depends on axioms: [propext, Classical.choice, Quot.sound]
'Verif.Props.Transform.C80_time_partial' depends on axioms: [propext, Classical.choice, Quot.sound]
'Verif.Props.Transform.C80_late_violated' depends on axioms: [propext, Classical.choice, Quot.sound]
'Verif.Props.Segment.C81_block' depends on axioms: [propext, Classical.choice, Quot.sound]
'Verif.Props.Segment.C81_segment_partial' depends on axioms: [propext, Classical.choice, Quot.sound]
'Verif.Props.Segment.C81_tagged_partial' depends on axioms: [propext, Classical.choice, Quot.sound]
'Verif.Props.Segment.C81_no_tags' depends on axioms: [propext, Classical.choice, Quot.sound]
'Verif.Props.Segment.C81_reset' depends on axioms: [propext, Classical.choice, Quot.sound]
'Verif.Props.Segment.C81_unknown' depends on axioms: [propext, Classical.choice, Quot.sound]
'Verif.Props.Segment.C81_reset_style_violated' depends on axioms: [propext, Classical.choice, Quot.sound]
'Verif.Props.Segment.C81_reset_position_violated' depends on axioms: [propext, Classical.choice, Quot.sound]
'Verif.Props.Segment.C81_no_argument_violated' depends on axioms: [propext, Classical.choice, Quot.sound]
'Verif.Props.Segment.C81_legacy_alignment_violated' depends on axioms: [propext, Classical.choice, Quot.sound]
'Verif.Props.Segment.C81_vector_clip_violated' depends on axioms: [propext, Classical.choice, Quot.sound]
'Verif.Props.C82_duration' depends on axioms: [propext, Classical.choice, Quot.sound]
'Verif.Props.C82_style_partial' depends on axioms: [propext, Classical.choice, Quot.sound]
'Verif.Props.C82_style_colour' depends on axioms: [propext, Classical.choice, Quot.sound]
'Verif.Props.C82_characters' depends on axioms: [propext, Classical.choice, Quot.sound]
'Verif.Props.C82_overlap_partial' depends on axioms: [propext, Classical.choice, Quot.sound]
'Verif.Props.C82_inherited_violated' depends on axioms: [propext, Classical.choice, Quot.sound]
'Verif.Props.C82_second_section_violated' depends on axioms: [propext, Classical.choice, Quot.sound]
'Verif.Props.C82_comment_violated' depends on axioms: [propext, Classical.choice, Quot.sound]
'Verif.Props.C82_overlap_violated' depends on axioms: [propext, Classical.choice, Quot.sound]
'Verif.Props.C82_tag_colour_violated' depends on axioms: [propext, Classical.choice, Quot.sound]
'Verif.Props.C82_unknown_tag_violated' depends on axioms: [propext, Classical.choice, Quot.sound]
'Verif.Props.C82_short_violated' depends on axioms: [propext, Classical.choice, Quot.sound]
'Verif.Props.C82_total_violated' depends on axioms: [propext, Classical.choice, Quot.sound]
'Verif.Props.C83_config' depends on axioms: [propext, Classical.choice, Quot.sound]
'Verif.Props.C83_sound' depends on axioms: [propext, Classical.choice, Quot.sound]
'Verif.Props.C84_section' depends on axioms: [propext, Classical.choice, Quot.sound]
'Verif.Props.C84_format_partial' depends on axioms: [propext, Classical.choice, Quot.sound]
'Verif.Props.C84_format_violated' depends on axioms: [propext, Classical.choice, Quot.sound]
'Verif.Props.C84_styles_violated' depends on axioms: [propext, Classical.choice, Quot.sound]
'Verif.Props.C85_greedy' depends on axioms: [propext, Classical.choice, Quot.sound]
'Verif.Props.C85_balanced_partial' depends on axioms: [propext, Classical.choice, Quot.sound]
'Verif.Props.C85_violated' depends on axioms: [propext, Classical.choice, Quot.sound]
'Verif.Props.C86_refused_violated' depends on axioms: [propext, Classical.choice, Quot.sound]
'Verif.Props.C86_update' depends on axioms: [propext, Classical.choice, Quot.sound]
'Verif.Props.C86_event_partial' depends on axioms: [propext, Classical.choice, Quot.sound]
'Verif.Props.C86_style_partial' depends on axioms: [propext, Classical.choice, Quot.sound]
'Verif.Props.C86_batch' depends on axioms: [propext, Classical.choice, Quot.sound]
'Verif.Props.C86_again_violated' depends on axioms: [propext, Classical.choice, Quot.sound]
'Verif.Props.C86_last_violated' depends on axioms: [propext, Classical.choice, Quot.sound]
'Verif.Props.C86_field_violated' depends on axioms: [propext, Classical.choice, Quot.sound]
'Verif.Props.C86_add' depends on axioms: [propext, Quot.sound]
'Verif.Props.C87_update_partial' depends on axioms: [propext, Classical.choice, Quot.sound]
'Verif.Props.C87_sections' depends on axioms: [propext, Quot.sound]
'Verif.Props.C87_off' depends on axioms: [propext, Classical.choice, Quot.sound]
'Verif.Props.C87_empty_violated' depends on axioms: [propext, Classical.choice, Quot.sound]
'Verif.Props.C87_add_violated' depends on axioms: [propext, Classical.choice, Quot.sound]
'Verif.Props.C88_equal' depends on axioms: [propext, Quot.sound]
'Verif.Props.C88_replay_partial' depends on axioms: [propext, Quot.sound]
'Verif.Props.C88_removed_violated' depends on axioms: [propext, Quot.sound]
'Verif.Props.C89_carried_partial' depends on axioms: [propext, Classical.choice, Quot.sound]
'Verif.Props.C89_empty_partial' depends on axioms: [propext, Classical.choice, Quot.sound]
'Verif.Props.C89_self_violated' depends on axioms: [propext, Classical.choice, Quot.sound]
'Verif.Props.C89_second_violated' depends on axioms: [propext, Classical.choice, Quot.sound]
'Verif.Props.C89_issues_violated' depends on axioms: [propext, Classical.choice, Quot.sound]
'Verif.Props.C90_contents_partial' depends on axioms: [propext, Classical.choice, Quot.sound]
'Verif.Props.C90_places_partial' depends on axioms: [propext, Classical.choice, Quot.sound]
'Verif.Props.C90_format_violated' depends on axioms: [propext, Classical.choice, Quot.sound]
'Verif.Props.C90_insert_violated' depends on axioms: [propext, Classical.choice, Quot.sound]
'Verif.Props.C90_dropped_violated' depends on axioms: [propext, Classical.choice, Quot.sound]
'Verif.Props.C90_spans_violated' depends on axioms: [propext, Classical.choice, Quot.sound]
'Verif.Props.C90_stale_violated' depends on axioms: [propext, Classical.choice, Quot.sound]
'Verif.Props.C90_version_violated' depends on axioms: [propext, Classical.choice, Quot.sound]
'Verif.Props.C90_remark_violated' depends on axioms: [propext, Classical.choice, Quot.sound]
'Verif.Props.C91_range' depends on axioms: [propext, Classical.choice, Quot.sound]
'Verif.Props.C91_source' depends on axioms: [propext, Classical.choice, Quot.sound]
'Verif.Props.C91_lines' depends on axioms: [propext, Quot.sound]
'Verif.Props.C91_end_violated' depends on axioms: [propext, Classical.choice, Quot.sound]
'Verif.Props.C92_token_partial' depends on axioms: [propext, Classical.choice, Quot.sound]
'Verif.Props.C92_column_violated' depends on axioms: [propext, Classical.choice, Quot.sound]
'Verif.Props.C92_line_violated' depends on axioms: [propext, Classical.choice, Quot.sound]
'Verif.Props.C93_delimiters' depends on axioms: [propext, Classical.choice, Quot.sound]
'Verif.Props.C93_hex' depends on axioms: [propext, Classical.choice, Quot.sound]
'Verif.Props.C93_plus_violated' depends on axioms: [propext, Classical.choice, Quot.sound]
'Verif.Props.C93_tokens_partial' depends on axioms: [propext, Classical.choice, Quot.sound]
'Verif.Props.C93_comment_violated' depends on axioms: [propext, Classical.choice, Quot.sound]
'Verif.Props.C93_utf8_partial' depends on axioms: [propext, Quot.sound]
'Verif.Props.C93_position_violated' depends on axioms: [propext, Quot.sound]
'Verif.Props.C94_validate' depends on axioms: [propext, Quot.sound]
'Verif.Props.C94_recover_partial' depends on axioms: [propext, Quot.sound]
'Verif.Props.C94_count_violated' depends on axioms: [propext, Quot.sound]
'Verif.Props.C94_contents' depends on axioms: [propext, Classical.choice, Quot.sound]
'Verif.Props.C94_detect' depends on axioms: [propext, Quot.sound]
'Verif.Props.C94_bom_partial' depends on axioms: [propext, Classical.choice, Quot.sound]
'Verif.Props.C94_bom_violated' does not depend on any axioms
'Verif.Props.C95_insert' depends on axioms: [propext, Classical.choice, Quot.sound]
'Verif.Props.C95_braces_violated' depends on axioms: [propext, Classical.choice, Quot.sound]
'Verif.Props.C95_range' depends on axioms: [propext, Quot.sound]
'Verif.Props.C95_remove_all_partial' depends on axioms: [propext, Classical.choice, Quot.sound]
'Verif.Props.C95_remove_partial' depends on axioms: [propext, Classical.choice, Quot.sound]
'Verif.Props.C95_replace_all_partial' depends on axioms: [propext, Classical.choice, Quot.sound]
'Verif.Props.C95_replace_first_partial' depends on axioms: [propext, Classical.choice, Quot.sound]
'Verif.Props.C95_list_partial' depends on axioms: [propext, Classical.choice, Quot.sound]
'Verif.Props.C95_place_violated' depends on axioms: [propext, Classical.choice, Quot.sound]
'Verif.Props.C95_prefix_violated' depends on axioms: [propext, Classical.choice, Quot.sound]
'Verif.Props.C95_comment_violated' depends on axioms: [propext, Classical.choice, Quot.sound]
'Verif.Props.C95_pattern_violated' depends on axioms: [propext, Classical.choice, Quot.sound]
'Verif.Props.C95_unclosed_violated' depends on axioms: [propext, Classical.choice, Quot.sound]
'Verif.Props.C95_wrap' depends on axioms: [propext, Classical.choice, Quot.sound]
'Verif.Props.C95_closing_partial' depends on axioms: [propext, Classical.choice, Quot.sound]
'Verif.Props.C95_closing_violated' depends on axioms: [propext, Classical.choice, Quot.sound]
'Verif.Props.C96_query_partial' depends on axioms: [propext, Classical.choice, Quot.sound]
'Verif.Props.C96_line_violated' depends on axioms: [propext, Classical.choice, Quot.sound]
'Verif.Props.C96_regex_violated' depends on axioms: [propext]
'Verif.Props.C96_time_violated' depends on axioms: [propext, Classical.choice, Quot.sound]
'Verif.Props.C96_overflow_violated' depends on axioms: [propext, Classical.choice, Quot.sound]
'Verif.Props.C96_chain_violated' depends on axioms: [propext]
'Verif.Props.C97_event_partial' depends on axioms: [propext, Classical.choice, Quot.sound]
'Verif.Props.C97_refused' depends on axioms: [propext, Classical.choice, Quot.sound]
'Verif.Props.C97_event_default_partial' depends on axioms: [propext, Classical.choice, Quot.sound]
'Verif.Props.C97_ssa' depends on axioms: [propext, Classical.choice, Quot.sound]
'Verif.Props.C97_margins_violated' depends on axioms: [propext, Classical.choice, Quot.sound]
'Verif.Props.C97_comma_violated' depends on axioms: [propext, Classical.choice, Quot.sound]
'Verif.Props.C97_break_violated' depends on axioms: [propext, Classical.choice, Quot.sound]
'Verif.Props.C97_style_partial' depends on axioms: [propext, Classical.choice, Quot.sound]
'Verif.Props.C97_versions_partial' depends on axioms: [propext, Classical.choice, Quot.sound]
'Verif.Props.C97_old_style_violated' depends on axioms: [propext, Classical.choice, Quot.sound]
'Verif.Props.C98_apply_partial' depends on axioms: [propext, Classical.choice, Quot.sound]
'Verif.Props.C98_nothing' depends on axioms: [propext, Classical.choice, Quot.sound]
'Verif.Props.C98_unrecorded' depends on axioms: [propext, Classical.choice, Quot.sound]
'Verif.Props.C98_undo_violated' depends on axioms: [propext, Classical.choice, Quot.sound]
'Verif.Props.C98_undo_earlier_violated' depends on axioms: [propext, Classical.choice, Quot.sound]
'Verif.Props.C98_atomic_violated' depends on axioms: [propext, Classical.choice, Quot.sound]
'Verif.Props.C98_duplicate_violated' depends on axioms: [propext, Classical.choice, Quot.sound]
'Verif.Props.C98_comment_violated' depends on axioms: [propext, Classical.choice, Quot.sound]
'Verif.Props.ExportMarkup.C99_srt_blocks_partial' depends on axioms: [propext, Classical.choice, Quot.sound]
'Verif.Props.ExportMarkup.C99_vtt_blocks_partial' depends on axioms: [propext, Classical.choice, Quot.sound]
'Verif.Props.C99_srt_import_partial' depends on axioms: [propext, Classical.choice, Quot.sound]
'Verif.Props.C99_vtt_import_partial' depends on axioms: [propext, Classical.choice, Quot.sound]
'Verif.Props.C99_vtt_headless_partial' depends on axioms: [propext, Classical.choice, Quot.sound]
'Verif.Props.C99_srt_export_partial' depends on axioms: [propext, Classical.choice, Quot.sound]
'Verif.Props.C99_vtt_export_partial' depends on axioms: [propext, Classical.choice, Quot.sound]
'Verif.Props.C99_srt_round_trip_partial' depends on axioms: [propext, Classical.choice, Quot.sound]
'Verif.Props.C99_vtt_round_trip_partial' depends on axioms: [propext, Classical.choice, Quot.sound]
'Verif.Props.C99_colour_export_violated' depends on axioms: [propext, Classical.choice, Quot.sound]
'Verif.Props.C99_colour_import_violated' depends on axioms: [propext, Classical.choice, Quot.sound]
'Verif.Props.C99_empty_line_violated' depends on axioms: [propext, Classical.choice, Quot.sound]
'Verif.Props.C99_empty_text_violated' depends on axioms: [propext, Classical.choice, Quot.sound]
'Verif.Props.C99_warning_violated' depends on axioms: [propext, Classical.choice, Quot.sound]
'Verif.Props.C99_soft_break_violated' depends on axioms: [propext, Classical.choice, Quot.sound]
'Verif.Props.C99_cut_off_violated' depends on axioms: [propext, Classical.choice, Quot.sound]
'Verif.Props.C99_position_violated' depends on axioms: [propext, Classical.choice, Quot.sound]
'Verif.Props.C99_brackets_violated' depends on axioms: [propext, Classical.choice, Quot.sound]
'Verif.Props.Markup.C99_vtt_markup_partial' depends on axioms: [propext, Classical.choice, Quot.sound]
'Verif.Props.Markup.C99_srt_markup_partial' depends on axioms: [propext, Classical.choice, Quot.sound]
'Verif.Props.Markup.C99_font_end_violated' depends on axioms: [propext, Classical.choice, Quot.sound]
'Verif.Props.Markup.C99_font_text_violated' depends on axioms: [propext, Classical.choice, Quot.sound]
'Verif.Props.C100_style' depends on axioms: [propext, Classical.choice, Quot.sound]
'Verif.Props.C100_true_violated' depends on axioms: [propext, Classical.choice, Quot.sound]
'Verif.Props.C100_score' depends on axioms: [propext, Classical.choice, Quot.sound]
'Verif.Props.C100_parent_partial' depends on axioms: [propext, Classical.choice, Quot.sound]
'Verif.Props.C100_zero_violated' depends on axioms: [propext, Classical.choice, Quot.sound]
'Verif.Props.C100_hundred_violated' depends on axioms: [propext, Classical.choice, Quot.sound]
'Verif.Props.C100_flag_violated' depends on axioms: [propext, Classical.choice, Quot.sound]
'Verif.Props.C100_analyzer_partial' depends on axioms: [propext, Classical.choice, Quot.sound]
'Verif.Props.C100_no_styles' depends on axioms: [propext, Classical.choice, Quot.sound]
'Verif.Props.C100_sections_violated' depends on axioms: [propext, Classical.choice, Quot.sound]
'Verif.Props.C100_conflicts' depends on axioms: [propext, Quot.sound]
'Verif.Props.C100_circle_violated' depends on axioms: [propext, Classical.choice, Quot.sound]
'Verif.Props.C100_inheritance_info_partial' depends on axioms: [propext, Quot.sound]
'Verif.Props.C100_children_violated' depends on axioms: [propext, Classical.choice, Quot.sound]
'Verif.Props.C100_depth_violated' depends on axioms: [propext, Classical.choice, Quot.sound]
'Verif.Props.C100_size_error_violated' depends on axioms: [propext, Classical.choice, Quot.sound]
'Verif.Props.C100_validation_partial' depends on axioms: [propext, Classical.choice, Quot.sound]
'Verif.Props.C101_tokens' depends on axioms: [propext, Classical.choice, Quot.sound]
'Verif.Props.C101_commands_partial' depends on axioms: [propext, Classical.choice, Quot.sound]
'Verif.Props.C101_path_partial' depends on axioms: [propext, Classical.choice, Quot.sound]
'Verif.Props.C101_rejects_partial' depends on axioms: [propext, Classical.choice, Quot.sound]
'Verif.Props.C101_lone_partial' depends on axioms: [propext, Classical.choice, Quot.sound]
'Verif.Props.C101_broken' depends on axioms: [propext, Classical.choice, Quot.sound]
'Verif.Props.C101_leftover' depends on axioms: [propext, Classical.choice, Quot.sound]
'Verif.Props.C101_tag_ends' depends on axioms: [propext, Classical.choice, Quot.sound]
'Verif.Props.C101_bspline_violated' depends on axioms: [propext, Classical.choice, Quot.sound]
'Verif.Props.C101_splines_same' depends on axioms: [propext, Classical.choice, Quot.sound]
'Verif.Props.C101_exponent_violated' depends on axioms: [propext, Classical.choice, Quot.sound]
'Verif.Props.C101_discarded_violated' depends on axioms: [propext, Classical.choice, Quot.sound]
'Verif.Props.C101_incomplete_violated' depends on axioms: [propext, Classical.choice, Quot.sound]
'Verif.Props.C101_aligned' depends on axioms: [propext, Classical.choice, Quot.sound]
'Verif.Props.C101_moving' depends on axioms: [propext, Classical.choice, Quot.sound]
'Verif.Props.C101_late_violated' depends on axioms: [propext, Classical.choice, Quot.sound]
'Verif.Props.C101_level_violated' depends on axioms: [propext, Classical.choice, Quot.sound]
'Verif.Props.C101_unplaced_violated' depends on axioms: [propext, Classical.choice, Quot.sound]
'Verif.Props.C102_tokens_partial' depends on axioms: [propext, Classical.choice, Quot.sound]
'Verif.Props.C102_ranges_partial' depends on axioms: [propext, Classical.choice, Quot.sound]
'Verif.Props.C102_limit' depends on axioms: [propext, Classical.choice, Quot.sound]
'Verif.Props.C102_cache' depends on axioms: [propext, Classical.choice, Quot.sound]
'Verif.Props.C102_stale_violated' depends on axioms: [propext, Classical.choice, Quot.sound]
'Verif.Props.C102_carriage_violated' depends on axioms: [propext, Classical.choice, Quot.sound]
'Verif.Props.C102_style_violated' depends on axioms: [propext, Classical.choice, Quot.sound]
'Verif.Props.C102_empty_violated' depends on axioms: [propext, Classical.choice, Quot.sound]
'Verif.Props.C102_limit_violated' depends on axioms: [propext, Classical.choice, Quot.sound]
'Verif.Props.C103_place' depends on axioms: [propext, Classical.choice, Quot.sound]
'Verif.Props.C103_one_section' depends on axioms: [propext, Quot.sound]
'Verif.Props.C103_panics' depends on axioms: [propext, Classical.choice, Quot.sound]
'Verif.Props.C103_offers_partial' depends on axioms: [propext, Classical.choice, Quot.sound]
'Verif.Props.C103_header_violated' depends on axioms: [propext, Classical.choice, Quot.sound]
'Verif.Props.C103_tags_violated' depends on axioms: [propext, Classical.choice, Quot.sound]
'Verif.Props.C103_field_violated' depends on axioms: [propext, Classical.choice, Quot.sound]
'Verif.Props.C104_alone_partial' depends on axioms: [propext, Classical.choice, Quot.sound]
'Verif.Props.C104_block_partial' depends on axioms: [propext, Classical.choice, Quot.sound]
'Verif.Props.C104_pinned_partial' depends on axioms: [propext, Classical.choice, Quot.sound]
'Verif.Props.C104_pinned_lines_violated' depends on axioms: [propext, Classical.choice, Quot.sound]
'Verif.Props.C104_stretched_violated' depends on axioms: [propext, Classical.choice, Quot.sound]
'Verif.Props.C104_centre_violated' depends on axioms: [propext, Classical.choice, Quot.sound]
'Verif.Props.C104_zero_violated' depends on axioms: [propext, Classical.choice, Quot.sound]
'Verif.Props.C104_default_violated' depends on axioms: [propext, Classical.choice, Quot.sound]
'Verif.Props.C105_style_colour' depends on axioms: [propext, Classical.choice, Quot.sound]
'Verif.Props.C105_style_colour_short' depends on axioms: [propext, Classical.choice, Quot.sound]
'Verif.Props.C105_style_colour_violated' depends on axioms: [propext, Classical.choice, Quot.sound]
'Verif.Props.C105_colours_partial' depends on axioms: [propext, Classical.choice, Quot.sound]
'Verif.Props.C105_fad_partial' depends on axioms: [propext, Classical.choice, Quot.sound]
'Verif.Props.C105_fade_partial' depends on axioms: [propext, Classical.choice, Quot.sound]
'Verif.Props.C105_alpha_violated' depends on axioms: [propext, Classical.choice, Quot.sound]
'Verif.Props.C105_alpha_order_violated' depends on axioms: [propext, Classical.choice, Quot.sound]
'Verif.Props.C105_fade_violated' depends on axioms: [propext, Classical.choice, Quot.sound]
'Verif.Props.C105_overflow_violated' depends on axioms: [propext, Classical.choice, Quot.sound]
'Verif.Props.C106_switches_partial' depends on axioms: [propext, Classical.choice, Quot.sound]
'Verif.Props.C106_border_partial' depends on axioms: [propext, Classical.choice, Quot.sound]
'Verif.Props.C106_shadow_partial' depends on axioms: [propext, Classical.choice, Quot.sound]
'Verif.Props.C106_blur' depends on axioms: [propext, Classical.choice, Quot.sound]
'Verif.Props.C106_rotation_partial' depends on axioms: [propext, Classical.choice, Quot.sound]
'Verif.Props.C106_shear_partial' depends on axioms: [propext, Classical.choice, Quot.sound]
'Verif.Props.C106_scale' depends on axioms: [propext, Classical.choice, Quot.sound]
'Verif.Props.C106_clip' depends on axioms: [propext, Classical.choice, Quot.sound]
'Verif.Props.C106_once' depends on axioms: [propext, Classical.choice, Quot.sound]
'Verif.Props.C106_bold_violated' depends on axioms: [propext, Classical.choice, Quot.sound]
'Verif.Props.C106_border_violated' depends on axioms: [propext, Classical.choice, Quot.sound]
'Verif.Props.C106_border_order_violated' depends on axioms: [propext, Classical.choice, Quot.sound]
'Verif.Props.C106_shear_violated' depends on axioms: [propext, Classical.choice, Quot.sound]
'Verif.Props.C106_angle_violated' depends on axioms: [propext, Classical.choice, Quot.sound]
'Verif.Props.C107_lines_partial' depends on axioms: [propext, Quot.sound]
'Verif.Props.C107_lines_violated' depends on axioms: [propext, Classical.choice, Quot.sound]
'Verif.Props.C107_karaoke_partial' depends on axioms: [propext, Classical.choice, Quot.sound]
'Verif.Props.C107_unsung' depends on axioms: [propext]
'Verif.Props.C107_alpha_violated' depends on axioms: [propext, Classical.choice, Quot.sound]
'Verif.Props.C107_second_line_violated' depends on axioms: [propext, Classical.choice, Quot.sound]
'Verif.Props.C107_split_syllable_violated' depends on axioms: [propext, Classical.choice, Quot.sound]
'Verif.Props.C107_drawing_violated' depends on axioms: [propext, Classical.choice, Quot.sound]
'Verif.Props.C108_stacked_partial' depends on axioms: [propext, Classical.choice, Quot.sound]
'Verif.Props.C108_row' depends on axioms: [propext, Classical.choice, Quot.sound]
'Verif.Props.C108_pinned_ignored' depends on axioms: [propext, Classical.choice, Quot.sound]
'Verif.Props.C108_total' depends on axioms: [propext, Classical.choice, Quot.sound]
'Verif.Props.C108_frame_violated' depends on axioms: [propext, Classical.choice, Quot.sound]
'Verif.Props.C108_leaves_frame_violated' depends on axioms: [propext, Classical.choice, Quot.sound]
'Verif.Props.C108_mention_violated' depends on axioms: [propext, Classical.choice, Quot.sound]
'Verif.Props.C108_unknown_style_violated' depends on axioms: [propext, Classical.choice, Quot.sound]
'Verif.Props.C109_search' depends on axioms: [propext, Classical.choice, Quot.sound]
'Verif.Props.C109_limit' depends on axioms: [propext]
'Verif.Props.C109_place_partial' depends on axioms: [propext, Classical.choice, Quot.sound]
'Verif.Props.C109_place_violated' depends on axioms: [propext, Classical.choice, Quot.sound]
'Verif.Props.C109_found_violated' depends on axioms: [propext, Classical.choice, Quot.sound]
'Verif.Props.C109_case_violated' depends on axioms: [propext, Classical.choice, Quot.sound]
'Verif.Props.C109_replace_violated' depends on axioms: [propext, Classical.choice, Quot.sound]
'Verif.Props.C109_linear' depends on axioms: [propext, Classical.choice, Quot.sound]
'Verif.Props.C109_linear_place_violated' depends on axioms: [propext, Classical.choice, Quot.sound]
'Verif.Props.C109_linear_limit_violated' depends on axioms: [propext, Classical.choice, Quot.sound]
'Verif.Props.C109_linear_replace_violated' depends on axioms: [propext, Classical.choice, Quot.sound]
'Verif.Props.C110_lines_partial' depends on axioms: [propext, Classical.choice, Quot.sound]
'Verif.Props.C110_first_line_violated' depends on axioms: [propext, Classical.choice, Quot.sound]
'Verif.Props.C110_beyond_violated' depends on axioms: [propext, Classical.choice, Quot.sound]
'Verif.Props.C110_sections_violated' depends on axioms: [propext]
'Verif.Props.C110_whole_words_violated' depends on axioms: [propext, Classical.choice, Quot.sound]
'Verif.Props.C110_range_violated' depends on axioms: [propext, Classical.choice, Quot.sound]
'Verif.Props.C110_regex_partial' depends on axioms: [propext, Classical.choice, Quot.sound]
'Verif.Props.C110_regex_refused' depends on axioms: [propext]
'Verif.Props.C110_regex_replace_partial' depends on axioms: [propext, Classical.choice, Quot.sound]
'Verif.Props.C110_stale_violated' depends on axioms: [propext, Classical.choice, Quot.sound]
'Verif.Props.C111_build' depends on axioms: [propext, Quot.sound]
'Verif.Props.C111_rebuild' depends on axioms: [propext, Quot.sound]
'Verif.Props.C111_single_partial' depends on axioms: [propext, Classical.choice, Quot.sound]
'Verif.Props.C111_shift_violated' depends on axioms: [propext, Classical.choice, Quot.sound]
'Verif.Props.C111_cut_violated' depends on axioms: [propext, Classical.choice, Quot.sound]
'Verif.Props.C111_panic_violated' depends on axioms: [propext, Classical.choice, Quot.sound]
'Verif.Props.C111_no_ranges_violated' does not depend on any axioms
'Verif.Props.C112_serial' depends on axioms: [propext, Classical.choice, Quot.sound]
'Verif.Props.C112_alone' depends on axioms: [propext, Classical.choice, Quot.sound]
'Verif.Props.C112_progress' depends on axioms: [propext, Classical.choice, Quot.sound]
'Verif.Props.C112_end' depends on axioms: [propext, Classical.choice, Quot.sound]
'Verif.Props.C112_panic' depends on axioms: [propext, Classical.choice, Quot.sound]
'Verif.Props.C112_undo_violated' depends on axioms: [propext, Classical.choice, Quot.sound]
'Verif.Props.C112_pool_partial' depends on axioms: [propext, Classical.choice, Quot.sound]
'Verif.Props.C112_pool_violated' depends on axioms: [propext, Classical.choice, Quot.sound]
'Verif.Props.C113_order' depends on axioms: [propext, Classical.choice, Quot.sound]
'Verif.Props.C113_stop' depends on axioms: [propext]
'Verif.Props.C113_nested' depends on axioms: [propext, Classical.choice, Quot.sound]
'Verif.Props.C113_atomic_violated' depends on axioms: [propext, Classical.choice, Quot.sound]
'Verif.Props.C113_range_partial' depends on axioms: [propext, Classical.choice, Quot.sound]
'Verif.Props.C113_range_violated' depends on axioms: [propext, Classical.choice, Quot.sound]
'Verif.Props.C113_undo_partial' depends on axioms: [propext, Classical.choice, Quot.sound]
'Verif.Props.C113_typed_partial' depends on axioms: [propext, Classical.choice, Quot.sound]
'Verif.Props.C113_undo_violated' depends on axioms: [propext, Classical.choice, Quot.sound]
'Verif.Props.C113_direct_violated' depends on axioms: [propext, Classical.choice, Quot.sound]
'Verif.Props.C114_size' depends on axioms: [propext, Classical.choice, Quot.sound]
'Verif.Props.C114_local' depends on axioms: [propext, Classical.choice, Quot.sound]
'Verif.Props.C114_between' depends on axioms: [propext, Classical.choice, Quot.sound]
'Verif.Props.C114_flat' depends on axioms: [propext, Classical.choice, Quot.sound]
'Verif.Props.C114_more' depends on axioms: [propext, Classical.choice, Quot.sound]
'Verif.Props.C114_mirror' depends on axioms: [propext, Classical.choice, Quot.sound]
'Verif.Props.C114_room' depends on axioms: [propext, Classical.choice, Quot.sound]
'Verif.Props.C114_colour' depends on axioms: [propext, Classical.choice, Quot.sound]
'Verif.Props.C114_premultiplied_violated' depends on axioms: [propext, Classical.choice, Quot.sound]
'Verif.Props.C114_text_room_partial' depends on axioms: [propext, Classical.choice, Quot.sound]
'Verif.Props.C114_drawing_room_partial' depends on axioms: [propext, Classical.choice, Quot.sound]
'Verif.Props.C114_text_room_violated' depends on axioms: [propext, Classical.choice, Quot.sound]
'Verif.Props.C114_hint' depends on axioms: [propext, Classical.choice, Quot.sound]
'Verif.Props.C114_text_hint_partial' depends on axioms: [propext, Classical.choice, Quot.sound]
'Verif.Props.C114_text_hint_violated' depends on axioms: [propext, Classical.choice, Quot.sound]
'Verif.Props.C115_cached_partial' depends on axioms: [propext, Classical.choice, Quot.sound]
'Verif.Props.C115_cached_violated' depends on axioms: [propext, Classical.choice, Quot.sound]
'Verif.Props.C115_bounded' depends on axioms: [propext, Classical.choice, Quot.sound]
'Verif.Props.C115_sweep' depends on axioms: [propext, Classical.choice, Quot.sound]
'Verif.Props.C115_part' depends on axioms: [propext, Quot.sound]
'Verif.Props.C115_same_partial' depends on axioms: [propext, Classical.choice, Quot.sound]
'Verif.Props.C115_same_violated' depends on axioms: [propext, Classical.choice, Quot.sound]
'Verif.Props.C115_line_partial' depends on axioms: [propext, Classical.choice, Quot.sound]
'Verif.Props.C115_line_violated' depends on axioms: [propext, Classical.choice, Quot.sound]
'Verif.Props.C115_syllable' depends on axioms: [propext, Classical.choice, Quot.sound]
'Verif.Props.C115_syllable_vector' depends on axioms: [propext, Classical.choice, Quot.sound]
'Verif.Props.C115_syllable_between' depends on axioms: [propext, Classical.choice, Quot.sound]
'Verif.Props.C115_order' depends on axioms: [propext, Classical.choice, Quot.sound]
'Verif.Props.C115_clipped' depends on axioms: [propext, Classical.choice, Quot.sound]
'Verif.Props.C116_origin' depends on axioms: [propext, Classical.choice, Quot.sound]
'Verif.Props.C116_middle' depends on axioms: [propext, Classical.choice, Quot.sound]
'Verif.Props.C116_rigid' depends on axioms: [propext, Classical.choice, Quot.sound]
'Verif.Props.C116_direction' depends on axioms: [propext, Classical.choice, Quot.sound]
'Verif.Props.C116_stretch_partial' depends on axioms: [propext, Classical.choice, Quot.sound]
'Verif.Props.C116_stretch_violated' depends on axioms: [propext, Classical.choice, Quot.sound]
'Verif.Props.C116_slant_partial' depends on axioms: [propext, Classical.choice, Quot.sound]
'Verif.Props.C116_slant_violated' depends on axioms: [propext, Classical.choice, Quot.sound]
'Verif.Props.C116_flat' depends on axioms: [propext, Classical.choice, Quot.sound]
'Verif.Props.C116_straight_partial' depends on axioms: [propext, Classical.choice, Quot.sound]
'Verif.Props.C116_straight_violated' depends on axioms: [propext, Classical.choice, Quot.sound]
'Verif.Props.C116_depth' depends on axioms: [propext, Classical.choice, Quot.sound]
'Verif.Props.C116_resolution_partial' depends on axioms: [propext, Classical.choice, Quot.sound]
'Verif.Props.C116_resolution_violated' depends on axioms: [propext, Classical.choice, Quot.sound]
'Verif.Props.C116_compose' depends on axioms: [propext, Classical.choice, Quot.sound]
'Verif.Props.C116_matrix_partial' depends on axioms: [propext, Classical.choice, Quot.sound]
'Verif.Props.C116_matrix_violated' depends on axioms: [propext, Classical.choice, Quot.sound]
'Verif.Props.C116_between' depends on axioms: [propext, Classical.choice, Quot.sound]
'Verif.Props.C116_ease' depends on axioms: [propext, Classical.choice, Quot.sound]
'Verif.Props.C117_edit_partial' depends on axioms: [propext, Classical.choice, Quot.sound]
'Verif.Props.C117_refused' depends on axioms: [propext, Classical.choice, Quot.sound]
'Verif.Props.C117_edited_partial' depends on axioms: [propext, Classical.choice, Quot.sound]
'Verif.Props.C117_twin_violated' depends on axioms: [propext, Classical.choice, Quot.sound]
'Verif.Props.C117_format_violated' depends on axioms: [propext, Classical.choice, Quot.sound]
'Verif.Props.C117_spacing_violated' depends on axioms: [propext, Classical.choice, Quot.sound]
'Verif.Props.C117_builder_partial' depends on axioms: [propext, Classical.choice, Quot.sound]
'Verif.Props.C117_kind_violated' depends on axioms: [propext, Classical.choice, Quot.sound]
'Verif.Props.C117_names_violated' depends on axioms: [propext, Classical.choice, Quot.sound]
'Verif.Props.C117_text_partial' depends on axioms: [propext, Classical.choice, Quot.sound]
'Verif.Props.C117_text_violated' depends on axioms: [propext, Classical.choice, Quot.sound]
'Verif.Props.C117_info' depends on axioms: [propext, Classical.choice, Quot.sound]
'Verif.Props.C117_field_partial' depends on axioms: [propext, Classical.choice, Quot.sound]
'Verif.Props.C117_field_violated' depends on axioms: [propext, Classical.choice, Quot.sound]
'Verif.Props.C117_counts' depends on axioms: [propext, Classical.choice, Quot.sound]
'Verif.Props.C118_text' depends on axioms: [propext, Classical.choice, Quot.sound]
'Verif.Props.C118_insert_delete' depends on axioms: [propext, Classical.choice, Quot.sound]
'Verif.Props.C118_refused' depends on axioms: [propext, Classical.choice, Quot.sound]
'Verif.Props.C118_safe' depends on axioms: [propext, Classical.choice, Quot.sound]
'Verif.Props.C118_event' depends on axioms: [propext, Classical.choice, Quot.sound]
'Verif.Props.C118_session_partial' depends on axioms: [propext, Classical.choice, Quot.sound]
'Verif.Props.C118_report_partial' depends on axioms: [propext, Classical.choice, Quot.sound]
'Verif.Props.C118_first_violated' depends on axioms: [propext, Classical.choice, Quot.sound]
'Verif.Props.C118_second_violated' depends on axioms: [propext, Classical.choice, Quot.sound]
'Verif.Props.C118_typed_violated' depends on axioms: [propext, Classical.choice, Quot.sound]
'Verif.Props.C118_undo_partial' depends on axioms: [propext, Classical.choice, Quot.sound]
'Verif.Props.C118_undo_short_violated' depends on axioms: [propext, Classical.choice, Quot.sound]
'Verif.Props.C118_typing_violated' depends on axioms: [propext, Classical.choice, Quot.sound]
'Verif.Props.C118_undo_long_violated' depends on axioms: [propext, Classical.choice, Quot.sound]
'Verif.Props.C118_redo_violated' depends on axioms: [propext, Classical.choice, Quot.sound]
'Verif.Props.C118_undo_sections_violated' depends on axioms: [propext, Classical.choice, Quot.sound]
'Verif.Props.C119_position_partial' depends on axioms: [propext, Classical.choice, Quot.sound]
'Verif.Props.C119_right_violated' depends on axioms: [propext, Classical.choice, Quot.sound]
'Verif.Props.C119_alignment_partial' depends on axioms: [propext, Classical.choice, Quot.sound]
'Verif.Props.C119_margins_violated' depends on axioms: [propext, Classical.choice, Quot.sound]
'Verif.Props.C119_origin' depends on axioms: [propext, Classical.choice, Quot.sound]
'Verif.Props.C119_origin_violated' depends on axioms: [propext, Classical.choice, Quot.sound]
'Verif.Props.C119_movement_partial' depends on axioms: [propext, Classical.choice, Quot.sound]
'Verif.Props.C119_hurried_violated' depends on axioms: [propext, Classical.choice, Quot.sound]
'Verif.Props.C119_priority_violated' depends on axioms: [propext, Classical.choice, Quot.sound]
'Verif.Props.C119_scale' depends on axioms: [propext, Classical.choice, Quot.sound]
'Verif.Props.C119_context_partial' depends on axioms: [propext, Classical.choice, Quot.sound]
'Verif.Props.C119_context_violated' depends on axioms: [propext, Classical.choice, Quot.sound]
'Verif.Props.C119_new' depends on axioms: [propext, Classical.choice, Quot.sound]
'Verif.Props.C119_lines' depends on axioms: [propext, Classical.choice, Quot.sound]
'Verif.Props.C119_apart' depends on axioms: [propext, Classical.choice, Quot.sound]
'Verif.Props.C119_width_violated' depends on axioms: [propext, Classical.choice, Quot.sound]
'Verif.Props.C120_text' depends on axioms: [propext, Classical.choice, Quot.sound]
'Verif.Props.C120_tags_partial' depends on axioms: [propext, Classical.choice, Quot.sound]
'Verif.Props.C120_agree' depends on axioms: [propext, Classical.choice, Quot.sound]
'Verif.Props.C120_reset_violated' depends on axioms: [propext, Classical.choice, Quot.sound]
'Verif.Props.C120_font_violated' depends on axioms: [propext, Classical.choice, Quot.sound]
'Verif.Props.C120_soft_violated' depends on axioms: [propext, Classical.choice, Quot.sound]
'Verif.Props.C120_start_violated' depends on axioms: [propext, Classical.choice, Quot.sound]
'Verif.Props.C120_fade_violated' depends on axioms: [propext, Classical.choice, Quot.sound]
'Verif.Props.C120_others' depends on axioms: [propext, Classical.choice, Quot.sound]
'Verif.Props.C120_kept' depends on axioms: [propext, Classical.choice, Quot.sound]
'Verif.Props.C121_ends' depends on axioms: [propext, Classical.choice, Quot.sound]
'Verif.Props.C121_course_partial' depends on axioms: [propext, Classical.choice, Quot.sound]
'Verif.Props.C121_linear' depends on axioms: [propext, Classical.choice, Quot.sound]
'Verif.Props.C121_curves' depends on axioms: [propext, Classical.choice, Quot.sound]
'Verif.Props.C121_integer_violated' depends on axioms: [propext, Classical.choice, Quot.sound]
'Verif.Props.C121_state' depends on axioms: [propext, Classical.choice, Quot.sound]
'Verif.Props.C121_total_partial' depends on axioms: [propext, Classical.choice, Quot.sound]
'Verif.Props.C121_accessors' depends on axioms: [propext, Classical.choice, Quot.sound]
'Verif.Props.C121_sequence_violated' depends on axioms: [propext, Classical.choice, Quot.sound]
'Verif.Props.C121_active' depends on axioms: [propext, Quot.sound]
'Verif.Props.C121_quiet_partial' depends on axioms: [propext, Classical.choice, Quot.sound]
'Verif.Props.C121_quiet_violated' depends on axioms: [propext, Classical.choice, Quot.sound]
'Verif.Props.C121_tag_partial' depends on axioms: [propext, Classical.choice, Quot.sound]
'Verif.Props.C121_tag_kept' depends on axioms: [propext, Classical.choice, Quot.sound]
'Verif.Props.C121_times_violated' depends on axioms: [propext, Classical.choice, Quot.sound]
'Verif.Props.C121_names_violated' depends on axioms: [propext, Classical.choice, Quot.sound]
'Verif.Props.C121_script_violated' depends on axioms: [propext, Classical.choice, Quot.sound]
'Verif.Props.C121_values_violated' depends on axioms: [propext, Classical.choice, Quot.sound]
'Verif.Props.MemPool.C122_current' depends on axioms: [propext, Classical.choice, Quot.sound]
'Verif.Props.MemPool.C122_figures' depends on axioms: [propext, Classical.choice, Quot.sound]
'Verif.Props.MemPool.C122_resets' depends on axioms: [propext, Classical.choice, Quot.sound]
'Verif.Props.MemPool.C122_threshold' depends on axioms: [propext, Classical.choice, Quot.sound]
'Verif.Props.MemPool.C122_strategies_partial' depends on axioms: [propext, Classical.choice, Quot.sound]
'Verif.Props.MemPool.C122_acceptable' depends on axioms: [propext]
'Verif.Props.MemPool.C122_unnoticed_violated' depends on axioms: [propext, Classical.choice, Quot.sound]
'Verif.Props.MemPool.C122_reclaimed_violated' depends on axioms: [propext, Classical.choice, Quot.sound]
'Verif.Props.MemPool.C122_peak_violated' depends on axioms: [propext, Classical.choice, Quot.sound]
'Verif.Props.MemPool.C122_pressure_violated' depends on axioms: [propext, Classical.choice, Quot.sound]
'Verif.Props.MemPool.C122_hybrid_violated' depends on axioms: [propext, Classical.choice, Quot.sound]
'Verif.Props.MemPool.C122_manual_violated' depends on axioms: [propext, Classical.choice, Quot.sound]
'Verif.Props.MemPool.C122_reclaimable_violated' depends on axioms: [propext, Classical.choice, Quot.sound]
'Verif.Props.LineBreaks.C123_pieces' depends on axioms: [propext, Quot.sound]
'Verif.Props.LineBreaks.C123_breaks' depends on axioms: [propext, Classical.choice, Quot.sound]
'Verif.Props.LineBreaks.C123_drawing' depends on axioms: [propext]
'Verif.Props.LineBreaks.C123_agree_partial' depends on axioms: [propext, Classical.choice, Quot.sound]
'Verif.Props.LineBreaks.C123_agree_violated' depends on axioms: [propext, Classical.choice, Quot.sound]
'Verif.Props.LineBreaks.C123_lines_partial' depends on axioms: [propext, Quot.sound]
'Verif.Props.LineBreaks.C123_lines_bounds' depends on axioms: [propext, Classical.choice, Quot.sound]
'Verif.Props.LineBreaks.C123_lines_violated' depends on axioms: [propext, Classical.choice, Quot.sound]
'Verif.Props.LineBreaks.C123_bidi_violated' does not depend on any axioms
'Verif.Props.LineBreaks.C123_complex_violated' depends on axioms: [propext, Quot.sound]
'Verif.Props.LineBreaks.C123_scripts_partial' depends on axioms: [propext, Classical.choice, Quot.sound]
'Verif.Props.C124_get' depends on axioms: [propext, Classical.choice, Quot.sound]
'Verif.Props.C124_delete_partial' depends on axioms: [propext, Classical.choice, Quot.sound]
'Verif.Props.C124_kinds_partial' depends on axioms: [propext, Classical.choice, Quot.sound]
'Verif.Props.C124_types_violated' depends on axioms: [propext, Classical.choice, Quot.sound]
'Verif.Props.C124_blank_violated' depends on axioms: [propext, Classical.choice, Quot.sound]
'Verif.Props.C124_format_violated' depends on axioms: [propext, Classical.choice, Quot.sound]
'Verif.Props.C124_title_violated' depends on axioms: [propext, Classical.choice, Quot.sound]
'Verif.Props.C124_place_violated' depends on axioms: [propext, Classical.choice, Quot.sound]
'Verif.Props.C124_scale_partial' depends on axioms: [propext, Classical.choice, Quot.sound]
'Verif.Props.C124_scale_violated' depends on axioms: [propext, Classical.choice, Quot.sound]
'Verif.Props.C125_single' depends on axioms: [propext, Classical.choice, Quot.sound]
'Verif.Props.C125_agree_partial' depends on axioms: [propext, Classical.choice, Quot.sound]
'Verif.Props.C125_set_partial' depends on axioms: [propext, Classical.choice, Quot.sound]
'Verif.Props.C125_resolution_partial' depends on axioms: [propext, Classical.choice, Quot.sound]
'Verif.Props.C125_remark_violated' depends on axioms: [propext, Classical.choice, Quot.sound]
'Verif.Props.C125_name_violated' depends on axioms: [propext, Classical.choice, Quot.sound]
'Verif.Props.C125_blank_violated' depends on axioms: [propext, Classical.choice, Quot.sound]
'Verif.Props.C126_requested' depends on axioms: [propext, Classical.choice, Quot.sound]
'Verif.Props.C126_coverage_partial' depends on axioms: [propext, Classical.choice, Quot.sound]
'Verif.Props.C126_none' depends on axioms: [propext, Classical.choice, Quot.sound]
'Verif.Props.C126_curated_violated' depends on axioms: [propext, Classical.choice, Quot.sound]
'Verif.Props.C126_unreadable_violated' depends on axioms: [propext, Classical.choice, Quot.sound]
'Verif.Props.C126_empty_violated' depends on axioms: [propext, Classical.choice, Quot.sound]
'Verif.Props.C126_japanese_violated' depends on axioms: [propext, Classical.choice, Quot.sound]
'Verif.Props.C127_positions' depends on axioms: [propext, Classical.choice, Quot.sound]
'Verif.Props.C127_metrics' depends on axioms: [propext, Classical.choice, Quot.sound]
'Verif.Props.C127_ink' depends on axioms: [propext, Classical.choice, Quot.sound]
'Verif.Props.C127_cache_partial' depends on axioms: [propext]
'Verif.Props.C127_bound' depends on axioms: [propext, Quot.sound]
'Verif.Props.C127_cache_violated' depends on axioms: [propext, Classical.choice, Quot.sound]
'Verif.Props.C127_outlines_partial' depends on axioms: [propext, Classical.choice, Quot.sound]
'Verif.Props.C127_size_violated' depends on axioms: [propext, Classical.choice, Quot.sound]
'Verif.Props.C127_font_violated' depends on axioms: [propext, Classical.choice, Quot.sound]
'Verif.Props.Gpu.C128_composite_partial' depends on axioms: [propext, Classical.choice, Quot.sound]
'Verif.Props.Gpu.C128_layer_partial' depends on axioms: [propext, Classical.choice, Quot.sound]
'Verif.Props.Gpu.C128_reuse' depends on axioms: [propext, Classical.choice, Quot.sound]
'Verif.Props.Gpu.C128_software_partial' depends on axioms: [propext, Classical.choice, Quot.sound]
'Verif.Props.Gpu.C128_software_violated' depends on axioms: [propext, Classical.choice, Quot.sound]
'Verif.Props.Gpu.C128_far_violated' depends on axioms: [propext, Classical.choice, Quot.sound]
'Verif.Props.Gpu.C128_zero_violated' depends on axioms: [propext, Classical.choice, Quot.sound]
'Verif.Props.Gpu.C128_size_violated' depends on axioms: [propext, Classical.choice, Quot.sound]
'Verif.Props.Gpu.C128_count_violated' depends on axioms: [propext, Classical.choice, Quot.sound]
'Verif.Props.Gpu.C128_lost_violated' depends on axioms: [propext, Classical.choice, Quot.sound]
'Verif.Props.Raster.C129_spec' depends on axioms: [propext, Classical.choice, Quot.sound]
'Verif.Props.Raster.C129_area_partial' depends on axioms: [propext, Classical.choice, Quot.sound]
'Verif.Props.Raster.C129_winding_partial' depends on axioms: [propext, Classical.choice, Quot.sound]
'Verif.Props.Raster.C129_safe' depends on axioms: [propext, Classical.choice, Quot.sound]
'Verif.Props.Raster.C129_overlap_violated' depends on axioms: [propext, Classical.choice, Quot.sound]
'Verif.Props.Raster.C130_tile_partial' depends on axioms: [propext, Classical.choice, Quot.sound]
'Verif.Props.Raster.C130_overflow_violated' depends on axioms: [propext, Classical.choice, Quot.sound]
'Verif.Props.Raster.C130_coarse_violated' depends on axioms: [propext, Classical.choice, Quot.sound]
'Verif.Props.Raster.C130_cubic_violated' depends on axioms: [propext, Classical.choice, Quot.sound]
'Verif.Props.Cursor.C131_lines' depends on axioms: [propext, Quot.sound]
'Verif.Props.Cursor.C131_insert' depends on axioms: [propext, Quot.sound]
'Verif.Props.Cursor.C131_delete_partial' depends on axioms: [propext, Quot.sound]
'Verif.Props.Cursor.C131_characters_violated' depends on axioms: [propext, Classical.choice, Quot.sound]
'Verif.Props.Cursor.C131_line_end_partial' depends on axioms: [propext, Classical.choice, Quot.sound]
'Verif.Props.Cursor.C131_crlf_violated' depends on axioms: [propext, Classical.choice, Quot.sound]
'Verif.Props.Cursor.C131_wrap' depends on axioms: [propext, Classical.choice, Quot.sound]
'Verif.Props.Cursor.C131_indent' depends on axioms: [propext, Classical.choice, Quot.sound]
'Verif.Props.Cursor.C131_unindent' depends on axioms: [propext, Classical.choice, Quot.sound]
'Verif.Props.Cursor.C131_beyond_violated' depends on axioms: [propext, Quot.sound]
'Verif.Props.Cursor.C131_within_violated' depends on axioms: [propext, Classical.choice, Quot.sound]
'Verif.Props.Cursor.C131_line_column' depends on axioms: [propext, Classical.choice, Quot.sound]
'Verif.Props.Cursor.C131_at_line' depends on axioms: [propext]
'Verif.Props.Cursor.C131_undo_violated' depends on axioms: [propext, Classical.choice, Quot.sound]
'Verif.Props.Bitmaps.C132_list_partial' depends on axioms: [propext, Classical.choice, Quot.sound]
'Verif.Props.Bitmaps.C132_same_partial' depends on axioms: [propext, Classical.choice, Quot.sound]
'Verif.Props.Bitmaps.C132_error_violated' depends on axioms: [propext, Classical.choice, Quot.sound]
'Verif.Props.Bitmaps.C132_beyond_violated' depends on axioms: [propext]
'Verif.Props.Bitmaps.C132_tip_violated' depends on axioms: [propext, Classical.choice, Quot.sound]
'Verif.Props.Bitmaps.C132_box' depends on axioms: [propext, Classical.choice, Quot.sound]
'Verif.Props.SectionExt.C133_same' depends on axioms: [propext, Classical.choice, Quot.sound]
'Verif.Props.SectionExt.C133_processors_partial' depends on axioms: [propext, Classical.choice, Quot.sound]
'Verif.Props.SectionExt.C133_suggestion_partial' depends on axioms: [propext, Classical.choice, Quot.sound]
'Verif.Props.SectionExt.C133_registry_violated' depends on axioms: [propext, Classical.choice, Quot.sound]
'Verif.Props.SectionExt.C133_format_violated' depends on axioms: [propext, Classical.choice, Quot.sound]
'Verif.Props.SectionExt.C133_processed_violated' depends on axioms: [propext, Classical.choice, Quot.sound]
'Verif.Props.SectionExt.C133_case_violated' depends on axioms: [propext, Classical.choice, Quot.sound]
'Verif.Props.SectionExt.C133_aegisub' depends on axioms: [propext, Classical.choice, Quot.sound]
'Verif.Props.Clip.C134_mask' depends on axioms: [propext, Classical.choice, Quot.sound]
'Verif.Props.Clip.C134_inverse' depends on axioms: [propext, Classical.choice, Quot.sound]
'Verif.Props.Clip.C134_strips' depends on axioms: [propext, Classical.choice, Quot.sound]
'Verif.Props.Clip.C134_text_partial' depends on axioms: [propext, Classical.choice, Quot.sound]
'Verif.Props.Clip.C134_text_violated' depends on axioms: [propext, Classical.choice, Quot.sound]
'Verif.Props.Clip.C134_fill' does not depend on any axioms
'Verif.Props.Clip.C134_border_partial' depends on axioms: [propext, Classical.choice, Quot.sound]
'Verif.Props.Clip.C134_border_violated' depends on axioms: [propext, Classical.choice, Quot.sound]
'Verif.Props.Lookup.C135_line' depends on axioms: [propext, Classical.choice, Quot.sound]
'Verif.Props.Lookup.C135_found' depends on axioms: [propext, Classical.choice, Quot.sound]
'Verif.Props.Lookup.C135_range' depends on axioms: [propext, Quot.sound]
'Verif.Props.Lookup.C135_list' depends on axioms: [propext, Classical.choice, Quot.sound]
'Verif.Props.Lookup.C135_text_partial' depends on axioms: [propext, Classical.choice, Quot.sound]
'Verif.Props.Lookup.C135_inside_violated' depends on axioms: [propext, Classical.choice, Quot.sound]
'Verif.Props.Lookup.C135_range_violated' depends on axioms: [propext, Classical.choice, Quot.sound]
'Verif.Props.Lookup.C135_updated_violated' depends on axioms: [propext, Classical.choice, Quot.sound]
'Verif.Props.Player.C136_playing' depends on axioms: [propext, Classical.choice, Quot.sound]
'Verif.Props.Player.C136_end' depends on axioms: [propext, Classical.choice, Quot.sound]
'Verif.Props.Player.C136_jumps' depends on axioms: [propext, Classical.choice, Quot.sound]
'Verif.Props.Player.C136_bounds_partial' depends on axioms: [propext, Classical.choice, Quot.sound]
'Verif.Props.Player.C136_reload_violated' depends on axioms: [propext, Classical.choice, Quot.sound]
'Verif.Props.Player.C136_speed' depends on axioms: [propext, Classical.choice, Quot.sound]
'Verif.Props.Player.C136_steps' depends on axioms: [propext, Classical.choice, Quot.sound]
'Verif.Props.Player.C136_speed_violated' depends on axioms: [propext, Classical.choice, Quot.sound]
'Verif.Props.Player.C136_pause_violated' depends on axioms: [propext, Classical.choice, Quot.sound]
'Verif.Props.Player.C136_pause_partial' depends on axioms: [propext, Classical.choice, Quot.sound]
'Verif.Props.Player.C136_gap_violated' depends on axioms: [propext, Classical.choice, Quot.sound]
'Verif.Props.Player.C136_duration_partial' depends on axioms: [propext, Classical.choice, Quot.sound]
'Verif.Props.Player.C137_frame_partial' depends on axioms: [propext, Classical.choice, Quot.sound]
'Verif.Props.Player.C137_frame_violated' depends on axioms: [propext, Classical.choice, Quot.sound]
'Verif.Props.Player.C137_again' depends on axioms: [propext, Classical.choice, Quot.sound]
'Verif.Props.Player.C137_size_partial' depends on axioms: [propext, Classical.choice, Quot.sound]
'Verif.Props.Player.C137_size_violated' depends on axioms: [propext, Classical.choice, Quot.sound]
'Verif.Props.Player.C137_test' depends on axioms: [propext, Quot.sound]
'Verif.Props.Analyzer.C138_regions' depends on axioms: [propext, Classical.choice, Quot.sound]
'Verif.Props.Analyzer.C138_every' depends on axioms: [propext, Classical.choice, Quot.sound]
'Verif.Props.Analyzer.C138_counts' depends on axioms: [propext, Classical.choice, Quot.sound]
'Verif.Props.Analyzer.C138_report_partial' depends on axioms: [propext, Classical.choice, Quot.sound]
'Verif.Props.Analyzer.C138_report_violated' depends on axioms: [propext, Classical.choice, Quot.sound]
'Verif.Props.Analyzer.C138_dominant_partial' depends on axioms: [propext, Classical.choice, Quot.sound]
'Verif.Props.Analyzer.C138_dominant_violated' depends on axioms: [propext, Classical.choice, Quot.sound]
'Verif.Props.Analyzer.C138_texts' depends on axioms: [propext, Classical.choice, Quot.sound]
'Verif.Props.Analyzer.C138_confidence' depends on axioms: [propext, Classical.choice, Quot.sound]
'Verif.Props.Inspector.C139_pixel' depends on axioms: [propext, Quot.sound]
'Verif.Props.Inspector.C139_cursor' depends on axioms: [propext, Classical.choice, Quot.sound]
'Verif.Props.Inspector.C139_move_partial' depends on axioms: [propext, Quot.sound]
'Verif.Props.Inspector.C139_wide_violated' depends on axioms: [propext, Quot.sound]
'Verif.Props.Inspector.C139_move_violated' depends on axioms: [propext]
'Verif.Props.Inspector.C139_region_partial' depends on axioms: [propext, Classical.choice, Quot.sound]
'Verif.Props.Inspector.C139_region_violated' depends on axioms: [propext, Quot.sound]
'Verif.Props.Inspector.C139_bounds' depends on axioms: [propext, Classical.choice, Quot.sound]
'Verif.Props.Inspector.C139_line' depends on axioms: [propext, Classical.choice, Quot.sound]
'Verif.Props.Inspector.C139_average_partial' depends on axioms: [propext, Classical.choice, Quot.sound]
'Verif.Props.Inspector.C139_average_violated' depends on axioms: [propext]
'Verif.Props.Inspector.C139_alike' depends on axioms: [propext, Classical.choice, Quot.sound]
'Verif.Props.Analysis.C140_events' depends on axioms: [propext, Classical.choice, Quot.sound]
'Verif.Props.Analysis.C140_counts' depends on axioms: [propext, Classical.choice, Quot.sound]
'Verif.Props.Analysis.C140_style' depends on axioms: [propext, Classical.choice, Quot.sound]
'Verif.Props.Analysis.C140_fonts' depends on axioms: [propext, Classical.choice, Quot.sound]
'Verif.Props.Analysis.C140_score' depends on axioms: [propext, Classical.choice, Quot.sound]
'Verif.Props.Analysis.C140_advice' depends on axioms: [propext, Classical.choice, Quot.sound]
'Verif.Props.Analysis.C140_lint' depends on axioms: [propext, Classical.choice, Quot.sound]
'Verif.Props.Analysis.C140_critical_violated' depends on axioms: [propext, Classical.choice, Quot.sound]
'Verif.Props.Analysis.C140_overlaps_violated' depends on axioms: [propext, Classical.choice, Quot.sound]
'Verif.Props.Analysis.C140_second_section_violated' depends on axioms: [propext, Classical.choice, Quot.sound]
'Verif.Props.Analysis.C140_comments_violated' depends on axioms: [propext, Classical.choice, Quot.sound]
'Verif.Props.Analysis.C140_animations_violated' depends on axioms: [propext, Classical.choice, Quot.sound]
'Verif.Props.Cleanup.C141_whitespace' depends on axioms: [propext, Classical.choice, Quot.sound]
'Verif.Props.Cleanup.C141_again' depends on axioms: [propext, Classical.choice, Quot.sound]
'Verif.Props.Cleanup.C141_tab_violated' depends on axioms: [propext, Classical.choice, Quot.sound]
'Verif.Props.Cleanup.C141_return_violated' depends on axioms: [propext, Classical.choice, Quot.sound]
'Verif.Props.Cleanup.C141_control' depends on axioms: [propext, Classical.choice, Quot.sound]
'Verif.Props.Cleanup.C141_lines_partial' depends on axioms: [propext, Classical.choice, Quot.sound]
'Verif.Props.Cleanup.C141_end_violated' depends on axioms: [propext, Classical.choice, Quot.sound]
'Verif.Props.Checks.C142_name' depends on axioms: [propext, Classical.choice, Quot.sound]
'Verif.Props.Checks.C142_colour' depends on axioms: [propext, Classical.choice, Quot.sound]
'Verif.Props.Checks.C142_readable_partial' depends on axioms: [propext, Classical.choice, Quot.sound]
'Verif.Props.Checks.C142_decimal_violated' depends on axioms: [propext, Classical.choice, Quot.sound]
'Verif.Props.Checks.C142_refused_violated' depends on axioms: [propext, Classical.choice, Quot.sound]
'Verif.Props.Checks.C142_limit' depends on axioms: [propext, Classical.choice, Quot.sound]
'Verif.Props.Checks.C142_piece' depends on axioms: [propext, Classical.choice, Quot.sound]
'Verif.Props.Checks.C142_outside' depends on axioms: [propext, Quot.sound]
'Verif.Props.Frames.C143_values' depends on axioms: [propext, Classical.choice, Quot.sound]
'Verif.Props.Frames.C143_histories' depends on axioms: [propext, Classical.choice, Quot.sound]
'Verif.Props.Frames.C143_fails' depends on axioms: [propext, Classical.choice, Quot.sound]
'Verif.Props.Frames.C143_buffer' depends on axioms: [propext, Quot.sound]
'Verif.Props.Frames.C143_rows' depends on axioms: [propext, Quot.sound]
'Verif.Props.Frames.C143_empty' depends on axioms: [propext, Quot.sound]
'Verif.Props.Frames.C143_empty_violated' depends on axioms: [propext]
'Verif.Props.Frames.C143_size_violated' depends on axioms: [propext]
'Verif.Props.Frames.C144_extremes' depends on axioms: [propext, Quot.sound]
'Verif.Props.Frames.C144_between' depends on axioms: [propext, Classical.choice, Quot.sound]
'Verif.Props.Frames.C144_blend' depends on axioms: [propext, Classical.choice, Quot.sound]
'Verif.Props.Frames.C144_alpha' depends on axioms: [propext, Classical.choice, Quot.sound]
'Verif.Props.Frames.C144_monotone' depends on axioms: [propext, Classical.choice, Quot.sound]
'Verif.Props.Frames.C144_layers_violated' depends on axioms: [propext, Quot.sound]
'Verif.Props.Frames.C144_probe' depends on axioms: [propext, Quot.sound]
'Verif.Props.Frames.C144_available_violated' does not depend on any axioms
'Verif.Props.Frames.C144_create' depends on axioms: [propext]
'Verif.Props.DeltaCmd.C145_insert_partial' depends on axioms: [propext, Classical.choice, Quot.sound]
'Verif.Props.DeltaCmd.C145_replace_partial' depends on axioms: [propext, Classical.choice, Quot.sound]
'Verif.Props.DeltaCmd.C145_event_partial' depends on axioms: [propext, Classical.choice, Quot.sound]
'Verif.Props.DeltaCmd.C145_refused' depends on axioms: [propext, Classical.choice, Quot.sound]
'Verif.Props.DeltaCmd.C145_event_violated' depends on axioms: [propext, Classical.choice, Quot.sound]
'Verif.Props.DeltaCmd.C145_batch_partial' depends on axioms: [propext, Classical.choice, Quot.sound]
'Verif.Props.DeltaCmd.C145_batch_violated' depends on axioms: [propext, Classical.choice, Quot.sound]
'Verif.Props.Converter.C146_extension' depends on axioms: [propext, Classical.choice, Quot.sound]
'Verif.Props.Converter.C146_path' depends on axioms: [propext, Classical.choice, Quot.sound]
'Verif.Props.Converter.C146_content' depends on axioms: [propext, Classical.choice, Quot.sound]
'Verif.Props.Converter.C146_same' depends on axioms: [propext, Classical.choice, Quot.sound]
'Verif.Props.Converter.C146_told_partial' depends on axioms: [propext, Classical.choice, Quot.sound]
'Verif.Props.Converter.C146_srt_partial' depends on axioms: [propext, Classical.choice, Quot.sound]
'Verif.Props.Converter.C146_webvtt_partial' depends on axioms: [propext, Classical.choice, Quot.sound]
'Verif.Props.Converter.C146_plain_partial' depends on axioms: [propext, Classical.choice, Quot.sound]
'Verif.Props.Converter.C146_lines' depends on axioms: [propext, Classical.choice, Quot.sound]
'Verif.Props.Converter.C146_plain_back_partial' depends on axioms: [propext, Classical.choice, Quot.sound]
'Verif.Props.Converter.C146_plain_violated' depends on axioms: [propext, Classical.choice, Quot.sound]
'Verif.Props.Converter.C146_told_violated' depends on axioms: [propext, Classical.choice, Quot.sound]
'Verif.Props.Converter.C146_mark_violated' depends on axioms: [propext, Classical.choice, Quot.sound]
'Verif.Props.Converter.C146_ssa_partial' depends on axioms: [propext, Classical.choice, Quot.sound]
'Verif.Props.Converter.C146_ssa_violated' depends on axioms: [propext, Classical.choice, Quot.sound]
'Verif.Props.FormatReg.C147_importer' depends on axioms: [propext, Classical.choice, Quot.sound]
'Verif.Props.FormatReg.C147_exporter' depends on axioms: [propext, Classical.choice, Quot.sound]
'Verif.Props.FormatReg.C147_order_violated' depends on axioms: [propext, Classical.choice, Quot.sound]
'Verif.Props.FormatReg.C147_unique' depends on axioms: [propext, Classical.choice, Quot.sound]
'Verif.Props.FormatReg.C147_extensions' depends on axioms: [propext, Classical.choice, Quot.sound]
'Verif.Props.FormatReg.C147_supported' depends on axioms: [propext, Classical.choice, Quot.sound]
'Verif.Props.FormatReg.C147_files' depends on axioms: [propext, Quot.sound]
'Verif.Props.FormatReg.C147_lost_violated' depends on axioms: [propext]
'Verif.Props.FormatReg.C147_ass' depends on axioms: [propext, Classical.choice, Quot.sound]
'Verif.Props.FormatReg.C147_ass_normal' depends on axioms: [propext, Classical.choice, Quot.sound]
'Verif.Props.Generators.C148_generate_partial' depends on axioms: [propext, Classical.choice, Quot.sound]
'Verif.Props.Generators.C148_preset' depends on axioms: [propext, Classical.choice, Quot.sound]
'Verif.Props.Generators.C148_apart_violated' depends on axioms: [propext, Classical.choice, Quot.sound]
'Verif.Props.Generators.C148_refs_violated' depends on axioms: [propext, Classical.choice, Quot.sound]
'Verif.Props.Generators.C148_refs_partial' depends on axioms: [propext, Classical.choice, Quot.sound]
'Verif.Props.Generators.C148_colour_violated' depends on axioms: [propext, Classical.choice, Quot.sound]
'Verif.Props.Generators.C148_colour_partial' depends on axioms: [propext, Classical.choice, Quot.sound]
'Verif.Props.Generators.C148_issues_partial' depends on axioms: [propext, Classical.choice, Quot.sound]
'Verif.Props.Generators.C148_overlap_partial' depends on axioms: [propext, Classical.choice, Quot.sound]
'Verif.Props.Generators.C148_minutes_violated' depends on axioms: [propext, Classical.choice, Quot.sound]
'Verif.Props.Compare.C149_total' depends on axioms: [propext, Classical.choice, Quot.sound]
'Verif.Props.Compare.C149_list' depends on axioms: [propext, Classical.choice, Quot.sound]
'Verif.Props.Compare.C149_max' depends on axioms: [propext, Classical.choice, Quot.sound]
'Verif.Props.Compare.C149_average_partial' depends on axioms: [propext, Classical.choice, Quot.sound]
'Verif.Props.Compare.C149_same_partial' depends on axioms: [propext, Classical.choice, Quot.sound]
'Verif.Props.Compare.C149_size_violated' depends on axioms: [propext, Classical.choice, Quot.sound]
'Verif.Props.Compare.C149_count_violated' depends on axioms: [propext, Classical.choice, Quot.sound]
'Verif.Props.Compare.C149_beside_partial' depends on axioms: [propext, Classical.choice, Quot.sound]
'Verif.Props.Compare.C149_cut_violated' does not depend on any axioms
'Verif.Props.Compare.C149_bitmap' depends on axioms: [propext, Classical.choice, Quot.sound]
'Verif.Props.Compare.C149_order' depends on axioms: [propext, Quot.sound]
'Verif.Props.Compare.C149_reference' depends on axioms: [propext, Classical.choice, Quot.sound]
'Verif.Props.Compare.C149_mix_partial' depends on axioms: [propext, Classical.choice, Quot.sound]
'Verif.Props.Compare.C149_mix_violated' does not depend on any axioms
'Verif.Props.DebugRender.C150_report_partial' depends on axioms: [propext, Classical.choice, Quot.sound]
'Verif.Props.DebugRender.C150_huge' depends on axioms: [propext, Classical.choice, Quot.sound]
'Verif.Props.DebugRender.C150_failure' depends on axioms: [propext, Classical.choice, Quot.sound]
'Verif.Props.DebugRender.C150_step' depends on axioms: [propext, Classical.choice, Quot.sound]
'Verif.Props.DebugRender.C150_history' depends on axioms: [propext, Classical.choice, Quot.sound]
'Verif.Props.DebugRender.C150_times' depends on axioms: [propext, Classical.choice, Quot.sound]
'Verif.Props.DebugRender.C150_compare' depends on axioms: [propext, Classical.choice, Quot.sound]
'Verif.Props.DebugRender.C150_itself' depends on axioms: [propext, Classical.choice, Quot.sound]
'Verif.Props.DebugRender.C150_shape_violated' depends on axioms: [propext, Classical.choice, Quot.sound]
'Verif.Props.DebugRender.C150_time_violated' depends on axioms: [propext, Quot.sound]
'Verif.Props.DebugRender.C150_active_violated' depends on axioms: [propext]
'Verif.Props.DebugRender.C150_colour8' depends on axioms: [propext, Classical.choice, Quot.sound]
'Verif.Props.DebugRender.C150_colour6' depends on axioms: [propext, Classical.choice, Quot.sound]
'Verif.Props.DebugRender.C150_spelling_violated' depends on axioms: [propext, Classical.choice, Quot.sound]
'Verif.Props.DebugRender.C150_seven_violated' depends on axioms: [propext, Classical.choice, Quot.sound]
'Verif.Props.DebugRender.C150_styles' depends on axioms: [propext, Classical.choice, Quot.sound]
'Verif.Props.DebugRender.C150_overrides' depends on axioms: [propext, Classical.choice, Quot.sound]
'Verif.Props.DebugRender.C150_overrides_violated' depends on axioms: [propext, Classical.choice, Quot.sound]
'Verif.Props.Bench.C151_metrics' depends on axioms: [propext, Classical.choice, Quot.sound]
'Verif.Props.Bench.C151_between' depends on axioms: [propext, Classical.choice, Quot.sound]
'Verif.Props.Bench.C151_memory' depends on axioms: [propext, Classical.choice, Quot.sound]
'Verif.Props.Bench.C151_moment' depends on axioms: [propext, Classical.choice, Quot.sound]
'Verif.Props.Bench.C151_moment_none' depends on axioms: [propext, Classical.choice, Quot.sound]
'Verif.Props.Bench.C151_comment_violated' depends on axioms: [propext, Classical.choice, Quot.sound]
'Verif.Props.Bench.C151_backwards_violated' depends on axioms: [propext, Classical.choice, Quot.sound]
'Verif.Props.Bench.C151_single' depends on axioms: [propext, Classical.choice, Quot.sound]
'Verif.Props.Bench.C151_history' depends on axioms: [propext, Classical.choice, Quot.sound]
'Verif.Props.Bench.C151_quick' depends on axioms: [propext, Classical.choice, Quot.sound]
'Verif.Props.Bench.C151_score_violated' depends on axioms: [propext, Classical.choice, Quot.sound]
'Verif.Props.Bench.C151_range_partial' depends on axioms: [propext, Quot.sound]
'Verif.Props.Bench.C151_range_none' depends on axioms: [propext, Classical.choice, Quot.sound]
'Verif.Props.Bench.C151_frames' depends on axioms: [propext, Quot.sound]
'Verif.Props.Bench.C151_frames_order' depends on axioms: [propext, Classical.choice, Quot.sound]
'Verif.Props.Bench.C151_pace' depends on axioms: [propext, Classical.choice, Quot.sound]
'Verif.Props.Bench.C151_short_violated' depends on axioms: [propext, Classical.choice, Quot.sound]
'Verif.Props.Bench.C151_summary' depends on axioms: [propext, Classical.choice, Quot.sound]
'Verif.Props.Bench.C151_fps_partial' depends on axioms: [propext, Classical.choice, Quot.sound]
'Verif.Props.Bench.C151_fps_violated' depends on axioms: [propext, Classical.choice, Quot.sound]
'Verif.Props.Bench.C151_summary_empty' depends on axioms: [propext, Classical.choice, Quot.sound]
'Verif.Props.Prepare.C152_settings' depends on axioms: [propext, Classical.choice, Quot.sound]
'Verif.Props.Prepare.C152_fresh' depends on axioms: [propext, Classical.choice, Quot.sound]
'Verif.Props.Prepare.C152_styles' depends on axioms: [propext, Classical.choice, Quot.sound]
'Verif.Props.Prepare.C152_default_partial' depends on axioms: [propext, Classical.choice, Quot.sound]
'Verif.Props.Prepare.C152_history_partial' depends on axioms: [propext, Classical.choice, Quot.sound]
'Verif.Props.Prepare.C152_history_violated' depends on axioms: [propext, Classical.choice, Quot.sound]
'Verif.Props.Prepare.C152_order_violated' depends on axioms: [propext, Classical.choice, Quot.sound]
'Verif.Props.Prepare.C152_default_violated' depends on axioms: [propext, Classical.choice, Quot.sound]
'Verif.Props.Prepare.C152_scaled_violated' depends on axioms: [propext, Classical.choice, Quot.sound]
'Verif.Props.Bounds.C153_start' depends on axioms: [propext, Classical.choice, Quot.sound]
'Verif.Props.Bounds.C153_end' depends on axioms: [propext, Classical.choice, Quot.sound]
'Verif.Props.Bounds.C153_text_violated' depends on axioms: [propext, Classical.choice, Quot.sound]
'Verif.Props.Bounds.C153_far_violated' depends on axioms: [propext, Classical.choice, Quot.sound]
'Verif.Props.Bounds.C153_start_violated' depends on axioms: [propext, Classical.choice, Quot.sound]
'Verif.Props.Bounds.C153_old_violated' depends on axioms: [propext, Classical.choice, Quot.sound]
'Verif.Props.Builtins.C154_all' depends on axioms: [propext, Classical.choice, Quot.sound]
'Verif.Props.Builtins.C154_twice' depends on axioms: [propext, Classical.choice, Quot.sound]
'Verif.Props.Builtins.C154_kept' depends on axioms: [propext, Classical.choice, Quot.sound]
'Verif.Props.Builtins.C154_half_violated' depends on axioms: [propext, Classical.choice, Quot.sound]
'Verif.Props.Builtins.C154_gaps_violated' depends on axioms: [propext, Classical.choice, Quot.sound]
'Verif.Props.Builtins.C154_custom' depends on axioms: [propext, Quot.sound]
'Verif.Props.Builtins.C154_adapter_violated' does not depend on any axioms
'Verif.Props.Builtins.C154_adapter' depends on axioms: [propext]
'Verif.Props.FontLoad.C155_loaded_partial' depends on axioms: [propext, Classical.choice, Quot.sound]
'Verif.Props.FontLoad.C155_first_partial' depends on axioms: [propext, Classical.choice, Quot.sound]
'Verif.Props.FontLoad.C155_second_violated' depends on axioms: [propext, Classical.choice, Quot.sound]
'Verif.Props.FontLoad.C155_history_violated' depends on axioms: [propext, Classical.choice, Quot.sound]
'Verif.Props.FontLoad.C155_path_violated' depends on axioms: [propext, Classical.choice, Quot.sound]
'Verif.Props.FontLoad.C155_adds' depends on axioms: [propext, Classical.choice, Quot.sound]
'Verif.Props.BuiltinExt.C156_syntax_settings' depends on axioms: [propext, Classical.choice, Quot.sound]
'Verif.Props.BuiltinExt.C156_auto_settings_partial' depends on axioms: [propext, Classical.choice, Quot.sound]
'Verif.Props.BuiltinExt.C156_schema_violated' depends on axioms: [propext, Classical.choice, Quot.sound]
'Verif.Props.BuiltinExt.C156_switch_violated' depends on axioms: [propext, Classical.choice, Quot.sound]
'Verif.Props.BuiltinExt.C156_syntax_commands' depends on axioms: [propext, Classical.choice, Quot.sound]
'Verif.Props.BuiltinExt.C156_auto_commands' depends on axioms: [propext, Classical.choice, Quot.sound]
'Verif.Props.BuiltinExt.C156_tokens' depends on axioms: [propext, Classical.choice, Quot.sound]
'Verif.Props.BuiltinExt.C156_stale_violated' depends on axioms: [propext, Classical.choice, Quot.sound]
'Verif.Props.BuiltinExt.C156_late_violated' depends on axioms: [propext, Classical.choice, Quot.sound]
'Verif.Props.BuiltinExt.C156_trigger' depends on axioms: [propext, Classical.choice, Quot.sound]
'Verif.Props.BuiltinExt.C156_end' depends on axioms: [propext, Classical.choice, Quot.sound]
'Verif.Props.BuiltinExt.C156_position_violated' depends on axioms: [propext, Classical.choice, Quot.sound]
'Verif.Props.BuiltinExt.C156_ten_violated' depends on axioms: [propext, Classical.choice, Quot.sound]
'Verif.Props.Plugin.C157_get' depends on axioms: [propext, Quot.sound]
'Verif.Props.Plugin.C157_list' depends on axioms: [propext, Quot.sound]
'Verif.Props.Plugin.C157_unregister' depends on axioms: [propext, Quot.sound]
'Verif.Props.Plugin.C157_params' depends on axioms: [propext, Quot.sound]
'Verif.Props.Plugin.C157_glow_violated' depends on axioms: [propext, Classical.choice, Quot.sound]
'Verif.Props.FluentTag.C158_missing' depends on axioms: [propext, Classical.choice, Quot.sound]
'Verif.Props.FluentTag.C158_chosen' does not depend on any axioms
'Verif.Props.FluentTag.C158_range' depends on axioms: [propext, Classical.choice, Quot.sound]
'Verif.Props.FluentTag.C158_wrap' depends on axioms: [propext, Classical.choice, Quot.sound]
'Verif.Props.FluentTag.C158_insert' depends on axioms: [propext, Classical.choice, Quot.sound]
'Verif.Props.FluentTag.C158_remove_partial' depends on axioms: [propext, Classical.choice, Quot.sound]
'Verif.Props.FluentTag.C158_replace_partial' depends on axioms: [propext, Classical.choice, Quot.sound]
'Verif.Props.FluentTag.C158_replace_first_partial' depends on axioms: [propext, Classical.choice, Quot.sound]
'Verif.Props.FluentTag.C158_parse_partial' depends on axioms: [propext, Classical.choice, Quot.sound]
'Verif.Props.FluentTag.C158_generate' depends on axioms: [propext, Classical.choice, Quot.sound]
'Verif.Props.FluentTag.C158_generate_exact_partial' depends on axioms: [propext, Classical.choice, Quot.sound]
'Verif.Props.FluentTag.C158_adjust' depends on axioms: [propext, Classical.choice, Quot.sound]
'Verif.Props.FluentTag.C158_whole_violated' depends on axioms: [propext, Classical.choice, Quot.sound]
'Verif.Props.FluentTag.C158_sections_violated' depends on axioms: [propext, Classical.choice, Quot.sound]
'Verif.Props.ErrorInfo.C159_line_partial' depends on axioms: [propext, Classical.choice, Quot.sound]
'Verif.Props.ErrorInfo.C159_event_violated' depends on axioms: [propext, Classical.choice, Quot.sound]
'Verif.Props.ErrorInfo.C159_utf8_violated' depends on axioms: [propext]
'Verif.Props.ErrorInfo.C159_category' depends on axioms: [propext, Classical.choice, Quot.sound]
'Verif.Props.ErrorInfo.C159_recovery_partial' depends on axioms: [propext, Quot.sound]
'Verif.Props.ErrorInfo.C159_parse' depends on axioms: [propext, Quot.sound]
'Verif.Props.ErrorInfo.C159_category_violated' depends on axioms: [propext]
'Verif.Props.ErrorInfo.C159_types' depends on axioms: [propext, Classical.choice, Quot.sound]
'Verif.Props.ErrorInfo.C159_editor' depends on axioms: [propext, Quot.sound]
'Verif.Props.ErrorInfo.C159_collected' depends on axioms: [propext, Quot.sound]
'Verif.Props.ErrorInfo.C159_histories' depends on axioms: [propext]
'Verif.Props.ErrorInfo.C159_abort' depends on axioms: [propext]
'Verif.Props.ErrorInfo.C159_result' depends on axioms: [propext, Quot.sound]
'Verif.Props.ExtContext.C160_config_partial' depends on axioms: [propext, Quot.sound]
'Verif.Props.ExtContext.C160_config_violated' depends on axioms: [propext]
'Verif.Props.ExtContext.C160_single_partial' depends on axioms: [propext, Quot.sound]
'Verif.Props.ExtContext.C160_data' depends on axioms: [propext, Quot.sound]
'Verif.Props.ExtContext.C160_dropped' does not depend on any axioms
'Verif.Props.ExtContext.C160_events_violated' depends on axioms: [propext]
'Verif.Props.ExtContext.C160_messages_violated' depends on axioms: [propext]
'Verif.Props.ExtContext.C160_register_violated' depends on axioms: [propext]
'Verif.Props.ExtContext.C160_stopped_violated' depends on axioms: [propext]
'Verif.Props.ExtContext.C160_active_partial' depends on axioms: [propext, Classical.choice, Quot.sound]
'Verif.Props.Report.C161_same' depends on axioms: [propext, Classical.choice, Quot.sound]
'Verif.Props.Report.C161_toggle' depends on axioms: [propext, Classical.choice, Quot.sound]
'Verif.Props.Report.C161_timing_partial' depends on axioms: [propext, Classical.choice, Quot.sound]
'Verif.Props.Report.C161_effect_partial' depends on axioms: [propext, Classical.choice, Quot.sound]
'Verif.Props.Report.C161_timing_ends' depends on axioms: [propext, Classical.choice, Quot.sound]
'Verif.Props.Report.C161_ends_partial' depends on axioms: [propext, Classical.choice, Quot.sound]
'Verif.Props.Report.C161_ends_violated' depends on axioms: [propext, Classical.choice, Quot.sound]
'Verif.Props.Report.C161_same_apply' depends on axioms: [propext, Classical.choice, Quot.sound]
'Verif.Props.Report.C161_apply_partial' depends on axioms: [propext, Classical.choice, Quot.sound]
'Verif.Props.Report.C161_apply_ends_partial' depends on axioms: [propext, Classical.choice, Quot.sound]
'Verif.Props.Report.C161_apply_violated' depends on axioms: [propext, Classical.choice, Quot.sound]
'Verif.Props.Report.C161_delete' depends on axioms: [propext, Classical.choice, Quot.sound]
'Verif.Props.Report.C161_merge' depends on axioms: [propext, Classical.choice, Quot.sound]
'Verif.Props.Report.C161_split' depends on axioms: [propext, Classical.choice, Quot.sound]
'Verif.Props.Report.C161_same_split' depends on axioms: [propext, Classical.choice, Quot.sound]
'Verif.Props.Report.C161_same_single' depends on axioms: [propext, Classical.choice, Quot.sound]
'Verif.Props.Report.C161_batch_partial' depends on axioms: [propext, Classical.choice, Quot.sound]
'Verif.Props.Report.C161_batch_violated' depends on axioms: [propext, Classical.choice, Quot.sound]
'Verif.Props.Report.C161_media_entry' depends on axioms: [propext, Classical.choice, Quot.sound]
'Verif.Props.Report.C161_media_partial' depends on axioms: [propext, Classical.choice, Quot.sound]
'Verif.Props.Report.C161_media_violated' depends on axioms: [propext, Classical.choice, Quot.sound]
'Verif.Props.Tracked.C162_unsaved' depends on axioms: [propext, Classical.choice, Quot.sound]
'Verif.Props.Tracked.C162_save' depends on axioms: [propext, Quot.sound]
'Verif.Props.Tracked.C162_save_path' does not depend on any axioms
'Verif.Props.Tracked.C162_file_partial' depends on axioms: [propext, Classical.choice, Quot.sound]
'Verif.Props.Tracked.C162_failed_violated' depends on axioms: [propext, Classical.choice, Quot.sound]
'Verif.Props.Tracked.C162_path_violated' depends on axioms: [propext, Classical.choice, Quot.sound]
'Verif.Props.Tracked.C162_undo_violated' depends on axioms: [propext, Classical.choice, Quot.sound]
'Verif.Props.TrackedCursor.C163_edit' depends on axioms: [propext]
'Verif.Props.TrackedCursor.C163_undo' depends on axioms: [propext, Quot.sound]
'Verif.Props.TrackedCursor.C163_redo' depends on axioms: [propext]
'Verif.Props.TrackedCursor.C163_place_partial' depends on axioms: [propext, Quot.sound]
'Verif.Props.TrackedCursor.C163_inside_violated' depends on axioms: [propext, Quot.sound]
'Verif.Props.TrackedCursor.C163_undo_stays' depends on axioms: [propext, Classical.choice]
'Verif.Props.TrackedCursor.C163_undo_violated' depends on axioms: [propext, Classical.choice, Quot.sound]
'Verif.Props.TrackedCursor.C163_exec_violated' depends on axioms: [propext, Classical.choice, Quot.sound]
'Verif.Props.TrackedCursor.C163_same_edits' depends on axioms: [propext]
'Verif.Props.TrackedCursor.C163_same_undo' depends on axioms: [propext, Classical.choice, Quot.sound]
'Verif.Props.TrackedCursor.C163_reached' depends on axioms: [propext, Classical.choice, Quot.sound]
'Verif.Props.DocPlugins.C164_ready' depends on axioms: [propext, Classical.choice, Quot.sound]
'Verif.Props.DocPlugins.C164_tags' depends on axioms: [propext, Classical.choice, Quot.sound]
'Verif.Props.DocPlugins.C164_sections' depends on axioms: [propext, Classical.choice, Quot.sound]
'Verif.Props.DocPlugins.C164_taken' depends on axioms: [propext, Classical.choice, Quot.sound]
'Verif.Props.DocPlugins.C164_parse' depends on axioms: [propext, Classical.choice, Quot.sound]
'Verif.Props.DocPlugins.C164_asked_partial' depends on axioms: [propext, Classical.choice, Quot.sound]
'Verif.Props.DocPlugins.C164_unused_violated' depends on axioms: [propext, Classical.choice, Quot.sound]
'Verif.Props.DocPlugins.C164_again_violated' depends on axioms: [propext, Classical.choice, Quot.sound]
'Verif.Props.DocPlugins.C164_failed_violated' depends on axioms: [propext, Classical.choice, Quot.sound]
'Verif.Props.AtPos.C165_at' depends on axioms: [propext, Quot.sound]
'Verif.Props.AtPos.C165_refused' depends on axioms: [propext, Quot.sound]
'Verif.Props.AtPos.C165_total' depends on axioms: [propext, Quot.sound]
'Verif.Props.AtPos.C165_undo' depends on axioms: [propext, Classical.choice, Quot.sound]
'Verif.Props.AtPos.C165_overflow_violated' depends on axioms: [propext, Classical.choice, Quot.sound]
'Verif.Props.AtPos.C165_wraps_violated' depends on axioms: [propext, Quot.sound]
'Verif.Props.EditorError.C166_text_partial' depends on axioms: [propext, Classical.choice, Quot.sound]
'Verif.Props.EditorError.C166_core_violated' depends on axioms: [propext, Classical.choice, Quot.sound]
'Verif.Props.EditorError.C166_names_violated' depends on axioms: [propext, Classical.choice, Quot.sound]
'Verif.Props.EditorError.C166_edits' depends on axioms: [propext, Quot.sound]
'Verif.Props.EditorError.C166_replace_partial' depends on axioms: [propext, Quot.sound]
'Verif.Props.EditorError.C166_replace_violated' depends on axioms: [propext, Classical.choice, Quot.sound]
'Verif.Props.ErrorTexts.C166_all_partial' depends on axioms: [propext, Classical.choice, Quot.sound]
'Verif.Props.ErrorTexts.C167_parse_partial' depends on axioms: [propext, Classical.choice, Quot.sound]
'Verif.Props.ErrorTexts.C167_core_partial' depends on axioms: [propext, Classical.choice, Quot.sound]
'Verif.Props.ErrorTexts.C167_names_violated' depends on axioms: [propext, Classical.choice, Quot.sound]
'Verif.Props.ErrorTexts.C167_render_partial' depends on axioms: [propext, Classical.choice, Quot.sound]
'Verif.Props.ErrorTexts.C167_kinds' depends on axioms: [propext, Classical.choice, Quot.sound]
'Verif.Props.Follow.C168_edit_partial' depends on axioms: [propext, Quot.sound]
'Verif.Props.Follow.C168_follow_partial' depends on axioms: [propext, Quot.sound]
'Verif.Props.Follow.C168_within_violated' depends on axioms: [propext, Classical.choice, Quot.sound]
'Verif.Props.Follow.C168_silent_violated' depends on axioms: [propext, Classical.choice, Quot.sound]
'Verif.Props.Follow.C168_long' depends on axioms: [propext, Classical.choice, Quot.sound]
'Verif.Props.Follow.C168_short_violated' depends on axioms: [propext, Classical.choice, Quot.sound]
'Verif.Props.Follow.C168_range' depends on axioms: [propext, Quot.sound]
'Verif.Props.Follow.C168_range_violated' depends on axioms: [propext, Classical.choice, Quot.sound]
'Verif.Props.Follow.C168_kinds_partial' depends on axioms: [propext, Classical.choice, Quot.sound]
'Verif.Props.Follow.C168_custom_violated' depends on axioms: [propext, Classical.choice, Quot.sound]
'Verif.Props.DocValid.C169_remembered_partial' depends on axioms: [propext, Classical.choice, Quot.sound]
'Verif.Props.DocValid.C169_validate_partial' depends on axioms: [propext, Classical.choice, Quot.sound]
'Verif.Props.DocValid.C169_forgotten' depends on axioms: [propext]
'Verif.Props.DocValid.C169_undo_violated' depends on axioms: [propext, Classical.choice, Quot.sound]
'Verif.Props.DocValid.C169_raw_violated' depends on axioms: [propext, Classical.choice, Quot.sound]
'Verif.Props.DocValid.C169_failed_violated' depends on axioms: [propext, Classical.choice, Quot.sound]
'Verif.Props.TokenInfo.C170_end_partial' depends on axioms: [propext, Classical.choice, Quot.sound]
'Verif.Props.TokenInfo.C170_next_partial' depends on axioms: [propext, Classical.choice, Quot.sound]
'Verif.Props.TokenInfo.C170_simd_violated' depends on axioms: [propext, Classical.choice, Quot.sound]
'Verif.Props.TokenInfo.C170_break_violated' depends on axioms: [propext, Classical.choice, Quot.sound]
'Verif.Props.TokenInfo.C170_asked' depends on axioms: [propext, Classical.choice, Quot.sound]
'Verif.Props.TokenInfo.C170_kinds' depends on axioms: [propext, Classical.choice, Quot.sound]
'Verif.Props.TokenInfo.C170_content_partial' depends on axioms: [propext, Classical.choice, Quot.sound]
'Verif.Props.TokenInfo.C170_content_violated' depends on axioms: [propext, Classical.choice, Quot.sound]
'Verif.Props.StyleOps.C171_order' depends on axioms: [propext, Classical.choice, Quot.sound]
'Verif.Props.StyleOps.C171_values_partial' depends on axioms: [propext, Classical.choice, Quot.sound]
'Verif.Props.StyleOps.C171_value_violated' depends on axioms: [propext, Classical.choice, Quot.sound]
'Verif.Props.LineIn.C172_event_partial' depends on axioms: [propext, Classical.choice, Quot.sound]
'Verif.Props.LineIn.C172_style_partial' depends on axioms: [propext, Classical.choice, Quot.sound]
'Verif.Props.LineIn.C172_field' depends on axioms: [propext, Classical.choice, Quot.sound]
'Verif.Props.LineIn.C172_format_violated' depends on axioms: [propext, Classical.choice, Quot.sound]
'Verif.Props.LineIn.C172_blank_violated' depends on axioms: [propext, Classical.choice, Quot.sound]
'Verif.Props.LineIn.C172_style_violated' depends on axioms: [propext, Classical.choice, Quot.sound]
'Verif.Props.IssueText.C173_shown' depends on axioms: [propext, Classical.choice, Quot.sound]
'Verif.Props.IssueText.C173_told_partial' depends on axioms: [propext, Classical.choice, Quot.sound]
'Verif.Props.IssueText.C173_break_violated' depends on axioms: [propext, Classical.choice, Quot.sound]
'Verif.Props.IssueText.C173_blocking' depends on axioms: [propext, Classical.choice, Quot.sound]
'Verif.Props.PerfGate.C174_estimate' depends on axioms: [propext, Classical.choice, Quot.sound]
'Verif.Props.PerfGate.C174_told' depends on axioms: [propext, Classical.choice, Quot.sound]
'Verif.Props.PerfGate.C174_gate' depends on axioms: [propext, Classical.choice, Quot.sound]
'Verif.Props.PerfGate.C174_unread_violated' depends on axioms: [propext, Classical.choice, Quot.sound]
'Verif.Props.BenchValid.C175_load' depends on axioms: [propext, Classical.choice, Quot.sound]
'Verif.Props.BenchValid.C175_success' depends on axioms: [propext, Classical.choice, Quot.sound]
'Verif.Props.BenchValid.C175_memory_violated' depends on axioms: [propext, Classical.choice, Quot.sound]
'Verif.Props.FluentTime.C176_twice_partial' depends on axioms: [propext, Classical.choice, Quot.sound]
'Verif.Props.FluentTime.C176_back_partial' depends on axioms: [propext, Classical.choice, Quot.sound]
'Verif.Props.FluentTime.C176_clamped_violated' depends on axioms: [propext, Classical.choice, Quot.sound]
'Verif.Props.FluentTime.C176_one_end_partial' depends on axioms: [propext, Classical.choice, Quot.sound]
'Verif.Props.FluentEffect.C177_history_partial' depends on axioms: [propext, Classical.choice, Quot.sound]
'Verif.Props.FluentEffect.C177_empty_violated' depends on axioms: [propext, Classical.choice, Quot.sound]
'Verif.Props.FluentMerge.C178_cut_partial' depends on axioms: [propext, Classical.choice, Quot.sound]
'Verif.Props.FluentMerge.C178_times_partial' depends on axioms: [propext, Classical.choice, Quot.sound]
'Verif.Props.FluentMerge.C178_text_violated' depends on axioms: [propext, Classical.choice, Quot.sound]
