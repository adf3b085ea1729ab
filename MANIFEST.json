{
 "claims": [
  {
   "property": "C01",
   "status": "proved",
   "theorems": [
    "Verif.Props.C01_time_roundtrip",
    "Verif.Props.C01_format_injective"
   ],
   "note": "for every u32 duration whose hours fit; formatting is injective"
  },
  {
   "property": "C02",
   "status": "partial",
   "theorems": [
    "Verif.Props.C02_parse_accepts_iff",
    "Verif.Props.C02_parse_rejects_iff",
    "Verif.Props.C02_no_overflow_violated",
    "Verif.Props.C02_overflow_iff"
   ],
   "note": "exact acceptance grammar and rejection proved, including the deviations (leading +, text after a second dot); totality is violated: oversized components overflow (C02_no_overflow_violated, C02_overflow_iff)"
  },
  {
   "property": "C03",
   "status": "partial",
   "theorems": [
    "Verif.Props.C03_color_with_alpha",
    "Verif.Props.C03_color_without_alpha",
    "Verif.Props.C03_rejects_nonhex_violated",
    "Verif.Props.C03_rejects_partial"
   ],
   "note": "every documented spelling of every colour parses exactly; rejection holds except that a plus sign may replace the first digit (C03_rejects_nonhex_violated)"
  },
  {
   "property": "C04",
   "status": "proved",
   "theorems": [
    "Verif.Props.C04_uu_roundtrip",
    "Verif.Props.C04_encoded_line_charset"
   ],
   "note": ""
  },
  {
   "property": "C05",
   "status": "proved",
   "theorems": [
    "Verif.Props.C05_normalize_spec",
    "Verif.Props.C05_no_cr",
    "Verif.Props.C05_content_preserved",
    "Verif.Props.C05_idempotent"
   ],
   "note": ""
  },
  {
   "property": "C06",
   "status": "proved",
   "theorems": [
    "Verif.Props.C06_strip_bom",
    "Verif.Props.C06_detect_bom_sound",
    "Verif.Props.C06_detect_bom_complete"
   ],
   "note": ""
  },
  {
   "property": "C07",
   "status": "proved",
   "theorems": [
    "Verif.Props.C07_truncate",
    "Verif.Props.C07_byteLen_is_utf8_length"
   ],
   "note": ""
  },
  {
   "property": "C08",
   "status": "partial",
   "theorems": [
    "Verif.Props.C08_cover_partial",
    "Verif.Props.C08_all_partial",
    "Verif.Props.C08_limit_violated",
    "Verif.Props.C08_cr_violated"
   ],
   "note": "Termination, progress, order and coverage are proved for every source; a carriage return at the end of the source is an error instead of a token, and tokenize_all refuses more than 50 tokens."
  },
  {
   "property": "C09",
   "status": "partial",
   "theorems": [
    "Verif.C09_total",
    "Verif.C09_sections_partial",
    "Verif.C09_unclosed_violated"
   ],
   "note": "Termination proved for every source. Sections in order with their contents for every source whose section-opening lines are closed (C09_sections_partial); an unclosed bracket loses the next section (C09_unclosed_violated)."
  },
  {
   "property": "C10",
   "status": "partial",
   "theorems": [
    "Verif.Ast.C10_text_last_partial",
    "Verif.Ast.C10_no_text_partial",
    "Verif.Ast.C10_default",
    "Verif.Ast.C10_blanks_violated",
    "Verif.Ast.C10_names_violated",
    "Verif.Ast.C10_text_middle_violated"
   ],
   "note": "proved for every event and every format with the names spelled as documented and the text last (or absent, ten fields at most), the text up to its outer blanks; C10_default gives the identical event for the default format. Violations: outer blanks of the text, other spellings, text in the middle"
  },
  {
   "property": "C11",
   "status": "partial",
   "theorems": [
    "Verif.Ast.C11_round_trip_partial",
    "Verif.Ast.C11_default",
    "Verif.Ast.C11_parent_violated",
    "Verif.Ast.C11_star_violated",
    "Verif.Ast.C11_names_violated"
   ],
   "note": "proved for every style with comma-free fields and every format spelled as documented; the parent is lost (C11_parent_violated), a name beginning with * is misread (C11_star_violated), other spellings (C11_names_violated)"
  },
  {
   "property": "C12",
   "status": "partial",
   "theorems": [
    "Verif.Props.C12_undo_restores_partial",
    "Verif.Props.C12_undo_insert",
    "Verif.Props.C12_undo_delete",
    "Verif.Props.C12_undo_replace_violated",
    "Verif.Props.C12_undo_replace_leaves_tail"
   ],
   "note": "proved for any number of edits and undos on any reachable document when replacements keep the byte length; false for other replacements (C12_undo_replace_violated)"
  },
  {
   "property": "C13",
   "status": "partial",
   "theorems": [
    "Verif.Props.C13_redo_after_undo_partial",
    "Verif.Props.C13_redo_twice_violated",
    "Verif.Props.C13_redo_clears"
   ],
   "note": "redo after one undo restores the text; false for two redos (C13_redo_twice_violated, C13_redo_clears)"
  },
  {
   "property": "C14",
   "status": "proved",
   "theorems": [
    "Verif.Props.C14_entry_limit",
    "Verif.Props.C14_memory_counter",
    "Verif.Props.C14_memory_limit",
    "Verif.Props.C14_evicts_oldest"
   ],
   "note": ""
  },
  {
   "property": "C15",
   "status": "partial",
   "theorems": [
    "Verif.Props.C15_edit_exact",
    "Verif.Props.C15_rejected_unchanged",
    "Verif.Props.C15_insert_delete_total",
    "Verif.Props.C15_rejected_replace_violated",
    "Verif.Props.C15_replace_total_partial"
   ],
   "note": "exact splice at character boundaries and refusal without effect proved; a replace that starts inside a character can fail after deleting (C15_rejected_replace_violated)"
  },
  {
   "property": "C16",
   "status": "partial",
   "theorems": [
    "Verif.Props.C16_constructors_ordered",
    "Verif.Props.C16_new_symmetric",
    "Verif.Props.C16_contains",
    "Verif.Props.C16_len",
    "Verif.Props.C16_overlaps",
    "Verif.Props.C16_overlaps_empty_violated",
    "Verif.Props.C16_intersection",
    "Verif.Props.C16_union",
    "Verif.Props.C16_extend_to",
    "Verif.Props.C16_selection",
    "Verif.Props.C16_selection_extend"
   ],
   "note": "all operations agree with the set meaning, except overlaps on empty ranges (C16_overlaps_empty_violated)"
  },
  {
   "property": "C17",
   "status": "proved",
   "theorems": [
    "Verif.Props.C17_position_roundtrip",
    "Verif.Props.C17_linecol_roundtrip",
    "Verif.Props.C17_rope_lines",
    "Verif.Props.C17_out_of_range",
    "Verif.Props.C17_plain_line_column"
   ],
   "note": "for every division into lines, instantiated for ropey's default line breaks; also the rope-free variant"
  },
  {
   "property": "C18",
   "status": "proved",
   "theorems": [
    "Verif.Props.C18_session_limit",
    "Verif.Props.C18_active_exists",
    "Verif.Props.C18_limit_fixed",
    "Verif.Props.C18_isolation",
    "Verif.Props.C18_effects",
    "Verif.Props.C18_no_underflow"
   ],
   "note": "Limit, existence of the active session, isolation, effects and absence of underflow over all call histories."
  },
  {
   "property": "C19",
   "status": "partial",
   "theorems": [
    "Verif.Props.C19_ids_never_reused",
    "Verif.Props.C19_registry_consistent",
    "Verif.Props.C19_service_order",
    "Verif.Props.C19_register_unregister",
    "Verif.Props.C19_filter",
    "Verif.Props.C19_delivery_partial",
    "Verif.Props.C19_delivery_failure",
    "Verif.Props.C19_delivery_violated"
   ],
   "note": "Ids, limit, count, service order and filter are proved for all histories. Delivery to every accepting handler fails when a handler returns an error (C19_delivery_violated); proved when none does, and C19_delivery_failure says exactly who is called otherwise."
  },
  {
   "property": "C20",
   "status": "proved",
   "theorems": [
    "Verif.Props.C20_commands_owned",
    "Verif.Props.C20_execute_finds_owner",
    "Verif.Props.C20_unload_removes",
    "Verif.Props.C20_data"
   ],
   "note": "Ownership of commands over all histories; exact effect of unloading."
  },
  {
   "property": "C21",
   "status": "partial",
   "theorems": [
    "Verif.Props.C21_selection_partial",
    "Verif.Props.C21_clean_frame",
    "Verif.Props.C21_stale_index_violated",
    "Verif.Props.C21_second_section_violated"
   ],
   "note": "exact selection proved for every script with one events section and a fresh index; a stale index after in-place edits and a second events section violate it (C21_stale_index_violated, C21_second_section_violated)"
  },
  {
   "property": "C22",
   "status": "partial",
   "theorems": [
    "Verif.Props.C22_exact_partial",
    "Verif.Props.C22_bad_time",
    "Verif.Props.C22_exact_violated"
   ],
   "note": "exact when every event has positive duration; an event with zero duration is reported against everything later (C22_exact_violated); unparsable times are reported (C22_bad_time)"
  },
  {
   "property": "C23",
   "status": "partial",
   "theorems": [
    "Verif.Props.C23_never_inherits",
    "Verif.Props.C23_inheritance_violated",
    "Verif.Props.C23_no_parent_partial"
   ],
   "note": "the property is false of the code for every section with an existing parent: C23_never_inherits shows the result never depends on the inheritance rule, C23_inheritance_violated gives a witness; C23_no_parent_partial covers the rest"
  },
  {
   "property": "C24",
   "status": "partial",
   "theorems": [
    "Verif.Props.C24_separated_partial",
    "Verif.Props.C24_no_overlap_partial",
    "Verif.Props.C24_on_screen",
    "Verif.Props.C24_no_needless_move",
    "Verif.Props.C24_direction",
    "Verif.Props.C24_separated_violated",
    "Verif.Props.C24_history_partial",
    "Verif.Props.C24_process",
    "Verif.Props.C24_free_position_sound",
    "Verif.Props.C24_free_position_violated"
   ],
   "note": "separation proved unless the screen edge holds the box back; on-screen, direction, batch processing and free-position soundness proved; overlaps although there is room: C24_separated_violated; free position outside the bounds: C24_free_position_violated; exact arithmetic instead of f32"
  },
  {
   "property": "C25",
   "status": "partial",
   "theorems": [
    "Verif.Props.C25_disjoint",
    "Verif.Props.C25_in_bounds_partial",
    "Verif.Props.C25_no_overflow",
    "Verif.Props.C25_in_bounds_violated"
   ],
   "note": "disjointness for all request sequences; in bounds when no request is wider than the atlas; wider requests stick out (C25_in_bounds_violated)"
  },
  {
   "property": "C26",
   "status": "partial",
   "theorems": [
    "Verif.Props.C26_lookup_fresh",
    "Verif.Props.C26_store_then_get",
    "Verif.Props.C26_below_capacity",
    "Verif.Props.C26_bounded_partial",
    "Verif.Props.C26_bounded_violated",
    "Verif.Props.C26_counters"
   ],
   "note": "freshness for all operation sequences and eviction orders; bound holds for positive capacity, capacity 0 holds one entry (C26_bounded_violated)"
  },
  {
   "property": "C27",
   "status": "proved",
   "theorems": [
    "Verif.Props.C27_merge",
    "Verif.Props.C27_all_covered",
    "Verif.Props.C27_contains_point",
    "Verif.Props.C27_intersects",
    "Verif.Props.C27_overlap_exact",
    "Verif.Props.C27_full_screen",
    "Verif.Props.C27_noted"
   ],
   "note": "for rectangles whose far edges are 32-bit coordinates"
  },
  {
   "property": "C28",
   "status": "partial",
   "theorems": [
    "Verif.Props.C28_transparent_partial",
    "Verif.Props.C28_context_change_violated",
    "Verif.Props.C28_other_script_violated"
   ],
   "note": "transparent for one script and a fixed context; stale frame after set_context (C28_context_change_violated) or for another script at the same address (C28_other_script_violated)"
  },
  {
   "property": "C29",
   "status": "partial",
   "theorems": [
    "Verif.Props.C29_search_partial",
    "Verif.Props.C29_offsets_partial",
    "Verif.Props.C29_range_partial",
    "Verif.Props.C29_multibyte_violated",
    "Verif.Props.C29_empty_violated",
    "Verif.Props.C29_folding_violated",
    "Verif.Props.C29_index_violated",
    "Verif.Props.C29_index_partial",
    "Verif.Props.C29_replace_partial",
    "Verif.Props.C29_replace_violated"
   ],
   "note": "Without the word index, the search reports exactly the occurrences for patterns starting with a one-byte character, and replacement equals substitution when matches do not overlap. Multi-byte and empty patterns panic, case folding that changes lengths shifts offsets, the word index misses matches inside words, and replace with overlapping matches corrupts text (violated theorems)."
  },
  {
   "property": "C30",
   "status": "proved",
   "theorems": [
    "Verif.Props.C30_strip_exact",
    "Verif.Props.C30_no_block",
    "Verif.Props.C30_idempotent",
    "Verif.Props.C30_untouched",
    "Verif.Props.C30_convert_no_block"
   ],
   "note": ""
  },
  {
   "property": "C31",
   "status": "partial",
   "theorems": [
    "Verif.Props.C31_export",
    "Verif.Props.C31_import",
    "Verif.Props.C31_roundtrip",
    "Verif.Props.C31_export_total_violated",
    "Verif.Props.C31_value_roundtrip_partial",
    "Verif.Props.C31_format_export",
    "Verif.Props.C31_format_import",
    "Verif.Props.C31_format_roundtrip"
   ],
   "note": "Round trip, exact export and import for all canonical times (both converters) and for every accepted time text below 4294967.30 s; beyond that the multiplication by ten overflows (C31_export_total_violated)."
  },
  {
   "property": "C32",
   "status": "proved",
   "theorems": [
    "Verif.Props.C32_export",
    "Verif.Props.C32_import",
    "Verif.Props.C32_import_short",
    "Verif.Props.C32_roundtrip",
    "Verif.Props.C32_value_roundtrip_partial",
    "Verif.Props.C32_format_export",
    "Verif.Props.C32_format_import",
    "Verif.Props.C32_format_import_short",
    "Verif.Props.C32_format_roundtrip"
   ],
   "note": "Every canonical time, both converters; beyond the claim, also every accepted time text below 4294967.30 s (C32_value_roundtrip_partial)."
  },
  {
   "property": "C33",
   "status": "partial",
   "theorems": [
    "Verif.Props.C33_visible_partial",
    "Verif.Props.C33_total_partial",
    "Verif.Props.C33_total_violated",
    "Verif.Props.C33_lone_backslash_violated",
    "Verif.Props.C33_nesting"
   ],
   "note": "Plain text proved equal to an independent notion of visible text for texts whose blocks are closed; panics on \"{\", unclosed blocks ending in a multibyte character, \"\\é\" in a block, and the dropped final backslash are proved as violations."
  },
  {
   "property": "C34",
   "status": "partial",
   "theorems": [
    "Verif.Props.C34_located",
    "Verif.Props.C34_ordered",
    "Verif.Props.C34_complete",
    "Verif.Props.C34_total_partial",
    "Verif.Props.C34_total_violated",
    "Verif.Props.C34_text",
    "Verif.Props.C34_unclosed_violated"
   ],
   "note": "Location, order and completeness proved for every block and every text the analysis returns on; totality only without a backslash before a multibyte character; unclosed blocks lose their last byte (violated)."
  },
  {
   "property": "C35",
   "status": "partial",
   "theorems": [
    "Verif.Props.C35_letters",
    "Verif.Props.C35_generate_partial",
    "Verif.Props.C35_refuses",
    "Verif.Props.C35_blanks_violated",
    "Verif.Props.C35_split",
    "Verif.Props.C35_split_at",
    "Verif.Props.C35_split_total_violated",
    "Verif.Props.C35_apply_equal",
    "Verif.Props.C35_apply_pattern_partial",
    "Verif.Props.C35_apply_words",
    "Verif.Props.C35_apply_empty_violated"
   ],
   "note": "Non-blank characters proved preserved for every text; exact text for texts without double or final blanks (violated otherwise); splitting and applying proved exact, with crashes for positions inside a character and empty patterns proved as violations."
  },
  {
   "property": "C36",
   "status": "partial",
   "theorems": [
    "Verif.Props.C36_toggle_partial",
    "Verif.Props.C36_toggle_twice_partial",
    "Verif.Props.C36_toggle_all_violated",
    "Verif.Props.C36_toggle_panics_violated",
    "Verif.Props.C36_timing_partial",
    "Verif.Props.C36_ordered",
    "Verif.Props.C36_timing_selection_partial",
    "Verif.Props.C36_timing_all_violated",
    "Verif.Props.EventCmdExact.C36_toggle_exact",
    "Verif.Props.EventCmdExact.C36_timing_exact"
   ],
   "note": "Toggling one event, and moving the times of one event or of any selection whose lines keep their length, proved exact with start before end; toggling or moving several events misses events and can crash (violated)."
  },
  {
   "property": "C37",
   "status": "partial",
   "theorems": [
    "Verif.Props.C37_effect_partial",
    "Verif.Props.C37_comma_violated",
    "Verif.Props.C37_paren_violated",
    "Verif.Props.C37_multibyte_violated",
    "Verif.Props.EventCmdExact.C37_effect_exact",
    "Verif.Props.EventCmdExact.C37_effects_partial"
   ],
   "note": "Moving times and editing the effect of a safe ASCII event changes only that field; blanks after commas are lost, an unmatched parenthesis adds a comma and commas after non-ASCII characters crash (violated)."
  },
  {
   "property": "C38",
   "status": "partial",
   "theorems": [
    "Verif.Props.C38_set_get",
    "Verif.Props.C38_missing",
    "Verif.Props.C38_get_partial",
    "Verif.Props.C38_set_partial",
    "Verif.Props.C38_others_partial",
    "Verif.Props.C38_delete_partial",
    "Verif.Props.C38_get_all_partial",
    "Verif.Props.C38_substring_violated",
    "Verif.Props.C38_delete_violated",
    "Verif.Props.C38_empty_violated",
    "Verif.Props.C38_comment_violated",
    "Verif.Props.InfoHistory.C38_history_partial"
   ],
   "note": "set-then-get proved for every script with the section; other properties, delete and list when no line contains the name followed by \": \" except its own (C38_substring_violated, C38_delete_violated, C38_empty_violated, C38_comment_violated)"
  },
  {
   "property": "C39",
   "status": "partial",
   "theorems": [
    "Verif.Props.C39_delete_partial",
    "Verif.Props.C39_delete_last_partial",
    "Verif.Props.C39_missing",
    "Verif.Props.C39_prefix_violated",
    "Verif.Props.C39_comment_violated",
    "Verif.Props.C39_clone_partial",
    "Verif.Props.C39_clone_existing",
    "Verif.Props.C39_clone_refused_violated",
    "Verif.Props.C39_edit_partial",
    "Verif.Props.C39_rename_violated",
    "Verif.Props.C39_edit_ignored_violated"
   ],
   "note": "proved when no earlier text reads \"Style: \" followed by the name; prefix names and mentions in comments are hit instead (C39_prefix_violated, C39_comment_violated, C39_clone_refused_violated); the name field and format lines without blanks fail (C39_rename_violated, C39_edit_ignored_violated)"
  },
  {
   "property": "C40",
   "status": "partial",
   "theorems": [
    "Verif.Props.C40_chunks_partial",
    "Verif.Props.C40_lines",
    "Verif.Props.C40_carriage_return_violated",
    "Verif.Props.C40_bytes_violated",
    "Verif.Props.C40_sections_violated",
    "Verif.Props.C40_refused"
   ],
   "note": "Full chunk independence when no chunk but the last ends with a carriage return; bytes refused exactly if not UTF-8. Disagreements: carriage return at the end of a chunk, chunks cut inside a character, no section ever delivered."
  },
  {
   "property": "C41",
   "status": "proved",
   "theorems": [
    "Verif.Props.C41_atomic"
   ],
   "note": "All-or-nothing for every batch: an error leaves the script and its record of changes as they were, success means all updates were made in order followed by the additions. The exact condition for success is proved as well."
  },
  {
   "property": "C42",
   "status": "partial",
   "theorems": [
    "Verif.Props.C42_counts",
    "Verif.Props.C42_verdict_partial",
    "Verif.Props.C42_cache_partial",
    "Verif.Props.C42_fresh",
    "Verif.Props.C42_force",
    "Verif.Props.C42_interval",
    "Verif.Props.C42_cache_violated",
    "Verif.Props.C42_limit_violated",
    "Verif.Props.C42_threshold_violated"
   ],
   "note": "Verdict exact when neither limit nor threshold can hide an error; the cache is exact up to hash collisions, for which a pair of texts is given. Disagreements: limit, threshold and hash collision make a script with errors valid."
  },
  {
   "property": "C43",
   "status": "proved",
   "theorems": [
    "Verif.Props.Blend.C43_row",
    "Verif.Props.Blend.C43_pixels"
   ],
   "note": "The colour handed to the row blend is premultiplied, as the compositing functions make it"
  },
  {
   "property": "C44",
   "status": "partial",
   "theorems": [
    "Verif.Props.C44_partial",
    "Verif.Props.C44_exact",
    "Verif.Props.C44_violated"
   ],
   "note": "Exact for lines without blanks at the beginning or side by side, with any arithmetic and font; otherwise up to lines that are left empty. Disagreement: a blank before a too wide word is lost."
  },
  {
   "property": "C45",
   "status": "partial",
   "theorems": [
    "Verif.Props.Transform.C45_progress_partial",
    "Verif.Props.Transform.C45_bounce_violated"
   ],
   "note": "Accelerations that are not negative, exact arithmetic, powf assumed to keep [0,1] and its order; fails for negative accelerations"
  },
  {
   "property": "C46",
   "status": "partial",
   "theorems": [
    "Verif.Props.Alignment.C46_keypad",
    "Verif.Props.Alignment.C46_ssa_partial",
    "Verif.Props.Alignment.C46_rows_violated",
    "Verif.Props.Alignment.C46_agree_violated"
   ],
   "note": "Keypad values and the bottom row are right and both conversions agree on well-formed values; top and middle are exchanged and the conversions disagree on other values"
  },
  {
   "property": "C47",
   "status": "proved",
   "theorems": [
    "Verif.Props.C47_process_tag",
    "Verif.Props.C47_process_section",
    "Verif.Props.C47_duplicate",
    "Verif.Props.C47_duplicate_section",
    "Verif.Props.C47_remove",
    "Verif.Props.C47_names"
   ],
   "note": "every sequence of calls"
  },
  {
   "property": "C48",
   "status": "partial",
   "theorems": [
    "Verif.Props.C48_animation_max",
    "Verif.Props.C48_animation_monotone",
    "Verif.Props.C48_animation_total_partial",
    "Verif.Props.C48_animation_violated",
    "Verif.Props.C48_complexity",
    "Verif.Props.C48_analyze"
   ],
   "note": "ranges and monotonicity proved; the animation sum overflows eight bits from 52 animation tags on (C48_animation_violated)"
  },
  {
   "property": "C49",
   "status": "partial",
   "theorems": [
    "Verif.Props.C49_total",
    "Verif.Props.C49_accepts",
    "Verif.Props.C49_pos_violated"
   ],
   "note": "All 47 built-in validators proved exact and total (reading of floats as documented by the standard library); \\pos and \\move reject the arguments the block parser hands them (C49_pos_violated)"
  },
  {
   "property": "C50",
   "status": "proved",
   "theorems": [
    "Verif.Props.C50_analyze",
    "Verif.Props.C50_symmetric",
    "Verif.Props.C50_relation"
   ],
   "note": "for all analysed events"
  },
  {
   "property": "C51",
   "status": "partial",
   "theorems": [
    "Verif.Props.Segment.C51_stretches",
    "Verif.Props.Segment.C51_tagged",
    "Verif.Props.Segment.C51_unique",
    "Verif.Props.Segment.C51_visible_partial",
    "Verif.Props.Segment.C51_drawing_violated",
    "Verif.Props.Segment.C51_backslash_violated",
    "Verif.Props.Segment.C51_total_violated"
   ],
   "note": "Texts without drawing tags whose segments can be computed. Violated for drawings, a final backslash, and two kinds of tags that panic."
  },
  {
   "property": "C52",
   "status": "proved",
   "theorems": [
    "Verif.Props.Segment.C52_split",
    "Verif.Props.Segment.C52_tags"
   ],
   "note": "The pieces are exactly the text cut at its separating backslashes."
  },
  {
   "property": "C53",
   "status": "partial",
   "theorems": [
    "Verif.Props.C53_undo_execute_insert_partial",
    "Verif.Props.C53_undo_execute_violated",
    "Verif.Props.C53_set_property_violated"
   ],
   "note": "insert commands proved; delete commands are recorded as empty insertions (C53_undo_execute_violated); setting a new script property is not recorded at all (C53_set_property_violated)"
  },
  {
   "property": "C54",
   "status": "partial",
   "theorems": [
    "Verif.Props.C54_operations",
    "Verif.Props.C54_stats_violated",
    "Verif.Props.C54_stats_partial"
   ],
   "note": "Violated when an existing id is created again (C54_stats_violated); exact otherwise (C54_stats_partial)."
  },
  {
   "property": "C55",
   "status": "partial",
   "theorems": [
    "Verif.Props.C55_dependencies_violated",
    "Verif.Props.C55_unload_dependency_violated",
    "Verif.Props.C55_dependencies_partial"
   ],
   "note": "Violated through ghost states and through unloading a dependency; proved for histories that only initialise loaded extensions and do not unload."
  },
  {
   "property": "C56",
   "status": "partial",
   "theorems": [
    "Verif.Props.C56_commands_stay_violated",
    "Verif.Props.C56_commands_stay_partial"
   ],
   "note": "Violated by clashing command ids; proved when ids do not clash."
  },
  {
   "property": "C57",
   "status": "partial",
   "theorems": [
    "Verif.Props.C57_init_returns_violated",
    "Verif.Props.C57_init_returns_partial"
   ],
   "note": "Violated: callbacks run while the manager lock is held (C57_init_returns_violated); proved when callbacks keep away from the manager or the context uses another manager."
  },
  {
   "property": "C58",
   "status": "proved",
   "theorems": [
    "Verif.Props.C58_cycle_check_exact"
   ],
   "note": "exactness and termination of the cycle search"
  },
  {
   "property": "C59",
   "status": "partial",
   "theorems": [
    "Verif.Props.C59_write_region",
    "Verif.Props.C59_others_untouched",
    "Verif.Props.C59_in_bounds",
    "Verif.Props.C59_others_untouched_violated"
   ],
   "note": "proved for regions inside the atlas; a granted over-wide region overwrites others (C59_others_untouched_violated)"
  },
  {
   "property": "C60",
   "status": "proved",
   "theorems": [
    "Verif.Props.C60_crop_exact",
    "Verif.Props.C60_scratch_clean"
   ],
   "note": "pixmap as a function of coordinates"
  },
  {
   "property": "C61",
   "status": "partial",
   "theorems": [
    "Verif.Props.C61_incremental_violated",
    "Verif.Props.C61_paints_over_violated",
    "Verif.Props.C61_repaint",
    "Verif.Props.C61_unchanged_partial"
   ],
   "note": "false of the code: ended events stay (C61_incremental_violated, C61_paints_over_violated); equal when the active set is unchanged and static"
  },
  {
   "property": "C62",
   "status": "partial",
   "theorems": [
    "Verif.Props.C62_independent_violated",
    "Verif.Props.C62_own_resolution_partial"
   ],
   "note": "false for scripts without their own resolution (C62_independent_violated); resolution taken from the script when it gives both"
  },
  {
   "property": "C63",
   "status": "partial",
   "theorems": [
    "Verif.Props.C63_srt_roundtrip_partial",
    "Verif.Props.C63_srt_stripped_partial",
    "Verif.Props.C63_webvtt_roundtrip_partial",
    "Verif.Props.C63_srt_final_blank",
    "Verif.Props.C63_webvtt_final_blank",
    "Verif.Props.C63_blank_line_violated",
    "Verif.Props.C63_arrow_violated",
    "Verif.Props.C63_angle_violated"
   ],
   "note": "Proved for events whose text lines are non-empty, have no white space at the ends and contain no brace, no <, no arrow; blank lines, arrows and angle brackets are lost (violated theorems)."
  },
  {
   "property": "C64",
   "status": "partial",
   "theorems": [
    "Verif.Props.C64_outside",
    "Verif.Props.C64_set_all_partial",
    "Verif.Props.C64_offset_partial",
    "Verif.Props.C64_scale_partial",
    "Verif.Props.C64_custom_partial",
    "Verif.Props.C64_several_violated",
    "Verif.Props.C64_prefix_violated",
    "Verif.Props.C64_offset_violated",
    "Verif.Props.C64_unclosed_violated"
   ],
   "note": "Proved for lines whose blocks hold one timing tag each; text outside blocks unchanged for all texts; several tags per block, offset overflow and unclosed blocks are violated."
  },
  {
   "property": "C65",
   "status": "partial",
   "theorems": [
    "Verif.Props.C65_delete",
    "Verif.Props.C65_missing",
    "Verif.Props.C65_batch",
    "Verif.Props.C65_unterminated_violated"
   ],
   "note": "Proved for files whose lines end with a line feed; a file ending in a non-ASCII character without line feed crashes (violated)."
  },
  {
   "property": "C66",
   "status": "partial",
   "theorems": [
    "Verif.Props.C66_merge_partial",
    "Verif.Props.C66_merge_between_violated",
    "Verif.Props.C66_merge_last_violated",
    "Verif.Props.C66_split_partial",
    "Verif.Props.C66_split_outside"
   ],
   "note": "Proved for safe events; merging drops the events in between and refuses an unterminated last line (violated)."
  },
  {
   "property": "C67",
   "status": "partial",
   "theorems": [
    "Verif.Props.C67_create_partial",
    "Verif.Props.C67_create_section",
    "Verif.Props.C67_before_format_violated",
    "Verif.Props.C67_duplicate_violated"
   ],
   "note": "proved when the format line follows the header; C67_before_format_violated, C67_duplicate_violated otherwise"
  },
  {
   "property": "C68",
   "status": "partial",
   "theorems": [
    "Verif.Props.C68_apply_partial",
    "Verif.Props.C68_filter_partial",
    "Verif.Props.C68_filter_violated",
    "Verif.Props.C68_length_violated",
    "Verif.Props.C68_text_violated",
    "Verif.Props.C68_blanks_violated",
    "Verif.Props.C68_again"
   ],
   "note": "proved for names of the same byte length, with and without filter; C68_length_violated, C68_text_violated, C68_blanks_violated, C68_filter_violated otherwise"
  },
  {
   "property": "C69",
   "status": "proved",
   "theorems": [
    "Verif.Props.C69_same_tags"
   ],
   "note": "every registry, block and start position"
  },
  {
   "property": "C70",
   "status": "partial",
   "theorems": [
    "Verif.Props.C70_find_partial",
    "Verif.Props.C70_empty_violated"
   ],
   "note": "proved for non-empty ranges (C70_empty_violated otherwise)"
  },
  {
   "property": "C71",
   "status": "partial",
   "theorems": [
    "Verif.Props.C71_total",
    "Verif.Props.C71_average_partial",
    "Verif.Props.C71_duration_partial",
    "Verif.Props.C71_overflow_violated"
   ],
   "note": "total proved; average and milliseconds when they fit 32 bits (C71_overflow_violated otherwise)"
  },
  {
   "property": "C72",
   "status": "proved",
   "theorems": [
    "Verif.Props.C72_sort"
   ],
   "note": "std sort_by modelled as a stable insertion sort"
  },
  {
   "property": "C73",
   "status": "proved",
   "theorems": [
    "Verif.C73_events",
    "Verif.C73_styles",
    "Verif.Props.C73_order"
   ],
   "note": "For every source."
  },
  {
   "property": "C74",
   "status": "partial",
   "theorems": [
    "Verif.C74_lines_partial",
    "Verif.C74_blank_violated"
   ],
   "note": "Proved for every source without blank lines and with closed headers; a blank line before a section makes later numbers too small (C74_blank_violated)."
  },
  {
   "property": "C75",
   "status": "partial",
   "theorems": [
    "Verif.Parser.C75_round_trip_partial",
    "Verif.Parser.C75_formats_violated",
    "Verif.Parser.C75_files_violated",
    "Verif.Parser.C75_parent_violated"
   ],
   "note": "Scripts whose fields can stand in their lines, one embedded file per section, no parents; fails for two field lists, several files, parents"
  },
  {
   "property": "C76",
   "status": "partial",
   "theorems": [
    "Verif.C76_fonts_partial",
    "Verif.C76_graphics_partial",
    "Verif.C76_add_partial",
    "Verif.C76_length_violated",
    "Verif.C76_second_violated"
   ],
   "note": "Proved for fonts and graphics written by the encoder in any document with closed headers, and for adding to a document without the section, when the data length is not one that makes the last line look like a remark. Violations: lengths 1 or 27 above a multiple of 45 (C76_length_violated), a second font in the section (C76_second_violated)."
  },
  {
   "property": "C77",
   "status": "partial",
   "theorems": [
    "Verif.C77_list",
    "Verif.C77_list_none",
    "Verif.C77_add_new",
    "Verif.C77_add_partial",
    "Verif.C77_add_violated",
    "Verif.C77_clear",
    "Verif.C77_remove_partial",
    "Verif.C77_remove_prefix_violated",
    "Verif.C77_remove_extent_violated",
    "Verif.Props.MediaHistory.C77_history_partial",
    "Verif.Props.MediaOps.C77_exists",
    "Verif.Props.MediaOps.C77_asking_partial",
    "Verif.Props.MediaOps.C77_exists_violated"
   ],
   "note": "Listing and clearing proved for all documents; adding where the section is new or ends with a line end; removing where the name is not contained earlier and no later section of the kind. Violations: C77_add_violated, C77_remove_prefix_violated, C77_remove_extent_violated."
  },
  {
   "property": "C78",
   "status": "partial",
   "theorems": [
    "Verif.Props.Blend.C78_coverage_partial",
    "Verif.Props.Blend.C78_bitmap_partial",
    "Verif.Props.Blend.C78_far_violated"
   ],
   "note": "Sizes up to 2^30, areas below 2^31, positions within 2^30 of the origin; fails (overflow) for positions at the lower end of the range"
  },
  {
   "property": "C79",
   "status": "partial",
   "theorems": [
    "Verif.Props.Transform.C79_parse_partial",
    "Verif.Props.Transform.C79_alpha_violated",
    "Verif.Props.Transform.C79_accel_violated"
   ],
   "note": "Canonical numbers, lone accelerations below ten, alpha without closing ampersand; fails for the usual spelling of alpha and for large accelerations"
  },
  {
   "property": "C80",
   "status": "partial",
   "theorems": [
    "Verif.Props.Transform.C80_ends",
    "Verif.Props.Transform.C80_during_partial",
    "Verif.Props.Transform.C80_style_violated",
    "Verif.Props.Transform.C80_time_partial",
    "Verif.Props.Transform.C80_late_violated"
   ],
   "note": "Exact arithmetic; fields set by an override, colours and font size; fails for border, alpha, … that only the style sets, and for times seven weeks into an event"
  },
  {
   "property": "C81",
   "status": "partial",
   "theorems": [
    "Verif.Props.Segment.C81_block",
    "Verif.Props.Segment.C81_segment_partial",
    "Verif.Props.Segment.C81_tagged_partial",
    "Verif.Props.Segment.C81_no_tags",
    "Verif.Props.Segment.C81_reset",
    "Verif.Props.Segment.C81_unknown",
    "Verif.Props.Segment.C81_reset_style_violated",
    "Verif.Props.Segment.C81_reset_position_violated",
    "Verif.Props.Segment.C81_no_argument_violated",
    "Verif.Props.Segment.C81_legacy_alignment_violated",
    "Verif.Props.Segment.C81_vector_clip_violated"
   ],
   "note": "Blocks of plain tags; reset without a style; unknown names. Violated for resets to a style, resets of positioned lines, flags without argument, the older alignment tag and vector clips."
  },
  {
   "property": "C82",
   "status": "partial",
   "theorems": [
    "Verif.Props.C82_duration",
    "Verif.Props.C82_style_partial",
    "Verif.Props.C82_style_colour",
    "Verif.Props.C82_characters",
    "Verif.Props.C82_overlap_partial",
    "Verif.Props.C82_inherited_violated",
    "Verif.Props.C82_second_section_violated",
    "Verif.Props.C82_comment_violated",
    "Verif.Props.C82_overlap_violated",
    "Verif.Props.C82_tag_colour_violated",
    "Verif.Props.C82_unknown_tag_violated",
    "Verif.Props.C82_short_violated",
    "Verif.Props.C82_total_violated"
   ],
   "note": "Exact for durations, style colours and characters; styles up to inheritance and later sections; overlaps when all times are readable. Colours in tags, reading speed and lengths: only disagreements. Eight disagreements."
  },
  {
   "property": "C83",
   "status": "proved",
   "theorems": [
    "Verif.Props.C83_config",
    "Verif.Props.C83_sound"
   ],
   "note": "Full claim."
  },
  {
   "property": "C84",
   "status": "partial",
   "theorems": [
    "Verif.Props.C84_section",
    "Verif.Props.C84_format_partial",
    "Verif.Props.C84_format_violated",
    "Verif.Props.C84_styles_violated"
   ],
   "note": "Section and line number exact; Format lines only between events. Disagreements: the line after an event is swallowed; V4++ Styles unknown."
  },
  {
   "property": "C85",
   "status": "partial",
   "theorems": [
    "Verif.Props.C85_greedy",
    "Verif.Props.C85_balanced_partial",
    "Verif.Props.C85_violated"
   ],
   "note": "Exact arithmetic instead of f32. Balanced lines only if every single word fits. Disagreement: one too wide word raises the limit for all lines."
  },
  {
   "property": "C86",
   "status": "partial",
   "theorems": [
    "Verif.Props.C86_refused_violated",
    "Verif.Props.C86_update",
    "Verif.Props.C86_event_partial",
    "Verif.Props.C86_style_partial",
    "Verif.Props.C86_batch",
    "Verif.Props.C86_again_violated",
    "Verif.Props.C86_last_violated",
    "Verif.Props.C86_field_violated",
    "Verif.Props.C86_add"
   ],
   "note": "Proved in general form (both directions) for every script and offset; for ordered scripts, which all parsed ones are, exactly the event or style at the offset is replaced. Disagreements: an updated line cannot be updated again, after the last line of a section no other line of it can, valid batches are refused for that reason, and a field line does not replace the line at the offset."
  },
  {
   "property": "C87",
   "status": "partial",
   "theorems": [
    "Verif.Props.C87_update_partial",
    "Verif.Props.C87_sections",
    "Verif.Props.C87_off",
    "Verif.Props.C87_empty_violated",
    "Verif.Props.C87_add_violated"
   ],
   "note": "Updates, added and removed sections are recorded exactly once. Disagreements: a field that had an empty value is changed without record; added styles and events are never recorded."
  },
  {
   "property": "C88",
   "status": "partial",
   "theorems": [
    "Verif.Props.C88_equal",
    "Verif.Props.C88_replay_partial",
    "Verif.Props.C88_removed_violated"
   ],
   "note": "Emptiness is proved for all pairs; carrying out the changes is proved if the other script has at most one section more. Disagreement: with two more the indices are wrong."
  },
  {
   "property": "C89",
   "status": "partial",
   "theorems": [
    "Verif.Props.C89_carried_partial",
    "Verif.Props.C89_empty_partial",
    "Verif.Props.C89_self_violated",
    "Verif.Props.C89_second_violated",
    "Verif.Props.C89_issues_violated"
   ],
   "note": "Proved for scripts without two sections of one kind. Disagreements: with two of a kind a script differs from itself, a second section is not seen, and old issues count as new."
  },
  {
   "property": "C90",
   "status": "partial",
   "theorems": [
    "Verif.Props.C90_contents_partial",
    "Verif.Props.C90_places_partial",
    "Verif.Props.C90_format_violated",
    "Verif.Props.C90_insert_violated",
    "Verif.Props.C90_dropped_violated",
    "Verif.Props.C90_spans_violated",
    "Verif.Props.C90_stale_violated",
    "Verif.Props.C90_version_violated",
    "Verif.Props.C90_remark_violated"
   ],
   "note": "Contents and places are proved for usual headers, each section at most once, and changes within the span of a section. The code disagrees for format lines, insertions before the first entry, [V4 Styles], places of reparsed sections, changes outside all sections, version and issues, and remarks that name a header."
  },
  {
   "property": "C91",
   "status": "partial",
   "theorems": [
    "Verif.Props.C91_range",
    "Verif.Props.C91_source",
    "Verif.Props.C91_lines",
    "Verif.Props.C91_end_violated"
   ],
   "note": "Proved; the line range of an insertion at the very end of the source begins at line 0."
  },
  {
   "property": "C92",
   "status": "partial",
   "theorems": [
    "Verif.Props.C92_token_partial",
    "Verif.Props.C92_column_violated",
    "Verif.Props.C92_line_violated"
   ],
   "note": "Proved without simd; with simd places and types are proved, lines if every carriage return has its line feed, and columns are wrong in the code."
  },
  {
   "property": "C93",
   "status": "partial",
   "theorems": [
    "Verif.Props.C93_delimiters",
    "Verif.Props.C93_hex",
    "Verif.Props.C93_plus_violated",
    "Verif.Props.C93_tokens_partial",
    "Verif.Props.C93_comment_violated",
    "Verif.Props.C93_utf8_partial",
    "Verif.Props.C93_position_violated"
   ],
   "note": "Delimiters and hexadecimal numbers are proved; tokens agree in sources without semicolons; the position in the error of the batch validation is wrong in the code."
  },
  {
   "property": "C94",
   "status": "partial",
   "theorems": [
    "Verif.Props.C94_validate",
    "Verif.Props.C94_recover_partial",
    "Verif.Props.C94_count_violated",
    "Verif.Props.C94_contents",
    "Verif.Props.C94_detect",
    "Verif.Props.C94_bom_partial",
    "Verif.Props.C94_bom_violated"
   ],
   "note": "Validity, contents and detection are proved; the count of replacements includes genuine U+FFFD, and texts beginning with some characters from U+F000 on are refused."
  },
  {
   "property": "C95",
   "status": "partial",
   "theorems": [
    "Verif.Props.C95_insert",
    "Verif.Props.C95_braces_violated",
    "Verif.Props.C95_range",
    "Verif.Props.C95_remove_all_partial",
    "Verif.Props.C95_remove_partial",
    "Verif.Props.C95_replace_all_partial",
    "Verif.Props.C95_replace_first_partial",
    "Verif.Props.C95_list_partial",
    "Verif.Props.C95_place_violated",
    "Verif.Props.C95_prefix_violated",
    "Verif.Props.C95_comment_violated",
    "Verif.Props.C95_pattern_violated",
    "Verif.Props.C95_unclosed_violated",
    "Verif.Props.C95_wrap",
    "Verif.Props.C95_closing_partial",
    "Verif.Props.C95_closing_violated"
   ],
   "note": "Proved for every text whose blocks are closed and consist of tags, and for every insertion, wrapping and range. False: names match by prefix (removing \\b removes \\bord), a pattern without a backslash removes other tags or panics, other text in a block is lost, unclosed blocks lose their text, places are off, closing tags are chosen by first letter, tags in braces are refused."
  },
  {
   "property": "C96",
   "status": "partial",
   "theorems": [
    "Verif.Props.C96_query_partial",
    "Verif.Props.C96_line_violated",
    "Verif.Props.C96_regex_violated",
    "Verif.Props.C96_time_violated",
    "Verif.Props.C96_overflow_violated",
    "Verif.Props.C96_chain_violated"
   ],
   "note": "Proved for all scripts whose times fit in 32 bits. False: longer times panic, times without a fraction are not read, regular expressions are ignored, line number and range are placeholders, chained operations always fail."
  },
  {
   "property": "C97",
   "status": "partial",
   "theorems": [
    "Verif.Props.C97_event_partial",
    "Verif.Props.C97_refused",
    "Verif.Props.C97_event_default_partial",
    "Verif.Props.C97_ssa",
    "Verif.Props.C97_margins_violated",
    "Verif.Props.C97_comma_violated",
    "Verif.Props.C97_break_violated",
    "Verif.Props.C97_style_partial",
    "Verif.Props.C97_versions_partial",
    "Verif.Props.C97_old_style_violated"
   ],
   "note": "Proved for fields without commas and outer blanks and field lists the reader knows. False: commas and line breaks are written as they are, top and bottom margins are dropped, the outline colour of old styles is not read back."
  },
  {
   "property": "C98",
   "status": "partial",
   "theorems": [
    "Verif.Props.C98_apply_partial",
    "Verif.Props.C98_nothing",
    "Verif.Props.C98_unrecorded",
    "Verif.Props.C98_undo_violated",
    "Verif.Props.C98_undo_earlier_violated",
    "Verif.Props.C98_atomic_violated",
    "Verif.Props.C98_duplicate_violated",
    "Verif.Props.C98_comment_violated"
   ],
   "note": "Proved for documents whose headers occur once each and only at the start of sections. False: duplicates are removed together, a header in a comment is taken for the section, failed deltas leave their first steps done, and a delta is never recorded, so undo finds nothing or undoes an earlier edit in the wrong place."
  },
  {
   "property": "C99",
   "status": "partial",
   "theorems": [
    "Verif.Props.ExportMarkup.C99_srt_blocks_partial",
    "Verif.Props.ExportMarkup.C99_vtt_blocks_partial",
    "Verif.Props.C99_srt_import_partial",
    "Verif.Props.C99_vtt_import_partial",
    "Verif.Props.C99_vtt_headless_partial",
    "Verif.Props.C99_srt_export_partial",
    "Verif.Props.C99_vtt_export_partial",
    "Verif.Props.C99_srt_round_trip_partial",
    "Verif.Props.C99_vtt_round_trip_partial",
    "Verif.Props.C99_colour_export_violated",
    "Verif.Props.C99_colour_import_violated",
    "Verif.Props.C99_empty_line_violated",
    "Verif.Props.C99_empty_text_violated",
    "Verif.Props.C99_warning_violated",
    "Verif.Props.C99_soft_break_violated",
    "Verif.Props.C99_cut_off_violated",
    "Verif.Props.C99_position_violated",
    "Verif.Props.C99_brackets_violated",
    "Verif.Props.Markup.C99_vtt_markup_partial",
    "Verif.Props.Markup.C99_srt_markup_partial",
    "Verif.Props.Markup.C99_font_end_violated",
    "Verif.Props.Markup.C99_font_text_violated"
   ],
   "note": "Import of well formed files, export of Dialogue events in the usual time form, and the round trip at the level of parsed scripts; texts with other tags, backslashes or angle brackets, malformed files and position settings are not covered (counterexamples for several of them)."
  },
  {
   "property": "C100",
   "status": "partial",
   "theorems": [
    "Verif.Props.C100_style",
    "Verif.Props.C100_true_violated",
    "Verif.Props.C100_score",
    "Verif.Props.C100_parent_partial",
    "Verif.Props.C100_zero_violated",
    "Verif.Props.C100_hundred_violated",
    "Verif.Props.C100_flag_violated",
    "Verif.Props.C100_analyzer_partial",
    "Verif.Props.C100_no_styles",
    "Verif.Props.C100_sections_violated",
    "Verif.Props.C100_conflicts",
    "Verif.Props.C100_circle_violated",
    "Verif.Props.C100_inheritance_info_partial",
    "Verif.Props.C100_children_violated",
    "Verif.Props.C100_depth_violated",
    "Verif.Props.C100_size_error_violated",
    "Verif.Props.C100_validation_partial"
   ],
   "note": "Resolution of one style is characterised exactly; with a parent only for fields the code treats as documented (0, 100 and odd flags are violations); analyzer results, conflicts, inheritance info for unique names and validation; numbers are exact rationals with the f32 reader as a parameter, a layout resolution of 0 and the order of reports are left out."
  },
  {
   "property": "C101",
   "status": "partial",
   "theorems": [
    "Verif.Props.C101_tokens",
    "Verif.Props.C101_commands_partial",
    "Verif.Props.C101_path_partial",
    "Verif.Props.C101_rejects_partial",
    "Verif.Props.C101_lone_partial",
    "Verif.Props.C101_broken",
    "Verif.Props.C101_leftover",
    "Verif.Props.C101_tag_ends",
    "Verif.Props.C101_bspline_violated",
    "Verif.Props.C101_splines_same",
    "Verif.Props.C101_exponent_violated",
    "Verif.Props.C101_discarded_violated",
    "Verif.Props.C101_incomplete_violated",
    "Verif.Props.C101_aligned",
    "Verif.Props.C101_moving",
    "Verif.Props.C101_late_violated",
    "Verif.Props.C101_level_violated",
    "Verif.Props.C101_unplaced_violated"
   ],
   "note": "Tokens of every text; commands, path and rejection for well formed parts, for unreadable numbers and for leftovers; placement and movement for all values without overflow. The path library is outside the model and numbers are exact rationals. The default position, the drawing level, B-splines, incomplete commands and exponents are violations."
  },
  {
   "property": "C102",
   "status": "partial",
   "theorems": [
    "Verif.Props.C102_tokens_partial",
    "Verif.Props.C102_ranges_partial",
    "Verif.Props.C102_limit",
    "Verif.Props.C102_cache",
    "Verif.Props.C102_stale_violated",
    "Verif.Props.C102_carriage_violated",
    "Verif.Props.C102_style_violated",
    "Verif.Props.C102_empty_violated",
    "Verif.Props.C102_limit_violated"
   ],
   "note": "Tokens for documents without carriage returns and without a limit; ranges additionally for documents without blanks after `Style:`. Stale cache, drifting ranges, empty tokens and an exceeded limit are disagreements."
  },
  {
   "property": "C103",
   "status": "partial",
   "theorems": [
    "Verif.Props.C103_place",
    "Verif.Props.C103_one_section",
    "Verif.Props.C103_panics",
    "Verif.Props.C103_offers_partial",
    "Verif.Props.C103_header_violated",
    "Verif.Props.C103_tags_violated",
    "Verif.Props.C103_field_violated"
   ],
   "note": "The entries offered, for lines in which a block without a backslash has no backslash before it. The panic before a section header, missing tags after an earlier tag and field completion by the text after the cursor are disagreements."
  },
  {
   "property": "C104",
   "status": "partial",
   "theorems": [
    "Verif.Props.C104_alone_partial",
    "Verif.Props.C104_block_partial",
    "Verif.Props.C104_pinned_partial",
    "Verif.Props.C104_pinned_lines_violated",
    "Verif.Props.C104_stretched_violated",
    "Verif.Props.C104_centre_violated",
    "Verif.Props.C104_zero_violated",
    "Verif.Props.C104_default_violated"
   ],
   "note": "For styles that exist, zero margins written `0`, equal left and right margins where centred, runs measured as drawn, and a pinned event of one line. Pinned blocks drawn over each other, stretched single runs, the centre of unequal margins, `00` as a margin and the missing margins of the default style are disagreements."
  },
  {
   "property": "C105",
   "status": "partial",
   "theorems": [
    "Verif.Props.C105_style_colour",
    "Verif.Props.C105_style_colour_short",
    "Verif.Props.C105_style_colour_violated",
    "Verif.Props.C105_colours_partial",
    "Verif.Props.C105_fad_partial",
    "Verif.Props.C105_fade_partial",
    "Verif.Props.C105_alpha_violated",
    "Verif.Props.C105_alpha_order_violated",
    "Verif.Props.C105_fade_violated",
    "Verif.Props.C105_overflow_violated"
   ],
   "note": "Without `\\alpha`, and a long fade not at the moment of a change that takes no time. `\\alpha`, its order with `\\1a`, spellings of style colours, such moments and overflowing times are disagreements."
  },
  {
   "property": "C106",
   "status": "partial",
   "theorems": [
    "Verif.Props.C106_switches_partial",
    "Verif.Props.C106_border_partial",
    "Verif.Props.C106_shadow_partial",
    "Verif.Props.C106_blur",
    "Verif.Props.C106_rotation_partial",
    "Verif.Props.C106_shear_partial",
    "Verif.Props.C106_scale",
    "Verif.Props.C106_clip",
    "Verif.Props.C106_once",
    "Verif.Props.C106_bold_violated",
    "Verif.Props.C106_border_violated",
    "Verif.Props.C106_border_order_violated",
    "Verif.Props.C106_shear_violated",
    "Verif.Props.C106_angle_violated"
   ],
   "note": "For square pixels or unscaled borders, usual styles with angle 0 and no `\\fay` alone. `Bold: 1`, stretched frames, `\\bord` after `\\xbord`, `\\fay` alone and the angle of styles are disagreements."
  },
  {
   "property": "C107",
   "status": "partial",
   "theorems": [
    "Verif.Props.C107_lines_partial",
    "Verif.Props.C107_lines_violated",
    "Verif.Props.C107_karaoke_partial",
    "Verif.Props.C107_unsung",
    "Verif.Props.C107_alpha_violated",
    "Verif.Props.C107_second_line_violated",
    "Verif.Props.C107_split_syllable_violated",
    "Verif.Props.C107_drawing_violated"
   ],
   "note": "Blank lines are lost; karaoke for one line without drawings whose runs are syllables of their own. Karaoke across lines, syllables split by other tags, drawings and `\\2a` are disagreements."
  },
  {
   "property": "C108",
   "status": "partial",
   "theorems": [
    "Verif.Props.C108_stacked_partial",
    "Verif.Props.C108_row",
    "Verif.Props.C108_pinned_ignored",
    "Verif.Props.C108_total",
    "Verif.Props.C108_frame_violated",
    "Verif.Props.C108_leaves_frame_violated",
    "Verif.Props.C108_mention_violated",
    "Verif.Props.C108_unknown_style_violated"
   ],
   "note": "Order, whole moves, direction, apartness and stillness proved for every list of events. Disagreements: the pipeline takes every screen to be 1080 pixels high (C108_frame_violated, C108_leaves_frame_violated); text that merely mentions \\pos is not stacked (C108_mention_violated); with an unknown style events give way in the wrong direction (C108_unknown_style_violated). Drawing each event is a parameter (C101, C104-C107 cover it)."
  },
  {
   "property": "C109",
   "status": "partial",
   "theorems": [
    "Verif.Props.C109_search",
    "Verif.Props.C109_limit",
    "Verif.Props.C109_place_partial",
    "Verif.Props.C109_place_violated",
    "Verif.Props.C109_found_violated",
    "Verif.Props.C109_case_violated",
    "Verif.Props.C109_replace_violated",
    "Verif.Props.C109_linear",
    "Verif.Props.C109_linear_place_violated",
    "Verif.Props.C109_linear_limit_violated",
    "Verif.Props.C109_linear_replace_violated"
   ],
   "note": "The set of results (words, scope, line, column, no repetitions, limit) is proved for every text for both indexes; places are true offsets without carriage returns (C109_place_partial). Disagreements: carriage returns shift places (C109_place_violated); the reported range is not the query (C109_found_violated); case-sensitive queries with capitals find nothing (C109_case_violated); replacing destroys other text (C109_replace_violated); the simple index reports word numbers as offsets, ignores the limit and replaces at outdated places (C109_linear_place_violated, C109_linear_limit_violated, C109_linear_replace_violated). The automaton of the fst crate is taken as a sorted set with subsequence matching."
  },
  {
   "property": "C110",
   "status": "partial",
   "theorems": [
    "Verif.Props.C110_lines_partial",
    "Verif.Props.C110_first_line_violated",
    "Verif.Props.C110_beyond_violated",
    "Verif.Props.C110_sections_violated",
    "Verif.Props.C110_whole_words_violated",
    "Verif.Props.C110_range_violated",
    "Verif.Props.C110_regex_partial",
    "Verif.Props.C110_regex_refused",
    "Verif.Props.C110_regex_replace_partial",
    "Verif.Props.C110_stale_violated"
   ],
   "note": "Line scopes not beginning with the first line, ranges, and regular expressions are proved for every text, query and limit, replacing regular-expression matches for every document. Disagreements: the first character of the first line is skipped, scopes behind the end search everything, sections and whole words are ignored, bad ranges stop the program, an edited document is overwritten at outdated places (C110_*_violated). The regex crate is a parameter."
  },
  {
   "property": "C111",
   "status": "partial",
   "theorems": [
    "Verif.Props.C111_build",
    "Verif.Props.C111_rebuild",
    "Verif.Props.C111_single_partial",
    "Verif.Props.C111_shift_violated",
    "Verif.Props.C111_cut_violated",
    "Verif.Props.C111_panic_violated",
    "Verif.Props.C111_no_ranges_violated"
   ],
   "note": "Building and rebuilding are exact; after one change every word before it and in the reread window is indexed and nothing false precedes the window (C111_single_partial). Disagreements: wrong guesses leave false places (C111_shift_violated), cut words are indexed (C111_cut_violated), multi-byte characters and second changes stop the program (C111_panic_violated), no ranges means no update (C111_no_ranges_violated)."
  },
  {
   "property": "C112",
   "status": "partial",
   "theorems": [
    "Verif.Props.C112_serial",
    "Verif.Props.C112_alone",
    "Verif.Props.C112_progress",
    "Verif.Props.C112_end",
    "Verif.Props.C112_panic",
    "Verif.Props.C112_undo_violated",
    "Verif.Props.C112_pool_partial",
    "Verif.Props.C112_pool_violated"
   ],
   "note": "Serializability, mutual exclusion, progress, termination and refusal after a panic are proved for every schedule, any number of threads, any operations made of small steps. Missing: guards held across operations and the try_* variants. Disagreements: commands are not recorded and cannot be undone (C112_undo_violated); documents created at one reading of the clock share an id and replace each other in the pool (C112_pool_violated)."
  },
  {
   "property": "C113",
   "status": "partial",
   "theorems": [
    "Verif.Props.C113_order",
    "Verif.Props.C113_stop",
    "Verif.Props.C113_nested",
    "Verif.Props.C113_atomic_violated",
    "Verif.Props.C113_range_partial",
    "Verif.Props.C113_range_violated",
    "Verif.Props.C113_undo_partial",
    "Verif.Props.C113_typed_partial",
    "Verif.Props.C113_undo_violated",
    "Verif.Props.C113_direct_violated"
   ],
   "note": "Order, results, stopping and nesting are proved for all commands; the reported range for edits that follow one another (C113_range_partial), undoing for commands that only put one stretch of text in (C113_undo_partial, C113_typed_partial). Disagreements: failed batches leave their first changes, unrecorded (C113_atomic_violated); ranges of edits in another order are wrong (C113_range_violated); other commands are not undone (C113_undo_violated, C113_direct_violated)."
  },
  {
   "property": "C114",
   "status": "partial",
   "theorems": [
    "Verif.Props.C114_size",
    "Verif.Props.C114_local",
    "Verif.Props.C114_between",
    "Verif.Props.C114_flat",
    "Verif.Props.C114_more",
    "Verif.Props.C114_mirror",
    "Verif.Props.C114_room",
    "Verif.Props.C114_colour",
    "Verif.Props.C114_premultiplied_violated",
    "Verif.Props.C114_text_room_partial",
    "Verif.Props.C114_drawing_room_partial",
    "Verif.Props.C114_text_room_violated",
    "Verif.Props.C114_hint",
    "Verif.Props.C114_text_hint_partial",
    "Verif.Props.C114_text_hint_violated"
   ],
   "note": "Size, locality, bounds, flat areas, monotonicity, symmetry, colour and independence of the canvas are proved over exact rationals for every positive symmetric kernel; the tiles leave enough room for glyphs and filled shapes and the cropping box covers them. Fails: the result is not premultiplied although the surfaces are; no room is made for outlines of blurred text; the cropping box of rotated blurred text is that of the rotated outlines although the text is drawn upright."
  },
  {
   "property": "C115",
   "status": "partial",
   "theorems": [
    "Verif.Props.C115_cached_partial",
    "Verif.Props.C115_cached_violated",
    "Verif.Props.C115_bounded",
    "Verif.Props.C115_sweep",
    "Verif.Props.C115_part",
    "Verif.Props.C115_same_partial",
    "Verif.Props.C115_same_violated",
    "Verif.Props.C115_line_partial",
    "Verif.Props.C115_line_violated",
    "Verif.Props.C115_syllable",
    "Verif.Props.C115_syllable_vector",
    "Verif.Props.C115_syllable_between",
    "Verif.Props.C115_order",
    "Verif.Props.C115_clipped"
   ],
   "note": "Painting with any caches equals painting with empty ones except where text is both blurred and turned out of the plane (witness). The cached and the direct way paint the same up to a pixel for text without both outline and shadow; with both, the cached shadow lacks the outline (witness). Lines run along upright text; with a rotation they stay horizontal (witness). Bounds of the caches, syllable colours and the growth and content of the sung part are proved in full."
  },
  {
   "property": "C116",
   "status": "partial",
   "theorems": [
    "Verif.Props.C116_origin",
    "Verif.Props.C116_middle",
    "Verif.Props.C116_rigid",
    "Verif.Props.C116_direction",
    "Verif.Props.C116_stretch_partial",
    "Verif.Props.C116_stretch_violated",
    "Verif.Props.C116_slant_partial",
    "Verif.Props.C116_slant_violated",
    "Verif.Props.C116_flat",
    "Verif.Props.C116_straight_partial",
    "Verif.Props.C116_straight_violated",
    "Verif.Props.C116_depth",
    "Verif.Props.C116_resolution_partial",
    "Verif.Props.C116_resolution_violated",
    "Verif.Props.C116_compose",
    "Verif.Props.C116_matrix_partial",
    "Verif.Props.C116_matrix_violated",
    "Verif.Props.C116_between",
    "Verif.Props.C116_ease"
   ],
   "note": "Fixed points of turning and tilting, distances, direction, depth, composition, blending and easing are proved over exact rationals with cosine and sine as parameters. Fails: widths within a hundredth of the height are not applied; text slanted sideways is displaced; long lines come behind the camera and break; the camera distance does not grow with the canvas; decomposed transforms ignore slants (each with a witness and the part that holds)."
  },
  {
   "property": "C117",
   "status": "partial",
   "theorems": [
    "Verif.Props.C117_edit_partial",
    "Verif.Props.C117_refused",
    "Verif.Props.C117_edited_partial",
    "Verif.Props.C117_twin_violated",
    "Verif.Props.C117_format_violated",
    "Verif.Props.C117_spacing_violated",
    "Verif.Props.C117_builder_partial",
    "Verif.Props.C117_kind_violated",
    "Verif.Props.C117_names_violated",
    "Verif.Props.C117_text_partial",
    "Verif.Props.C117_text_violated",
    "Verif.Props.C117_info",
    "Verif.Props.C117_field_partial",
    "Verif.Props.C117_field_violated",
    "Verif.Props.C117_counts"
   ],
   "note": "Which line changes and how, which edits are refused, and what is said afterwards are proved, for the usual spelling of lines and values that fit in a line. Fails: of two events with the same kind, layer and times the first is overwritten; another field list than the usual one is ignored by field edits; lines without a blank after the colon cannot be edited; builders turn other kinds into dialogue and negative numbers into 0, and refuse field names in small letters; text replacement hits titles and styles; setting a property hits comments and ignores missing properties (each with a witness)."
  },
  {
   "property": "C118",
   "status": "partial",
   "theorems": [
    "Verif.Props.C118_text",
    "Verif.Props.C118_insert_delete",
    "Verif.Props.C118_refused",
    "Verif.Props.C118_safe",
    "Verif.Props.C118_event",
    "Verif.Props.C118_session_partial",
    "Verif.Props.C118_report_partial",
    "Verif.Props.C118_first_violated",
    "Verif.Props.C118_second_violated",
    "Verif.Props.C118_typed_violated",
    "Verif.Props.C118_undo_partial",
    "Verif.Props.C118_undo_short_violated",
    "Verif.Props.C118_typing_violated",
    "Verif.Props.C118_undo_long_violated",
    "Verif.Props.C118_redo_violated",
    "Verif.Props.C118_undo_sections_violated"
   ],
   "note": "The text after an edit, and exactly when an edit panics, are proved for every state; reports for edits of lines of sections while the parser is in step; sessions of long edits. Disagreements: short edits leave the parser behind, after which a long edit can panic; a new document pasted into twice panics; the first paste reports nothing; undo of typing leaves what was typed, of a deletion overwrites what follows, of a long edit does nothing, of an edit of three sections duplicates sections; redo writes debugging output."
  },
  {
   "property": "C119",
   "status": "partial",
   "theorems": [
    "Verif.Props.C119_position_partial",
    "Verif.Props.C119_right_violated",
    "Verif.Props.C119_alignment_partial",
    "Verif.Props.C119_margins_violated",
    "Verif.Props.C119_origin",
    "Verif.Props.C119_origin_violated",
    "Verif.Props.C119_movement_partial",
    "Verif.Props.C119_hurried_violated",
    "Verif.Props.C119_priority_violated",
    "Verif.Props.C119_scale",
    "Verif.Props.C119_context_partial",
    "Verif.Props.C119_context_violated",
    "Verif.Props.C119_new",
    "Verif.Props.C119_lines",
    "Verif.Props.C119_apart",
    "Verif.Props.C119_width_violated"
   ],
   "note": "Exact for left and, between equal margins, centred columns, for movement with times in order, for scaling and for several lines. Disagreements: right-aligned text is treated as centred; centring ignores margins; the default point of rotation does not follow \\pos; \\move without times is over at once and times read from tags pass ten times too fast; the two calls disagree on \\pos with \\move; line widths count bytes. Rounding of f32 is not modelled."
  },
  {
   "property": "C120",
   "status": "partial",
   "theorems": [
    "Verif.Props.C120_text",
    "Verif.Props.C120_tags_partial",
    "Verif.Props.C120_agree",
    "Verif.Props.C120_reset_violated",
    "Verif.Props.C120_font_violated",
    "Verif.Props.C120_soft_violated",
    "Verif.Props.C120_start_violated",
    "Verif.Props.C120_fade_violated",
    "Verif.Props.C120_others",
    "Verif.Props.C120_kept"
   ],
   "note": "Values proved for blocks of plain tags (no \\t, \\r or vector clip) and for \\fe, \\kt, \\pbo, \\r alone; text and places for every text. Disagreements: \\r takes nothing back; \\fn without a name sets an empty one; soft breaks count as hard; \\kt before its syllable is lost; backward \\fade times crash where overflow is checked. The extension registry is not modelled."
  },
  {
   "property": "C121",
   "status": "partial",
   "theorems": [
    "Verif.Props.C121_ends",
    "Verif.Props.C121_course_partial",
    "Verif.Props.C121_linear",
    "Verif.Props.C121_curves",
    "Verif.Props.C121_integer_violated",
    "Verif.Props.C121_state",
    "Verif.Props.C121_total_partial",
    "Verif.Props.C121_accessors",
    "Verif.Props.C121_sequence_violated",
    "Verif.Props.C121_active",
    "Verif.Props.C121_quiet_partial",
    "Verif.Props.C121_quiet_violated",
    "Verif.Props.C121_tag_partial",
    "Verif.Props.C121_tag_kept",
    "Verif.Props.C121_times_violated",
    "Verif.Props.C121_names_violated",
    "Verif.Props.C121_script_violated",
    "Verif.Props.C121_values_violated"
   ],
   "note": "Proved: values before and after, monotone course within bounds for all three curves, exact share for the linear one, values in the state and accessors, activity, quiet periods, tracks from documented modifiers. `powf` is a parameter assumed to be a power; `f32` rounding is not modelled. Violated: whole numbers 2^31 apart, consecutive animations of one property, reversed animations and events, modifiers as scripts write them, misread names, unreadable values, misplaced parentheses."
  },
  {
   "property": "C122",
   "status": "partial",
   "theorems": [
    "Verif.Props.MemPool.C122_current",
    "Verif.Props.MemPool.C122_figures",
    "Verif.Props.MemPool.C122_resets",
    "Verif.Props.MemPool.C122_threshold",
    "Verif.Props.MemPool.C122_strategies_partial",
    "Verif.Props.MemPool.C122_acceptable",
    "Verif.Props.MemPool.C122_unnoticed_violated",
    "Verif.Props.MemPool.C122_reclaimed_violated",
    "Verif.Props.MemPool.C122_peak_violated",
    "Verif.Props.MemPool.C122_pressure_violated",
    "Verif.Props.MemPool.C122_hybrid_violated",
    "Verif.Props.MemPool.C122_manual_violated",
    "Verif.Props.MemPool.C122_reclaimable_violated"
   ],
   "note": "Proved for all histories: figures, resets, threshold; strategies by count, time and hand. The arenas are the number of reserved bytes, and what stays after a reset is a parameter. Violated: unnoticed allocations, reclaimed amount, peak, reclaimable figure, pressure, combined strategy, manual strategy."
  },
  {
   "property": "C123",
   "status": "partial",
   "theorems": [
    "Verif.Props.LineBreaks.C123_pieces",
    "Verif.Props.LineBreaks.C123_breaks",
    "Verif.Props.LineBreaks.C123_drawing",
    "Verif.Props.LineBreaks.C123_agree_partial",
    "Verif.Props.LineBreaks.C123_agree_violated",
    "Verif.Props.LineBreaks.C123_lines_partial",
    "Verif.Props.LineBreaks.C123_lines_bounds",
    "Verif.Props.LineBreaks.C123_lines_violated",
    "Verif.Props.LineBreaks.C123_bidi_violated",
    "Verif.Props.LineBreaks.C123_complex_violated",
    "Verif.Props.LineBreaks.C123_scripts_partial"
   ],
   "note": "Proved for all texts: decomposition, shown text, positions and kinds of breaks, hard spaces, drawings, agreement without override blocks, line counts without a final line end, bounds for all. Violated: agreement for a final backslash, line counts with final line ends, right-to-left and complex scripts."
  },
  {
   "property": "C124",
   "status": "partial",
   "theorems": [
    "Verif.Props.C124_get",
    "Verif.Props.C124_delete_partial",
    "Verif.Props.C124_kinds_partial",
    "Verif.Props.C124_types_violated",
    "Verif.Props.C124_blank_violated",
    "Verif.Props.C124_format_violated",
    "Verif.Props.C124_title_violated",
    "Verif.Props.C124_place_violated",
    "Verif.Props.C124_scale_partial",
    "Verif.Props.C124_scale_violated"
   ],
   "note": "Deletion proved for scripts as to_ass_string writes them with one section of dialogues and comments and a field list; scaling only for events of one second. Violated for other event types, leading blanks, missing field lists, a title with [Events], reported places, other durations."
  },
  {
   "property": "C125",
   "status": "partial",
   "theorems": [
    "Verif.Props.C125_single",
    "Verif.Props.C125_agree_partial",
    "Verif.Props.C125_set_partial",
    "Verif.Props.C125_resolution_partial",
    "Verif.Props.C125_remark_violated",
    "Verif.Props.C125_name_violated",
    "Verif.Props.C125_blank_violated"
   ],
   "note": "Single properties proved for every document with an information section; agreement with the parser proved for scripts as the library writes them, the information wherever it stands, whose property names do not occur elsewhere in the section. Fails for remarks, for names ending in the same word, and for lines without a blank after the colon."
  },
  {
   "property": "C126",
   "status": "partial",
   "theorems": [
    "Verif.Props.C126_requested",
    "Verif.Props.C126_coverage_partial",
    "Verif.Props.C126_none",
    "Verif.Props.C126_curated_violated",
    "Verif.Props.C126_unreadable_violated",
    "Verif.Props.C126_empty_violated",
    "Verif.Props.C126_japanese_violated"
   ],
   "note": "Proved where every font can be read; best coverage proved for texts without East Asian characters. Fails for East Asian texts where a better font is not curated, with an unreadable font, for the empty text, and for missing Japanese families where a sans-serif exists."
  },
  {
   "property": "C127",
   "status": "partial",
   "theorems": [
    "Verif.Props.C127_positions",
    "Verif.Props.C127_metrics",
    "Verif.Props.C127_ink",
    "Verif.Props.C127_cache_partial",
    "Verif.Props.C127_bound",
    "Verif.Props.C127_cache_violated",
    "Verif.Props.C127_outlines_partial",
    "Verif.Props.C127_size_violated",
    "Verif.Props.C127_font_violated"
   ],
   "note": "Positions, ink, metrics and the bound proved in general; the caches while the fonts stay the same, outlines for sizes the fixed-point key holds exactly. Fails when the fonts change on one thread or in one renderer, and for sizes from 65536 pixels."
  },
  {
   "property": "C128",
   "status": "partial",
   "theorems": [
    "Verif.Props.Gpu.C128_composite_partial",
    "Verif.Props.Gpu.C128_layer_partial",
    "Verif.Props.Gpu.C128_reuse",
    "Verif.Props.Gpu.C128_software_partial",
    "Verif.Props.Gpu.C128_software_violated",
    "Verif.Props.Gpu.C128_far_violated",
    "Verif.Props.Gpu.C128_zero_violated",
    "Verif.Props.Gpu.C128_size_violated",
    "Verif.Props.Gpu.C128_count_violated",
    "Verif.Props.Gpu.C128_lost_violated"
   ],
   "note": "Proved for up to 2^20 bitmaps, with sides up to 8192 and places up to 2^20 away, the graphics library being part of the trusted base. Fails: not byte-compatible with the software backend; panics for bitmaps far away, without pixels, with a side above the device's limit, and for more than 2^20 bitmaps; loses its textures when reading back fails."
  },
  {
   "property": "C129",
   "status": "partial",
   "theorems": [
    "Verif.Props.Raster.C129_spec",
    "Verif.Props.Raster.C129_area_partial",
    "Verif.Props.Raster.C129_winding_partial",
    "Verif.Props.Raster.C129_safe",
    "Verif.Props.Raster.C129_overlap_violated"
   ],
   "note": "Proved in exact arithmetic in place of f32, for edges between the left and the right side. Fails: where contours overlap, partly covered pixels get the sum of the areas and not the area by the non-zero rule the documentation names."
  },
  {
   "property": "C130",
   "status": "partial",
   "theorems": [
    "Verif.Props.Raster.C130_tile_partial",
    "Verif.Props.Raster.C130_overflow_violated",
    "Verif.Props.Raster.C130_coarse_violated",
    "Verif.Props.Raster.C130_cubic_violated"
   ],
   "note": "Proved in exact arithmetic in place of f32. Fails: curves that would need more than 64 or 96 chords, cubic curves beyond the fifth of a pixel named for quadratic ones, bounds near the limits of i32."
  },
  {
   "property": "C131",
   "status": "partial",
   "theorems": [
    "Verif.Props.Cursor.C131_lines",
    "Verif.Props.Cursor.C131_insert",
    "Verif.Props.Cursor.C131_delete_partial",
    "Verif.Props.Cursor.C131_characters_violated",
    "Verif.Props.Cursor.C131_line_end_partial",
    "Verif.Props.Cursor.C131_crlf_violated",
    "Verif.Props.Cursor.C131_wrap",
    "Verif.Props.Cursor.C131_indent",
    "Verif.Props.Cursor.C131_unindent",
    "Verif.Props.Cursor.C131_beyond_violated",
    "Verif.Props.Cursor.C131_within_violated",
    "Verif.Props.Cursor.C131_line_column",
    "Verif.Props.Cursor.C131_at_line",
    "Verif.Props.Cursor.C131_undo_violated"
   ],
   "note": "Insertion, wrapping, indenting, unindenting, lines and columns are proved for all texts. Deletion counts bytes, the CR of CR LF is replaced, out-of-range selections panic, and undo of an insertion leaves the text: see the negations."
  },
  {
   "property": "C132",
   "status": "partial",
   "theorems": [
    "Verif.Props.Bitmaps.C132_list_partial",
    "Verif.Props.Bitmaps.C132_same_partial",
    "Verif.Props.Bitmaps.C132_error_violated",
    "Verif.Props.Bitmaps.C132_beyond_violated",
    "Verif.Props.Bitmaps.C132_tip_violated",
    "Verif.Props.Bitmaps.C132_box"
   ],
   "note": "The list is right for layers that paint inside the boxes they note, and composites to the frame rendered at once. Borders of sharp corners are painted outside, and after a failed call text is missing: see the negations."
  },
  {
   "property": "C133",
   "status": "partial",
   "theorems": [
    "Verif.Props.SectionExt.C133_same",
    "Verif.Props.SectionExt.C133_processors_partial",
    "Verif.Props.SectionExt.C133_suggestion_partial",
    "Verif.Props.SectionExt.C133_registry_violated",
    "Verif.Props.SectionExt.C133_format_violated",
    "Verif.Props.SectionExt.C133_processed_violated",
    "Verif.Props.SectionExt.C133_case_violated",
    "Verif.Props.SectionExt.C133_aegisub"
   ],
   "note": "Proved for all registries and sources with closed brackets; refuted: the suggestion disappears as soon as a registry is given, can name the wrong section, processed sections are still reported as unknown, and names are looked up exactly."
  },
  {
   "property": "C134",
   "status": "partial",
   "theorems": [
    "Verif.Props.Clip.C134_mask",
    "Verif.Props.Clip.C134_inverse",
    "Verif.Props.Clip.C134_strips",
    "Verif.Props.Clip.C134_text_partial",
    "Verif.Props.Clip.C134_text_violated",
    "Verif.Props.Clip.C134_fill",
    "Verif.Props.Clip.C134_border_partial",
    "Verif.Props.Clip.C134_border_violated"
   ],
   "note": "Clips of drawings proved for every rectangle; for text only at whole pixels (refuted otherwise: seams). Refuted: the border of a drawing is half as wide as asked and never the style's."
  },
  {
   "property": "C135",
   "status": "partial",
   "theorems": [
    "Verif.Props.Lookup.C135_line",
    "Verif.Props.Lookup.C135_found",
    "Verif.Props.Lookup.C135_range",
    "Verif.Props.Lookup.C135_list",
    "Verif.Props.Lookup.C135_text_partial",
    "Verif.Props.Lookup.C135_inside_violated",
    "Verif.Props.Lookup.C135_range_violated",
    "Verif.Props.Lookup.C135_updated_violated"
   ],
   "note": "The text part asks for closed headers (as all whole-source claims of the parser here); offsets in headers, comments and after updates find nothing (violated), and so does the range of a kind whose first section is empty."
  },
  {
   "property": "C136",
   "status": "partial",
   "theorems": [
    "Verif.Props.Player.C136_playing",
    "Verif.Props.Player.C136_end",
    "Verif.Props.Player.C136_jumps",
    "Verif.Props.Player.C136_bounds_partial",
    "Verif.Props.Player.C136_reload_violated",
    "Verif.Props.Player.C136_speed",
    "Verif.Props.Player.C136_steps",
    "Verif.Props.Player.C136_speed_violated",
    "Verif.Props.Player.C136_pause_violated",
    "Verif.Props.Player.C136_pause_partial",
    "Verif.Props.Player.C136_gap_violated",
    "Verif.Props.Player.C136_duration_partial"
   ],
   "note": "Exact arithmetic in place of f32. Loading a shorter script, changing the speed while playing, pausing between updates and very long gaps break the claim (violated)."
  },
  {
   "property": "C137",
   "status": "partial",
   "theorems": [
    "Verif.Props.Player.C137_frame_partial",
    "Verif.Props.Player.C137_frame_violated",
    "Verif.Props.Player.C137_again",
    "Verif.Props.Player.C137_size_partial",
    "Verif.Props.Player.C137_size_violated",
    "Verif.Props.Player.C137_test"
   ],
   "note": "Rendering is a parameter. A cached frame may be from another time of the same 40 ms; a limit of 0 still keeps a frame (violated)."
  },
  {
   "property": "C138",
   "status": "partial",
   "theorems": [
    "Verif.Props.Analyzer.C138_regions",
    "Verif.Props.Analyzer.C138_every",
    "Verif.Props.Analyzer.C138_counts",
    "Verif.Props.Analyzer.C138_report_partial",
    "Verif.Props.Analyzer.C138_report_violated",
    "Verif.Props.Analyzer.C138_dominant_partial",
    "Verif.Props.Analyzer.C138_dominant_violated",
    "Verif.Props.Analyzer.C138_texts",
    "Verif.Props.Analyzer.C138_confidence"
   ],
   "note": "Exact arithmetic in place of f32. Buffers larger than the frame make the analyzer panic and the dominant colour need not occur in the picture (violated)."
  },
  {
   "property": "C139",
   "status": "partial",
   "theorems": [
    "Verif.Props.Inspector.C139_pixel",
    "Verif.Props.Inspector.C139_cursor",
    "Verif.Props.Inspector.C139_move_partial",
    "Verif.Props.Inspector.C139_wide_violated",
    "Verif.Props.Inspector.C139_move_violated",
    "Verif.Props.Inspector.C139_region_partial",
    "Verif.Props.Inspector.C139_region_violated",
    "Verif.Props.Inspector.C139_bounds",
    "Verif.Props.Inspector.C139_line",
    "Verif.Props.Inspector.C139_average_partial",
    "Verif.Props.Inspector.C139_average_violated",
    "Verif.Props.Inspector.C139_alike"
   ],
   "note": "Moving by the greatest steps, frames without pixels and rectangles outside the frame panic; the average of a stretch that does not reach the end of the line is the colour of its first pixel (violated). The Euclidean distance of colours is not modelled."
  },
  {
   "property": "C140",
   "status": "partial",
   "theorems": [
    "Verif.Props.Analysis.C140_events",
    "Verif.Props.Analysis.C140_counts",
    "Verif.Props.Analysis.C140_style",
    "Verif.Props.Analysis.C140_fonts",
    "Verif.Props.Analysis.C140_score",
    "Verif.Props.Analysis.C140_advice",
    "Verif.Props.Analysis.C140_lint",
    "Verif.Props.Analysis.C140_critical_violated",
    "Verif.Props.Analysis.C140_overlaps_violated",
    "Verif.Props.Analysis.C140_second_section_violated",
    "Verif.Props.Analysis.C140_comments_violated",
    "Verif.Props.Analysis.C140_animations_violated"
   ],
   "note": "Events, counts, styles, score, advice and issues are proved exactly. Violations: overlapping_events counts pairs, comments are counted, a second [Events] section is not looked at, static tags count as animations, has_critical_issues is never true."
  },
  {
   "property": "C141",
   "status": "partial",
   "theorems": [
    "Verif.Props.Cleanup.C141_whitespace",
    "Verif.Props.Cleanup.C141_again",
    "Verif.Props.Cleanup.C141_tab_violated",
    "Verif.Props.Cleanup.C141_return_violated",
    "Verif.Props.Cleanup.C141_control",
    "Verif.Props.Cleanup.C141_lines_partial",
    "Verif.Props.Cleanup.C141_end_violated"
   ],
   "note": "Exact for white space and control characters; trim_lines is proved for texts of whole lines. Violations: tabulators are kept, lone carriage returns inside lines stay, a final line feed is lost by trimming lines."
  },
  {
   "property": "C142",
   "status": "partial",
   "theorems": [
    "Verif.Props.Checks.C142_name",
    "Verif.Props.Checks.C142_colour",
    "Verif.Props.Checks.C142_readable_partial",
    "Verif.Props.Checks.C142_decimal_violated",
    "Verif.Props.Checks.C142_refused_violated",
    "Verif.Props.Checks.C142_limit",
    "Verif.Props.Checks.C142_piece",
    "Verif.Props.Checks.C142_outside"
   ],
   "note": "All four checks are proved exact. Violations: decimal colours are accepted but not readable (or read as hexadecimal), and readable spellings are refused."
  },
  {
   "property": "C143",
   "status": "partial",
   "theorems": [
    "Verif.Props.Frames.C143_values",
    "Verif.Props.Frames.C143_histories",
    "Verif.Props.Frames.C143_fails",
    "Verif.Props.Frames.C143_buffer",
    "Verif.Props.Frames.C143_rows",
    "Verif.Props.Frames.C143_empty",
    "Verif.Props.Frames.C143_empty_violated",
    "Verif.Props.Frames.C143_size_violated"
   ],
   "note": "Proved for all histories by refinement of a heap with shared buffers to values. Violations: an RGB frame without pixels is not called empty; sizes are computed in 32 bits."
  },
  {
   "property": "C144",
   "status": "partial",
   "theorems": [
    "Verif.Props.Frames.C144_extremes",
    "Verif.Props.Frames.C144_between",
    "Verif.Props.Frames.C144_blend",
    "Verif.Props.Frames.C144_alpha",
    "Verif.Props.Frames.C144_monotone",
    "Verif.Props.Frames.C144_layers_violated",
    "Verif.Props.Frames.C144_probe",
    "Verif.Props.Frames.C144_available_violated",
    "Verif.Props.Frames.C144_create"
   ],
   "note": "The formula, probing and creation are proved exactly. Violations: composite_layers shows none of its layers; backends that cannot be made are called available; probing for Auto finds nothing."
  },
  {
   "property": "C145",
   "status": "partial",
   "theorems": [
    "Verif.Props.DeltaCmd.C145_insert_partial",
    "Verif.Props.DeltaCmd.C145_replace_partial",
    "Verif.Props.DeltaCmd.C145_event_partial",
    "Verif.Props.DeltaCmd.C145_refused",
    "Verif.Props.DeltaCmd.C145_event_violated",
    "Verif.Props.DeltaCmd.C145_batch_partial",
    "Verif.Props.DeltaCmd.C145_batch_violated"
   ],
   "note": "Proved for edits that do not panic (short ones, or those the kept parse allows). Violations: editing an event whose text is not there reports success and a change; a failing batch keeps what was done before."
  },
  {
   "property": "C146",
   "status": "partial",
   "theorems": [
    "Verif.Props.Converter.C146_extension",
    "Verif.Props.Converter.C146_path",
    "Verif.Props.Converter.C146_content",
    "Verif.Props.Converter.C146_same",
    "Verif.Props.Converter.C146_told_partial",
    "Verif.Props.Converter.C146_srt_partial",
    "Verif.Props.Converter.C146_webvtt_partial",
    "Verif.Props.Converter.C146_plain_partial",
    "Verif.Props.Converter.C146_lines",
    "Verif.Props.Converter.C146_plain_back_partial",
    "Verif.Props.Converter.C146_plain_violated",
    "Verif.Props.Converter.C146_told_violated",
    "Verif.Props.Converter.C146_mark_violated",
    "Verif.Props.Converter.C146_ssa_partial",
    "Verif.Props.Converter.C146_ssa_violated"
   ],
   "note": "Proved for what the formats can carry. Violations: an SRT file mentioning [Events] is taken for a script; a WebVTT file with a byte order mark loses its cues; white space at the start of a text file is lost; SSA export changes words in dialogues."
  },
  {
   "property": "C147",
   "status": "partial",
   "theorems": [
    "Verif.Props.FormatReg.C147_importer",
    "Verif.Props.FormatReg.C147_exporter",
    "Verif.Props.FormatReg.C147_order_violated",
    "Verif.Props.FormatReg.C147_unique",
    "Verif.Props.FormatReg.C147_extensions",
    "Verif.Props.FormatReg.C147_supported",
    "Verif.Props.FormatReg.C147_files",
    "Verif.Props.FormatReg.C147_lost_violated",
    "Verif.Props.FormatReg.C147_ass",
    "Verif.Props.FormatReg.C147_ass_normal"
   ],
   "note": "Proved for all histories and orders. Violations: with two formats for an extension the choice depends on the hash order; a failing export empties the file."
  },
  {
   "property": "C148",
   "status": "partial",
   "theorems": [
    "Verif.Props.Generators.C148_generate_partial",
    "Verif.Props.Generators.C148_preset",
    "Verif.Props.Generators.C148_apart_violated",
    "Verif.Props.Generators.C148_refs_violated",
    "Verif.Props.Generators.C148_refs_partial",
    "Verif.Props.Generators.C148_colour_violated",
    "Verif.Props.Generators.C148_colour_partial",
    "Verif.Props.Generators.C148_issues_partial",
    "Verif.Props.Generators.C148_overlap_partial",
    "Verif.Props.Generators.C148_minutes_violated"
   ],
   "note": "Proved up to the size a script may have. Violations: events refer to Style0, which does not exist; the colours from the seventeenth style on cannot be read; minutes past the hour; events are thirty, not three, seconds apart."
  },
  {
   "property": "C149",
   "status": "partial",
   "theorems": [
    "Verif.Props.Compare.C149_total",
    "Verif.Props.Compare.C149_list",
    "Verif.Props.Compare.C149_max",
    "Verif.Props.Compare.C149_average_partial",
    "Verif.Props.Compare.C149_same_partial",
    "Verif.Props.Compare.C149_size_violated",
    "Verif.Props.Compare.C149_count_violated",
    "Verif.Props.Compare.C149_beside_partial",
    "Verif.Props.Compare.C149_cut_violated",
    "Verif.Props.Compare.C149_bitmap",
    "Verif.Props.Compare.C149_order",
    "Verif.Props.Compare.C149_reference",
    "Verif.Props.Compare.C149_mix_partial",
    "Verif.Props.Compare.C149_mix_violated"
   ],
   "note": "Exact arithmetic in place of f32 sums. Violations: pictures of different sizes count as equal, large numbers of pixels are rounded, a high map of differences is cut off, and mixing half transparent colours wraps around."
  },
  {
   "property": "C150",
   "status": "partial",
   "theorems": [
    "Verif.Props.DebugRender.C150_report_partial",
    "Verif.Props.DebugRender.C150_huge",
    "Verif.Props.DebugRender.C150_failure",
    "Verif.Props.DebugRender.C150_step",
    "Verif.Props.DebugRender.C150_history",
    "Verif.Props.DebugRender.C150_times",
    "Verif.Props.DebugRender.C150_compare",
    "Verif.Props.DebugRender.C150_itself",
    "Verif.Props.DebugRender.C150_shape_violated",
    "Verif.Props.DebugRender.C150_time_violated",
    "Verif.Props.DebugRender.C150_active_violated",
    "Verif.Props.DebugRender.C150_colour8",
    "Verif.Props.DebugRender.C150_colour6",
    "Verif.Props.DebugRender.C150_spelling_violated",
    "Verif.Props.DebugRender.C150_seven_violated",
    "Verif.Props.DebugRender.C150_styles",
    "Verif.Props.DebugRender.C150_overrides",
    "Verif.Props.DebugRender.C150_overrides_violated"
   ],
   "note": "The renderer inside, the hash, the clock and the files are parameters. Violations: milliseconds are given to a renderer that counts hundredths of a second, the number of active events is always zero, frames of different shapes compare as equal, lower case and decimal colours are reported as errors, and clips count as colours."
  },
  {
   "property": "C151",
   "status": "partial",
   "theorems": [
    "Verif.Props.Bench.C151_metrics",
    "Verif.Props.Bench.C151_between",
    "Verif.Props.Bench.C151_memory",
    "Verif.Props.Bench.C151_moment",
    "Verif.Props.Bench.C151_moment_none",
    "Verif.Props.Bench.C151_comment_violated",
    "Verif.Props.Bench.C151_backwards_violated",
    "Verif.Props.Bench.C151_single",
    "Verif.Props.Bench.C151_history",
    "Verif.Props.Bench.C151_quick",
    "Verif.Props.Bench.C151_score_violated",
    "Verif.Props.Bench.C151_range_partial",
    "Verif.Props.Bench.C151_range_none",
    "Verif.Props.Bench.C151_frames",
    "Verif.Props.Bench.C151_frames_order",
    "Verif.Props.Bench.C151_pace",
    "Verif.Props.Bench.C151_short_violated",
    "Verif.Props.Bench.C151_summary",
    "Verif.Props.Bench.C151_fps_partial",
    "Verif.Props.Bench.C151_fps_violated",
    "Verif.Props.Bench.C151_summary_empty"
   ],
   "note": "Exact arithmetic in place of f64, the square root is a parameter. Violations: comments count as events with text, events that end before they start end the program, short animations give figures that are not numbers, the score is constant, and tests without a number of frames count as zero."
  },
  {
   "property": "C152",
   "status": "partial",
   "theorems": [
    "Verif.Props.Prepare.C152_settings",
    "Verif.Props.Prepare.C152_fresh",
    "Verif.Props.Prepare.C152_styles",
    "Verif.Props.Prepare.C152_default_partial",
    "Verif.Props.Prepare.C152_history_partial",
    "Verif.Props.Prepare.C152_history_violated",
    "Verif.Props.Prepare.C152_order_violated",
    "Verif.Props.Prepare.C152_default_violated",
    "Verif.Props.Prepare.C152_scaled_violated"
   ],
   "note": "Exact arithmetic in place of f32; fonts left out; layout resolutions of zero excluded. Violations: settings of an earlier script stay in force, styles before the script information are not scaled, without a style named Default the default style depends on the order of a hash map, and a value of 0 for scaled borders is read differently by editor and renderer."
  },
  {
   "property": "C153",
   "status": "partial",
   "theorems": [
    "Verif.Props.Bounds.C153_start",
    "Verif.Props.Bounds.C153_end",
    "Verif.Props.Bounds.C153_text_violated",
    "Verif.Props.Bounds.C153_far_violated",
    "Verif.Props.Bounds.C153_start_violated",
    "Verif.Props.Bounds.C153_old_violated"
   ],
   "note": "Both searches are characterised for all boundaries of characters. Violations: a header in the text of an event counts, a header further than a hundred bytes back is not found, the first place may fall inside a character and stop the program, the old styles header is unknown."
  },
  {
   "property": "C154",
   "status": "partial",
   "theorems": [
    "Verif.Props.Builtins.C154_all",
    "Verif.Props.Builtins.C154_twice",
    "Verif.Props.Builtins.C154_kept",
    "Verif.Props.Builtins.C154_half_violated",
    "Verif.Props.Builtins.C154_gaps_violated",
    "Verif.Props.Builtins.C154_custom",
    "Verif.Props.Builtins.C154_adapter_violated",
    "Verif.Props.Builtins.C154_adapter"
   ],
   "note": "Complete for the functions modelled. Violations: a failed registration is left half done, tags the renderer carries out have no handler, the adapters answer with success for arguments they reject."
  },
  {
   "property": "C155",
   "status": "partial",
   "theorems": [
    "Verif.Props.FontLoad.C155_loaded_partial",
    "Verif.Props.FontLoad.C155_first_partial",
    "Verif.Props.FontLoad.C155_second_violated",
    "Verif.Props.FontLoad.C155_history_violated",
    "Verif.Props.FontLoad.C155_path_violated",
    "Verif.Props.FontLoad.C155_adds"
   ],
   "note": "For any script the first sections of each kind count (C155_first_partial); what the database makes of the data is outside. Violations: only the first section of fonts is loaded, fonts of an earlier script stay, any file can be named."
  },
  {
   "property": "C156",
   "status": "partial",
   "theorems": [
    "Verif.Props.BuiltinExt.C156_syntax_settings",
    "Verif.Props.BuiltinExt.C156_auto_settings_partial",
    "Verif.Props.BuiltinExt.C156_schema_violated",
    "Verif.Props.BuiltinExt.C156_switch_violated",
    "Verif.Props.BuiltinExt.C156_syntax_commands",
    "Verif.Props.BuiltinExt.C156_auto_commands",
    "Verif.Props.BuiltinExt.C156_tokens",
    "Verif.Props.BuiltinExt.C156_stale_violated",
    "Verif.Props.BuiltinExt.C156_late_violated",
    "Verif.Props.BuiltinExt.C156_trigger",
    "Verif.Props.BuiltinExt.C156_end",
    "Verif.Props.BuiltinExt.C156_position_violated",
    "Verif.Props.BuiltinExt.C156_ten_violated"
   ],
   "note": "Settings, commands and counts for all hosts and documents. Violations: the announced setting min_chars is never read, three switches have no effect, counts are stale after an edit and settings come too late for documents highlighted before, a position beyond the end stops the program, at most ten completions are given."
  },
  {
   "property": "C157",
   "status": "partial",
   "theorems": [
    "Verif.Props.Plugin.C157_get",
    "Verif.Props.Plugin.C157_list",
    "Verif.Props.Plugin.C157_unregister",
    "Verif.Props.Plugin.C157_params",
    "Verif.Props.Plugin.C157_glow_violated"
   ],
   "note": "Registry and parameters for all histories. Violation: the glow effect reports success and leaves every picture as it was."
  },
  {
   "property": "C158",
   "status": "partial",
   "theorems": [
    "Verif.Props.FluentTag.C158_missing",
    "Verif.Props.FluentTag.C158_chosen",
    "Verif.Props.FluentTag.C158_range",
    "Verif.Props.FluentTag.C158_wrap",
    "Verif.Props.FluentTag.C158_insert",
    "Verif.Props.FluentTag.C158_remove_partial",
    "Verif.Props.FluentTag.C158_replace_partial",
    "Verif.Props.FluentTag.C158_replace_first_partial",
    "Verif.Props.FluentTag.C158_parse_partial",
    "Verif.Props.FluentTag.C158_generate",
    "Verif.Props.FluentTag.C158_generate_exact_partial",
    "Verif.Props.FluentTag.C158_adjust",
    "Verif.Props.FluentTag.C158_whole_violated",
    "Verif.Props.FluentTag.C158_sections_violated"
   ],
   "note": "All operations over ranges between characters. Violations: without a range karaoke is generated for the text of the whole file, whose section headers are lost, and applying a template joins all its lines. Tags of a name as far as C95 has them."
  },
  {
   "property": "C159",
   "status": "partial",
   "theorems": [
    "Verif.Props.ErrorInfo.C159_line_partial",
    "Verif.Props.ErrorInfo.C159_event_violated",
    "Verif.Props.ErrorInfo.C159_utf8_violated",
    "Verif.Props.ErrorInfo.C159_category",
    "Verif.Props.ErrorInfo.C159_recovery_partial",
    "Verif.Props.ErrorInfo.C159_parse",
    "Verif.Props.ErrorInfo.C159_category_violated",
    "Verif.Props.ErrorInfo.C159_types",
    "Verif.Props.ErrorInfo.C159_editor",
    "Verif.Props.ErrorInfo.C159_collected",
    "Verif.Props.ErrorInfo.C159_histories",
    "Verif.Props.ErrorInfo.C159_abort",
    "Verif.Props.ErrorInfo.C159_result"
   ],
   "note": "All errors and histories. Violations: errors of event lines give no line number, errors of encoding give a byte position for it, and parse errors about memory, size and bugs have the category of mistakes."
  },
  {
   "property": "C160",
   "status": "partial",
   "theorems": [
    "Verif.Props.ExtContext.C160_config_partial",
    "Verif.Props.ExtContext.C160_config_violated",
    "Verif.Props.ExtContext.C160_single_partial",
    "Verif.Props.ExtContext.C160_data",
    "Verif.Props.ExtContext.C160_dropped",
    "Verif.Props.ExtContext.C160_events_violated",
    "Verif.Props.ExtContext.C160_messages_violated",
    "Verif.Props.ExtContext.C160_register_violated",
    "Verif.Props.ExtContext.C160_stopped_violated",
    "Verif.Props.ExtContext.C160_active_partial"
   ],
   "note": "All histories. Violations: with a single thread configuration set by extensions is lost; events, messages and commands given to a context are dropped; extensions that failed to shut down still run commands."
  },
  {
   "property": "C161",
   "status": "partial",
   "theorems": [
    "Verif.Props.Report.C161_same",
    "Verif.Props.Report.C161_toggle",
    "Verif.Props.Report.C161_timing_partial",
    "Verif.Props.Report.C161_effect_partial",
    "Verif.Props.Report.C161_timing_ends",
    "Verif.Props.Report.C161_ends_partial",
    "Verif.Props.Report.C161_ends_violated",
    "Verif.Props.Report.C161_same_apply",
    "Verif.Props.Report.C161_apply_partial",
    "Verif.Props.Report.C161_apply_ends_partial",
    "Verif.Props.Report.C161_apply_violated",
    "Verif.Props.Report.C161_delete",
    "Verif.Props.Report.C161_merge",
    "Verif.Props.Report.C161_split",
    "Verif.Props.Report.C161_same_split",
    "Verif.Props.Report.C161_same_single",
    "Verif.Props.Report.C161_batch_partial",
    "Verif.Props.Report.C161_batch_violated",
    "Verif.Props.Report.C161_media_entry",
    "Verif.Props.Report.C161_media_partial",
    "Verif.Props.Report.C161_media_violated"
   ],
   "note": "Toggling, deleting, merging and splitting: all documents. Timing, effects and applying a style: all documents in which `Dialogue:` and `Comment:` only begin lines. Violations: setting all effects to a text with an event line in it, or applying a style with such a name, never ends; deleting several events reports only the first place; adding a font leaves the new header out of the range."
  },
  {
   "property": "C162",
   "status": "partial",
   "theorems": [
    "Verif.Props.Tracked.C162_unsaved",
    "Verif.Props.Tracked.C162_save",
    "Verif.Props.Tracked.C162_save_path",
    "Verif.Props.Tracked.C162_file_partial",
    "Verif.Props.Tracked.C162_failed_violated",
    "Verif.Props.Tracked.C162_path_violated",
    "Verif.Props.Tracked.C162_undo_violated"
   ],
   "note": "The text is the loaded or saved one: all histories. That the file holds it: no save fails and the path is not set by hand. Violations: a failing save can destroy the file of a document without unsaved changes; setting another path leaves the mark; undoing all changes leaves the document marked."
  },
  {
   "property": "C163",
   "status": "partial",
   "theorems": [
    "Verif.Props.TrackedCursor.C163_edit",
    "Verif.Props.TrackedCursor.C163_undo",
    "Verif.Props.TrackedCursor.C163_redo",
    "Verif.Props.TrackedCursor.C163_place_partial",
    "Verif.Props.TrackedCursor.C163_inside_violated",
    "Verif.Props.TrackedCursor.C163_undo_stays",
    "Verif.Props.TrackedCursor.C163_undo_violated",
    "Verif.Props.TrackedCursor.C163_exec_violated",
    "Verif.Props.TrackedCursor.C163_same_edits",
    "Verif.Props.TrackedCursor.C163_same_undo",
    "Verif.Props.TrackedCursor.C163_reached"
   ],
   "note": "Edits, undo reports and redo: all histories. Violations: undoing leaves the tracked cursor where it was, possibly behind the text; executed commands record the cursor after them as the one before; an edit within a character can leave the cursor behind the text."
  },
  {
   "property": "C164",
   "status": "partial",
   "theorems": [
    "Verif.Props.DocPlugins.C164_ready",
    "Verif.Props.DocPlugins.C164_tags",
    "Verif.Props.DocPlugins.C164_sections",
    "Verif.Props.DocPlugins.C164_taken",
    "Verif.Props.DocPlugins.C164_parse",
    "Verif.Props.DocPlugins.C164_asked_partial",
    "Verif.Props.DocPlugins.C164_unused_violated",
    "Verif.Props.DocPlugins.C164_again_violated",
    "Verif.Props.DocPlugins.C164_failed_violated"
   ],
   "note": "All histories without setting up the registry a second time. Violations: setting it up again drops what was registered; a failing registration on a new document still sets up the registry and thereby silences the hints of the parser; handlers for tags are never asked when parsing. The messages of failing processors are not modelled."
  },
  {
   "property": "C165",
   "status": "partial",
   "theorems": [
    "Verif.Props.AtPos.C165_at",
    "Verif.Props.AtPos.C165_refused",
    "Verif.Props.AtPos.C165_total",
    "Verif.Props.AtPos.C165_undo",
    "Verif.Props.AtPos.C165_overflow_violated",
    "Verif.Props.AtPos.C165_wraps_violated"
   ],
   "note": "All positions and lengths whose end can be represented. Violation: a larger length panics with overflow checks and otherwise changes the text before the position."
  },
  {
   "property": "C166",
   "status": "partial",
   "theorems": [
    "Verif.Props.EditorError.C166_text_partial",
    "Verif.Props.EditorError.C166_core_violated",
    "Verif.Props.EditorError.C166_names_violated",
    "Verif.Props.EditorError.C166_edits",
    "Verif.Props.EditorError.C166_replace_partial",
    "Verif.Props.EditorError.C166_replace_violated",
    "Verif.Props.ErrorTexts.C166_all_partial"
   ],
   "note": "All errors, those of the library among them; not names of extensions with a colon and of features with a quote; edits that begin between two characters. Violations: a validation error of the editor reads like one of the library; odd names of extensions and features; a replacement within the last character names the length after it was deleted."
  },
  {
   "property": "C167",
   "status": "partial",
   "theorems": [
    "Verif.Props.ErrorTexts.C167_parse_partial",
    "Verif.Props.ErrorTexts.C167_core_partial",
    "Verif.Props.ErrorTexts.C167_names_violated",
    "Verif.Props.ErrorTexts.C167_render_partial",
    "Verif.Props.ErrorTexts.C167_kinds"
   ],
   "note": "All errors but parse errors with a quote in a field or value and features with a bracket in their name, for which different errors read alike (violations)."
  },
  {
   "property": "C168",
   "status": "partial",
   "theorems": [
    "Verif.Props.Follow.C168_edit_partial",
    "Verif.Props.Follow.C168_follow_partial",
    "Verif.Props.Follow.C168_within_violated",
    "Verif.Props.Follow.C168_silent_violated",
    "Verif.Props.Follow.C168_long",
    "Verif.Props.Follow.C168_short_violated",
    "Verif.Props.Follow.C168_range",
    "Verif.Props.Follow.C168_range_violated",
    "Verif.Props.Follow.C168_kinds_partial",
    "Verif.Props.Follow.C168_custom_violated"
   ],
   "note": "Edits that begin and end between characters, long incremental edits, filters for the built-in kinds. Violations: undo, redo, executed commands and short incremental edits are not told; edits within a character are told with a wrong place; the range of a replacement is that of the old text; made-up events pass for others."
  },
  {
   "property": "C169",
   "status": "partial",
   "theorems": [
    "Verif.Props.DocValid.C169_remembered_partial",
    "Verif.Props.DocValid.C169_validate_partial",
    "Verif.Props.DocValid.C169_forgotten",
    "Verif.Props.DocValid.C169_undo_violated",
    "Verif.Props.DocValid.C169_raw_violated",
    "Verif.Props.DocValid.C169_failed_violated"
   ],
   "note": "Edits and commands with ordered ranges whose replacements and deletions begin between characters. Violations: undo and redo, commands executed on the document by the client, and replacements or deletions failing within the last character leave a stale result."
  },
  {
   "property": "C170",
   "status": "partial",
   "theorems": [
    "Verif.Props.TokenInfo.C170_end_partial",
    "Verif.Props.TokenInfo.C170_next_partial",
    "Verif.Props.TokenInfo.C170_simd_violated",
    "Verif.Props.TokenInfo.C170_break_violated",
    "Verif.Props.TokenInfo.C170_asked",
    "Verif.Props.TokenInfo.C170_kinds",
    "Verif.Props.TokenInfo.C170_content_partial",
    "Verif.Props.TokenInfo.C170_content_violated"
   ],
   "note": "Columns without the feature simd and for tokens within a line; content for tokens other than override blocks. Violations: with simd columns are not counted over text; the end column of a line break is not that of what follows; tokens of override blocks and their type disagree about content."
  },
  {
   "property": "C171",
   "status": "partial",
   "theorems": [
    "Verif.Props.StyleOps.C171_order",
    "Verif.Props.StyleOps.C171_values_partial",
    "Verif.Props.StyleOps.C171_value_violated"
   ],
   "note": "Independence of the orders in full; the values under the conditions of C39. Violations: a value with a comma moves the fields behind it; a field the format line does not name is dropped and the edit called a success."
  },
  {
   "property": "C172",
   "status": "partial",
   "theorems": [
    "Verif.Props.LineIn.C172_event_partial",
    "Verif.Props.LineIn.C172_style_partial",
    "Verif.Props.LineIn.C172_field",
    "Verif.Props.LineIn.C172_format_violated",
    "Verif.Props.LineIn.C172_blank_violated",
    "Verif.Props.LineIn.C172_style_violated"
   ],
   "note": "Event lines and what follows Style: without blanks around them, in scripts with format lines; fields in full. Violations: without a format line the line is refused; blanks before an event line; a whole style line gets another name; style and event lines pass for fields."
  },
  {
   "property": "C173",
   "status": "partial",
   "theorems": [
    "Verif.Props.IssueText.C173_shown",
    "Verif.Props.IssueText.C173_told_partial",
    "Verif.Props.IssueText.C173_break_violated",
    "Verif.Props.IssueText.C173_blocking"
   ],
   "note": "Place, category, severity and blocking in full; message and suggestion for messages of one line. Violations: a message of two lines may look like one with a suggestion; the span is not shown."
  },
  {
   "property": "C174",
   "status": "partial",
   "theorems": [
    "Verif.Props.PerfGate.C174_estimate",
    "Verif.Props.PerfGate.C174_told",
    "Verif.Props.PerfGate.C174_gate",
    "Verif.Props.PerfGate.C174_unread_violated"
   ],
   "note": "Numbers are exact and how they are read from text is a parameter; the wording of messages is not modelled. Violation: results that are missing or not understood pass."
  },
  {
   "property": "C175",
   "status": "partial",
   "theorems": [
    "Verif.Props.BenchValid.C175_load",
    "Verif.Props.BenchValid.C175_success",
    "Verif.Props.BenchValid.C175_memory_violated"
   ],
   "note": "Numbers are exact and how they are read from text is a parameter; the wording of messages is not modelled. Violation: memory is never checked, and no results at all pass."
  },
  {
   "property": "C176",
   "status": "partial",
   "theorems": [
    "Verif.Props.FluentTime.C176_twice_partial",
    "Verif.Props.FluentTime.C176_back_partial",
    "Verif.Props.FluentTime.C176_clamped_violated",
    "Verif.Props.FluentTime.C176_one_end_partial"
   ],
   "note": "One event at a time, in ASCII text, of the events the commands handle, with times below 2^31 and no move before the beginning. Violation: an event moved before the beginning does not come back."
  },
  {
   "property": "C177",
   "status": "partial",
   "theorems": [
    "Verif.Props.FluentEffect.C177_history_partial",
    "Verif.Props.FluentEffect.C177_empty_violated"
   ],
   "note": "One event at a time, in ASCII text, of the events and words the commands handle. Violation: appending nothing adds a blank."
  },
  {
   "property": "C178",
   "status": "partial",
   "theorems": [
    "Verif.Props.FluentMerge.C178_cut_partial",
    "Verif.Props.FluentMerge.C178_times_partial",
    "Verif.Props.FluentMerge.C178_text_violated"
   ],
   "note": "The times and all fields but the text come back, for the events the commands handle; deleting a half shortens the event. Violation: the text of an event cut and put together again stands there twice."
  }
 ]
}