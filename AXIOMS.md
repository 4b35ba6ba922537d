# Axioms of each theorem

Output of `#print axioms` for every theorem of MANIFEST.json: P is propext, C is Classical.choice, Q is Quot.sound, - is none. There is no other one.

* C01: C01_decode (PQ), C01_roundtrip (PCQ)
* C02: C02_exact (PCQ), C02_buffer (PCQ)
* C03: C03_no_hang (PCQ), C03_progress (PCQ), C03_eof_reached (PCQ), C03_eof_stays (PCQ), C03_eof_meaning (PCQ), C03_refuted_eof (P)
* C04: C04_bounded (PCQ), C04_inside (PQ)
* C05: C05_exceptions (PCQ), C05_clean (PCQ), C05_refuted_range (P), C05_refuted_start (P)
* C06: C06_at_end (PCQ), C06_so_far (PCQ), C06_forward (PCQ), C06_overlong (P)
* C07: C07_grows (PCQ), C07_no_silent_overflow (PCQ)
* C08: C08_string (PCQ), C08_refuted_backslash (P), C08_refuted_newline (P)
* C09: C09_identifier (PCQ), C09_no_throw (PCQ), C09_refuted_one_digit (P), C09_refuted_newline (P)
* C10: C10_integer (PCQ), C10_refuted_min (P)
* C11: C11_ctor_exact (PCQ), C11_set_exact (PCQ), C11_range_value (PCQ), C11_history (PCQ), C11_refuted_negative_start (PCQ), C11_refuted_negative_prints (P)
* C12: C12_range (PCQ), C12_lexed (PCQ), C12_intersection (PCQ), C12_source_ok (PQ)
* C13: C13_mul_is_intersection (PCQ)
* C14: C14_pack_unpack (PCQ), C14_unpack_pack (PCQ)
* C15: C15_roundtrip (PCQ), C15_refuted_B_zero (PCQ)
* C16: C16_parse_exact (PCQ), C16_no_overflow (PCQ), C16_unambiguous (PCQ), C16_overflow_reachable (-), C16_refuted_nul_and_ff (-)
* C17: C17_counts (PQ), C17_error_happened (PCQ), C17_safe_error (P), C17_guarded_history (P)
* C18: C18_set_precision (PCQ), C18_precision_bounded (PCQ), C18_safe_precision (PCQ)
* C19: C19_format (PCQ), C19_format_precision_le_3 (PCQ), C19_refuted_precision_4 (PQ), C19_refuted_precision_10 (PQ)
* C20: C20_names (PCQ)
* C21: C21_bytes (PQ), C21_clamp (PCQ), C21_ints (PCQ), C21_defined (PCQ)
* C22: C22_opaque (PCQ), C22_reread (PCQ)
* C23: C23_units (PCQ)
* C24: C24_spacing (PQ), C24_one_over (PCQ), C24_reread (PCQ), C24_refuted_unit_one (P)
* C25: C25_numbers (P), C25_total (PCQ), C25_percents (P), C25_strings (P), C25_colors (P), C25_offset (P)
* C26: C26_integers (PQ), C26_quotient (PCQ), C26_refuted_min (PQ), C26_decimals (PQ), C26_percents (PQ), C26_decimal_zero (PQ), C26_refuted_color_zero (PQ), C26_strings (PQ), C26_ranges (PCQ), C26_null (PQ), C26_ranges_refused (PQ), C26_color_factor (PQ), C26_color_unit (PQ), C26_color_color (PCQ), C26_others (PQ), C26_font (PQ)
* C27: C27_order (PCQ), C27_meaning (PCQ), C27_incomparable (P), C27_comparable_exact (PCQ), C27_colors (P), C27_refuted_nan (PCQ), C27_refuted_transitive (PCQ)
* C28: C28_strings (PQ), C28_word (PQ), C28_defined (P), C28_refuted_throws (PCQ)
* C29: C29_array (PCQ), C29_map (PCQ), C29_name (PCQ), C29_name_unset (PQ), C29_index (PQ), C29_list (PCQ), C29_literal_map (PQ)
* C30: C30_precedence (PQ), C30_operators (P), C30_power (PQ)
* C31: C31_kept (PQ), C31_variables (PQ), C31_unchanged (PQ), C31_variables_unchanged (PQ), C31_refuted_minus (PQ)
* C32: C32_guards (P), C32_history (PQ)
* C33: C33_additions (PQ), C33_wellformed (PQ), C33_keeps (PQ), C33_insert (PCQ), C33_removeAt (PCQ), C33_remove (PQ), C33_replace (PQ), C33_get (PCQ), C33_take_over (PCQ), C33_refuted_insert_remove (P), C33_flags (PQ)
* C34: C34_clone (PCQ), C34_independent (PCQ), C34_refuted_lowercase (P)
* C35: C35_dimensions (P), C35_guard (P)
* C36: C36_returns (PCQ), C36_forward (PCQ), C36_to_the_end (PCQ), C36_text (PCQ)
* C37: C37_subsequence (PCQ), C37_nothing_lost (PCQ), C37_text (PCQ)
* C38: C38_unbalanced_reported (PCQ), C38_nested (PCQ)
* C39: C39_split (PCQ), C39_already (P), C39_pieces (PQ), C39_separators (P), C39_defect (P)
* C40: C40_layout (P), C40_semicolons (PQ), C40_same (PCQ), C40_expanded (PCQ), C40_compressed (PQ)
* C41: C41_operators (PQ), C41_text (PCQ), C41_modes (PQ), C41_accepts (PCQ), C41_report (PQ)
* C42: C42_scopes (PCQ), C42_set (PQ), C42_frame (PCQ), C42_get_set (PCQ), C42_parents (P)
* C43: C43_terminates (PCQ)
* C44: C44_tokens (P)
* C45: C45_find (P), C45_readable (PQ), C45_import (PQ), C45_validation (PQ)
* C46: C46_url (P), C46_string (PCQ), C46_absolute (-)
* C47: C47_complete (PCQ), C47_sound (PCQ), C47_warnings (P), C47_errors (PCQ), C47_unambiguous (PCQ), C47_css_differences (P)
* C48: C48_decode (PCQ), C48_wellformed (PCQ), C48_not_rejected (-)
* C49: C49_accepts (PQ), C49_throws (PQ), C49_refuses (PQ), C49_defined (PCQ), C49_double_not (PQ), C49_not_not_refused (PQ)
* C50: C50_ids_kept (P), C50_id_twice (PCQ), C50_rule (PCQ), C50_commas (PCQ)
* C51: C51_units (PCQ), C51_refused (PCQ), C51_plain (PQ), C51_types (P)
* C52: C52_truth (PCQ), C52_logic (P)
* C53: C53_plain (PQ)
* C54: C54_settled (PQ)
* C55: C55_variable_set (PCQ), C55_nested_declaration (PCQ), C55_sheet (PCQ), C55_values (PCQ), C55_text (PCQ)
* C56: C56_reads_back (PCQ), C56_parse_again (PCQ), C56_unambiguous (PCQ), C56_part (PCQ)
* C57: C57_compressed (PCQ), C57_modes (PCQ), C57_number (PCQ)
* C58: C58_if (PCQ), C58_throws (PCQ)
* C59: C59_block (PCQ), C59_other_block (PCQ), C59_set (PCQ), C59_get_local (P), C59_get_global (P), C59_use (PCQ), C59_use_plain (PCQ), C59_unset (PQ), C59_needs_call (PQ), C59_overflow (PQ)
* C60: C60_subst (PCQ), C60_call (PCQ), C60_missing (PCQ), C60_not_function (PCQ), C60_include (PCQ), C60_include_name (PCQ), C60_mixin (PQ), C60_mixin_bad (PQ), C60_mixin_function (PCQ), C60_define (PCQ), C60_closed (PC), C60_hidden (PCQ)
* C61: C61_mixin (PCQ), C61_import (PCQ), C61_example (PCQ)
* C62: C62_import_loaded (PCQ), C62_import_failed (PQ), C62_import_alone (PQ), C62_message (PQ), C62_bare (PQ), C62_include_bad (PQ), C62_mark (PCQ), C62_mark_length (PCQ), C62_empty (PCQ), C62_empty_root (PQ), C62_left (PCQ), C62_comment (PQ), C62_comment_child (PQ)
* C63: C63_expand (PQ), C63_throws (PQ), C63_flat (PQ), C63_facts (PQ), C63_selector (PQ), C63_reference (PQ), C63_count (PQ)
* C64: C64_message_in_sheet (PCQ), C64_message_in_block (PCQ), C64_every_message (PCQ)
* C65: C65_declaration (PCQ), C65_block (PCQ), C65_filter (PQ), C65_refused (PQ), C65_refused_only (PCQ), C65_levels (P), C65_name_only (PQ), C65_in_block (PQ)
* C66: C66_keyframes (PCQ), C66_bad_frame (PCQ), C66_bad_form (PQ)
* C67: C67_ends (PCQ), C67_list_ends (PCQ)
* C68: C68_finished (PCQ)
* C69: C69_comment_drops (PQ), C69_comment_drops_in_sheet (PQ), C69_comment_throws (PQ), C69_message_skips (PCQ), C69_return_stops (PQ)
* C70: C70_independent (PQ), C70_in_order (PCQ)
* C71: C71_decimal (PCQ), C71_percent (PCQ), C71_source (PCQ)
* C72: C72_wrong_count (PCQ), C72_right_count (PCQ), C72_other_names (PQ), C72_counter (PQ), C72_function_exists (PCQ), C72_variable_exists (PQ)
* C73: C73_sign (PCQ), C73_floor (PCQ), C73_ceil (PCQ), C73_round (PCQ), C73_integers (PQ), C73_abs (PCQ)
* C74: C74_max (PQ), C74_min (PQ), C74_max_first (PQ), C74_min_first (PQ)
* C75: C75_integer (PQ), C75_round_trip (PCQ), C75_percentage (PCQ), C75_text (PCQ), C75_words (PQ), C75_words_number (PQ), C75_refused (PQ)
* C76: C76_rgb (PQ), C76_rgba (PQ), C76_alpha_only (PQ), C76_component (PCQ), C76_defects (PQ)
* C77: C77_units (PCQ), C77_plain (PQ)
* C78: C78_length (PCQ), C78_append (PCQ)
* C79: C79_value (PQ), C79_distinct (PCQ), C79_defect (PQ)
* C80: C80_gray_back (PCQ), C80_gray_nan (PQ), C80_gray (PCQ), C80_negative (PCQ), C80_wheel (PQ)
* C81: C81_random (PQ)
* C82: C82_list (PCQ), C82_values (PCQ), C82_flag (PCQ), C82_glued (PCQ)
* C83: C83_text (PCQ), C83_values (PCQ), C83_minified (PCQ), C83_layout (PCQ), C83_again (PCQ), C83_modes (PCQ), C83_empty (PCQ)
* C84: C84_if (PCQ), C84_if_neither (PCQ), C84_if_refused (PQ), C84_not (PCQ), C84_if_not (PCQ), C84_type_of (PQ), C84_converted (PQ), C84_unit (PQ)
* C85: C85_angles (PCQ), C85_pi (P), C85_radians (PQ), C85_inverse (PQ), C85_log (PCQ)
* C86: C86_date (PCQ), C86_all (PQ), C86_late (PCQ), C86_no_root (P)
* C87: C87_script (PCQ), C87_run (PCQ), C87_variables (P)
* C88: C88_throws (PCQ), C88_variable (PCQ), C88_placeholder (PCQ), C88_call (PQ), C88_comment (PCQ), C88_lines (PQ), C88_plain_string (PQ), C88_scripts (PCQ), C88_string (PCQ), C88_backslash (PQ), C88_quotes (PQ), C88_spaces (PQ), C88_operator (PQ), C88_reads (PCQ), C88_reads_all (PCQ), C88_plus (PQ)
* C89: C89_text (PCQ), C89_selector (PCQ)
* C90: C90_undefined (PQ), C90_not_function (PQ), C90_missing (PQ), C90_value (PCQ), C90_locals (PQ), C90_no_return (PQ)
* C91: C91_files (PCQ), C91_stdin (-), C91_refused (PQ), C91_status (PCQ), C91_written (PCQ), C91_success (PCQ), C91_unknown_style (PCQ), C91_quiet (PCQ), C91_werror (PCQ), C91_precision_wraps (PQ), C91_precision (PQ), C91_tree (PCQ), C91_variables (PQ), C91_scope (PCQ)
* C92: C92_if (PCQ), C92_else (PCQ), C92_assign (PCQ), C92_global (PCQ), C92_import (PCQ), C92_forever (PCQ)
* C93: C93_files (PCQ), C93_stdin (PCQ)
* C94: C94_init (PQ), C94_scripts (PQ), C94_stdin (PCQ), C94_files (PCQ)
* C95: C95_position (PCQ)
* C96: C96_folding (PCQ), C96_no_sum (PCQ)
* C97: C97_text (PCQ), C97_modes (PCQ), C97_replaced (PCQ), C97_agree (PCQ), C97_again (PCQ)
