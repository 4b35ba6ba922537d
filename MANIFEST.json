{
 "claims": [
  {
   "property": "C01",
   "status": "proved",
   "theorems": [
    "Csspp.Utf8.C01_decode",
    "Csspp.Utf8.C01_roundtrip"
   ],
   "note": ""
  },
  {
   "property": "C02",
   "status": "proved",
   "theorems": [
    "Csspp.Utf8.C02_exact",
    "Csspp.Utf8.C02_buffer"
   ],
   "note": ""
  },
  {
   "property": "C03",
   "status": "proved",
   "theorems": [
    "Csspp.Lex.C03_no_hang",
    "Csspp.Lex.C03_progress",
    "Csspp.Lex.C03_eof_reached",
    "Csspp.Lex.C03_eof_stays",
    "Csspp.Lex.C03_eof_meaning",
    "Csspp.Lex.C03_refuted_eof"
   ],
   "note": "C03_refuted_eof witnesses the early EOF_TOKEN the statement mentions."
  },
  {
   "property": "C04",
   "status": "proved",
   "theorems": [
    "Csspp.Lex.C04_bounded",
    "Csspp.Lex.C04_inside"
   ],
   "note": ""
  },
  {
   "property": "C05",
   "status": "proved",
   "theorems": [
    "Csspp.Lex.C05_exceptions",
    "Csspp.Lex.C05_clean",
    "Csspp.Lex.C05_refuted_range",
    "Csspp.Lex.C05_refuted_start"
   ],
   "note": "C05_refuted_* witness that the two exceptions are reachable, as the statement says."
  },
  {
   "property": "C06",
   "status": "proved",
   "theorems": [
    "Csspp.Lex.C06_at_end",
    "Csspp.Lex.C06_so_far",
    "Csspp.Lex.C06_forward",
    "Csspp.Lex.C06_overlong"
   ],
   "note": "C06_overlong shows why the text must be well formed."
  },
  {
   "property": "C07",
   "status": "proved",
   "theorems": [
    "Csspp.Lex.C07_grows",
    "Csspp.Lex.C07_no_silent_overflow"
   ],
   "note": ""
  },
  {
   "property": "C08",
   "status": "proved",
   "theorems": [
    "Csspp.Lex.C08_string",
    "Csspp.Lex.C08_refuted_backslash",
    "Csspp.Lex.C08_refuted_newline"
   ],
   "note": "C08_refuted_* witness why backslash and line feed are excluded."
  },
  {
   "property": "C09",
   "status": "proved",
   "theorems": [
    "Csspp.Lex.C09_identifier",
    "Csspp.Lex.C09_no_throw",
    "Csspp.Lex.C09_refuted_one_digit",
    "Csspp.Lex.C09_refuted_newline"
   ],
   "note": "C09_refuted_* witness why the exclusions are needed."
  },
  {
   "property": "C10",
   "status": "proved",
   "theorems": [
    "Csspp.Lex.C10_integer",
    "Csspp.Lex.C10_refuted_min"
   ],
   "note": "C10_refuted_min witnesses the excluded value."
  },
  {
   "property": "C11",
   "status": "proved",
   "theorems": [
    "Csspp.URange.C11_ctor_exact",
    "Csspp.URange.C11_set_exact",
    "Csspp.URange.C11_range_value",
    "Csspp.URange.C11_history",
    "Csspp.URange.C11_refuted_negative_start",
    "Csspp.URange.C11_refuted_negative_prints"
   ],
   "note": "C11_refuted_* state the behaviour on negative starts mentioned in the statement."
  },
  {
   "property": "C12",
   "status": "proved",
   "theorems": [
    "Csspp.Lex.C12_range",
    "Csspp.Lex.C12_lexed",
    "Csspp.Lex.C12_intersection",
    "Csspp.Lex.C12_source_ok"
   ],
   "note": ""
  },
  {
   "property": "C13",
   "status": "proved",
   "theorems": [
    "Csspp.URange.C13_mul_is_intersection"
   ],
   "note": "For all pairs of valid ranges; null absorption is the trivial switch at expr_multiplicative.cpp:388-403."
  },
  {
   "property": "C14",
   "status": "proved",
   "theorems": [
    "Csspp.Nth.C14_pack_unpack",
    "Csspp.Nth.C14_unpack_pack"
   ],
   "note": ""
  },
  {
   "property": "C15",
   "status": "proved",
   "theorems": [
    "Csspp.Nth.C15_roundtrip",
    "Csspp.Nth.C15_refuted_B_zero"
   ],
   "note": "C15_roundtrip and C15_refuted_B_zero together cover every pair."
  },
  {
   "property": "C16",
   "status": "proved",
   "theorems": [
    "Csspp.Nth.C16_parse_exact",
    "Csspp.Nth.C16_no_overflow",
    "Csspp.Nth.C16_unambiguous",
    "Csspp.Nth.C16_overflow_reachable",
    "Csspp.Nth.C16_refuted_nul_and_ff"
   ],
   "note": "C16_refuted_nul_and_ff and C16_overflow_reachable witness why the exclusions are needed."
  },
  {
   "property": "C17",
   "status": "proved",
   "theorems": [
    "Csspp.Err.C17_counts",
    "Csspp.Err.C17_error_happened",
    "Csspp.Err.C17_safe_error",
    "Csspp.Err.C17_guarded_history"
   ],
   "note": ""
  },
  {
   "property": "C18",
   "status": "proved",
   "theorems": [
    "Csspp.Err.C18_set_precision",
    "Csspp.Err.C18_precision_bounded",
    "Csspp.Err.C18_safe_precision"
   ],
   "note": ""
  },
  {
   "property": "C19",
   "status": "proved",
   "theorems": [
    "Csspp.Dec.C19_format",
    "Csspp.Dec.C19_format_precision_le_3",
    "Csspp.Dec.C19_refuted_precision_4",
    "Csspp.Dec.C19_refuted_precision_10"
   ],
   "note": "C19_refuted_* witness the defect under 10^-4 mentioned in the quantifier. The double arithmetic is abstracted: the theorem ranges over every possible result of the rounding addition."
  },
  {
   "property": "C20",
   "status": "proved",
   "theorems": [
    "Csspp.Color.C20_names"
   ],
   "note": ""
  },
  {
   "property": "C21",
   "status": "proved",
   "theorems": [
    "Csspp.Color.C21_bytes",
    "Csspp.Color.C21_clamp",
    "Csspp.Color.C21_ints",
    "Csspp.Color.C21_defined"
   ],
   "note": ""
  },
  {
   "property": "C22",
   "status": "proved",
   "theorems": [
    "Csspp.Color.C22_opaque",
    "Csspp.Color.C22_reread"
   ],
   "note": ""
  },
  {
   "property": "C23",
   "status": "proved",
   "theorems": [
    "Csspp.Dim.C23_units"
   ],
   "note": ""
  },
  {
   "property": "C24",
   "status": "proved",
   "theorems": [
    "Csspp.Dim.C24_spacing",
    "Csspp.Dim.C24_one_over",
    "Csspp.Dim.C24_reread",
    "Csspp.Dim.C24_refuted_unit_one"
   ],
   "note": "C24_refuted_unit_one witnesses the exception of the statement."
  },
  {
   "property": "C25",
   "status": "proved",
   "theorems": [
    "Csspp.Expr.C25_numbers",
    "Csspp.Expr.C25_total",
    "Csspp.Expr.C25_percents",
    "Csspp.Expr.C25_strings",
    "Csspp.Expr.C25_colors",
    "Csspp.Expr.C25_offset"
   ],
   "note": ""
  },
  {
   "property": "C26",
   "status": "proved",
   "theorems": [
    "Csspp.Expr.C26_integers",
    "Csspp.Expr.C26_quotient",
    "Csspp.Expr.C26_refuted_min",
    "Csspp.Expr.C26_decimals",
    "Csspp.Expr.C26_percents",
    "Csspp.Expr.C26_decimal_zero",
    "Csspp.Expr.C26_refuted_color_zero",
    "Csspp.Expr.C26_strings",
    "Csspp.Expr.C26_ranges",
    "Csspp.Expr.C26_null",
    "Csspp.Expr.C26_ranges_refused",
    "Csspp.Expr.C26_color_factor",
    "Csspp.Expr.C26_color_unit",
    "Csspp.Expr.C26_color_color",
    "Csspp.Expr.C26_others",
    "Csspp.Expr.C26_font"
   ],
   "note": "The _refuted theorems are the exceptions written in the statement (INT64_MIN / -1, color / 0)."
  },
  {
   "property": "C27",
   "status": "proved",
   "theorems": [
    "Csspp.Expr.C27_order",
    "Csspp.Expr.C27_meaning",
    "Csspp.Expr.C27_incomparable",
    "Csspp.Expr.C27_comparable_exact",
    "Csspp.Expr.C27_colors",
    "Csspp.Expr.C27_refuted_nan",
    "Csspp.Expr.C27_refuted_transitive"
   ],
   "note": "The _refuted theorems are the exceptions written in the statement (NaN, integer = decimal beyond 2^53)."
  },
  {
   "property": "C28",
   "status": "proved",
   "theorems": [
    "Csspp.Expr.C28_strings",
    "Csspp.Expr.C28_word",
    "Csspp.Expr.C28_defined",
    "Csspp.Expr.C28_refuted_throws"
   ],
   "note": "C28_refuted_throws is the last sentence of the statement."
  },
  {
   "property": "C29",
   "status": "proved",
   "theorems": [
    "Csspp.Expr.C29_array",
    "Csspp.Expr.C29_map",
    "Csspp.Expr.C29_name",
    "Csspp.Expr.C29_name_unset",
    "Csspp.Expr.C29_index",
    "Csspp.Expr.C29_list",
    "Csspp.Expr.C29_literal_map"
   ],
   "note": ""
  },
  {
   "property": "C30",
   "status": "proved",
   "theorems": [
    "Csspp.Expr.C30_precedence",
    "Csspp.Expr.C30_operators",
    "Csspp.Expr.C30_power"
   ],
   "note": ""
  },
  {
   "property": "C31",
   "status": "proved",
   "theorems": [
    "Csspp.Expr.C31_kept",
    "Csspp.Expr.C31_variables",
    "Csspp.Expr.C31_unchanged",
    "Csspp.Expr.C31_variables_unchanged",
    "Csspp.Expr.C31_refuted_minus"
   ],
   "note": "C31_refuted_minus is the example of the statement."
  },
  {
   "property": "C32",
   "status": "proved",
   "theorems": [
    "Csspp.Node.C32_guards",
    "Csspp.Node.C32_history"
   ],
   "note": ""
  },
  {
   "property": "C33",
   "status": "proved",
   "theorems": [
    "Csspp.Node.C33_additions",
    "Csspp.Node.C33_wellformed",
    "Csspp.Node.C33_keeps",
    "Csspp.Node.C33_insert",
    "Csspp.Node.C33_removeAt",
    "Csspp.Node.C33_remove",
    "Csspp.Node.C33_replace",
    "Csspp.Node.C33_get",
    "Csspp.Node.C33_take_over",
    "Csspp.Node.C33_refuted_insert_remove",
    "Csspp.Node.C33_flags"
   ],
   "note": "C33_refuted_insert_remove witnesses the last parenthesis of the statement: positional operations do not re-establish the whitespace invariant."
  },
  {
   "property": "C34",
   "status": "proved",
   "theorems": [
    "Csspp.Node.C34_clone",
    "Csspp.Node.C34_independent",
    "Csspp.Node.C34_refuted_lowercase"
   ],
   "note": "C34_refuted_lowercase witnesses the defect the statement mentions (f_lowercase_string is not copied)."
  },
  {
   "property": "C35",
   "status": "proved",
   "theorems": [
    "Csspp.Node.C35_dimensions",
    "Csspp.Node.C35_guard"
   ],
   "note": ""
  },
  {
   "property": "C36",
   "status": "proved",
   "theorems": [
    "Csspp.Parse.C36_returns",
    "Csspp.Parse.C36_forward",
    "Csspp.Parse.C36_to_the_end",
    "Csspp.Parse.C36_text"
   ],
   "note": ""
  },
  {
   "property": "C37",
   "status": "proved",
   "theorems": [
    "Csspp.Parse.C37_subsequence",
    "Csspp.Parse.C37_nothing_lost",
    "Csspp.Parse.C37_text"
   ],
   "note": ""
  },
  {
   "property": "C38",
   "status": "proved",
   "theorems": [
    "Csspp.Parse.C38_unbalanced_reported",
    "Csspp.Parse.C38_nested"
   ],
   "note": ""
  },
  {
   "property": "C39",
   "status": "proved",
   "theorems": [
    "Csspp.Parse.C39_split",
    "Csspp.Parse.C39_already",
    "Csspp.Parse.C39_pieces",
    "Csspp.Parse.C39_separators",
    "Csspp.Parse.C39_defect"
   ],
   "note": "C39_defect is the last separator followed by whitespace of the statement. Clean is the whitespace invariant of add_child() (C33)."
  },
  {
   "property": "C40",
   "status": "proved",
   "theorems": [
    "Csspp.Asm.C40_layout",
    "Csspp.Asm.C40_semicolons",
    "Csspp.Asm.C40_same",
    "Csspp.Asm.C40_expanded",
    "Csspp.Asm.C40_compressed"
   ],
   "note": ""
  },
  {
   "property": "C41",
   "status": "proved",
   "theorems": [
    "Csspp.Asm.C41_operators",
    "Csspp.Asm.C41_text",
    "Csspp.Asm.C41_modes",
    "Csspp.Asm.C41_accepts",
    "Csspp.Asm.C41_report"
   ],
   "note": ""
  },
  {
   "property": "C42",
   "status": "proved",
   "theorems": [
    "Csspp.Comp.C42_scopes",
    "Csspp.Comp.C42_set",
    "Csspp.Comp.C42_frame",
    "Csspp.Comp.C42_get_set",
    "Csspp.Comp.C42_parents"
   ],
   "note": ""
  },
  {
   "property": "C43",
   "status": "proved",
   "theorems": [
    "Csspp.Expr.C43_terminates"
   ],
   "note": ""
  },
  {
   "property": "C44",
   "status": "proved",
   "theorems": [
    "Csspp.Lex.C44_tokens"
   ],
   "note": "FUNCTION and VARIABLE names may come from escapes; isNamed lists the types whose name is proved non-empty."
  },
  {
   "property": "C45",
   "status": "proved",
   "theorems": [
    "Csspp.Comp.C45_find",
    "Csspp.Comp.C45_readable",
    "Csspp.Comp.C45_import",
    "Csspp.Comp.C45_validation"
   ],
   "note": ""
  },
  {
   "property": "C46",
   "status": "proved",
   "theorems": [
    "Csspp.Comp.C46_url",
    "Csspp.Comp.C46_string",
    "Csspp.Comp.C46_absolute"
   ],
   "note": ""
  },
  {
   "property": "C47",
   "status": "proved",
   "theorems": [
    "Csspp.Lex.C47_complete",
    "Csspp.Lex.C47_sound",
    "Csspp.Lex.C47_warnings",
    "Csspp.Lex.C47_errors",
    "Csspp.Lex.C47_unambiguous",
    "Csspp.Lex.C47_css_differences"
   ],
   "note": ""
  },
  {
   "property": "C48",
   "status": "proved",
   "theorems": [
    "Csspp.Utf8.C48_decode",
    "Csspp.Utf8.C48_wellformed",
    "Csspp.Utf8.C48_not_rejected"
   ],
   "note": ""
  },
  {
   "property": "C49",
   "status": "proved",
   "theorems": [
    "Csspp.Sel.C49_accepts",
    "Csspp.Sel.C49_throws",
    "Csspp.Sel.C49_refuses",
    "Csspp.Sel.C49_defined",
    "Csspp.Sel.C49_double_not",
    "Csspp.Sel.C49_not_not_refused"
   ],
   "note": ""
  },
  {
   "property": "C50",
   "status": "proved",
   "theorems": [
    "Csspp.Sel.C50_ids_kept",
    "Csspp.Sel.C50_id_twice",
    "Csspp.Sel.C50_rule",
    "Csspp.Sel.C50_commas"
   ],
   "note": ""
  },
  {
   "property": "C51",
   "status": "proved",
   "theorems": [
    "Csspp.Expr.C51_units",
    "Csspp.Expr.C51_refused",
    "Csspp.Expr.C51_plain",
    "Csspp.Expr.C51_types"
   ],
   "note": ""
  },
  {
   "property": "C52",
   "status": "proved",
   "theorems": [
    "Csspp.Expr.C52_truth",
    "Csspp.Expr.C52_logic"
   ],
   "note": ""
  },
  {
   "property": "C53",
   "status": "proved",
   "theorems": [
    "Csspp.Vars.C53_plain"
   ],
   "note": ""
  },
  {
   "property": "C54",
   "status": "proved",
   "theorems": [
    "Csspp.Vars.C54_settled"
   ],
   "note": ""
  },
  {
   "property": "C55",
   "status": "proved",
   "theorems": [
    "Csspp.Parse.C55_variable_set",
    "Csspp.Parse.C55_nested_declaration",
    "Csspp.Parse.C55_sheet",
    "Csspp.Parse.C55_values",
    "Csspp.Parse.C55_text"
   ],
   "note": ""
  },
  {
   "property": "C56",
   "status": "proved",
   "theorems": [
    "Csspp.Parse.C56_reads_back",
    "Csspp.Parse.C56_parse_again",
    "Csspp.Parse.C56_unambiguous",
    "Csspp.Parse.C56_part"
   ],
   "note": ""
  },
  {
   "property": "C57",
   "status": "proved",
   "theorems": [
    "Csspp.Written.C57_compressed",
    "Csspp.Written.C57_modes",
    "Csspp.Written.C57_number"
   ],
   "note": ""
  },
  {
   "property": "C58",
   "status": "proved",
   "theorems": [
    "Csspp.Vars.C58_if",
    "Csspp.Vars.C58_throws"
   ],
   "note": ""
  },
  {
   "property": "C59",
   "status": "proved",
   "theorems": [
    "Csspp.Vars.C59_block",
    "Csspp.Vars.C59_other_block",
    "Csspp.Vars.C59_set",
    "Csspp.Vars.C59_get_local",
    "Csspp.Vars.C59_get_global",
    "Csspp.Vars.C59_use",
    "Csspp.Vars.C59_use_plain",
    "Csspp.Vars.C59_unset",
    "Csspp.Vars.C59_needs_call",
    "Csspp.Vars.C59_overflow"
   ],
   "note": ""
  },
  {
   "property": "C60",
   "status": "proved",
   "theorems": [
    "Csspp.Vars.C60_subst",
    "Csspp.Vars.C60_call",
    "Csspp.Vars.C60_missing",
    "Csspp.Vars.C60_not_function",
    "Csspp.Vars.C60_include",
    "Csspp.Vars.C60_include_name",
    "Csspp.Vars.C60_mixin",
    "Csspp.Vars.C60_mixin_bad",
    "Csspp.Vars.C60_mixin_function",
    "Csspp.Vars.C60_define",
    "Csspp.Vars.C60_closed",
    "Csspp.Vars.C60_hidden"
   ],
   "note": ""
  },
  {
   "property": "C61",
   "status": "proved",
   "theorems": [
    "Csspp.Vars.C61_mixin",
    "Csspp.Vars.C61_import",
    "Csspp.Vars.C61_example"
   ],
   "note": ""
  },
  {
   "property": "C62",
   "status": "proved",
   "theorems": [
    "Csspp.Vars.C62_import_loaded",
    "Csspp.Vars.C62_import_failed",
    "Csspp.Vars.C62_import_alone",
    "Csspp.Vars.C62_message",
    "Csspp.Vars.C62_bare",
    "Csspp.Vars.C62_include_bad",
    "Csspp.Vars.C62_mark",
    "Csspp.Vars.C62_mark_length",
    "Csspp.Vars.C62_empty",
    "Csspp.Vars.C62_empty_root",
    "Csspp.Vars.C62_left",
    "Csspp.Vars.C62_comment",
    "Csspp.Vars.C62_comment_child"
   ],
   "note": ""
  },
  {
   "property": "C63",
   "status": "proved",
   "theorems": [
    "Csspp.Expand.C63_expand",
    "Csspp.Expand.C63_throws",
    "Csspp.Expand.C63_flat",
    "Csspp.Expand.C63_facts",
    "Csspp.Expand.C63_selector",
    "Csspp.Expand.C63_reference",
    "Csspp.Expand.C63_count"
   ],
   "note": ""
  },
  {
   "property": "C64",
   "status": "proved",
   "theorems": [
    "Csspp.Compile.C64_message_in_sheet",
    "Csspp.Compile.C64_message_in_block",
    "Csspp.Compile.C64_every_message"
   ],
   "note": ""
  },
  {
   "property": "C65",
   "status": "proved",
   "theorems": [
    "Csspp.Compile.C65_declaration",
    "Csspp.Compile.C65_block",
    "Csspp.Compile.C65_filter",
    "Csspp.Compile.C65_refused",
    "Csspp.Compile.C65_refused_only",
    "Csspp.Compile.C65_levels",
    "Csspp.Compile.C65_name_only",
    "Csspp.Compile.C65_in_block"
   ],
   "note": ""
  },
  {
   "property": "C66",
   "status": "proved",
   "theorems": [
    "Csspp.Compile.C66_keyframes",
    "Csspp.Compile.C66_bad_frame",
    "Csspp.Compile.C66_bad_form"
   ],
   "note": ""
  },
  {
   "property": "C67",
   "status": "proved",
   "theorems": [
    "Csspp.Compile.C67_ends",
    "Csspp.Compile.C67_list_ends"
   ],
   "note": ""
  },
  {
   "property": "C68",
   "status": "proved",
   "theorems": [
    "Csspp.Compile.C68_finished"
   ],
   "note": ""
  },
  {
   "property": "C69",
   "status": "proved",
   "theorems": [
    "Csspp.Compile.C69_comment_drops",
    "Csspp.Compile.C69_comment_drops_in_sheet",
    "Csspp.Compile.C69_comment_throws",
    "Csspp.Compile.C69_message_skips",
    "Csspp.Compile.C69_return_stops"
   ],
   "note": ""
  },
  {
   "property": "C70",
   "status": "proved",
   "theorems": [
    "Csspp.Compile.C70_independent",
    "Csspp.Compile.C70_in_order"
   ],
   "note": ""
  },
  {
   "property": "C71",
   "status": "proved",
   "theorems": [
    "Csspp.Written.C71_decimal",
    "Csspp.Written.C71_percent",
    "Csspp.Written.C71_source"
   ],
   "note": ""
  },
  {
   "property": "C72",
   "status": "proved",
   "theorems": [
    "Csspp.Func.C72_wrong_count",
    "Csspp.Func.C72_right_count",
    "Csspp.Func.C72_other_names",
    "Csspp.Func.C72_counter",
    "Csspp.Func.C72_function_exists",
    "Csspp.Func.C72_variable_exists"
   ],
   "note": ""
  },
  {
   "property": "C73",
   "status": "proved",
   "theorems": [
    "Csspp.Func.C73_sign",
    "Csspp.Func.C73_floor",
    "Csspp.Func.C73_ceil",
    "Csspp.Func.C73_round",
    "Csspp.Func.C73_integers",
    "Csspp.Func.C73_abs"
   ],
   "note": ""
  },
  {
   "property": "C74",
   "status": "proved",
   "theorems": [
    "Csspp.Func.C74_max",
    "Csspp.Func.C74_min",
    "Csspp.Func.C74_max_first",
    "Csspp.Func.C74_min_first"
   ],
   "note": ""
  },
  {
   "property": "C75",
   "status": "proved",
   "theorems": [
    "Csspp.Func.C75_integer",
    "Csspp.Func.C75_round_trip",
    "Csspp.Func.C75_percentage",
    "Csspp.Func.C75_text",
    "Csspp.Func.C75_words",
    "Csspp.Func.C75_words_number",
    "Csspp.Func.C75_refused"
   ],
   "note": ""
  },
  {
   "property": "C76",
   "status": "proved",
   "theorems": [
    "Csspp.Func.C76_rgb",
    "Csspp.Func.C76_rgba",
    "Csspp.Func.C76_alpha_only",
    "Csspp.Func.C76_component",
    "Csspp.Func.C76_defects"
   ],
   "note": ""
  },
  {
   "property": "C77",
   "status": "proved",
   "theorems": [
    "Csspp.Func.C77_units",
    "Csspp.Func.C77_plain"
   ],
   "note": ""
  },
  {
   "property": "C78",
   "status": "proved",
   "theorems": [
    "Csspp.Func.C78_length",
    "Csspp.Func.C78_append"
   ],
   "note": ""
  },
  {
   "property": "C79",
   "status": "proved",
   "theorems": [
    "Csspp.Func.C79_value",
    "Csspp.Func.C79_distinct",
    "Csspp.Func.C79_defect"
   ],
   "note": ""
  },
  {
   "property": "C80",
   "status": "proved",
   "theorems": [
    "Csspp.Func.C80_gray_back",
    "Csspp.Func.C80_gray_nan",
    "Csspp.Func.C80_gray",
    "Csspp.Func.C80_negative",
    "Csspp.Func.C80_wheel"
   ],
   "note": ""
  },
  {
   "property": "C81",
   "status": "proved",
   "theorems": [
    "Csspp.Func.C81_random"
   ],
   "note": ""
  },
  {
   "property": "C82",
   "status": "proved",
   "theorems": [
    "Csspp.Expr.C82_list",
    "Csspp.Expr.C82_values",
    "Csspp.Expr.C82_flag",
    "Csspp.Expr.C82_glued"
   ],
   "note": ""
  },
  {
   "property": "C83",
   "status": "proved",
   "theorems": [
    "Csspp.Spec.Plain.C83_text",
    "Csspp.Spec.Plain.C83_values",
    "Csspp.Spec.Plain.C83_minified",
    "Csspp.Spec.Plain.C83_layout",
    "Csspp.Spec.Plain.C83_again",
    "Csspp.Spec.Plain.C83_modes",
    "Csspp.Spec.Plain.C83_empty"
   ],
   "note": ""
  },
  {
   "property": "C84",
   "status": "proved",
   "theorems": [
    "Csspp.Func.C84_if",
    "Csspp.Func.C84_if_neither",
    "Csspp.Func.C84_if_refused",
    "Csspp.Func.C84_not",
    "Csspp.Func.C84_if_not",
    "Csspp.Func.C84_type_of",
    "Csspp.Func.C84_converted",
    "Csspp.Func.C84_unit"
   ],
   "note": ""
  },
  {
   "property": "C85",
   "status": "proved",
   "theorems": [
    "Csspp.Func.C85_angles",
    "Csspp.Func.C85_pi",
    "Csspp.Func.C85_radians",
    "Csspp.Func.C85_inverse",
    "Csspp.Func.C85_log"
   ],
   "note": ""
  },
  {
   "property": "C86",
   "status": "proved",
   "theorems": [
    "Csspp.Comp.C86_date",
    "Csspp.Comp.C86_all",
    "Csspp.Comp.C86_late",
    "Csspp.Comp.C86_no_root"
   ],
   "note": ""
  },
  {
   "property": "C87",
   "status": "proved",
   "theorems": [
    "Csspp.Valid.C87_script",
    "Csspp.Valid.C87_run",
    "Csspp.Valid.C87_variables"
   ],
   "note": ""
  },
  {
   "property": "C88",
   "status": "proved",
   "theorems": [
    "Csspp.Text.C88_throws",
    "Csspp.Text.C88_variable",
    "Csspp.Text.C88_placeholder",
    "Csspp.Text.C88_call",
    "Csspp.Text.C88_comment",
    "Csspp.Text.C88_lines",
    "Csspp.Text.C88_plain_string",
    "Csspp.Text.C88_scripts",
    "Csspp.Text.C88_string",
    "Csspp.Text.C88_backslash",
    "Csspp.Text.C88_quotes",
    "Csspp.Text.C88_spaces",
    "Csspp.Text.C88_operator",
    "Csspp.Text.C88_reads",
    "Csspp.Text.C88_reads_all",
    "Csspp.Text.C88_plus"
   ],
   "note": ""
  },
  {
   "property": "C89",
   "status": "proved",
   "theorems": [
    "Csspp.NthText.C89_text",
    "Csspp.NthText.C89_selector"
   ],
   "note": ""
  },
  {
   "property": "C90",
   "status": "proved",
   "theorems": [
    "Csspp.UserFn.C90_undefined",
    "Csspp.UserFn.C90_not_function",
    "Csspp.UserFn.C90_missing",
    "Csspp.UserFn.C90_value",
    "Csspp.UserFn.C90_locals",
    "Csspp.UserFn.C90_no_return"
   ],
   "note": ""
  },
  {
   "property": "C91",
   "status": "proved",
   "theorems": [
    "Csspp.Tool.C91_files",
    "Csspp.Tool.C91_stdin",
    "Csspp.Tool.C91_refused",
    "Csspp.Tool.C91_status",
    "Csspp.Tool.C91_written",
    "Csspp.Tool.C91_success",
    "Csspp.Tool.C91_unknown_style",
    "Csspp.Tool.C91_quiet",
    "Csspp.Tool.C91_werror",
    "Csspp.Tool.C91_precision_wraps",
    "Csspp.Tool.C91_precision",
    "Csspp.Tool.C91_tree",
    "Csspp.Tool.C91_variables",
    "Csspp.Vars.C91_scope"
   ],
   "note": ""
  },
  {
   "property": "C92",
   "status": "proved",
   "theorems": [
    "Csspp.Vars.C92_if",
    "Csspp.Vars.C92_else",
    "Csspp.Vars.C92_assign",
    "Csspp.Vars.C92_global",
    "Csspp.Vars.C92_import",
    "Csspp.Vars.C92_forever"
   ],
   "note": ""
  },
  {
   "property": "C93",
   "status": "proved",
   "theorems": [
    "Csspp.Tool.C93_files",
    "Csspp.Tool.C93_stdin"
   ],
   "note": ""
  },
  {
   "property": "C94",
   "status": "proved",
   "theorems": [
    "Csspp.Tool.C94_init",
    "Csspp.Tool.C94_scripts",
    "Csspp.Tool.C94_stdin",
    "Csspp.Tool.C94_files"
   ],
   "note": ""
  },
  {
   "property": "C95",
   "status": "proved",
   "theorems": [
    "Csspp.Written.C95_position"
   ],
   "note": ""
  },
  {
   "property": "C96",
   "status": "proved",
   "theorems": [
    "Csspp.Spec.Plain.C96_folding",
    "Csspp.Spec.Plain.C96_no_sum"
   ],
   "note": ""
  },
  {
   "property": "C97",
   "status": "proved",
   "theorems": [
    "Csspp.Spec.Plain.C97_text",
    "Csspp.Spec.Plain.C97_modes",
    "Csspp.Spec.Plain.C97_replaced",
    "Csspp.Spec.Plain.C97_agree",
    "Csspp.Spec.Plain.C97_again"
   ],
   "note": ""
  }
 ]
}