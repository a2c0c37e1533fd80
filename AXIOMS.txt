Axioms of the theorems in MANIFEST.json, as printed by #print axioms.

HunLaw.Props.C01_letter_roundtrip: propext, Quot.sound
HunLaw.Props.C01_letter_text: propext, Quot.sound
HunLaw.Props.C01_letter_onto: propext, Quot.sound
HunLaw.Props.C01_letter_injective: propext, Quot.sound
HunLaw.Props.C01_letter_parse_iff: propext, Quot.sound
HunLaw.Props.C02_letter_order_total: propext, Quot.sound
HunLaw.Props.C02_letter_order_alphabet: propext, Quot.sound
HunLaw.Props.C03_letter_succession: propext, Quot.sound
HunLaw.Props.C03_letter_next_exists: propext, Quot.sound
HunLaw.Props.C03_letter_has_follower: propext, Quot.sound
HunLaw.Props.C03_letter_next_iff: propext, Quot.sound
HunLaw.Props.C04_numeric_roundtrip: propext, Quot.sound
HunLaw.Props.C04_numeric_forms: propext, Classical.choice, Quot.sound
HunLaw.Props.C05_numeric_parse_iff: propext, Classical.choice, Quot.sound
HunLaw.Props.C06_violated: propext
HunLaw.Props.C06_numeric_succession_partial: propext, Classical.choice, Quot.sound
HunLaw.Props.C06_numeric_followers: propext, Classical.choice, Quot.sound
HunLaw.Props.C07_article_roundtrip: propext, Quot.sound
HunLaw.Props.C07_article_forms: propext, Quot.sound
HunLaw.Props.C08_violated: propext
HunLaw.Props.C08_article_succession_partial: propext, Classical.choice, Quot.sound
HunLaw.Props.C09_paragraph_roundtrip: propext, Quot.sound
HunLaw.Props.C09_prefixed_roundtrip: propext, Quot.sound
HunLaw.Props.C09_prefixed_parse_plain: propext, Quot.sound
HunLaw.Props.C10_act_compact_roundtrip: propext, Quot.sound
HunLaw.Props.C10_violated_panic: none
HunLaw.Props.C10_violated_year: propext
HunLaw.Props.C10_act_long_roundtrip_partial: propext, Classical.choice, Quot.sound
HunLaw.Props.C11_range_roundtrip: propext, Quot.sound
HunLaw.Props.C11_range_contains: propext
HunLaw.Props.C11_range_single: propext
HunLaw.Props.C11_orders_lawful: propext, Quot.sound
HunLaw.Props.C12_roman_roundtrip: propext, Quot.sound
HunLaw.Props.C12_roman_range: propext, Classical.choice, Quot.sound
HunLaw.Props.C12_roman_numerals: propext, Quot.sound
HunLaw.Props.C12_roman_iff: propext, Quot.sound
HunLaw.Props.C13_ordinal_roundtrip: propext, Quot.sound
HunLaw.Props.C13_ordinal_table: none
HunLaw.Props.C13_ordinal_range: propext, Classical.choice, Quot.sound
HunLaw.Props.C13_ordinal_names: propext
HunLaw.Props.C13_ordinal_iff: propext, Classical.choice, Quot.sound
HunLaw.Props.C14_obtainable_wellformed: propext, Quot.sound
HunLaw.Props.C14_check_exact: propext, Quot.sound
HunLaw.Props.C14_wellformed_obtainable: propext, Quot.sound
HunLaw.Props.C15_builder_latest: propext, Quot.sound
HunLaw.Props.C15_build_parts: propext, Quot.sound
HunLaw.Props.C16_reference_compact_roundtrip: propext, Classical.choice, Quot.sound
HunLaw.Props.C16_parsed_plain: propext, Quot.sound
HunLaw.Props.C17_range_ends: propext, Quot.sound
HunLaw.Props.C17_range_shape: propext, Quot.sound
HunLaw.Props.C17_range_self: propext, Quot.sound
HunLaw.Props.C17_range_acts: propext
HunLaw.Props.C17_range_succeeds: propext, Quot.sound
HunLaw.Props.C17_range_of_ends: propext, Classical.choice, Quot.sound
HunLaw.Props.C18_contains_refl: propext, Quot.sound
HunLaw.Props.C18_contains_between: propext, Quot.sound
HunLaw.Props.C18_violated: propext
HunLaw.Props.C18_range_contains_partial: propext, Quot.sound
HunLaw.Props.C18_article_range_contains: propext, Quot.sound
HunLaw.Props.C18_paragraph_range_contains: propext, Quot.sound
HunLaw.Props.C18_numeric_point_range_contains: propext, Quot.sound
HunLaw.Props.C18_alphabetic_point_range_contains: propext, Quot.sound
HunLaw.Props.C18_numeric_subpoint_range_contains: propext, Quot.sound
HunLaw.Props.C18_alphabetic_subpoint_range_contains: propext, Quot.sound
HunLaw.Props.C18_contains_single: propext, Quot.sound
HunLaw.Props.C19_parent_parts: propext
HunLaw.Props.C19_parent_empty: none
HunLaw.Props.C19_parent_five: none
HunLaw.Props.C19_violated: propext, Quot.sound
HunLaw.Props.C19_parent_contains_partial: propext
HunLaw.Props.C20_violated: propext, Quot.sound
HunLaw.Props.C20_prefix_is_parent: propext, Quot.sound
HunLaw.Props.C20_parent_iff_prefix_partial: propext, Quot.sound
HunLaw.Props.C20_parent_irrefl: propext
HunLaw.Props.C21_relative_parts: propext, Quot.sound
HunLaw.Props.C21_relative_absolute: propext, Quot.sound
HunLaw.Props.C21_relative_empty: propext, Quot.sound
HunLaw.Props.C21_relative_idempotent: propext, Quot.sound
HunLaw.Props.C21_relative_succeeds: propext, Quot.sound
HunLaw.Props.C22_no_range: propext
HunLaw.Props.C22_parts: none
HunLaw.Props.C22_only_ranges: propext
HunLaw.Props.C22_no_range_fixed: propext
HunLaw.Props.C22_idempotent: propext
HunLaw.Props.C23_slice_glyphs: propext, Classical.choice, Quot.sound
HunLaw.Props.C23_slice_content: propext, Classical.choice, Quot.sound
HunLaw.Props.C23_slice_justified: propext, Classical.choice, Quot.sound
HunLaw.Props.C23_indent_at: propext, Classical.choice, Quot.sound
HunLaw.Props.C23_slice_bold: propext, Classical.choice, Quot.sound
HunLaw.Props.C24_glue_glyphs: propext, Classical.choice, Quot.sound
HunLaw.Props.C24_cut_and_glue: propext, Classical.choice, Quot.sound
HunLaw.Props.C24_cut_and_glue_justified: propext, Classical.choice, Quot.sound
HunLaw.Props.C24_glue_justified: propext, Classical.choice, Quot.sound
HunLaw.Props.C25_violated: propext, Classical.choice, Quot.sound
HunLaw.Props.C25_slice_bytes_partial: propext, Classical.choice, Quot.sound
HunLaw.Props.C25_panic_iff: propext, Classical.choice, Quot.sound
HunLaw.Props.C26_join: propext, Classical.choice, Quot.sound
HunLaw.Props.C26_join_keeps_text: propext, Classical.choice, Quot.sound
HunLaw.Props.C26_empty_lines: propext
HunLaw.Props.C27_paragraph_header_iff: propext, Classical.choice, Quot.sound
HunLaw.Props.C27_numeric_header_iff: propext, Classical.choice, Quot.sound
HunLaw.Props.C27_alphabetic_header_iff: propext, Classical.choice, Quot.sound
HunLaw.Props.C27_prefixed_header_iff: propext, Classical.choice, Quot.sound
HunLaw.Props.C27_article_header_iff: propext, Classical.choice, Quot.sound
HunLaw.Props.C27_panic_iff: propext, Classical.choice, Quot.sound
HunLaw.Props.C27_rest: propext, Classical.choice, Quot.sound
HunLaw.Props.C27_never_err: propext, Classical.choice, Quot.sound
HunLaw.Props.C28_accepted_iff: propext, Classical.choice, Quot.sound
HunLaw.Props.C28_end_iff: propext, Classical.choice, Quot.sound
HunLaw.Props.C28_quoted_iff: propext, Classical.choice, Quot.sound
HunLaw.Props.C28_no_panic: propext, Classical.choice, Quot.sound
HunLaw.Props.C29_applied: propext, Classical.choice, Quot.sound
HunLaw.Props.C29_applied_iff: propext, Classical.choice, Quot.sound
HunLaw.Props.C29_no_panic: propext, Classical.choice, Quot.sound
HunLaw.Props.C30_prefix: propext, Classical.choice, Quot.sound
HunLaw.Props.C30_suffix: propext, Classical.choice, Quot.sound
HunLaw.Props.C31_in_order: propext, Classical.choice, Quot.sound
HunLaw.Props.C31_success_iff: propext, Classical.choice, Quot.sound
HunLaw.Props.C31_no_panic: propext, Classical.choice, Quot.sound
HunLaw.Props.C32_violated: propext, Classical.choice, Quot.sound
HunLaw.Props.C32_reproduced_partial: propext, Classical.choice, Quot.sound
HunLaw.Props.C32_terminates: propext, Classical.choice, Quot.sound
HunLaw.Props.C32_succeeds: propext, Classical.choice, Quot.sound
HunLaw.Props.C32_same_count: propext
HunLaw.Props.C33_violated: propext, Classical.choice, Quot.sound
HunLaw.Props.C33_quotes_partial: propext, Classical.choice, Quot.sound
HunLaw.Props.C34_articles_consecutive: propext, Classical.choice, Quot.sound
HunLaw.Props.C35_elements_numbered: propext, Classical.choice, Quot.sound
HunLaw.Props.C35_amendment_lists: propext, Classical.choice, Quot.sound
HunLaw.Props.C36_act_text: propext, Classical.choice, Quot.sound
HunLaw.Props.C36_list_text: propext, Classical.choice, Quot.sound
HunLaw.Props.C36_element_text: propext, Classical.choice, Quot.sound
HunLaw.Props.C37_quoted_blocks: propext, Classical.choice, Quot.sound
HunLaw.Props.C37_nested_violated: propext, Classical.choice, Quot.sound
HunLaw.Props.C37_balanced_partial: propext, Classical.choice, Quot.sound
HunLaw.Props.C38_violated: propext, Classical.choice, Quot.sound
HunLaw.Props.C38_violated_empty_line: propext, Classical.choice, Quot.sound
HunLaw.Props.C38_violated_trailing_space: propext, Classical.choice, Quot.sound
HunLaw.Props.C38_no_panic_partial: propext, Classical.choice, Quot.sound
HunLaw.Props.C38_no_panic_amendment_partial: propext, Classical.choice, Quot.sound
HunLaw.Props.C39_printed_header: propext, Classical.choice, Quot.sound
HunLaw.Props.C39_header_unambiguous: propext, Classical.choice, Quot.sound
HunLaw.Props.C40_exact: propext
HunLaw.Props.C40_no_double: propext, Classical.choice, Quot.sound
HunLaw.Props.C40_keeps: propext
HunLaw.Props.C40_idempotent: propext, Quot.sound
HunLaw.Props.C41_regions: propext, Classical.choice, Quot.sound
HunLaw.Props.C41_subsequence: propext, Classical.choice, Quot.sound
HunLaw.Props.C41_gazette_lines: propext, Classical.choice, Quot.sound
HunLaw.Props.C41_rejected_iff: propext, Classical.choice, Quot.sound
HunLaw.Props.C42_walk: propext
HunLaw.Props.C42_unchanged: propext
HunLaw.Props.C42_nested: propext
HunLaw.Props.C42_stops: propext
HunLaw.Props.C42_info_only: propext
HunLaw.Props.C43_located: propext, Quot.sound
HunLaw.Props.C43_valid: propext, Quot.sound
HunLaw.Props.C44_latest: propext, Classical.choice, Quot.sound
HunLaw.Props.C44_unknown: propext, Classical.choice, Quot.sound
HunLaw.Props.C44_changed: propext, Classical.choice, Quot.sound
HunLaw.Props.C44_listed: propext, Classical.choice, Quot.sound
HunLaw.Props.C44_increasing: propext, Classical.choice, Quot.sound
HunLaw.Props.C45_first: propext, Quot.sound
HunLaw.Props.C45_none: propext, Quot.sound
HunLaw.Props.C45_known_grows: propext, Quot.sound
HunLaw.Props.C45_recognised: propext, Classical.choice, Quot.sound
HunLaw.Props.C46_violated: propext, Quot.sound
HunLaw.Props.C46_ranges_partial: propext, Classical.choice, Quot.sound
HunLaw.Props.C46_cut: propext, Quot.sound
HunLaw.Props.C46_abbreviations_partial: propext, Classical.choice, Quot.sound
HunLaw.Props.C47_context: propext, Classical.choice, Quot.sound
HunLaw.Props.C47_error: propext, Classical.choice, Quot.sound
HunLaw.Props.C47_no_panic: propext, Classical.choice, Quot.sound
HunLaw.Props.C47_stack: propext, Classical.choice, Quot.sound
HunLaw.Props.C48_ordered: propext, Classical.choice, Quot.sound
HunLaw.Props.C48_meaning: propext, Classical.choice, Quot.sound
HunLaw.Props.C48_meaning_simple: propext, Classical.choice, Quot.sound
HunLaw.Props.C48_count: propext, Quot.sound
HunLaw.Props.C48_wellformed: propext, Quot.sound
HunLaw.Props.C49_covers: propext, Quot.sound
HunLaw.Props.C49_error: propext, Classical.choice, Quot.sound
HunLaw.Props.C49_act: propext, Classical.choice, Quot.sound
HunLaw.Props.C50_product: propext, Classical.choice, Quot.sound
HunLaw.Props.C50_repeal: propext, Classical.choice, Quot.sound
HunLaw.Props.C51_act: propext, Classical.choice, Quot.sound
HunLaw.Props.C51_article: propext, Classical.choice, Quot.sound
HunLaw.Props.C51_paragraph: propext, Classical.choice, Quot.sound
HunLaw.Props.C52_splits: propext, Classical.choice, Quot.sound
HunLaw.Props.C52_pieces: propext, Classical.choice, Quot.sound
HunLaw.Props.C53_rows: propext, Classical.choice, Quot.sound
HunLaw.Props.C53_spaces: propext, Classical.choice, Quot.sound
HunLaw.Props.C54_violated: propext, Quot.sound
HunLaw.Props.C54_less_partial: propext, Classical.choice, Quot.sound
HunLaw.Props.C55_answer: propext, Quot.sound
HunLaw.Props.C55_once: propext, Quot.sound
HunLaw.Props.C55_others: propext, Quot.sound
HunLaw.Props.C55_violated: propext, Quot.sound
HunLaw.Props.C55_undisturbed_partial: propext, Quot.sound
HunLaw.Props.C55_beginning_partial: propext, Quot.sound
HunLaw.Props.C56_descriptor: propext, Classical.choice, Quot.sound
HunLaw.Props.C56_cache_file: propext, Quot.sound
HunLaw.Props.C56_names: propext, Classical.choice, Quot.sound
HunLaw.Props.C56_address: propext, Classical.choice, Quot.sound
HunLaw.Props.C57_first: propext, Quot.sound
HunLaw.Props.C57_prefixed_next_iff: propext, Quot.sound
HunLaw.Props.C57_paragraph_next_iff: propext, Quot.sound
HunLaw.Props.C57_article_next_iff: propext, Quot.sound
HunLaw.Props.C58_unedited: propext, Classical.choice, Quot.sound
HunLaw.Props.C59_in_order: propext, Classical.choice, Quot.sound
HunLaw.Props.C60_violated: propext, Classical.choice, Quot.sound
HunLaw.Props.C60_round_partial: propext, Classical.choice, Quot.sound
HunLaw.Props.C61_complete_partial: propext, Classical.choice, Quot.sound
HunLaw.Props.C61_violated: propext, Classical.choice, Quot.sound
HunLaw.Props.C62_sound: propext, Classical.choice, Quot.sound
HunLaw.Props.C62_reads: propext, Classical.choice, Quot.sound
HunLaw.Props.C63_positions: propext, Classical.choice, Quot.sound
HunLaw.Props.C64_division: propext, Classical.choice, Quot.sound
HunLaw.Props.C64_amendment_division: propext, Classical.choice, Quot.sound
HunLaw.Props.C64_subtitle_length: propext, Classical.choice, Quot.sound
HunLaw.Props.C65_only_info: propext, Quot.sound
HunLaw.Props.C66_final: propext, Classical.choice, Quot.sound
HunLaw.Props.C67_repeal: propext, Classical.choice, Quot.sound
HunLaw.Props.C68_places: propext, Classical.choice, Quot.sound
HunLaw.Props.C68_real: propext, Classical.choice, Quot.sound
HunLaw.Props.C69_text: propext, Classical.choice, Quot.sound
HunLaw.Props.C70_numbered_partial: propext, Classical.choice, Quot.sound
HunLaw.Props.C70_violated: propext, Classical.choice, Quot.sound
HunLaw.Props.C71_violated: propext, Classical.choice, Quot.sound
HunLaw.Props.C71_no_panic_partial: propext, Classical.choice, Quot.sound
HunLaw.Props.C71_blocks: propext, Classical.choice, Quot.sound
HunLaw.Props.C72_order: propext, Classical.choice, Quot.sound
HunLaw.Props.C73_visible: propext, Classical.choice, Quot.sound
HunLaw.Props.C73_pages: propext, Classical.choice, Quot.sound
HunLaw.Props.C73_gazette: propext, Classical.choice, Quot.sound
HunLaw.Props.C73_default: propext, Classical.choice, Quot.sound
HunLaw.Props.C74_violated: propext, Classical.choice, Quot.sound
HunLaw.Props.C74_bold_partial: propext, Classical.choice, Quot.sound
HunLaw.Props.C74_forms_partial: propext, Classical.choice, Quot.sound
HunLaw.Props.C75_violated: propext, Classical.choice, Quot.sound
HunLaw.Props.C75_pages_partial: propext, Classical.choice, Quot.sound
HunLaw.Props.C76_violated: propext, Quot.sound
HunLaw.Props.C76_unicode_partial: propext, Classical.choice, Quot.sound
HunLaw.Props.C77_violated: propext, Quot.sound
HunLaw.Props.C77_encoding_partial: propext, Classical.choice, Quot.sound
HunLaw.Props.C78_violated: propext, Classical.choice, Quot.sound
HunLaw.Props.C78_forms_partial: propext, Classical.choice, Quot.sound
HunLaw.Props.C79_violated: propext, Classical.choice, Quot.sound
HunLaw.Props.C79_no_crash_partial: propext, Classical.choice, Quot.sound
HunLaw.Props.C80_violated: propext, Classical.choice, Quot.sound
HunLaw.Props.C80_replaced_partial: propext, Classical.choice, Quot.sound
HunLaw.Props.C80_empty_partial: propext, Classical.choice, Quot.sound
HunLaw.Props.C80_width_partial: propext, Classical.choice, Quot.sound
HunLaw.Props.C80_unmarked: propext, Classical.choice, Quot.sound
HunLaw.Props.C80_marks: propext, Classical.choice, Quot.sound
HunLaw.Props.C80_marks_exist: propext, Classical.choice, Quot.sound
HunLaw.Props.C80_marked_partial: propext, Classical.choice, Quot.sound
HunLaw.Props.C80_forms_partial: propext, Classical.choice, Quot.sound
HunLaw.Props.C81_positions: propext, Classical.choice, Quot.sound
HunLaw.Props.C81_fails: propext, Classical.choice, Quot.sound
HunLaw.Props.C81_newline: propext, Classical.choice, Quot.sound
HunLaw.Props.C81_moves: propext, Classical.choice, Quot.sound
HunLaw.Props.C81_scaling: propext, Classical.choice, Quot.sound
HunLaw.Props.C81_codes: propext
HunLaw.Props.C81_matrices: propext, Classical.choice, Quot.sound
HunLaw.Props.C81_rendering: propext, Classical.choice, Quot.sound
HunLaw.Props.C82_shows: propext, Classical.choice, Quot.sound
HunLaw.Props.C83_colours: propext, Classical.choice, Quot.sound
HunLaw.Props.C84_violated: propext, Classical.choice, Quot.sound
HunLaw.Props.C84_structure: propext, Classical.choice, Quot.sound
HunLaw.Props.C84_prints_partial: propext, Classical.choice, Quot.sound
HunLaw.Props.C85_lines: propext, Classical.choice, Quot.sound
HunLaw.Props.C85_alphabetic_subpoint: propext, Classical.choice, Quot.sound
HunLaw.Props.C85_numeric_subpoint: propext, Classical.choice, Quot.sound
HunLaw.Props.C85_alphabetic_point: propext, Classical.choice, Quot.sound
HunLaw.Props.C85_numeric_point: propext, Classical.choice, Quot.sound
HunLaw.Props.C85_paragraph: propext, Classical.choice, Quot.sound
HunLaw.Props.C85_article: propext, Classical.choice, Quot.sound
HunLaw.Props.C86_violated: propext, Classical.choice, Quot.sound
HunLaw.Props.C86_width_partial: propext, Classical.choice, Quot.sound
HunLaw.Props.C87_content: propext, Classical.choice, Quot.sound
HunLaw.Props.C87_indent: propext, Classical.choice, Quot.sound
HunLaw.Props.C87_violated: propext, Classical.choice, Quot.sound
HunLaw.Props.C87_indent_partial: propext, Classical.choice, Quot.sound
HunLaw.Props.C87_page: propext, Classical.choice, Quot.sound
HunLaw.Props.C87_act: propext, Classical.choice, Quot.sound
HunLaw.Props.C88_page: propext, Classical.choice, Quot.sound
HunLaw.Props.C88_pages: propext, Classical.choice, Quot.sound
HunLaw.Props.C88_act_total: propext, Classical.choice, Quot.sound
HunLaw.Props.C88_act: propext, Classical.choice, Quot.sound
HunLaw.Props.C89_issues: propext, Quot.sound
HunLaw.Props.C89_acts: propext, Classical.choice, Quot.sound
HunLaw.Props.C89_refused: propext, Quot.sound
HunLaw.Props.C90_violated: propext, Classical.choice, Quot.sound
HunLaw.Props.C90_success_partial: propext, Classical.choice, Quot.sound
HunLaw.Props.C90_failure_partial: propext, Classical.choice, Quot.sound
HunLaw.Props.C91_violated: propext, Classical.choice, Quot.sound
HunLaw.Props.C91_log_partial: propext, Classical.choice, Quot.sound
HunLaw.Props.C91_named: propext, Classical.choice, Quot.sound
HunLaw.Props.C92_violated: propext, Classical.choice, Quot.sound
HunLaw.Props.C92_violated_large: propext, Classical.choice, Quot.sound
HunLaw.Props.C92_main_partial: propext, Classical.choice, Quot.sound
HunLaw.Props.C92_act_partial: propext, Classical.choice, Quot.sound
HunLaw.Props.C93_violated: propext, Classical.choice, Quot.sound
HunLaw.Props.C93_session_partial: propext, Classical.choice, Quot.sound
HunLaw.Props.C94_names: propext, Classical.choice, Quot.sound
HunLaw.Props.C94_issue_names: propext, Quot.sound
HunLaw.Props.C94_place: propext, Quot.sound
HunLaw.Props.C94_violated: propext, Classical.choice, Quot.sound
HunLaw.Props.C94_files_partial: propext, Classical.choice, Quot.sound
HunLaw.Props.C95_file: propext, Classical.choice, Quot.sound
HunLaw.Props.C95_terminal: propext, Classical.choice, Quot.sound
HunLaw.Props.C95_steps: propext, Classical.choice, Quot.sound
HunLaw.Props.C95_test_format: propext, Classical.choice, Quot.sound
HunLaw.Props.C95_coloured: propext, Classical.choice, Quot.sound
HunLaw.Props.C95_data: propext, Classical.choice, Quot.sound
HunLaw.Props.C96_act: propext, Classical.choice, Quot.sound
HunLaw.Props.C96_distinct: propext, Classical.choice, Quot.sound
HunLaw.Props.C96_pipeline: propext, Classical.choice, Quot.sound
HunLaw.Props.C96_gazette: propext, Classical.choice, Quot.sound
HunLaw.Props.C96_read_back: propext, Classical.choice, Quot.sound
HunLaw.Props.C97_proper: propext, Classical.choice, Quot.sound
HunLaw.Props.C97_stable: propext, Classical.choice, Quot.sound
HunLaw.Props.C97_reference: propext, Quot.sound
HunLaw.Props.C97_checked: propext, Classical.choice, Quot.sound
HunLaw.Props.C97_date: propext, Classical.choice, Quot.sound
HunLaw.Props.C98_fixups: propext, Quot.sound
HunLaw.Props.C99_violated: propext, Quot.sound
HunLaw.Props.C99_lines_partial: propext, Quot.sound
HunLaw.Props.C100_spacing: propext, Classical.choice, Quot.sound
HunLaw.Props.C101_block: propext, Classical.choice, Quot.sound
HunLaw.Props.C101_act: propext, Classical.choice, Quot.sound
HunLaw.Props.C102_recognised_partial: propext, Classical.choice, Quot.sound
HunLaw.Props.C102_violated: propext, Quot.sound
HunLaw.Props.C103_announced: propext, Quot.sound
HunLaw.Props.C104_enforcement_partial: propext, Classical.choice, Quot.sound
HunLaw.Props.C104_violated: propext, Quot.sound
HunLaw.Props.C104_violated_exceptions: propext, Quot.sound
HunLaw.Props.C104_violated_bare: propext, Quot.sound
HunLaw.Props.C104_violated_many: propext, Quot.sound
HunLaw.Props.C105_structural_partial: propext, Classical.choice, Quot.sound
HunLaw.Props.C105_violated: propext, Quot.sound
HunLaw.Props.C105_recorded: propext, Classical.choice, Quot.sound
HunLaw.Props.C105_title: propext, Classical.choice, Quot.sound
HunLaw.Props.C105_beside: propext, Classical.choice, Quot.sound
HunLaw.Props.C106_provisions_partial: propext, Classical.choice, Quot.sound
HunLaw.Props.C106_violated: propext, Quot.sound
HunLaw.Props.C106_recorded: propext, Classical.choice, Quot.sound
HunLaw.Props.C107_textAmendment_partial: propext, Classical.choice, Quot.sound
HunLaw.Props.C107_violated: propext, Quot.sound
HunLaw.Props.C107_range: propext, Quot.sound
HunLaw.Props.C107_recorded: propext, Classical.choice, Quot.sound
HunLaw.Props.C108_repeal_partial: propext, Classical.choice, Quot.sound
HunLaw.Props.C108_violated: propext, Quot.sound
HunLaw.Props.C108_recorded: propext, Classical.choice, Quot.sound
HunLaw.Props.C109_subtitles_partial: propext, Classical.choice, Quot.sound
HunLaw.Props.C109_violated: propext, Quot.sound
HunLaw.Props.C109_book: propext, Quot.sound
HunLaw.Props.C109_range: propext, Quot.sound
HunLaw.Props.C109_recorded: propext, Classical.choice, Quot.sound
HunLaw.Props.C110_untouched: propext, Quot.sound
HunLaw.Props.C110_violated: propext, Quot.sound
HunLaw.Props.C110_missing_partial: propext, Classical.choice, Quot.sound
HunLaw.Props.C110_article: propext, Classical.choice, Quot.sound
HunLaw.Props.C110_settled: propext, Classical.choice, Quot.sound
HunLaw.Props.C111_settles_partial: propext, Classical.choice, Quot.sound
HunLaw.Props.C111_finite: propext, Quot.sound
HunLaw.Props.C111_violated: propext, Quot.sound
HunLaw.Props.C112_passages_partial: propext, Classical.choice, Quot.sound
HunLaw.Props.C112_violated: propext, Quot.sound
HunLaw.Props.C113_gaps_partial: propext, Classical.choice, Quot.sound
HunLaw.Props.C113_violated: propext, Classical.choice, Quot.sound
HunLaw.Props.C113_forms_partial: propext, Classical.choice, Quot.sound
HunLaw.Props.C114_shown: propext, Classical.choice, Quot.sound
HunLaw.Props.C114_opens_at_error: propext, Classical.choice, Quot.sound
HunLaw.Props.C114_opens_at_unclosed: propext, Classical.choice, Quot.sound
HunLaw.Props.C115_article_sound: propext, Classical.choice, Quot.sound
HunLaw.Props.C115_article_exact: propext, Classical.choice, Quot.sound
HunLaw.Props.C115_act_sound: propext, Classical.choice, Quot.sound
HunLaw.Props.C115_act_exact: propext, Classical.choice, Quot.sound
HunLaw.Props.C115_amendment_exact: propext, Classical.choice, Quot.sound
HunLaw.Props.C115_act_unique: propext, Classical.choice, Quot.sound
HunLaw.Props.C115_lists_exact: propext, Classical.choice, Quot.sound
HunLaw.Props.C115_quoted_exact: propext, Classical.choice, Quot.sound
HunLaw.Props.C116_printed_partial: propext, Classical.choice, Quot.sound
HunLaw.Props.C116_alone_partial: propext, Classical.choice, Quot.sound
HunLaw.Props.C116_violated: propext, Quot.sound
HunLaw.Props.C117_equal: propext, Quot.sound
HunLaw.Props.C117_equivalence: propext, Quot.sound
HunLaw.Props.C117_printed: propext, Classical.choice, Quot.sound
HunLaw.Props.C117_read_partial: propext, Quot.sound
HunLaw.Props.C117_violated: propext, Classical.choice, Quot.sound
HunLaw.Props.C118_points: propext, Quot.sound
HunLaw.Props.C118_paragraphs_partial: propext, Quot.sound
HunLaw.Props.C118_violated: propext, Quot.sound
HunLaw.Props.C119_enforcement_partial: propext, Classical.choice, Quot.sound
HunLaw.Props.C119_textAmendment_partial: propext, Classical.choice, Quot.sound
HunLaw.Props.C119_repeal_partial: propext, Classical.choice, Quot.sound
HunLaw.Props.C119_violated: propext, Classical.choice, Quot.sound
HunLaw.Props.C120_characters: propext, Quot.sound
HunLaw.Props.C120_styles: propext, Classical.choice, Quot.sound
HunLaw.Props.C121_answer: propext, Classical.choice, Quot.sound
HunLaw.Props.C121_asked: propext, Classical.choice, Quot.sound
HunLaw.Props.C121_forever: propext, Classical.choice, Quot.sound
HunLaw.Props.C122_violated: propext, Classical.choice, Quot.sound
HunLaw.Props.C122_exact_partial: propext, Classical.choice, Quot.sound
HunLaw.Props.C122_unique_partial: propext, Classical.choice, Quot.sound
HunLaw.Props.C122_success_partial: propext, Classical.choice, Quot.sound
HunLaw.Props.C123_violated: propext, Classical.choice, Quot.sound
HunLaw.Props.C123_title_partial: propext, Classical.choice, Quot.sound
HunLaw.Props.C124_in_place: propext, Classical.choice, Quot.sound
HunLaw.Props.C124_can_be_written: propext, Classical.choice, Quot.sound
HunLaw.Props.C125_violated: propext
HunLaw.Props.C125_exact_partial: propext, Classical.choice, Quot.sound
HunLaw.Props.C126_exact: propext, Classical.choice, Quot.sound
HunLaw.Props.C126_act: propext, Quot.sound
HunLaw.Props.C126_numeric: propext, Classical.choice, Quot.sound
HunLaw.Props.C126_letter: propext, Quot.sound
HunLaw.Props.C126_article: propext, Classical.choice, Quot.sound
HunLaw.Props.C126_subpoint: propext, Classical.choice, Quot.sound
HunLaw.Props.C126_range: propext
HunLaw.Props.C126_points: propext, Classical.choice, Quot.sound
HunLaw.Props.C126_subpoints: propext, Classical.choice, Quot.sound
HunLaw.Props.C126_part: propext
HunLaw.Props.C127_read: propext, Classical.choice, Quot.sound
HunLaw.Props.C127_distinct: propext, Classical.choice, Quot.sound
HunLaw.Props.C127_line: propext, Quot.sound
HunLaw.Props.C127_act: propext, Classical.choice, Quot.sound
HunLaw.Props.C127_output: propext, Classical.choice, Quot.sound
HunLaw.Props.C127_raw: propext, Classical.choice, Quot.sound
HunLaw.Props.C127_pages: propext, Classical.choice, Quot.sound
HunLaw.Props.C128_read: propext, Classical.choice, Quot.sound
HunLaw.Props.C128_proper: propext, Classical.choice, Quot.sound
HunLaw.Props.C129_act: propext, Classical.choice, Quot.sound
HunLaw.Props.C129_pipeline: propext, Classical.choice, Quot.sound
HunLaw.Props.C129_raw: propext, Classical.choice, Quot.sound
HunLaw.Props.C129_pages: propext, Quot.sound
HunLaw.Props.C129_fixups: propext
HunLaw.Props.C129_change: propext, Classical.choice, Quot.sound
HunLaw.Props.C130_introduced: propext, Classical.choice, Quot.sound
HunLaw.Props.C130_again: propext, Quot.sound
HunLaw.Props.C131_act: propext, Classical.choice, Quot.sound
HunLaw.Props.C132_act: propext, Classical.choice, Quot.sound
HunLaw.Props.C133_act: propext, Classical.choice, Quot.sound
HunLaw.Props.C133_recorded: propext, Classical.choice, Quot.sound
HunLaw.Props.C134_data: propext, Classical.choice, Quot.sound
HunLaw.Props.C135_plain: propext, Classical.choice, Quot.sound
