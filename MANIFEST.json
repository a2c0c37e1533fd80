{
 "claims": [
  {
   "property": "C01",
   "status": "proved",
   "theorems": [
    "HunLaw.Props.C01_letter_roundtrip",
    "HunLaw.Props.C01_letter_text",
    "HunLaw.Props.C01_letter_onto",
    "HunLaw.Props.C01_letter_injective",
    "HunLaw.Props.C01_letter_parse_iff"
   ],
   "note": "Round trip, injectivity and exact acceptance of letter identifiers."
  },
  {
   "property": "C02",
   "status": "proved",
   "theorems": [
    "HunLaw.Props.C02_letter_order_total",
    "HunLaw.Props.C02_letter_order_alphabet"
   ],
   "note": "Order equals index in the written-out alphabet; total order laws."
  },
  {
   "property": "C03",
   "status": "proved",
   "theorems": [
    "HunLaw.Props.C03_letter_succession",
    "HunLaw.Props.C03_letter_next_exists",
    "HunLaw.Props.C03_letter_has_follower",
    "HunLaw.Props.C03_letter_next_iff"
   ],
   "note": "Exact characterisation of followers by alphabet positions; followers are greater; every letter but zs has one."
  },
  {
   "property": "C04",
   "status": "proved",
   "theorems": [
    "HunLaw.Props.C04_numeric_roundtrip",
    "HunLaw.Props.C04_numeric_forms"
   ],
   "note": "All printed forms parse back for all 65536*35 identifiers."
  },
  {
   "property": "C05",
   "status": "proved",
   "theorems": [
    "HunLaw.Props.C05_numeric_parse_iff"
   ],
   "note": "Exact characterisation of accepted strings (iff)."
  },
  {
   "property": "C06",
   "status": "partial",
   "theorems": [
    "HunLaw.Props.C06_violated",
    "HunLaw.Props.C06_numeric_succession_partial",
    "HunLaw.Props.C06_numeric_followers"
   ],
   "note": "False in the code for 0 after 65535 (C06_violated); proved with exactly that pair excluded."
  },
  {
   "property": "C07",
   "status": "proved",
   "theorems": [
    "HunLaw.Props.C07_article_roundtrip",
    "HunLaw.Props.C07_article_forms"
   ],
   "note": "Both text forms of article identifiers."
  },
  {
   "property": "C08",
   "status": "partial",
   "theorems": [
    "HunLaw.Props.C08_violated",
    "HunLaw.Props.C08_article_succession_partial"
   ],
   "note": "False in the code where book or number wraps (C08_violated); proved with exactly these excluded."
  },
  {
   "property": "C09",
   "status": "proved",
   "theorems": [
    "HunLaw.Props.C09_paragraph_roundtrip",
    "HunLaw.Props.C09_prefixed_roundtrip",
    "HunLaw.Props.C09_prefixed_parse_plain"
   ],
   "note": "Paragraph and plain-letter subpoint identifiers; every parsed subpoint identifier is plain."
  },
  {
   "property": "C10",
   "status": "partial",
   "theorems": [
    "HunLaw.Props.C10_act_compact_roundtrip",
    "HunLaw.Props.C10_violated_panic",
    "HunLaw.Props.C10_violated_year",
    "HunLaw.Props.C10_act_long_roundtrip_partial"
   ],
   "note": "Compact form for all; long form false outside four digit years and 1..3999 (two negations), proved inside."
  },
  {
   "property": "C11",
   "status": "proved",
   "theorems": [
    "HunLaw.Props.C11_range_roundtrip",
    "HunLaw.Props.C11_range_contains",
    "HunLaw.Props.C11_range_single",
    "HunLaw.Props.C11_orders_lawful"
   ],
   "note": "All five range kinds; containment is between the ends in a lawful total order."
  },
  {
   "property": "C12",
   "status": "proved",
   "theorems": [
    "HunLaw.Props.C12_roman_roundtrip",
    "HunLaw.Props.C12_roman_range",
    "HunLaw.Props.C12_roman_numerals",
    "HunLaw.Props.C12_roman_iff"
   ],
   "note": "All of 1..3999 with any suffix: what is written, and exactly what is read; roman crate modelled by assumption."
  },
  {
   "property": "C13",
   "status": "proved",
   "theorems": [
    "HunLaw.Props.C13_ordinal_roundtrip",
    "HunLaw.Props.C13_ordinal_table",
    "HunLaw.Props.C13_ordinal_range",
    "HunLaw.Props.C13_ordinal_names",
    "HunLaw.Props.C13_ordinal_iff"
   ],
   "note": "Whole table, all three cases, no duplicate keys."
  },
  {
   "property": "C14",
   "status": "proved",
   "theorems": [
    "HunLaw.Props.C14_obtainable_wellformed",
    "HunLaw.Props.C14_check_exact",
    "HunLaw.Props.C14_wellformed_obtainable"
   ],
   "note": "Closure of all constructors and operations; check characterised exactly."
  },
  {
   "property": "C15",
   "status": "proved",
   "theorems": [
    "HunLaw.Props.C15_builder_latest",
    "HunLaw.Props.C15_build_parts"
   ],
   "note": "Any call sequence, including resets."
  },
  {
   "property": "C16",
   "status": "proved",
   "theorems": [
    "HunLaw.Props.C16_reference_compact_roundtrip",
    "HunLaw.Props.C16_parsed_plain"
   ],
   "note": "All well-formed references with plain subpoint letters; all parsed ones have these."
  },
  {
   "property": "C17",
   "status": "proved",
   "theorems": [
    "HunLaw.Props.C17_range_ends",
    "HunLaw.Props.C17_range_shape",
    "HunLaw.Props.C17_range_self",
    "HunLaw.Props.C17_range_acts",
    "HunLaw.Props.C17_range_succeeds",
    "HunLaw.Props.C17_range_of_ends"
   ],
   "note": "Ends, shape, self, different acts, and when it must succeed."
  },
  {
   "property": "C18",
   "status": "partial",
   "theorems": [
    "HunLaw.Props.C18_contains_refl",
    "HunLaw.Props.C18_contains_between",
    "HunLaw.Props.C18_violated",
    "HunLaw.Props.C18_range_contains_partial",
    "HunLaw.Props.C18_article_range_contains",
    "HunLaw.Props.C18_paragraph_range_contains",
    "HunLaw.Props.C18_numeric_point_range_contains",
    "HunLaw.Props.C18_alphabetic_point_range_contains",
    "HunLaw.Props.C18_numeric_subpoint_range_contains",
    "HunLaw.Props.C18_alphabetic_subpoint_range_contains",
    "HunLaw.Props.C18_contains_single"
   ],
   "note": "Exact containment at every level; false for ranges made backwards (C18_violated)."
  },
  {
   "property": "C19",
   "status": "partial",
   "theorems": [
    "HunLaw.Props.C19_parent_parts",
    "HunLaw.Props.C19_parent_empty",
    "HunLaw.Props.C19_parent_five",
    "HunLaw.Props.C19_violated",
    "HunLaw.Props.C19_parent_contains_partial"
   ],
   "note": "False for whole acts (C19_violated), proved for everything below."
  },
  {
   "property": "C20",
   "status": "partial",
   "theorems": [
    "HunLaw.Props.C20_violated",
    "HunLaw.Props.C20_prefix_is_parent",
    "HunLaw.Props.C20_parent_iff_prefix_partial",
    "HunLaw.Props.C20_parent_irrefl"
   ],
   "note": "False in general (C20_violated); proved where the first missing part is not followed by others."
  },
  {
   "property": "C21",
   "status": "proved",
   "theorems": [
    "HunLaw.Props.C21_relative_parts",
    "HunLaw.Props.C21_relative_absolute",
    "HunLaw.Props.C21_relative_empty",
    "HunLaw.Props.C21_relative_idempotent",
    "HunLaw.Props.C21_relative_succeeds"
   ],
   "note": "Parts, absolute, empty, idempotence, and when it must succeed."
  },
  {
   "property": "C22",
   "status": "proved",
   "theorems": [
    "HunLaw.Props.C22_no_range",
    "HunLaw.Props.C22_parts",
    "HunLaw.Props.C22_only_ranges",
    "HunLaw.Props.C22_no_range_fixed",
    "HunLaw.Props.C22_idempotent"
   ],
   "note": "All references."
  },
  {
   "property": "C23",
   "status": "proved",
   "theorems": [
    "HunLaw.Props.C23_slice_glyphs",
    "HunLaw.Props.C23_slice_content",
    "HunLaw.Props.C23_slice_justified",
    "HunLaw.Props.C23_indent_at",
    "HunLaw.Props.C23_slice_bold"
   ],
   "note": "Exact window of positioned characters, clamping, justification, boldness, indent."
  },
  {
   "property": "C24",
   "status": "proved",
   "theorems": [
    "HunLaw.Props.C24_glue_glyphs",
    "HunLaw.Props.C24_cut_and_glue",
    "HunLaw.Props.C24_cut_and_glue_justified",
    "HunLaw.Props.C24_glue_justified"
   ],
   "note": "Any list of lines; any cut."
  },
  {
   "property": "C25",
   "status": "partial",
   "theorems": [
    "HunLaw.Props.C25_violated",
    "HunLaw.Props.C25_slice_bytes_partial",
    "HunLaw.Props.C25_panic_iff"
   ],
   "note": "False at the end of the text (C25_violated); proved for all other ranges; exact panic condition."
  },
  {
   "property": "C26",
   "status": "proved",
   "theorems": [
    "HunLaw.Props.C26_join",
    "HunLaw.Props.C26_join_keeps_text",
    "HunLaw.Props.C26_empty_lines"
   ],
   "note": "Joined text characterised exactly; non-space characters preserved; empty lines ignored."
  },
  {
   "property": "C27",
   "status": "proved",
   "theorems": [
    "HunLaw.Props.C27_paragraph_header_iff",
    "HunLaw.Props.C27_numeric_header_iff",
    "HunLaw.Props.C27_alphabetic_header_iff",
    "HunLaw.Props.C27_prefixed_header_iff",
    "HunLaw.Props.C27_article_header_iff",
    "HunLaw.Props.C27_panic_iff",
    "HunLaw.Props.C27_rest",
    "HunLaw.Props.C27_never_err"
   ],
   "note": "Exact recognition and exact panic condition for all five header kinds; the rest is the unmoved end of the line."
  },
  {
   "property": "C28",
   "status": "proved",
   "theorems": [
    "HunLaw.Props.C28_accepted_iff",
    "HunLaw.Props.C28_end_iff",
    "HunLaw.Props.C28_quoted_iff",
    "HunLaw.Props.C28_no_panic"
   ],
   "note": "Acceptance, final check and quoted flags exactly, for all lists of lines."
  },
  {
   "property": "C29",
   "status": "proved",
   "theorems": [
    "HunLaw.Props.C29_applied",
    "HunLaw.Props.C29_applied_iff",
    "HunLaw.Props.C29_no_panic"
   ],
   "note": "Proved exactly: success iff the fixup asks for a change and there is one place for it; the effect on the document; no panic."
  },
  {
   "property": "C30",
   "status": "proved",
   "theorems": [
    "HunLaw.Props.C30_prefix",
    "HunLaw.Props.C30_suffix"
   ],
   "note": "Proved for every common prefix and for every common suffix after the longest common prefix."
  },
  {
   "property": "C31",
   "status": "proved",
   "theorems": [
    "HunLaw.Props.C31_in_order",
    "HunLaw.Props.C31_success_iff",
    "HunLaw.Props.C31_no_panic"
   ],
   "note": ""
  },
  {
   "property": "C32",
   "status": "partial",
   "theorems": [
    "HunLaw.Props.C32_violated",
    "HunLaw.Props.C32_reproduced_partial",
    "HunLaw.Props.C32_terminates",
    "HunLaw.Props.C32_succeeds",
    "HunLaw.Props.C32_same_count"
   ],
   "note": "Violated in general (other white space than the plain space at the ends of a line): C32_violated. Proved for lines without white space at their ends; termination and absence of panics proved for all inputs."
  },
  {
   "property": "C33",
   "status": "partial",
   "theorems": [
    "HunLaw.Props.C33_violated",
    "HunLaw.Props.C33_quotes_partial"
   ],
   "note": "Counts and line granularity proved; violated within a line: a closing quote may precede its opening one on the same line."
  },
  {
   "property": "C34",
   "status": "proved",
   "theorems": [
    "HunLaw.Props.C34_articles_consecutive"
   ],
   "note": "From the full division of the body."
  },
  {
   "property": "C35",
   "status": "proved",
   "theorems": [
    "HunLaw.Props.C35_elements_numbered",
    "HunLaw.Props.C35_amendment_lists"
   ],
   "note": "Result-level numbering at all depths plus lists with a demanded first identifier."
  },
  {
   "property": "C36",
   "status": "proved",
   "theorems": [
    "HunLaw.Props.C36_act_text",
    "HunLaw.Props.C36_list_text",
    "HunLaw.Props.C36_element_text"
   ],
   "note": "Act, list and element level."
  },
  {
   "property": "C37",
   "status": "partial",
   "theorems": [
    "HunLaw.Props.C37_quoted_blocks",
    "HunLaw.Props.C37_nested_violated",
    "HunLaw.Props.C37_balanced_partial"
   ],
   "note": "Segmentation proved; proper nesting inside a block violated, balance proved."
  },
  {
   "property": "C38",
   "status": "partial",
   "theorems": [
    "HunLaw.Props.C38_violated",
    "HunLaw.Props.C38_violated_empty_line",
    "HunLaw.Props.C38_violated_trailing_space",
    "HunLaw.Props.C38_no_panic_partial",
    "HunLaw.Props.C38_no_panic_amendment_partial"
   ],
   "note": "Violated by an article that has a title only, and by a header followed by spaces only; no other crash."
  },
  {
   "property": "C39",
   "status": "proved",
   "theorems": [
    "HunLaw.Props.C39_printed_header",
    "HunLaw.Props.C39_header_unambiguous"
   ],
   "note": "For books and parts without a letter, as the property says."
  },
  {
   "property": "C40",
   "status": "proved",
   "theorems": [
    "HunLaw.Props.C40_exact",
    "HunLaw.Props.C40_no_double",
    "HunLaw.Props.C40_keeps",
    "HunLaw.Props.C40_idempotent"
   ],
   "note": "Proved exactly."
  },
  {
   "property": "C41",
   "status": "proved",
   "theorems": [
    "HunLaw.Props.C41_regions",
    "HunLaw.Props.C41_subsequence",
    "HunLaw.Props.C41_gazette_lines",
    "HunLaw.Props.C41_rejected_iff"
   ],
   "note": "Regions of the acts section, with identifier, subject, footnote and signatures."
  },
  {
   "property": "C42",
   "status": "proved",
   "theorems": [
    "HunLaw.Props.C42_walk",
    "HunLaw.Props.C42_unchanged",
    "HunLaw.Props.C42_nested",
    "HunLaw.Props.C42_stops",
    "HunLaw.Props.C42_info_only"
   ],
   "note": ""
  },
  {
   "property": "C43",
   "status": "proved",
   "theorems": [
    "HunLaw.Props.C43_located",
    "HunLaw.Props.C43_valid"
   ],
   "note": ""
  },
  {
   "property": "C44",
   "status": "proved",
   "theorems": [
    "HunLaw.Props.C44_latest",
    "HunLaw.Props.C44_unknown",
    "HunLaw.Props.C44_changed",
    "HunLaw.Props.C44_listed",
    "HunLaw.Props.C44_increasing"
   ],
   "note": "Maps are modelled as the ordered list of their entries."
  },
  {
   "property": "C45",
   "status": "proved",
   "theorems": [
    "HunLaw.Props.C45_first",
    "HunLaw.Props.C45_none",
    "HunLaw.Props.C45_known_grows",
    "HunLaw.Props.C45_recognised"
   ],
   "note": "C45_recognised is about whole parses: position, priority of supplied abbreviations, introduction in the text. Supplied abbreviations must not be empty (an empty one makes the generated parser loop)."
  },
  {
   "property": "C46",
   "status": "partial",
   "theorems": [
    "HunLaw.Props.C46_violated",
    "HunLaw.Props.C46_ranges_partial",
    "HunLaw.Props.C46_cut",
    "HunLaw.Props.C46_abbreviations_partial"
   ],
   "note": "False in the code: with the abbreviation \"Btk.\" known, the text \"a Btk\" gets a reference that ends one byte after it (C46_violated, for a whole act). Proved for whole acts: ranges are non-empty, ordered, disjoint and on character boundaries of the text plus a full stop; of the text itself in all cases but the one of the witness."
  },
  {
   "property": "C47",
   "status": "proved",
   "theorems": [
    "HunLaw.Props.C47_context",
    "HunLaw.Props.C47_error",
    "HunLaw.Props.C47_no_panic",
    "HunLaw.Props.C47_stack"
   ],
   "note": "C47_context gives the exact texts and contexts; C47_error, C47_no_panic, C47_stack the rest."
  },
  {
   "property": "C48",
   "status": "proved",
   "theorems": [
    "HunLaw.Props.C48_ordered",
    "HunLaw.Props.C48_meaning",
    "HunLaw.Props.C48_meaning_simple",
    "HunLaw.Props.C48_count",
    "HunLaw.Props.C48_wellformed"
   ],
   "note": "Over every text the modelled grammar parses; the meaning of a phrase is defined separately in Spec/Amendments.lean."
  },
  {
   "property": "C49",
   "status": "proved",
   "theorems": [
    "HunLaw.Props.C49_covers",
    "HunLaw.Props.C49_error",
    "HunLaw.Props.C49_act"
   ],
   "note": "Place of the amendment against the references of the phrase; the act is the named one."
  },
  {
   "property": "C50",
   "status": "proved",
   "theorems": [
    "HunLaw.Props.C50_product",
    "HunLaw.Props.C50_repeal"
   ],
   "note": "Places as specified by textPlaces in Spec/Amendments.lean; exact results including errors."
  },
  {
   "property": "C51",
   "status": "proved",
   "theorems": [
    "HunLaw.Props.C51_act",
    "HunLaw.Props.C51_article",
    "HunLaw.Props.C51_paragraph"
   ],
   "note": "Act, article and paragraph level; includes the state after a failure."
  },
  {
   "property": "C52",
   "status": "proved",
   "theorems": [
    "HunLaw.Props.C52_splits",
    "HunLaw.Props.C52_pieces"
   ],
   "note": ""
  },
  {
   "property": "C53",
   "status": "proved",
   "theorems": [
    "HunLaw.Props.C53_rows",
    "HunLaw.Props.C53_spaces"
   ],
   "note": "Rows from top to bottom, each from left to right, every character once, single spaces at gaps, empty lines at large gaps; for any sort meeting the contract of sort_unstable_by."
  },
  {
   "property": "C54",
   "status": "partial",
   "theorems": [
    "HunLaw.Props.C54_violated",
    "HunLaw.Props.C54_less_partial"
   ],
   "note": "Violated for equal coordinates; the Less part is proved to be a strict weak order."
  },
  {
   "property": "C55",
   "status": "partial",
   "theorems": [
    "HunLaw.Props.C55_answer",
    "HunLaw.Props.C55_once",
    "HunLaw.Props.C55_others",
    "HunLaw.Props.C55_violated",
    "HunLaw.Props.C55_undisturbed_partial",
    "HunLaw.Props.C55_beginning_partial"
   ],
   "note": "Violated when killed while writing; proved without crashes, and with crashes every answer is a beginning of a served body."
  },
  {
   "property": "C56",
   "status": "proved",
   "theorems": [
    "HunLaw.Props.C56_descriptor",
    "HunLaw.Props.C56_cache_file",
    "HunLaw.Props.C56_names",
    "HunLaw.Props.C56_address"
   ],
   "note": "Descriptors, cache file names and addresses."
  },
  {
   "property": "C57",
   "status": "proved",
   "theorems": [
    "HunLaw.Props.C57_first",
    "HunLaw.Props.C57_prefixed_next_iff",
    "HunLaw.Props.C57_paragraph_next_iff",
    "HunLaw.Props.C57_article_next_iff"
   ],
   "note": "First identifiers of all kinds and exact succession of subpoints, paragraphs and articles."
  },
  {
   "property": "C58",
   "status": "proved",
   "theorems": [
    "HunLaw.Props.C58_unedited"
   ],
   "note": "Proved for texts with up to 9999 quotation marks."
  },
  {
   "property": "C59",
   "status": "proved",
   "theorems": [
    "HunLaw.Props.C59_in_order"
   ],
   "note": "Proved for lines of up to 10001 characters (the code looks up index 10000 as the end of the line)."
  },
  {
   "property": "C60",
   "status": "partial",
   "theorems": [
    "HunLaw.Props.C60_violated",
    "HunLaw.Props.C60_round_partial"
   ],
   "note": "Violated (C60_violated): fixups generated on the text after removing doubled empty lines are re-applied before that. Proved when the loaded fixups leave no doubled empty lines."
  },
  {
   "property": "C61",
   "status": "partial",
   "theorems": [
    "HunLaw.Props.C61_complete_partial",
    "HunLaw.Props.C61_violated"
   ],
   "note": "Violated for an even number of empty lines before a title (C61_violated). C61_complete_partial: complete for an odd number, e.g. one."
  },
  {
   "property": "C62",
   "status": "proved",
   "theorems": [
    "HunLaw.Props.C62_sound",
    "HunLaw.Props.C62_reads"
   ],
   "note": ""
  },
  {
   "property": "C63",
   "status": "proved",
   "theorems": [
    "HunLaw.Props.C63_positions"
   ],
   "note": "By glyph positions recomputed from the line's parts."
  },
  {
   "property": "C64",
   "status": "proved",
   "theorems": [
    "HunLaw.Props.C64_division",
    "HunLaw.Props.C64_amendment_division",
    "HunLaw.Props.C64_subtitle_length"
   ],
   "note": "Divided is a declarative division with the grammar of Spec/Grammar.lean."
  },
  {
   "property": "C65",
   "status": "proved",
   "theorems": [
    "HunLaw.Props.C65_only_info"
   ],
   "note": ""
  },
  {
   "property": "C66",
   "status": "proved",
   "theorems": [
    "HunLaw.Props.C66_final"
   ],
   "note": "The converse (that a second pass after a change reports none) is not claimed; an act which defines one abbreviation twice always reports a change."
  },
  {
   "property": "C67",
   "status": "proved",
   "theorems": [
    "HunLaw.Props.C67_repeal"
   ],
   "note": "Exact results including errors."
  },
  {
   "property": "C68",
   "status": "proved",
   "theorems": [
    "HunLaw.Props.C68_places",
    "HunLaw.Props.C68_real"
   ],
   "note": "References, structural positions, default flag, and existence of the dates."
  },
  {
   "property": "C69",
   "status": "proved",
   "theorems": [
    "HunLaw.Props.C69_text"
   ],
   "note": "Text as in C36."
  },
  {
   "property": "C70",
   "status": "partial",
   "theorems": [
    "HunLaw.Props.C70_numbered_partial",
    "HunLaw.Props.C70_violated"
   ],
   "note": "The end of the named range is never checked (C70_violated); everything else is proved."
  },
  {
   "property": "C71",
   "status": "partial",
   "theorems": [
    "HunLaw.Props.C71_violated",
    "HunLaw.Props.C71_no_panic_partial",
    "HunLaw.Props.C71_blocks"
   ],
   "note": "Violated by a title-only article; proved without such blocks."
  },
  {
   "property": "C72",
   "status": "proved",
   "theorems": [
    "HunLaw.Props.C72_order"
   ],
   "note": "For any two sorting functions meeting the contract."
  },
  {
   "property": "C73",
   "status": "proved",
   "theorems": [
    "HunLaw.Props.C73_visible",
    "HunLaw.Props.C73_pages",
    "HunLaw.Props.C73_gazette",
    "HunLaw.Props.C73_default"
   ],
   "note": "For every page and operation sequence, with forms of any nesting."
  },
  {
   "property": "C74",
   "status": "partial",
   "theorems": [
    "HunLaw.Props.C74_violated",
    "HunLaw.Props.C74_bold_partial",
    "HunLaw.Props.C74_forms_partial"
   ],
   "note": "Violated by restoring a font; proved when restoring, or the end of a form, does not change boldness, for pages with forms of any nesting too (C74_forms_partial)."
  },
  {
   "property": "C75",
   "status": "partial",
   "theorems": [
    "HunLaw.Props.C75_violated",
    "HunLaw.Props.C75_pages_partial"
   ],
   "note": "Violated when an address is used again; proved if different fonts have different addresses."
  },
  {
   "property": "C76",
   "status": "partial",
   "theorems": [
    "HunLaw.Props.C76_violated",
    "HunLaw.Props.C76_unicode_partial"
   ],
   "note": "Violated by a glyph with an unknown name; proved otherwise."
  },
  {
   "property": "C77",
   "status": "partial",
   "theorems": [
    "HunLaw.Props.C77_violated",
    "HunLaw.Props.C77_encoding_partial"
   ],
   "note": "Violated for code 255; proved for all others."
  },
  {
   "property": "C78",
   "status": "partial",
   "theorems": [
    "HunLaw.Props.C78_violated",
    "HunLaw.Props.C78_forms_partial"
   ],
   "note": "Violated by a form with an unbalanced save; proved for balanced forms, of any nesting."
  },
  {
   "property": "C79",
   "status": "partial",
   "theorems": [
    "HunLaw.Props.C79_violated",
    "HunLaw.Props.C79_no_crash_partial"
   ],
   "note": "Violated by a form that draws itself; proved if forms do not draw themselves."
  },
  {
   "property": "C80",
   "status": "partial",
   "theorems": [
    "HunLaw.Props.C80_violated",
    "HunLaw.Props.C80_replaced_partial",
    "HunLaw.Props.C80_empty_partial",
    "HunLaw.Props.C80_width_partial",
    "HunLaw.Props.C80_unmarked",
    "HunLaw.Props.C80_marks",
    "HunLaw.Props.C80_marks_exist",
    "HunLaw.Props.C80_marked_partial",
    "HunLaw.Props.C80_forms_partial"
   ],
   "note": "Violated only by spans with a replacement inside of each other (C80_violated). C80_marked_partial proves it with any other marked content inside, C80_forms_partial reduces pages with forms and marks of any nesting to pages where only replacing spans are left, C80_replaced_partial gives the text and its place."
  },
  {
   "property": "C81",
   "status": "proved",
   "theorems": [
    "HunLaw.Props.C81_positions",
    "HunLaw.Props.C81_fails",
    "HunLaw.Props.C81_newline",
    "HunLaw.Props.C81_moves",
    "HunLaw.Props.C81_scaling",
    "HunLaw.Props.C81_codes",
    "HunLaw.Props.C81_matrices",
    "HunLaw.Props.C81_rendering"
   ],
   "note": "Positions by exact rational arithmetic."
  },
  {
   "property": "C82",
   "status": "proved",
   "theorems": [
    "HunLaw.Props.C82_shows"
   ],
   "note": ""
  },
  {
   "property": "C83",
   "status": "proved",
   "theorems": [
    "HunLaw.Props.C83_colours"
   ],
   "note": ""
  },
  {
   "property": "C84",
   "status": "partial",
   "theorems": [
    "HunLaw.Props.C84_violated",
    "HunLaw.Props.C84_structure",
    "HunLaw.Props.C84_prints_partial"
   ],
   "note": "False in general (C84_violated). Proved from the text of the act to the output for all acts whose texts end with a sentence or are followed by something, and for every act without semantic information."
  },
  {
   "property": "C85",
   "status": "proved",
   "theorems": [
    "HunLaw.Props.C85_lines",
    "HunLaw.Props.C85_alphabetic_subpoint",
    "HunLaw.Props.C85_numeric_subpoint",
    "HunLaw.Props.C85_alphabetic_point",
    "HunLaw.Props.C85_numeric_point",
    "HunLaw.Props.C85_paragraph",
    "HunLaw.Props.C85_article"
   ],
   "note": ""
  },
  {
   "property": "C86",
   "status": "partial",
   "theorems": [
    "HunLaw.Props.C86_violated",
    "HunLaw.Props.C86_width_partial"
   ],
   "note": "False in general (C86_violated). Proved for acts with a title that fits, short numbers and no quoted lines."
  },
  {
   "property": "C87",
   "status": "partial",
   "theorems": [
    "HunLaw.Props.C87_content",
    "HunLaw.Props.C87_indent",
    "HunLaw.Props.C87_violated",
    "HunLaw.Props.C87_indent_partial",
    "HunLaw.Props.C87_page",
    "HunLaw.Props.C87_act"
   ],
   "note": "Text, boldness and justification proved; the indentation is false in general (C87_violated) and proved from 50 on."
  },
  {
   "property": "C88",
   "status": "proved",
   "theorems": [
    "HunLaw.Props.C88_page",
    "HunLaw.Props.C88_pages",
    "HunLaw.Props.C88_act_total",
    "HunLaw.Props.C88_act"
   ],
   "note": ""
  },
  {
   "property": "C89",
   "status": "proved",
   "theorems": [
    "HunLaw.Props.C89_issues",
    "HunLaw.Props.C89_acts",
    "HunLaw.Props.C89_refused"
   ],
   "note": "main.rs get_issues in full; the table is the list of its parsed records."
  },
  {
   "property": "C90",
   "status": "partial",
   "theorems": [
    "HunLaw.Props.C90_violated",
    "HunLaw.Props.C90_success_partial",
    "HunLaw.Props.C90_failure_partial"
   ],
   "note": "False in full: an issue that cannot be downloaded or parsed, an act missing from its issue, or an output that cannot be created does not change the exit status. Proved for acts found in their issues when outputs can be opened."
  },
  {
   "property": "C91",
   "status": "partial",
   "theorems": [
    "HunLaw.Props.C91_violated",
    "HunLaw.Props.C91_log_partial",
    "HunLaw.Props.C91_named"
   ],
   "note": "False in full: an output that cannot be created ends the processing of the whole issue. Otherwise the exact sequence of effects is proved."
  },
  {
   "property": "C92",
   "status": "partial",
   "theorems": [
    "HunLaw.Props.C92_violated",
    "HunLaw.Props.C92_violated_large",
    "HunLaw.Props.C92_main_partial",
    "HunLaw.Props.C92_act_partial"
   ],
   "note": "False in full: act numbers outside of 1..3999 that are not in the table crash the error message. Proved: the only other crashes are those of processing an act, and C92_act_partial bounds these."
  },
  {
   "property": "C93",
   "status": "partial",
   "theorems": [
    "HunLaw.Props.C93_violated",
    "HunLaw.Props.C93_session_partial"
   ],
   "note": "False in full: with --force-fixup-editor each attempt is appended to the same file. Proved for sessions without it."
  },
  {
   "property": "C94",
   "status": "partial",
   "theorems": [
    "HunLaw.Props.C94_names",
    "HunLaw.Props.C94_issue_names",
    "HunLaw.Props.C94_place",
    "HunLaw.Props.C94_violated",
    "HunLaw.Props.C94_files_partial"
   ],
   "note": "False in full: an act with the same number in a later issue overwrites the file. Proved for distinct identifiers; names are injective without conditions."
  },
  {
   "property": "C95",
   "status": "proved",
   "theorems": [
    "HunLaw.Props.C95_file",
    "HunLaw.Props.C95_terminal",
    "HunLaw.Props.C95_steps",
    "HunLaw.Props.C95_test_format",
    "HunLaw.Props.C95_coloured",
    "HunLaw.Props.C95_data"
   ],
   "note": "The steps done are those of the model of the library; the text is compared with the act up to blanks, as in C82 and C83. The json and yaml formats are functions of the act in the model."
  },
  {
   "property": "C96",
   "status": "proved",
   "theorems": [
    "HunLaw.Props.C96_act",
    "HunLaw.Props.C96_distinct",
    "HunLaw.Props.C96_pipeline",
    "HunLaw.Props.C96_gazette",
    "HunLaw.Props.C96_read_back"
   ],
   "note": "Proved on the level of serde's data model; the text form of JSON and YAML is trusted. f64 as exact rationals, so NaN is excluded."
  },
  {
   "property": "C97",
   "status": "proved",
   "theorems": [
    "HunLaw.Props.C97_proper",
    "HunLaw.Props.C97_stable",
    "HunLaw.Props.C97_reference",
    "HunLaw.Props.C97_checked",
    "HunLaw.Props.C97_date"
   ],
   "note": "Proved for all documents of serde's data model."
  },
  {
   "property": "C98",
   "status": "proved",
   "theorems": [
    "HunLaw.Props.C98_fixups"
   ],
   "note": "Proved."
  },
  {
   "property": "C99",
   "status": "partial",
   "theorems": [
    "HunLaw.Props.C99_violated",
    "HunLaw.Props.C99_lines_partial"
   ],
   "note": "Refuted: the cached content and weight are read from the document without a check. Proved for lines which the program stored."
  },
  {
   "property": "C100",
   "status": "proved",
   "theorems": [
    "HunLaw.Props.C100_spacing"
   ],
   "note": "Proved for every wrapping function that meets the contract."
  },
  {
   "property": "C101",
   "status": "proved",
   "theorems": [
    "HunLaw.Props.C101_block",
    "HunLaw.Props.C101_act"
   ],
   "note": "Proved for blocks and for whole acts."
  },
  {
   "property": "C102",
   "status": "partial",
   "theorems": [
    "HunLaw.Props.C102_recognised_partial",
    "HunLaw.Props.C102_violated"
   ],
   "note": "C102_recognised_partial proves it for any group of references in the usual form, of any length, with ordinary text before and after it; C102_violated: an article number with a digraph such as 3/CS is not recognised, although the program itself writes such numbers. Several groups in one text are in C112."
  },
  {
   "property": "C103",
   "status": "proved",
   "theorems": [
    "HunLaw.Props.C103_announced"
   ],
   "note": "C103_announced, for every element and every text around it."
  },
  {
   "property": "C104",
   "status": "partial",
   "theorems": [
    "HunLaw.Props.C104_enforcement_partial",
    "HunLaw.Props.C104_violated",
    "HunLaw.Props.C104_violated_exceptions",
    "HunLaw.Props.C104_violated_bare",
    "HunLaw.Props.C104_violated_many"
   ],
   "note": "The sentences are specified as text (Spec/Enforcement.lean): provisions, structural parts, lists of subtitles, subtitles named by their title and attachments in any order, with or without an exception with any word before \"kivétel\". Violated for compound numerals (harmincegyedik is not in the grammar, C104_violated) and for exceptions with the article az (C104_violated_exceptions), without a word before \"kivétel\" (C104_violated_bare) or with more than one phrase (C104_violated_many)."
  },
  {
   "property": "C105",
   "status": "partial",
   "theorems": [
    "HunLaw.Props.C105_structural_partial",
    "HunLaw.Props.C105_violated",
    "HunLaw.Props.C105_recorded",
    "HunLaw.Props.C105_title",
    "HunLaw.Props.C105_beside"
   ],
   "note": "Violated: in \"Második Könyv III. Fejezet 12/A. alcíme\" the book of the containing part is lost (C105_violated), and the title alone (\"címe\") of a subtitle in another part is taken for the whole subtitle (C105_title). C105_recorded proves for every sentence of the specified form what is read: all that is written except those two things; C105_structural_partial is the case where nothing is lost. C105_beside is the same with a place beside an article before the part (\"a 12. §-t megelőzően a következő III. Fejezettel egészül ki:\"): that place is read but neither recorded nor found as a reference."
  },
  {
   "property": "C106",
   "status": "partial",
   "theorems": [
    "HunLaw.Props.C106_provisions_partial",
    "HunLaw.Props.C106_violated",
    "HunLaw.Props.C106_recorded"
   ],
   "note": "Partial. Proved: C106_provisions_partial (all sentences of the usual form, with lists, ranges and every kind of insertion; the place, the flag, the containing part and the references). Violated for articles in a part of the structure in a book (C106_violated): the book is dropped by convert_block_amendment (book: None). C106_recorded proves what is read with a book too: all that is written except the book of the containing part."
  },
  {
   "property": "C107",
   "status": "partial",
   "theorems": [
    "HunLaw.Props.C107_textAmendment_partial",
    "HunLaw.Props.C107_violated",
    "HunLaw.Props.C107_range",
    "HunLaw.Props.C107_recorded"
   ],
   "note": "Violated when a containing part is in a book: the book is lost (C107_violated); and by the subtitle after a range of articles, which is recorded as that after the first of them (C107_range). Proved otherwise for lists of provisions, headings, parts of the structure, lists of subtitles, subtitles next to an article or a range of them, and attachments. C107_recorded proves what is read with a book too: all that is written except the book of the containing part."
  },
  {
   "property": "C108",
   "status": "partial",
   "theorems": [
    "HunLaw.Props.C108_repeal_partial",
    "HunLaw.Props.C108_violated",
    "HunLaw.Props.C108_recorded"
   ],
   "note": "Violated when a containing part is in a book: the book is lost. The subtitle after a range of articles is recorded as that after the first of them (as in C107_range). Proved otherwise for whole acts, lists of parts (provisions, parts of the structure, subtitles, subtitles next to an article or a range of them, attachments), and words in them. C108_recorded proves what is read with a book too: all that is written except the book of the containing part."
  },
  {
   "property": "C109",
   "status": "partial",
   "theorems": [
    "HunLaw.Props.C109_subtitles_partial",
    "HunLaw.Props.C109_violated",
    "HunLaw.Props.C109_book",
    "HunLaw.Props.C109_range",
    "HunLaw.Props.C109_recorded"
   ],
   "note": "Violated: \"alcím … lépnek\" is not recognised, the book of the containing part is lost, and the place after a range of articles is recorded as that after the first of them. Proved for all other sentences in the usual form. C109_recorded proves what is read with a book too: all that is written except the book of the containing part."
  },
  {
   "property": "C110",
   "status": "partial",
   "theorems": [
    "HunLaw.Props.C110_untouched",
    "HunLaw.Props.C110_violated",
    "HunLaw.Props.C110_missing_partial",
    "HunLaw.Props.C110_article",
    "HunLaw.Props.C110_settled"
   ],
   "note": "The part about missing articles is violated: the error message names the act, and this panics if the number of the act is not between 1 and 3999. Everything else is proved for all acts."
  },
  {
   "property": "C111",
   "status": "partial",
   "theorems": [
    "HunLaw.Props.C111_settles_partial",
    "HunLaw.Props.C111_finite",
    "HunLaw.Props.C111_violated"
   ],
   "note": "Violated: an act which gives one abbreviation two meanings reports a change in every pass, for ever. Proved for all other acts, with the number of possible abbreviations as a bound."
  },
  {
   "property": "C112",
   "status": "partial",
   "theorems": [
    "HunLaw.Props.C112_passages_partial",
    "HunLaw.Props.C112_violated"
   ],
   "note": "C112_passages_partial proves it for texts of any number of items: groups of references, mentions of attachments, quotations, numbers and dates, and brackets with words or any of these in them; two groups can be next to each other in a list if the second names its act (otherwise they are one group). C112_violated: a letter in the number of an attachment, as in 1/A. melléklet 2. pontja, makes the point a reference of its own."
  },
  {
   "property": "C113",
   "status": "partial",
   "theorems": [
    "HunLaw.Props.C113_gaps_partial",
    "HunLaw.Props.C113_violated",
    "HunLaw.Props.C113_forms_partial"
   ],
   "note": "Violated: after a restore the width of the space stays that of the font before it. Proved for pages whose restores and ends of forms keep the width of the space (or leave no font), with forms of any nesting (C113_forms_partial)."
  },
  {
   "property": "C114",
   "status": "proved",
   "theorems": [
    "HunLaw.Props.C114_shown",
    "HunLaw.Props.C114_opens_at_error",
    "HunLaw.Props.C114_opens_at_unclosed"
   ],
   "note": ""
  },
  {
   "property": "C115",
   "status": "proved",
   "theorems": [
    "HunLaw.Props.C115_article_sound",
    "HunLaw.Props.C115_article_exact",
    "HunLaw.Props.C115_act_sound",
    "HunLaw.Props.C115_act_exact",
    "HunLaw.Props.C115_amendment_exact",
    "HunLaw.Props.C115_act_unique",
    "HunLaw.Props.C115_lists_exact",
    "HunLaw.Props.C115_quoted_exact"
   ],
   "note": "exact characterisation: sound for all lines, complete for lines without trailing spaces (with trailing spaces the parser can panic, see C38)"
  },
  {
   "property": "C116",
   "status": "partial",
   "theorems": [
    "HunLaw.Props.C116_printed_partial",
    "HunLaw.Props.C116_alone_partial",
    "HunLaw.Props.C116_violated"
   ],
   "note": "violated for article numbers with digraphs (3/CS): C116_violated; proved for references in the usual form, alone and in ordinary text"
  },
  {
   "property": "C117",
   "status": "partial",
   "theorems": [
    "HunLaw.Props.C117_equal",
    "HunLaw.Props.C117_equivalence",
    "HunLaw.Props.C117_printed",
    "HunLaw.Props.C117_read_partial",
    "HunLaw.Props.C117_violated"
   ],
   "note": "C117_equal characterises equality, C117_printed and C117_read_partial show that printing and reading respect it. Conversion of amendments does not (C117_violated)."
  },
  {
   "property": "C118",
   "status": "partial",
   "theorems": [
    "HunLaw.Props.C118_points",
    "HunLaw.Props.C118_paragraphs_partial",
    "HunLaw.Props.C118_violated"
   ],
   "note": "Points and subpoints in full (C118_points); paragraphs but for structural amendments (C118_paragraphs_partial, C118_violated)."
  },
  {
   "property": "C119",
   "status": "partial",
   "theorems": [
    "HunLaw.Props.C119_enforcement_partial",
    "HunLaw.Props.C119_textAmendment_partial",
    "HunLaw.Props.C119_repeal_partial",
    "HunLaw.Props.C119_violated"
   ],
   "note": "Violated: a sentence about attachments only is recorded as an instruction about nothing (C119_violated). Proved for each of the three kinds: the instruction is about nothing if and only if only attachments are named. The sentences are those of C104, C107_recorded and C108_recorded."
  },
  {
   "property": "C120",
   "status": "proved",
   "theorems": [
    "HunLaw.Props.C120_characters",
    "HunLaw.Props.C120_styles"
   ],
   "note": "The whole claim, for acts without escape characters in their texts; spaces and line breaks are not looked at, as the way lines are wrapped is a parameter of the model."
  },
  {
   "property": "C121",
   "status": "proved",
   "theorems": [
    "HunLaw.Props.C121_answer",
    "HunLaw.Props.C121_asked",
    "HunLaw.Props.C121_forever"
   ],
   "note": ""
  },
  {
   "property": "C122",
   "status": "partial",
   "theorems": [
    "HunLaw.Props.C122_violated",
    "HunLaw.Props.C122_exact_partial",
    "HunLaw.Props.C122_unique_partial",
    "HunLaw.Props.C122_success_partial"
   ],
   "note": "Articles in an amendment are also divided at headers inside quotes (C122_violated); everything else is proved."
  },
  {
   "property": "C123",
   "status": "partial",
   "theorems": [
    "HunLaw.Props.C123_violated",
    "HunLaw.Props.C123_title_partial"
   ],
   "note": "A header of another element of the same type is accepted (C123_violated); what happens otherwise is proved."
  },
  {
   "property": "C124",
   "status": "proved",
   "theorems": [
    "HunLaw.Props.C124_in_place",
    "HunLaw.Props.C124_can_be_written"
   ],
   "note": "The matrix of a form is not part of the model, as the code ignores it."
  },
  {
   "property": "C125",
   "status": "partial",
   "theorems": [
    "HunLaw.Props.C125_violated",
    "HunLaw.Props.C125_exact_partial"
   ],
   "note": "Violated: a day of two digits at the end of a line is cut in two, 2021. május 13 is read as the first of May. C125_exact_partial says exactly what is read as what."
  },
  {
   "property": "C126",
   "status": "proved",
   "theorems": [
    "HunLaw.Props.C126_exact",
    "HunLaw.Props.C126_act",
    "HunLaw.Props.C126_numeric",
    "HunLaw.Props.C126_letter",
    "HunLaw.Props.C126_article",
    "HunLaw.Props.C126_subpoint",
    "HunLaw.Props.C126_range",
    "HunLaw.Props.C126_points",
    "HunLaw.Props.C126_subpoints",
    "HunLaw.Props.C126_part"
   ],
   "note": "Equivalence between reading and an independent description of the texts; signs before numbers (+3) are read as well."
  },
  {
   "property": "C127",
   "status": "proved",
   "theorems": [
    "HunLaw.Props.C127_read",
    "HunLaw.Props.C127_distinct",
    "HunLaw.Props.C127_line",
    "HunLaw.Props.C127_act",
    "HunLaw.Props.C127_output",
    "HunLaw.Props.C127_raw",
    "HunLaw.Props.C127_pages"
   ],
   "note": "For every way to write fractions that can be read back (Faithful); the reader is a separate specification of RFC 8259 with white space, escapes and surrogates."
  },
  {
   "property": "C128",
   "status": "proved",
   "theorems": [
    "HunLaw.Props.C128_read",
    "HunLaw.Props.C128_proper"
   ],
   "note": ""
  },
  {
   "property": "C129",
   "status": "proved",
   "theorems": [
    "HunLaw.Props.C129_act",
    "HunLaw.Props.C129_pipeline",
    "HunLaw.Props.C129_raw",
    "HunLaw.Props.C129_pages",
    "HunLaw.Props.C129_fixups",
    "HunLaw.Props.C129_change"
   ],
   "note": ""
  },
  {
   "property": "C130",
   "status": "proved",
   "theorems": [
    "HunLaw.Props.C130_introduced",
    "HunLaw.Props.C130_again"
   ],
   "note": "C130_introduced: texts of any number of items. C130_again shows what happens if an abbreviation is introduced for two acts in one sentence: the last one is meant by it everywhere, which the condition of C130_introduced says, too."
  },
  {
   "property": "C131",
   "status": "proved",
   "theorems": [
    "HunLaw.Props.C131_act"
   ],
   "note": "The texts of the act are given with their contexts by the specification of C47 (Spec/Semantic), the running texts by that of C112 and C130 (Spec/Passage)."
  },
  {
   "property": "C132",
   "status": "proved",
   "theorems": [
    "HunLaw.Props.C132_act"
   ],
   "note": "The forms of the sentences are those of C104 to C109 and of C112 and C130. The forms in which those are violated (a book around the part, a place after one with a title, several exceptions) are left out by the conditions of `Tells` in Spec/ActSentences."
  },
  {
   "property": "C133",
   "status": "proved",
   "theorems": [
    "HunLaw.Props.C133_act",
    "HunLaw.Props.C133_recorded"
   ],
   "note": "What the sentences announce is given by `Tells` (Spec/ActSentences), which amendment the lines of a block are by `AmendmentIs` (Spec/ExactAmendment). The upper-case test of characters is any function, as elsewhere."
  },
  {
   "property": "C134",
   "status": "proved",
   "theorems": [
    "HunLaw.Props.C134_data"
   ],
   "note": "Puts C115, C132, C133 and C96 together. The text encoding of documents is any function, as in C95_data; without --force-fixup-editor, which makes every act fail at the end on purpose."
  },
  {
   "property": "C135",
   "status": "proved",
   "theorems": [
    "HunLaw.Props.C135_plain"
   ],
   "note": "Puts C115, C132, C133, C84 and C82 together. The wrapper of lines is any function with `Wraps` (Spec/Output). The condition about the ends of the texts leaves out those for which C84 is violated."
  }
 ]
}
