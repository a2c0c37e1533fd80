{"id": "C01", "title": "Alphabetic identifiers survive their text form", "statement": "Writing any letter identifier (one of the 26 letters or the 8 digraphs) as text, in lower case or in upper case, and parsing that text gives back exactly the same identifier; two different identifiers never share a text form.", "quantifier": "every letter identifier, both letter cases", "why_tests_cant": "needs all identifiers at once plus injectivity of the text form", "anchors": ["src/identifier/alphabetic.rs: HungarianIdentifierChar, FromStr, Display, to_uppercase"]}
{"id": "C02", "title": "Letter identifiers are ordered like the Hungarian alphabet", "statement": "The ordering of letter identifiers is a total order compatible with equality, and it is exactly the order of the alphabet a, b, c, cs, d, dz, e, f, g, gy, ... z, zs.", "quantifier": "every pair and triple of letter identifiers", "why_tests_cant": "order laws quantify over triples", "anchors": ["src/identifier/alphabetic.rs: ord_helper, Ord"]}
{"id": "C03", "title": "Letter succession only moves forward", "statement": "If one letter identifier is accepted as the follower of another then it is strictly greater, and between the two there is no identifier other than a digraph of the first one's letter or the letter q. Every identifier other than the last one (zs) has a follower.", "quantifier": "every pair of letter identifiers", "why_tests_cant": "the absence of backward steps is a statement about all pairs", "anchors": ["src/identifier/alphabetic.rs: is_next_from, is_first"]}
{"id": "C04", "title": "Numeric identifiers survive their text forms", "statement": "For every number 0..65535 and every optional letter suffix, each of the text forms the library prints (12a, 12/A, 12/a) parses back to the same identifier.", "quantifier": "every numeric identifier and every printed form", "why_tests_cant": "65536 numbers times 35 suffixes times forms; also needs the slash handling to be unambiguous", "anchors": ["src/identifier/numeric.rs: FromStr, Display, with_slash, split_suffix"]}
{"id": "C05", "title": "Numeric parsing accepts only what denotes its result", "statement": "If a string parses as a numeric identifier then it consists of a non-empty run of decimal digits with value at most 65535, optionally followed by one optional slash and a letter suffix, and the resulting identifier has exactly that value and suffix. Everything else is rejected with an error.", "quantifier": "every string", "why_tests_cant": "ranges over all strings", "anchors": ["src/identifier/numeric.rs: FromStr, split_suffix"]}
{"id": "C06", "title": "Numeric succession only moves forward", "statement": "If a numeric identifier is accepted as the follower of another, then it is strictly greater in the identifier order. (False in the code for the pair 0 after 65535, because the subtraction wraps.)", "quantifier": "every pair of numeric identifiers", "why_tests_cant": "the wrap-around counterexample sits at one pair out of 2^42", "anchors": ["src/identifier/numeric.rs: is_next_from, Ord"]}
{"id": "C07", "title": "Article identifiers survive their text forms", "statement": "Every article identifier (optional book number, number, optional letter) parses back to itself from its displayed form 2:15/A and from its compact form 2.15a.", "quantifier": "every article identifier", "why_tests_cant": "all books times numbers times suffixes", "anchors": ["src/identifier/article.rs: Display, FromStr, CompactString"]}
{"id": "C08", "title": "Article succession only moves forward", "statement": "If an article identifier is accepted as the follower of another one then it is strictly greater, and either the book stays the same or it goes up by exactly one and the article restarts at 1. (False in the code where the book or the number wraps from its maximum to 0.)", "quantifier": "every pair of article identifiers", "why_tests_cant": "needs all pairs including the wrap-around corner", "anchors": ["src/identifier/article.rs: is_next_from"]}
{"id": "C09", "title": "Paragraph and subpoint identifiers survive their text forms", "statement": "Every paragraph identifier, including the empty one, parses back from its printed form; every subpoint identifier made of plain letters (with or without prefix letter) parses back from its printed form.", "quantifier": "every paragraph identifier and every subpoint identifier over plain letters", "why_tests_cant": "quantifies over all identifiers", "anchors": ["src/identifier/paragraph.rs", "src/identifier/prefixed_alphabetic.rs"]}
{"id": "C10", "title": "Act identifiers survive both text forms", "statement": "The compact form year.number of every act identifier (any i16 year, any i32 number) parses back to it; the long form '2012. évi C. törvény' parses back to it. (The long form does not hold for years that do not have exactly four digits, and for numbers outside 1..3999 printing it panics.)", "quantifier": "every act identifier", "why_tests_cant": "the failing values are outside of the ranges used in tests", "anchors": ["src/identifier/act.rs: Display, FromStr, CompactString"]}
{"id": "C11", "title": "Identifier ranges survive their compact form", "statement": "For each identifier kind, the compact text of a single identifier or of a start-end range parses back to the same range, and an identifier is contained in a range exactly when it lies between the two ends in the identifier order.", "quantifier": "every range over every identifier kind", "why_tests_cant": "all pairs of identifiers", "anchors": ["src/identifier/range.rs"]}
{"id": "C12", "title": "Roman numerals in headers round-trip", "statement": "For every number 1..3999 and letter suffix, a Title or Chapter header prints a Roman numeral text that parses back to the same identifier.", "quantifier": "every identifier with number 1..3999", "why_tests_cant": "whole table rather than samples", "anchors": ["src/structure.rs: StructuralElement::header_string, StructuralElementType::parse_identifier", "src/identifier/numeric.rs: from_roman, to_roman"]}
{"id": "C13", "title": "Hungarian ordinals round-trip", "statement": "For each number 0..100 the Hungarian ordinal word printed in lower case, upper case or capitalised parses back to the number, and no word denotes two numbers.", "quantifier": "every ordinal in the table, all three cases", "why_tests_cant": "collisions can occur between any two words of the table", "anchors": ["build.rs", "src/util/hun_str.rs: FromHungarianString, ToHungarianString"]}
{"id": "C14", "title": "References in hand are always well-formed", "statement": "Whatever sequence of builder calls is made, and whichever library operation produced it (building, parsing the compact form, range construction, parent, first/last of range, dropping the act, relative resolution), a Reference value has an allowed combination of parts (no article gap below an act, no subpoint without a point under an article, and so on) and has a range only in its last part; combinations outside of this are reported as errors.", "quantifier": "every sequence of builder calls and every composition of operations", "why_tests_cant": "operation sequences are unbounded", "anchors": ["src/reference/mod.rs", "src/reference/unchecked.rs", "src/reference/builder.rs"]}
{"id": "C15", "title": "Setting a part resets only what is below it", "statement": "After any sequence of builder calls, each part of the built reference is the one most recently set, unless a higher part has been set since, in which case it is absent.", "quantifier": "every sequence of builder calls", "why_tests_cant": "unbounded histories", "anchors": ["src/reference/builder.rs: set_part"]}
{"id": "C16", "title": "Compact references round-trip", "statement": "The compact text of every well-formed reference parses back to an equal reference.", "quantifier": "every well-formed reference whose subpoints use plain letters", "why_tests_cant": "unbounded combination of parts and ranges", "anchors": ["src/reference/string.rs: CompactString for Reference"]}
{"id": "C17", "title": "Range construction yields exactly the two ends", "statement": "When making a range from two references succeeds, the first of the result is the first of the start, the last of the result is the last of the end, and all parts above the ranged one are shared by both; making a range of a reference with itself gives the reference back; references in different acts are always rejected.", "quantifier": "every pair of references", "why_tests_cant": "all pairs", "anchors": ["src/reference/mod.rs: make_range, first_in_range, last_in_range"]}
{"id": "C18", "title": "A range reference contains its own parts and everything in between", "statement": "Containment of references is reflexive, a made range contains both of its arguments (false in the code if it is made backwards), a range contains exactly what lies between its two ends at its level, however deep, and a reference contains everything whose first and last lie between its own first and last.", "quantifier": "every pair of references", "why_tests_cant": "quantifies over all references", "anchors": ["src/reference/mod.rs: contains"]}
{"id": "C19", "title": "Parents contain their children", "statement": "The parent of a reference has exactly the parts of the reference except the last one, contains the reference and is recognised as its parent (false in the code for references to whole acts); taking parents repeatedly reaches the empty reference in at most five steps.", "quantifier": "every well-formed reference", "why_tests_cant": "iterated operation over all references", "anchors": ["src/reference/mod.rs: parent, is_parent_of"]}
{"id": "C20", "title": "Parent test means ancestor", "statement": "One reference is reported as the parent of another exactly when it is a proper prefix of it, that is they agree on all parts of the first one and the second one has more. (False in the code: 1. § a) pont is reported as a parent of 1. § (2) bekezdés.)", "quantifier": "every pair of well-formed references", "why_tests_cant": "counterexample needs a skipped level", "anchors": ["src/reference/mod.rs: is_parent_of"]}
{"id": "C21", "title": "Relative references resolve to the given position", "statement": "Resolving a reference relative to a base keeps all parts of the reference, takes every higher part from the base, leaves an empty reference equal to the base, does not change a reference that names an act, and gives the same result when resolved twice against the same base.", "quantifier": "every pair of references", "why_tests_cant": "all pairs of shapes (32 x 32) with arbitrary contents", "anchors": ["src/reference/mod.rs: relative_to"]}
{"id": "C22", "title": "First and last of a range are single references", "statement": "The first and the last of any reference contain no range, differ from the reference only in ranged parts, are idempotent, and are equal for a range-free reference.", "quantifier": "every reference", "why_tests_cant": "all references", "anchors": ["src/reference/mod.rs: first_in_range, last_in_range"]}
{"id": "C23", "title": "Slicing lines slices their text", "statement": "Slicing a line by character positions (including negative positions counted from the end) returns precisely the characters in that window, keeps their bold flags, and places the first character at the same horizontal position as in the original line; slices at out-of-range positions are clamped and never fail.", "quantifier": "every line and every pair of positions", "why_tests_cant": "all lines and all integer positions", "anchors": ["src/util/indentedline.rs: slice, convert_index, indent_at"]}
{"id": "C24", "title": "Cutting and gluing a line is lossless", "statement": "Cutting a line at any position and gluing the pieces gives back the same characters at the same horizontal positions with the same bold flags; gluing lines concatenates their texts.", "quantifier": "every line, every cut position, every list of lines", "why_tests_cant": "unbounded lists", "anchors": ["src/util/indentedline.rs: from_multiple, slice"]}
{"id": "C25", "title": "Byte slicing never fails on character boundaries", "statement": "Slicing a line by a byte range that lies on character boundaries returns the text in that byte range. (False in the code when the range starts at the end of the text: that call panics.)", "quantifier": "every line and byte range", "why_tests_cant": "multi-byte characters and end position", "anchors": ["src/util/indentedline.rs: slice_bytes"]}
{"id": "C26", "title": "Joining lines only adds spaces", "statement": "Joining lines into text keeps every character of every line in order; the only characters added are single spaces between two non-empty pieces, and no space is added after a hyphen unless the next line starts with the word és or vagy; empty lines have no effect.", "quantifier": "every list of lines", "why_tests_cant": "unbounded lists", "anchors": ["src/util/indentedline.rs: append_to, join"]}
{"id": "C27", "title": "Header recognition splits a line without losing text", "statement": "When a header is recognised at the start of a line, the identifier is the parsed value of the matched text, the rest is a suffix of the line with unchanged characters and horizontal positions, and the rest does not start with any of the excluded words. (Recognition panics where the rest is empty.)", "quantifier": "every line", "why_tests_cant": "all lines", "anchors": ["src/util/indentedline.rs: parse_header"]}
{"id": "C28", "title": "Quote nesting is accepted exactly when balanced", "statement": "Feeding lines to the quote checker succeeds exactly if after every line the number of opening quotes so far is at least the number of closing quotes, and the final check succeeds exactly if they are equal; a line's beginning counts as quoted exactly if the quotes before it are not balanced.", "quantifier": "every list of lines", "why_tests_cant": "unbounded lists", "anchors": ["src/util/mod.rs: QuoteCheck"]}
{"id": "C29", "title": "A fixup changes exactly the intended line", "statement": "Applying a fixup to a document either fails and there is not exactly one place where the context lines followed by the old line occur (or the fixup is a no-op), or it succeeds, there was exactly one such place, that line's text becomes the new text (bold if requested) and all other lines stay as they were.", "quantifier": "every document and every fixup", "why_tests_cant": "all documents", "anchors": ["src/fixups.rs: Fixup::apply, apply_to_line"]}
{"id": "C30", "title": "A fixed-up line keeps unchanged characters in place", "statement": "In a fixed-up line the common prefix of the old and new text keeps its horizontal positions and bold flags, and so do the characters of the common suffix after it; the whole text of the line is the new text.", "quantifier": "every line and replacement", "why_tests_cant": "all lines and replacement texts", "anchors": ["src/fixups.rs: apply_to_line"]}
{"id": "C31", "title": "Fixups apply in order and stop at the first failure", "statement": "Applying a list of fixups equals applying them one after the other, each seeing the result of the earlier ones; if one fails the whole call fails.", "quantifier": "every list of fixups", "why_tests_cant": "unbounded lists", "anchors": ["src/fixups.rs: Fixups::apply"]}
{"id": "C32", "title": "Edited text is reproduced by the generated fixups", "statement": "If the interactive editor turns an edited copy of the act into fixups, then loading and applying these fixups to the original text succeeds and gives exactly the edited lines (with the bold marker removed); the number of lines never changes; the generation always terminates.", "quantifier": "every original and edited document", "why_tests_cant": "needs all documents, with repeated lines and overlapping contexts", "anchors": ["src/bin/hun_law/fixup_editor.rs: update_fixups", "src/fixups.rs"]}
{"id": "C33", "title": "Structure parsing never accepts unbalanced quotes", "statement": "If parsing the structure of an act succeeds then the quotes of its body are balanced and no closing quote precedes its opening one; and no line that begins inside a quote starts an article, a structural element or a subtitle. (The order is false in the code within one line: quotes are only counted at line ends.)", "quantifier": "every act body", "why_tests_cant": "unbounded line lists", "anchors": ["src/parser/structure/act.rs: parse_complex_body"]}
{"id": "C34", "title": "Article numbers are consecutive", "statement": "In every successfully parsed act the first article is number 1 (1 or book:1) and each article is the follower of the previous one, no matter what other elements are between them.", "quantifier": "every act body", "why_tests_cant": "unbounded sequences", "anchors": ["src/parser/structure/article.rs: try_create_from_header", "src/parser/structure/act.rs"]}
{"id": "C35", "title": "Lists of subelements are consecutively numbered", "statement": "In every parsed list of paragraphs, points or subpoints the first identifier is the first of its kind (or the one demanded by the amendment), every further one is the follower of the previous one, there are at least two elements when the list was detected inside of another element, and lettered subpoints carry their parent's letter as prefix.", "quantifier": "every parsed element at every depth", "why_tests_cant": "recursive structure of unbounded width", "anchors": ["src/parser/structure/sae.rs: extract_multiple, parse, parse_and_check_header"]}
{"id": "C36", "title": "No text is lost by the structure parser", "statement": "Ignoring spaces, the text of a parsed element (its header text, intro, children in order and wrap-up) is exactly the text of the lines that it was parsed from.", "quantifier": "every list of lines that parses", "why_tests_cant": "a statement about all inputs with recursive backtracking", "anchors": ["src/parser/structure/sae.rs", "src/parser/structure/article.rs", "src/parser/structure/act.rs"]}
{"id": "C37", "title": "Quoted blocks keep the quoted lines", "statement": "When a quoted block section is recognised, the lines of each block are the lines between its opening and closing quote without the two quote characters, nothing is lost but the delimiters, and the quotes inside each block are balanced. and each closing quote inside it comes after its opening one. (The latter is false in the code: the quote ending a block need not be the partner of the one opening it.)", "quantifier": "every list of lines", "why_tests_cant": "state machine over unbounded input", "anchors": ["src/parser/structure/quote.rs"]}
{"id": "C38", "title": "Structure parsing never crashes", "statement": "For every act body parsing either returns a result or reports an error; it does not panic. (False in the code: an article that consists of a title only panics.)", "quantifier": "every act body", "why_tests_cant": "absence of a crash over all inputs", "anchors": ["src/parser/structure/article.rs: finish", "src/parser/structure/sae.rs"]}
{"id": "C39", "title": "Structural headers are recognised as printed", "statement": "Every book, part, title and chapter header line printed by the library is recognised as a header of the same type and number (for numbers in the supported range and no letter suffix for books and parts).", "quantifier": "every structural element in range", "why_tests_cant": "whole tables", "anchors": ["src/parser/structure/structural_element.rs", "src/structure.rs: header_string"]}
{"id": "C40", "title": "Removing double empty lines is safe", "statement": "After removing double empty lines no two adjacent lines are empty, all non-empty lines are kept in order, and doing it again changes nothing.", "quantifier": "every act body", "why_tests_cant": "unbounded lists", "anchors": ["src/parser/mk_act_section.rs: remove_double_empty_lines"]}
{"id": "C41", "title": "Extracted acts consist of gazette lines", "statement": "Each act extracted from a gazette has as its body a subsequence of the gazette lines in order; the bodies of different acts come from disjoint consecutive regions; the identifier is the one in its header line, and lines outside of the acts section never end up in an act.", "quantifier": "every gazette", "why_tests_cant": "state machine over unbounded input", "anchors": ["src/parser/mk_act_section.rs: ActExtractor, parse_mk_pages_into_acts"]}
{"id": "C42", "title": "Walking visits every element exactly once in document order", "statement": "Walking an act calls enter and exit exactly once for every paragraph, point and subpoint, in document order, properly nested, with the full reference of the element, and does not enter quoted blocks or block amendments; an error from a visitor stops the walk at once.", "quantifier": "every act and visitor", "why_tests_cant": "trees of unbounded size", "anchors": ["src/util/walker.rs", "src/reference/to_element.rs"]}
{"id": "C43", "title": "Visited positions are well-formed absolute references", "statement": "The position reported for an element names the act, the article and then exactly the identifiers on the path to the element.", "quantifier": "every act whose lettered subpoints are well placed", "why_tests_cant": "trees of unbounded size", "anchors": ["src/util/walker.rs", "src/reference/mod.rs: relative_to"]}
{"id": "C44", "title": "Abbreviation lookups return the latest definition", "statement": "After any sequence of additions an abbreviation resolves to the act it was last defined as; unknown abbreviations give an error; the changed flag is set exactly if some addition altered the mapping.", "quantifier": "every sequence of additions", "why_tests_cant": "unbounded histories", "anchors": ["src/parser/semantic_info/abbreviation.rs: AbbreviationCache"]}
{"id": "C45", "title": "Abbreviations are found greedily in list order", "statement": "The abbreviation recognised at a position is the first in the known list that is a prefix of the text; if none is, recognition fails. The known list is the supplied list followed by abbreviations introduced in the parsed text (\"a továbbiakban: X)\"), in the order they were recognised.", "quantifier": "every list and text", "why_tests_cant": "all lists; shadowing", "anchors": ["hun_law_grammar/src/lib.rs: parse_abbreviation, store_abbreviation"]}
{"id": "C46", "title": "Outgoing references point into the element's text", "statement": "Every outgoing reference reported for an element has a byte range with start < end that lies inside of the element's own text. (False in the code: where a full stop is appended for parsing, a reference may end one byte after the text.)", "quantifier": "every text, prefix and suffix, every grammar result", "why_tests_cant": "depends on arbitrary surrounding context", "anchors": ["src/parser/semantic_info/sae.rs: extract_semantic_info, assemble_to_be_parsed_text, adjust_outgoing_reference"]}
{"id": "C47", "title": "Context stack is restored", "statement": "While semantic information is added, the context used for an element is exactly the concatenation of the intros of its ancestors before it and of their wrap-ups (innermost first) after it, and after the walk nothing is left on the context stack.", "quantifier": "every act", "why_tests_cant": "trees of unbounded size and depth", "anchors": ["src/parser/semantic_info/sae.rs: SemanticInfoAdder"]}
{"id": "C48", "title": "Outgoing reference lists are ordered and disjoint", "statement": "The references made from a text are in text order with non-overlapping byte ranges. They are exactly those the text means: one for each listed alternative, each of which carries over the higher parts of the preceding one; the list is an error exactly if an identifier cannot be read, an abbreviation is unknown or a reference has no proper form.", "quantifier": "every text the grammar can parse, every set of known abbreviations", "why_tests_cant": "unbounded part lists", "anchors": ["src/parser/semantic_info/reference.rs: OutgoingReferenceBuilder"]}
{"id": "C49", "title": "A block amendment position covers all its references", "statement": "The position of a converted block amendment contains every reference found in the amendment phrase; phrases without any reference below the act give an error.", "quantifier": "every list of references", "why_tests_cant": "unbounded lists", "anchors": ["src/parser/semantic_info/block_amendment.rs: convert_block_amendment"]}
{"id": "C50", "title": "Text amendments are the product of places and replacements", "statement": "Converting a text amendment gives exactly one entry for each pair of amended place and replacement, in order; a repeal of texts gives the same with empty replacement.", "quantifier": "every list of places and replacements", "why_tests_cant": "unbounded lists", "anchors": ["src/parser/semantic_info/text_amendment.rs", "src/parser/semantic_info/repeal.rs"]}
{"id": "C51", "title": "Block amendment conversion only touches quoted blocks", "statement": "Converting block amendments changes only paragraphs which consist of exactly one quoted block and whose phrase is an amendment; it keeps the intro and wrap-up of the block; on failure the paragraph's block intro has been moved out but nothing else in other paragraphs changes after the failing one.", "quantifier": "every act", "why_tests_cant": "trees of unbounded size", "anchors": ["src/parser/structure/block_amendment.rs"]}
{"id": "C52", "title": "Splitting text at references loses nothing", "statement": "Splitting a text at its outgoing references gives pieces whose concatenation is the text, with every reference's range being precisely one highlighted piece, if the ranges are ordered, disjoint and on character boundaries.", "quantifier": "every text and ordered list of ranges", "why_tests_cant": "unbounded lists", "anchors": ["src/output/text.rs: split_string_at_references"]}
{"id": "C53", "title": "Line assembly keeps every glyph", "statement": "Assembling positioned characters to lines keeps every character once, in order of decreasing y and then increasing x, adds only single spaces inside of lines and empty lines between them, and no assembled line starts or ends with a space.", "quantifier": "every list of characters with finite coordinates", "why_tests_cant": "unbounded lists", "anchors": ["src/parser/pdf/page_of_lines.rs"]}
{"id": "C54", "title": "Sorting comparator is a valid order", "statement": "The comparator used to sort characters is a consistent order. (False in the code: equal coordinates compare as greater in both directions.)", "quantifier": "every pair of coordinates", "why_tests_cant": "all pairs", "anchors": ["src/parser/pdf/util.rs: compare_float_for_sorting"]}
{"id": "C55", "title": "Gazette cache returns complete downloads", "statement": "A download is answered from the cache if and only if the cache file exists, otherwise the network is asked once and the body is stored; an answer from the cache is the complete body of an earlier download, even when the program is killed at any point. (False in the code: the cache file is written in place, so a crash may leave a truncated file that is later returned.)", "quantifier": "every history of downloads and crash points", "why_tests_cant": "crash points cannot be enumerated by tests", "anchors": ["src/mk_downloader.rs: download_mk_issue"]}
{"id": "C56", "title": "Gazette issue names are unambiguous", "statement": "Issue descriptors YEAR/ISSUE parse to the two numbers and are rejected in any other form; the cache file is named by the year and the number without padding, the address by the last two digits of the year and the number padded to three characters; different issues have different cache files; the download address determines the issue for years of the same century and issues up to 999.", "quantifier": "every string and every issue", "why_tests_cant": "all strings", "anchors": ["src/mk_downloader.rs: MkIssue"]}
{"id": "C57", "title": "What may begin and continue a numbered list", "statement": "Only a, 1, article 1 (or 1:1) and paragraph (1) may begin a list, and a subpoint may begin one only with the letter a. A subpoint follows another only under the same prefix letter, a paragraph only where both are numbered, an article only within its book or as the first article of the next book.", "quantifier": "every pair of identifiers of each kind", "why_tests_cant": "quantifies over all identifiers of all kinds", "anchors": ["src/identifier/mod.rs: IdentifierCommon", "src/identifier/prefixed_alphabetic.rs: is_first, is_next_from", "src/identifier/paragraph.rs: is_first, is_next_from", "src/identifier/article.rs: is_first, is_next_from"]}
{"id": "C58", "title": "An unedited editor file adds no fixups", "statement": "If the user opens the fixup editor and leaves the file as it is, no fixup is generated, whatever the indentation of the lines and the quote levels shown in front of them.", "quantifier": "all act bodies that the editor accepts (with up to 9999 quotation marks), all existing fixup lists", "why_tests_cant": "Depends on the width of the level column and the indentation of every line of the act; tests use a handful of short lines.", "anchors": ["src/bin/hun_law/fixup_editor.rs: run_fixup_editor, update_fixups", "src/output/mod.rs: quick_display_indented_line"]}
{"id": "C59", "title": "Fixed-up lines stay in reading order", "statement": "If the characters of a line are in order of their horizontal positions, they still are after a fixup changed its text.", "quantifier": "all lines with non-decreasing positions, all fixups that apply to them", "why_tests_cant": "The inserted characters are squeezed between neighbours by a case analysis on prefix, suffix and emptiness; tests cover single examples.", "anchors": ["src/fixups.rs: Fixup::apply_to_line"]}
{"id": "C60", "title": "An interactive editing round can be replayed", "statement": "Fixups saved by an interactive round (the loaded ones and the new ones) apply to the act in the next run and give the edited text. (False in the code: the editor shows the text after doubled empty lines were removed, but all fixups are applied before that.)", "quantifier": "all act bodies, all loaded fixups, all edits", "why_tests_cant": "Needs a history of two rounds in which an earlier fixup empties a line next to an empty line.", "anchors": ["src/bin/hun_law/main.rs: process_single_act_interactive, process_single_act", "src/bin/hun_law/fixup_editor.rs: run_fixup_editor", "src/parser/mk_act_section.rs: ActRawText::remove_double_empty_lines"]}
{"id": "C61", "title": "Every act of a gazette is found", "statement": "If the acts section of a gazette consists of acts that begin with an empty line and a title line, have a subject that ends with an asterisk and end with the signatures, all of them are extracted with exactly these texts. (False in the code: an even number of empty lines before a title makes the extractor miss the act.)", "quantifier": "all gazettes", "why_tests_cant": "The extractor is a state machine over all lines of a gazette; the lost acts depend on the parity of the number of empty lines.", "anchors": ["src/parser/mk_act_section.rs: ActExtractor::wait_for_header, wait_for_header_newline, parse_mk_pages_into_acts"]}
{"id": "C62", "title": "Hungarian dates are read exactly", "statement": "Every date of the calendar written as in the gazettes (2021. május 7.) is read as that date, whatever follows it; anything read is a real calendar date and the text has its year, the name of its month and its day.", "quantifier": "all texts, all dates with a four digit year", "why_tests_cant": "All dates and all continuations of the text.", "anchors": ["src/util/hun_str.rs: FromHungarianString for NaiveDate, text_to_month_hun"]}
{"id": "C63", "title": "Characters of assembled lines keep their positions", "statement": "The characters of the lines assembled from a PDF page, other than spaces, are precisely the characters drawn on the page, and the positions stored in the lines put every one of them to the horizontal position where it was drawn, with the boldness it was drawn with.", "quantifier": "every sequence of characters drawn on a page", "why_tests_cant": "positions of arbitrary characters in arbitrary order and overlap; tests look at a few indents", "anchors": ["src/parser/pdf/page_of_lines.rs: consolidate_line"]}
{"id": "C64", "title": "Act bodies are divided at headers and nowhere else", "statement": "In a successfully parsed act body the lines before the first header outside quotes are the preamble; a child starts exactly at each line outside quotes that is a structural header, a bold subtitle line, or the header of the article following the last one; each child is what the grammar of paragraphs, points, subpoints and quoted blocks says of its lines; identifier, subject and date are those of the raw text; an amendment has no preamble and no subtitle is longer than 1500 bytes.", "quantifier": "every act body and amendment that parses", "why_tests_cant": "all sequences of lines with arbitrary interleaving of headers and quotes", "anchors": ["src/parser/structure/act.rs: parse_act_structure, parse_complex_body", "src/parser/structure/sae.rs", "src/parser/structure/article.rs"]}
{"id": "C65", "title": "Adding semantic information changes nothing else", "statement": "Adding semantic information to an act changes only the semantic information of its elements and the act's abbreviations; texts, identifiers, order, structure and everything else stay as they were, also when it fails, and a failure leaves the abbreviations as they were.", "quantifier": "every act", "why_tests_cant": "trees of unbounded size and depth, failure at any element", "anchors": ["src/parser/semantic_info/mod.rs: Act::add_semantic_info", "src/parser/semantic_info/sae.rs: SemanticInfoAdder"]}
{"id": "C66", "title": "A pass without new abbreviations is final", "statement": "If adding semantic information to an act reports that the abbreviations did not change, then doing it again succeeds, gives exactly the same act and reports no change.", "quantifier": "every act", "why_tests_cant": "all acts and all abbreviation tables", "anchors": ["src/parser/semantic_info/mod.rs: Act::add_semantic_info, AbbreviationsChanged", "src/parser/semantic_info/abbreviation.rs: AbbreviationCache"]}
{"id": "C67", "title": "A repeal repeals exactly the listed elements", "statement": "A repeal phrase without quoted texts gives one repealed place for each element meant by the phrase, in order, or the whole act if the phrase names no element. It is an error exactly if a place cannot be read or is not a whole element (an introduction, a closing part or an article title).", "quantifier": "every text that parses as a repeal", "why_tests_cant": "unbounded lists of places", "anchors": ["src/parser/semantic_info/repeal.rs: convert_repeal, convert_element_repeal"]}
{"id": "C68", "title": "An enforcement date is for exactly the listed places", "statement": "An enforcement date phrase gives the references and structural positions meant by it, in order; it is the default date of the act exactly if the phrase lists no place; and the calendar dates in it exist.", "quantifier": "every text that parses as an enforcement date", "why_tests_cant": "unbounded lists of places, every date", "anchors": ["src/parser/semantic_info/enforcement_date.rs: convert_enforcement_date, convert_date"]}
{"id": "C69", "title": "Converted amendments keep the quoted text", "statement": "Ignoring spaces, the text of a converted amendment (headers, intros, children, wrap-ups in order) is exactly the text of the lines of the quoted block it was made from; only the header of the article in front of amended paragraphs is left out.", "quantifier": "every paragraph with a quoted block and an amendment phrase", "why_tests_cant": "texts of unbounded length and every kind of amendment", "anchors": ["src/parser/structure/block_amendment.rs: convert_simple_block_amendment, convert_structural_block_amendment"]}
{"id": "C70", "title": "A converted amendment has the elements the phrase names", "statement": "The paragraphs, points, subpoints or articles of a converted amendment are consecutively numbered, begin with the first one the phrase names and end with the last one it names. (The end is false in the code: it is never checked.)", "quantifier": "every paragraph with a quoted block and an amendment phrase", "why_tests_cant": "unbounded lists of elements", "anchors": ["src/parser/structure/block_amendment.rs: convert_simple_block_amendment, convert_articles"]}
{"id": "C71", "title": "Amendment conversion never crashes", "statement": "Converting the block amendments of a parsed act with semantic information returns a result or reports an error; it does not panic. (False in the code: an amended article that has a title only panics.)", "quantifier": "every act", "why_tests_cant": "every text", "anchors": ["src/parser/structure/block_amendment.rs"]}
{"id": "C72", "title": "Lines do not depend on the order of drawing", "statement": "Two pages on which the same characters are drawn in different orders give the same lines, whatever the sorting routine does with characters that compare as equal, if no two different characters of one row have the same horizontal position.", "quantifier": "every page, every permutation of its characters and every unstable sorting routine", "why_tests_cant": "PDF writers may draw in any order, and an unstable sort may leave equal keys in any order", "anchors": ["src/parser/pdf/page_of_lines.rs"]}
{"id": "C73", "title": "Only visible text of the page is collected", "statement": "Every character of a parsed PDF page is not white space, lies inside the crop box and has the repaired Hungarian letter; the file gives one list of lines per page, showing the rows of these characters.", "quantifier": "every file, page, crop box, font and sequence of drawing operations", "why_tests_cant": "unbounded programs of drawing operations, nested forms", "anchors": ["src/parser/pdf/collector.rs, src/parser/pdf/mod.rs: parse_pdf"]}
{"id": "C74", "title": "Bold means a bold font", "statement": "A character is reported as bold exactly if the name of the font in effect where it is drawn says bold. (False in the code: restoring a saved state restores the font but not the boldness.)", "quantifier": "every sequence of drawing operations", "why_tests_cant": "all histories of setting, saving and restoring fonts", "anchors": ["src/parser/pdf/page.rs: handle_op", "src/parser/pdf/collector.rs: font_changed"]}
{"id": "C75", "title": "Pages are read independently", "statement": "The lines of a page do not depend on the other pages of the file. (False in the code: converted fonts are cached by the memory address of a font object that may have been freed.)", "quantifier": "every file with any number of pages", "why_tests_cant": "needs address reuse by the allocator", "anchors": ["src/parser/pdf/font.rs: FontCache"]}
{"id": "C76", "title": "The font's map to Unicode wins", "statement": "If the font's map to Unicode has an entry for a code, the code is read as this entry. (False in the code: a difference with an unknown glyph name hides a single-character entry.)", "quantifier": "every font and code", "why_tests_cant": "all fonts", "anchors": ["src/parser/pdf/font.rs: add_mapping, to_unicode"]}
{"id": "C77", "title": "Codes without an entry are read by the encoding", "statement": "A code without an entry in the map to Unicode is read by the differences, then by the base encoding. (False in the code for the code 255 of base encodings.)", "quantifier": "every font and code", "why_tests_cant": "all fonts", "anchors": ["src/parser/pdf/font.rs: process_encoding"]}
{"id": "C78", "title": "Drawing a form leaves the text state alone", "statement": "Drawing a form leaves the text state, the saved states and the resources as they were. (False in the code for forms with unbalanced saves.)", "quantifier": "every file, form and nesting", "why_tests_cant": "unbounded nesting of forms", "anchors": ["src/parser/pdf/page.rs: handle_xobject"]}
{"id": "C79", "title": "Rendering a page does not crash", "statement": "Rendering a page returns characters or reports an error. (False in the code: a form that draws itself overflows the stack.)", "quantifier": "every file and page", "why_tests_cant": "unbounded nesting of forms", "anchors": ["src/parser/pdf/page.rs: handle_xobject"]}
{"id": "C80", "title": "Replacement text replaces", "statement": "Where a span has a replacement text, the page gets this text in place of what is drawn in the span, once, at the place of the first drawn code. (False in the code for spans inside of each other.)", "quantifier": "every span and sequence of operations in it", "why_tests_cant": "all sequences", "anchors": ["src/parser/pdf/actual_text.rs", "src/parser/pdf/page.rs"]}
{"id": "C81", "title": "Text is where PDF says it is", "statement": "Drawing a text collects the characters of its codes at the positions given by the text state and the widths of the font, as PDF defines them, and moves the text position by the sum of the advances; it fails exactly if a code is unknown to the font.", "quantifier": "every text, text state and font", "why_tests_cant": "all numbers and lengths", "anchors": ["src/parser/pdf/textstate.rs", "src/parser/pdf/collector.rs: render_cid"]}
{"id": "C82", "title": "The printed act shows the whole act", "statement": "The plain text output of an act is its number, subject, preamble and the numbers, titles and texts of all its parts, in document order, if spaces and line breaks are not looked at.", "quantifier": "every act, line width and way of wrapping lines", "why_tests_cant": "unbounded nesting and lengths", "anchors": ["src/output/text.rs", "src/output/mod.rs"]}
{"id": "C83", "title": "Colouring only adds colour codes", "statement": "The coloured text output of an act is the plain one, if colour codes, spaces and line breaks are not looked at.", "quantifier": "every act and line widths", "why_tests_cant": "unbounded lists of references", "anchors": ["src/output/text.rs"]}
{"id": "C84", "title": "A parsed act can be printed", "statement": "The act that the parser gives for the text of an act, with semantic information and converted amendments, can be shown in lines of 50 characters or more without a crash. (False in the code: a reference can reach over the end of a text that has no full stop at its end.)", "quantifier": "every act text, wrapping and width of at least 50", "why_tests_cant": "all texts", "anchors": ["src/output/text.rs: split_string_at_references", "src/parser/semantic_info/sae.rs"]}
{"id": "C85", "title": "The output shows the structure by indentation", "statement": "Every line of the output is empty or begins with five spaces; the number of an element stands in front of its text at the indentation of its level, and all its other lines are deeper by one level, for articles by two.", "quantifier": "every act and every element at every level", "why_tests_cant": "unbounded nesting and lengths", "anchors": ["src/output/text.rs"]}
{"id": "C86", "title": "The output is not wider than asked", "statement": "No line of the plain output is longer than the given width. (False in the code for titles of acts, quoted lines and long numbers.)", "quantifier": "every act and width over 50", "why_tests_cant": "all lengths", "anchors": ["src/output/text.rs"]}
{"id": "C87", "title": "Lines written for tests can be read back", "statement": "A line that is written with testing tags and read back has the same text, boldness and justification, and lines with the same indentation stay so. (False in the code for the indentation of lines with less space than their tags need.)", "quantifier": "every line with a text that has no tags and double spaces", "why_tests_cant": "all texts and indentations", "anchors": ["src/output/mod.rs: quick_display_indented_line", "src/util/indentedline.rs: from_test_str"]}
{"id": "C88", "title": "Listings show every line", "statement": "The listing of pages and of act texts has a line for every line, in order, with its text after as many spaces as a fifth of its indentation, and the headings with page numbers or the number, title and date of the act.", "quantifier": "every list of pages and act", "why_tests_cant": "all lengths", "anchors": ["src/output/mod.rs"]}
{"id": "C89", "title": "Which issues are processed", "statement": "With --mk the program processes the issues named on the command line, in that order, with all their acts. Otherwise it processes the issues in which the first record of the table puts the acts named, each once and from the earliest to the latest. It refuses to run exactly if an argument is not an identifier, the table cannot be read or an act is not in it.", "quantifier": "all command lines, all tables", "why_tests_cant": "the set of issues depends on arbitrary arguments and records", "anchors": ["src/bin/hun_law/main.rs: get_issues", "src/mk_downloader.rs: MkIssue"]}
{"id": "C90", "title": "The exit status tells if the acts were written", "statement": "If the program ends with success, then every act named on the command line was processed without an error and written to its output; it ends with an error if some act could not be processed.", "quantifier": "all command lines, tables, issues, fixups and answers of the user", "why_tests_cant": "success is claimed after any combination of failures in downloading, parsing, processing and opening outputs", "anchors": ["src/bin/hun_law/main.rs: main"]}
{"id": "C91", "title": "Acts are independent of each other in a run", "statement": "What is written for an act is the same as if it was the only one: the failure of other acts or issues does not change it.", "quantifier": "all runs of the program", "why_tests_cant": "any number of acts and issues may fail in any order", "anchors": ["src/bin/hun_law/main.rs: main, process_single_act, get_output"]}
{"id": "C92", "title": "The program does not crash", "statement": "If nothing around the program crashes, the program ends with success or with an error message, for every command line and every issue.", "quantifier": "all command lines and gazette issues", "why_tests_cant": "crashes come from rare combinations of arguments and texts", "anchors": ["src/bin/hun_law/main.rs: main, get_issues", "src/identifier/act.rs: Display for ActIdentifier"]}
{"id": "C93", "title": "Interactive sessions write one result", "statement": "What an interactive session writes to the output of an act is what one attempt with the last fixups writes: nothing is left of the attempts that failed.", "quantifier": "all acts, all sequences of edits and answers of the user", "why_tests_cant": "sessions may have any number of rounds", "anchors": ["src/bin/hun_law/main.rs: process_single_act_interactive"]}
{"id": "C94", "title": "Each act has its own file", "statement": "Different acts (and different issues) are written to different files, directly in the directory given, and in the end the file of each act has what was made of this act.", "quantifier": "all runs of the program", "why_tests_cant": "all pairs of identifiers and all orders of acts", "anchors": ["src/bin/hun_law/main.rs: main, get_output", "src/identifier/act.rs: Display for ActIdentifier"]}
{"id": "C95", "title": "What is written for an act", "statement": "What is written for an act is the act as printed after exactly the steps asked for (fixups; structure; semantic information and block amendments): files in the plain format have the text without escape sequences, the terminal has the same text with them. The plain format for tests has no escape sequences even on the terminal, the coloured format has them in files too, and in the two data formats the act can be read back from what is written.", "quantifier": "all acts, fixups, arguments of the program", "why_tests_cant": "all combinations of arguments and acts", "anchors": ["src/bin/hun_law/main.rs: process_single_act, main"]}
{"id": "C96", "title": "A stored act is read back unchanged", "statement": "Every act that the program makes from a gazette (text to structure, semantic information, conversion of block amendments) can be stored as JSON or YAML and read back as exactly the same act: no identifier, reference, range, date, line, abbreviation or amendment changes, and different acts never have the same document.", "quantifier": "all gazettes, all acts in them, all acts with well-formed parts", "why_tests_cant": "the readers rely on untagged enums, defaults for missing fields and identifiers stored as text, so a loss depends on the combination of values; tests read back only a few acts", "anchors": ["src/structure.rs: Act, SubArticleElement, SAEBody, ParagraphChildren (Serialize, Deserialize)", "src/semantic_info.rs", "src/reference/unchecked.rs", "src/identifier/range.rs: IdentifierRangeSerdeHelper", "src/util/singleton_yaml.rs"]}
{"id": "C97", "title": "Only well-formed acts and references are read", "statement": "Whatever document is given to the reader, an act that is read has well-formed references only, dates that are in the calendar, and abbreviations in the order of their names; a document of a reference with parts that do not fit together or with a range in the wrong order is refused. An act that was read can be stored and read again without change.", "quantifier": "all documents", "why_tests_cant": "it is about all possible documents, also those which the program did not write", "anchors": ["src/reference/mod.rs: Reference (try_from = UncheckedReference)", "src/reference/unchecked.rs: TryFrom<UncheckedReference>", "src/structure.rs: Act"]}
{"id": "C98", "title": "Fixups are read back unchanged", "statement": "A list of fixups that is stored is read back as it was, also if fields with default values are left out of the document.", "quantifier": "all lists of fixups", "why_tests_cant": "combination of fields left out and texts of any form", "anchors": ["src/fixups.rs: Fixup"]}
{"id": "C99", "title": "The content of a line that is read is the text of its parts", "statement": "After reading a line, its content is the text of its parts and it is bold exactly if more than two thirds of its parts are bold.", "quantifier": "all documents of lines", "why_tests_cant": "the cached fields are stored beside the parts; documents in which they disagree are never in tests", "anchors": ["src/util/indentedline.rs: IndentedLine (Deserialize), from_parts"]}
{"id": "C100", "title": "Empty lines separate the parts of a printed act", "statement": "The text output of an act is a line with its number and subject, an empty line, the preamble, an empty line, and then its parts in order, with an empty line before every part, except for an article that follows another article or is the first part.", "quantifier": "all acts whose subject and quoted lines have no line break in them, all widths, all ways of wrapping text that only leave out blanks at line ends", "why_tests_cant": "The recorded outputs contain a few sequences of headings and articles; the property is about every sequence.", "anchors": ["src/output/text.rs: TextOutput for Act", "src/output/mod.rs: cli_output_plain"]}
{"id": "C101", "title": "Quoted lines keep their layout in the output", "statement": "The lines of a quoted block are shown between a line with the opening mark and a line with the closing mark, one line each, with their text unchanged, five spaces further to the right than the marks and one space more for every five units between the leftmost line and them.", "quantifier": "all quoted blocks with a leftmost line not further than 1000 units, all output parameters; all acts and all quoted blocks in their paragraphs", "why_tests_cant": "The layout depends on the positions of all lines of a block, which range over all numbers.", "anchors": ["src/output/text.rs: TextOutput for QuotedBlock"]}
{"id": "C102", "title": "References in the usual form are recognised", "statement": "When references are written in the usual form (the name of an act or its abbreviation, lists of articles, paragraphs, points and subpoints with their endings, joined with commas, és, vagy and so on) in ordinary text that announces no special phrase, exactly the references that are meant are found, and each is found at the bytes where it is written.", "quantifier": "all groups of references in the usual form of any length, all ordinary texts before and after them, all sets of known abbreviations that do not occur elsewhere in the text", "why_tests_cant": "The combinations of levels, lists, ranges, identifiers, endings and separators are unbounded; tests show some of them.", "anchors": ["hun_law_grammar/grammar.ebnf: CompoundReference, Reference, ListSeparator", "src/parser/semantic_info/reference.rs: FeedReferenceBuilder, GetOutgoingReferences"]}
{"id": "C103", "title": "Special phrases are recognised only in texts which announce them", "statement": "If the semantic information of an element has a special phrase (an amendment, a repeal or a date of coming into force), the text of the element, read together with the texts around it, has the words by which the law announces that kind of phrase: it begins with the words of the kind, contains its key words, and ends with its closing words and a colon or a period. A block amendment marked as an insertion ends with the words of an insertion, one that is not has the words of a replacement.", "quantifier": "all elements, all texts before and after them, all sets of known abbreviations", "why_tests_cant": "Tests show that some texts give a phrase; that no other text does is a statement about every text.", "anchors": ["src/parser/semantic_info/sae.rs: SemanticInfoAdder, extract_semantic_info", "hun_law_grammar/grammar.ebnf: Root"]}
{"id": "C104", "title": "Sentences about coming into force are read as written", "statement": "A sentence about coming into force in the usual form (\"Ez a törvény 2024. január 1-jén lép hatályba.\", \"A 3. § és az 5. § (2) bekezdése a kihirdetését követő nyolcadik napon lép hatályba, és 2024. december 31-én hatályát veszti.\") gives the enforcement date it states: the provisions, chapters, parts, titles, books and subtitles which are named, whether it is the default of the act, the date or the days after publication, and the date of the loss of force. Exceptions (\"– a (2) bekezdésben foglalt kivétellel –\") do not change this.", "quantifier": "all lists of references, of structural parts and of lists of subtitles in the usual form, all dates of the calendar, all numbers of days, all known abbreviations", "why_tests_cant": "The combinations of references, dates and forms of the sentence are unbounded; tests show some of them.", "anchors": ["hun_law_grammar/grammar.ebnf: EnforcementDate, Date, AfterPublication, DayInMonth, InlineRepeal", "src/parser/semantic_info/enforcement_date.rs: convert_enforcement_date, convert_date"]}
{"id": "C105", "title": "Amendments of chapters, parts, titles and subtitles are read as written", "statement": "A sentence in the usual form which replaces or inserts a part of the structure of an act (\"A … 2015. évi CXLIII. törvény III. Fejezet 12/A. alcíme helyébe a következő alcím lép:\", \"Az Szja. tv. a következő III/A. Fejezettel egészül ki:\") gives the amendment it states: the act, the book, the part which contains it, the part itself, whether only its title is meant, and whether it is inserted. If the sentence introduces an abbreviation for the act (\"(a továbbiakban: Kbt.)\"), that abbreviation with that act, and no other, becomes known.", "quantifier": "all acts and known abbreviations, all numbers and titles of parts, all words between the article and the act, all usual endings of the words and of the sentence", "why_tests_cant": "The combinations of acts, parts, endings and phrases are unbounded; tests show some of them.", "anchors": ["hun_law_grammar/grammar.ebnf: BlockAmendmentStructural, BlockAmendmentWithSubtitle, StructuralReference", "src/parser/semantic_info/block_amendment.rs: convert_structural_block_amendment, convert_subtitle_block_amendment", "src/parser/semantic_info/structural_reference.rs"]}
{"id": "C106", "title": "Amendments of articles, paragraphs, points and subpoints are read as written", "statement": "A sentence in the usual form which replaces provisions (\"A … 2015. évi CXLIII. törvény 3. § (2) és (3) bekezdése helyébe a következő rendelkezések lépnek:\") or inserts them (\"Az Szja. tv. 3. §-a a következő (2a) bekezdéssel egészül ki:\") gives the amendment it states: the act, the place from the first to the last of the provisions, the part of the structure the articles are in, and whether they are inserted. The references found are those of the act and of the provisions. If the sentence introduces an abbreviation for the act (\"(a továbbiakban: Kbt.)\"), that abbreviation with that act, and no other, becomes known.", "quantifier": "all acts and known abbreviations, all lists and ranges of articles, paragraphs, points and subpoints, all words between the article and the act, all usual endings of the words and of the sentence", "why_tests_cant": "The combinations of acts, lists, ranges, endings and phrases are unbounded; tests show some of them.", "anchors": ["hun_law_grammar/grammar.ebnf: BlockAmendment, InsertionReference, AmendmentSuffix, InsertionSuffix", "src/parser/semantic_info/block_amendment.rs: convert_block_amendment", "src/parser/semantic_info/reference.rs", "src/reference/mod.rs: make_range"]}
{"id": "C107", "title": "Amendments of words are read as written", "statement": "A sentence in the usual form which changes words of an act (\"A … 2015. évi CXLIII. törvény 3. § (2) bekezdésében és 5. § címében az „üzlet” szövegrész helyébe a „bolt” szöveg lép.\") gives every change in every place it names: provisions, their opening or closing words, headings of articles, parts of the structure, lists of subtitles and subtitles next to an article. The references found are those of the act and of the provisions. If the sentence introduces an abbreviation for the act (\"(a továbbiakban: Kbt.)\"), that abbreviation with that act, and no other, becomes known.", "quantifier": "all acts and known abbreviations, all lists of places of any length, all lists of changes with any words, all usual endings", "why_tests_cant": "The lists of places and changes, and the words in them are unbounded; tests show some of them.", "anchors": ["hun_law_grammar/grammar.ebnf: TextAmendment, TextAmendmentReference", "src/parser/semantic_info/text_amendment.rs"]}
{"id": "C108", "title": "Repeals are read as written", "statement": "A sentence in the usual form which repeals an act, parts of it, or words in those (\"Hatályát veszti a … 2015. évi CXLIII. törvény III. Fejezete és 12. §-a.\", \"Nem lép hatályba az Szja. tv. 3. §-a az „üzlet” szövegrész.\") gives the repeal it states: the whole act if no part is named, else exactly the named parts, or the removal of every one of the words from every one of the parts. The references found are those of the act and of the provisions. If the sentence introduces an abbreviation for the act (\"(a továbbiakban: Kbt.)\"), that abbreviation with that act, and no other, becomes known.", "quantifier": "all acts and known abbreviations, all lists of parts and words of any length, all usual endings", "why_tests_cant": "The lists of parts and words are unbounded; tests show some of them.", "anchors": ["hun_law_grammar/grammar.ebnf: Repeal, TextAmendmentReference", "src/parser/semantic_info/repeal.rs", "src/parser/semantic_info/text_amendment.rs"]}
{"id": "C109", "title": "Amendments of subtitles by their place are read as written", "statement": "A sentence in the usual form which replaces or inserts a subtitle by its place among the articles (\"A Btk. a 300. §-t megelőzően a következő alcímmel egészül ki:\", \"A Btk. 388/A. §-a és az azt megelőző alcím helyébe a következő alcím és rendelkezés lép:\") gives the amendment it states: the act, the book and the part of the structure it is in, the subtitle before or after the article or the one together with it, and whether it is inserted. The references found are those of the act and of the articles. If the sentence introduces an abbreviation for the act (\"(a továbbiakban: Kbt.)\"), that abbreviation with that act, and no other, becomes known.", "quantifier": "all acts and known abbreviations, all articles, all parts of the structure, all names of subtitles, all usual endings", "why_tests_cant": "The numbers, titles and the ways to combine them are unbounded; tests show some of them.", "anchors": ["hun_law_grammar/grammar.ebnf: BlockAmendmentWithSubtitle, ArticleRelativePosition, ReferenceWithSubtitle", "src/parser/semantic_info/block_amendment.rs: convert_subtitle_block_amendment"]}
{"id": "C110", "title": "Reading one article again touches only that article", "statement": "Act::add_semantic_info_to_article changes only the semantic information of the first article with the given identifier and, if it succeeds, the abbreviations of the act. What it stores is what is read out of the texts of that article in their order with the act's abbreviations. If there is no such article it reports an error and changes nothing. If the whole act was read before without new abbreviations, it changes nothing at all.", "quantifier": "all acts, all article identifiers", "why_tests_cant": "The acts, their articles and texts are unbounded, and the absence of any other change cannot be seen from samples.", "anchors": ["src/parser/semantic_info/mod.rs: Act::add_semantic_info_to_article", "src/structure.rs: Act::article_mut", "src/parser/semantic_info/sae.rs: SemanticInfoAdder"]}
{"id": "C111", "title": "Reading an act again and again comes to rest", "statement": "If Act::add_semantic_info is called as long as it reports that the abbreviations have changed, then the calls come to an end.", "quantifier": "all acts, all numbers of calls", "why_tests_cant": "It is about infinite sequences of calls and all acts.", "anchors": ["src/parser/semantic_info/mod.rs: Act::add_semantic_info, AbbreviationsChanged", "src/parser/semantic_info/abbreviation.rs: AbbreviationCache::add"]}
{"id": "C112", "title": "Running text gives exactly the references in it", "statement": "In a text with any number of groups of references, mentions of attachments (annexes), quotations, numbers, dates and words in brackets between ordinary words, the outgoing references found are exactly those of the groups, in the order of the text, each with the byte range of its own words. The numbers and points in mentions of attachments, other numbers and dates, and anything in quotation marks or in brackets, give no reference; a group which is not well formed gives none and does not affect the others.", "quantifier": "all texts of this form, of any length, with any abbreviations known", "why_tests_cant": "Texts are unbounded sequences of items which can affect each other: a longest-match reader may swallow a part of what follows, or lose the places of later items.", "anchors": ["hun_law_grammar/grammar.ebnf: ListOfSimpleExpressions, AttachmentReference, Quote, CompoundReference", "src/parser/semantic_info/reference.rs: GetOutgoingReferences for Root"]}
{"id": "C113", "title": "Gaps between words are measured with the space of the font in effect", "statement": "Every character of a text drawn on a PDF page is collected with the width of the space of the font which the page's operations put in effect, at the scale of the text; a quarter of the font size is used where the font does not say how wide its space is. (Words are split where the gap exceeds a share of this width.)", "quantifier": "all pages, fonts and sequences of operations before the text", "why_tests_cant": "Which font is in effect depends on the whole history of font changes, saves and restores of the page; any sequence is possible.", "anchors": ["src/parser/pdf/collector.rs: font_changed, render_character", "src/parser/pdf/page.rs: operator handling (save, restore, set font)"]}
{"id": "C114", "title": "The fixup editor shows the whole act and opens where the quotation goes wrong", "statement": "The file given to the editor has exactly one line for every line of the act, made of the number of quotations open after that line (in four places), the indentation (one space for every 5 points) and the text. The editor is opened at the first line with a closing quotation mark too many; if there is none, after the longest beginning of the act in which every quotation is closed.", "quantifier": "all bodies of acts", "why_tests_cant": "The levels and the place depend on all quotation marks of all lines before; there is no test of the editor.", "anchors": ["src/bin/hun_law/fixup_editor.rs: run_fixup_editor", "src/output/mod.rs: quick_display_indented_line", "src/util/mod.rs: QuoteCheck"]}
{"id": "C115", "title": "The structure of an act is exactly what its lines say", "statement": "The structure parser gives an act if and only if the lines of the text are one, and then it is that one. The lines are an act when quotes are right, every child begins at a line outside quotes that is a header of the right kind and with the following number, and no other such line is left in it. The lines of a paragraph, point or subpoint are its text when no list of points, subpoints or quoted blocks can begin at any line outside quotes; otherwise the children begin at the first line where they can, and the lines before are the intro. A list has at least two elements, numbered from the first on, and includes every line that can be the header of the following element. The same holds for articles and for articles in amendments. Lines are therefore at most one act.", "quantifier": "all texts of acts and amendments whose lines do not end with a space; that what is read is what the lines are also for all others", "why_tests_cant": "The statement is an equivalence over all sequences of lines; that a list is never missed is a claim about all texts that do not contain one.", "anchors": ["src/parser/structure/act.rs: parse_act_structure, parse_complex_body", "src/parser/structure/article.rs: ArticleParser::finish", "src/parser/structure/sae.rs: SAEParser::parse, extract_multiple", "src/parser/structure/quote.rs: QuotedBlockParser"]}
{"id": "C116", "title": "Printed references are read back", "statement": "When a reference is printed (Display) and the text is parsed, alone or in ordinary text, then exactly that reference is found in it, after the act alone if the reference has an act and more.", "quantifier": "all well-formed references, all ordinary texts around them", "why_tests_cant": "The combinations of levels, ranges and identifiers are unbounded.", "anchors": ["src/reference/string.rs: impl Display for Reference", "src/identifier/act.rs: impl Display for ActIdentifier", "hun_law_grammar/grammar.ebnf: CompoundReference", "src/parser/semantic_info/reference.rs: GetOutgoingReferences"]}
{"id": "C117", "title": "Acts that compare equal behave the same", "statement": "Comparing acts is an equivalence. Acts that compare equal differ at most in the layout of the lines quoted in them, they are printed the same, and reading them (adding semantic information to the act or to one article, converting the amendments) gives equal acts with the same result.", "quantifier": "all pairs of acts, all ways of printing, all articles", "why_tests_cant": "The comparison ignores most of the layout of lines, so there are unboundedly many different acts that are equal to a given one.", "anchors": ["src/util/indentedline.rs: impl PartialEq for IndentedLine", "src/structure.rs: #[derive(PartialEq)] of Act and its parts", "src/output/text.rs: TextOutput", "src/parser/semantic_info/mod.rs: Act::add_semantic_info", "src/parser/structure/block_amendment.rs: Act::convert_block_amendments"]}
{"id": "C118", "title": "Elements are empty exactly when nothing is left in them", "statement": "is_empty() of a paragraph, point or subpoint is true if and only if there is no text in it nor in any of the elements in it, recursively, and nothing is quoted in it.", "quantifier": "all paragraphs, points and subpoints, with amendments in them", "why_tests_cant": "The nesting and number of the elements is unbounded.", "anchors": ["src/structure.rs: SubArticleElement::is_empty", "src/structure.rs: trait ChildrenCommon", "src/structure.rs: BlockAmendment::is_empty, StructuralBlockAmendment::is_empty"]}
{"id": "C119", "title": "An instruction is not recorded as one about nothing", "statement": "If a sentence about coming into force, a change of words or a repeal is recorded as an instruction, then the instruction is about at least one part of an act or about the whole of one.", "quantifier": "all sentences in the usual form with lists of parts of any length, all known abbreviations", "why_tests_cant": "The lists of parts are unbounded, and every kind of part can be the only one.", "anchors": ["src/parser/semantic_info/enforcement_date.rs: convert_enforcement_date", "src/parser/semantic_info/text_amendment.rs: convert_text_amendment", "src/parser/semantic_info/repeal.rs: convert_repeal"]}
{"id": "C120", "title": "The colours of the coloured output say what is what", "statement": "On a terminal, in the coloured output of an act the references in the texts are cyan; the rest of the text is yellow if an instruction is recorded for it; the number of the act, the numbers of articles and subtitles are bold; parts, chapters and the notes around amendments are in italics; every other character is plain.", "quantifier": "all acts without escape characters in them that can be printed, all widths, all ways of wrapping lines", "why_tests_cant": "The size and nesting of the act, the number of the references and the places of the line breaks are unbounded; one escape sequence not closed would colour all that follows.", "anchors": ["src/output/text.rs: colorize_sae_string, split_string_at_references", "src/output/text.rs: TextOutputParams::colorize"]}
{"id": "C121", "title": "Silence is a yes", "statement": "The question of an interactive session, whether to fix an error in the editor, is answered with yes exactly by a line of white space only and by one that begins with y or Y (not after white space), and so at the end of the input, too; any other line is a no. A session goes on exactly while an attempt fails and the answer is yes. So an act that keeps failing is tried again without end if the input has ended and the editor leaves the fixups as they are.", "quantifier": "every line, act, list of fixups and number of rounds", "why_tests_cant": "all lines; the last part is about a run that does not end", "anchors": ["src/bin/hun_law/main.rs: confirm", "src/bin/hun_law/main.rs: process_single_act_interactive"]}
{"id": "C122", "title": "An amendment is exactly what its quoted lines say", "statement": "A quoted block becomes an amendment exactly if its lines are that amendment: a list of paragraphs, points or subpoints that begins with the first one announced (paragraphs perhaps after the header of their article); consecutive articles, beginning with the one announced, divided at article headers outside quotes; the title of an element, perhaps with its header; or articles and titles as in an act. So a block is at most one amendment, and the amendments of an act are converted exactly if every block which is announced is one.", "quantifier": "every paragraph, quoted block without trailing spaces, announcement, and act", "why_tests_cant": "both directions, for all lines, nestings and announcements", "anchors": ["src/parser/structure/block_amendment.rs: convert_block_amendments", "src/parser/structure/block_amendment.rs: convert_articles", "src/parser/structure/sae.rs: extract_multiple"]}
{"id": "C123", "title": "Amended titles are stored under what was announced", "statement": "An amendment of the title of a part, title or chapter alone is stored as one of the element that the sentence announces, with the title that is quoted.", "quantifier": "every paragraph with such an announcement and every quoted block", "why_tests_cant": "all lines and announcements", "anchors": ["src/parser/structure/block_amendment.rs: convert_title_only_se"]}
{"id": "C124", "title": "Forms are drawn as if they were written in place", "statement": "A page that draws forms gives the same characters and the same errors as the page where every form is replaced by its operations between a save and a restore, with the fonts of the form's own resources (or of where it is drawn, if it has none), and pictures are left out. Every page which is rendered without an error can be written like this, without drawing any object.", "quantifier": "every file, page and crop box, with forms of any nesting", "why_tests_cant": "all nestings of forms, all resources with clashing names, all histories of saves and restores", "anchors": ["src/parser/pdf/page.rs: handle_xobject", "src/parser/pdf/page.rs: render"]}
{"id": "C125", "title": "The day of a date is read whole", "statement": "A text is read as a date exactly if it begins with a year of four digits, the name of a month and a day of this month, and a further character that is not a digit follows.", "quantifier": "all texts and dates", "why_tests_cant": "all texts after the date, all characters that Unicode has for digits", "anchors": ["src/util/hun_str.rs: FromHungarianString for NaiveDate"]}
{"id": "C126", "title": "Compact references are read exactly as written", "statement": "A text is read as a reference exactly if it is five parts with underscores between them, each empty (and then missing) or the text of an act, articles, a range of paragraphs, points or subpoints, and the reference has no gaps and no range before its last part. Nothing else is read, so that no text that is not understood is taken for a missing part.", "quantifier": "all texts and all references", "why_tests_cant": "all texts, with signs, letters in both cases, ranges and missing parts in any combination", "anchors": ["src/reference/string.rs: from_compact_string", "src/util/compact_string.rs: Option", "src/identifier/range.rs: from_compact_string", "src/identifier/act.rs: from_compact_string", "src/identifier/article.rs: from_compact_string"]}
{"id": "C127", "title": "Output in JSON can be read back", "statement": "The text written in the JSON format, read by the rules of JSON, is the document of the act that was processed, and the act is read back from it; so different acts, raw acts and pages have different texts. The text is a single line without control characters, whatever characters are in the act.", "quantifier": "all documents, all acts, all characters in their texts", "why_tests_cant": "all texts with quotation marks, backslashes, control characters and any nesting of documents", "anchors": ["src/output/mod.rs: OutputFormat::Json", "src/structure.rs: Serialize", "src/parser/mk_act_section.rs: ActRawText", "src/parser/pdf/page_of_lines.rs: PageOfLines"]}
{"id": "C128", "title": "Notes about the last change can be read back", "statement": "The note about the last change of an element is read again as it was stored, and only notes with a date of the calendar and, if the cause is an amendment, with a well-formed reference are read.", "quantifier": "all notes and all documents", "why_tests_cant": "all dates, references and documents", "anchors": ["src/structure.rs: LastChange", "src/structure.rs: ChangeCause"]}
{"id": "C129", "title": "Documents have the published form", "statement": "The documents (YAML, JSON) of acts, raw acts, pages, fixups and notes about changes have exactly the documented names of fields and variants, in the documented order, each with its own value; optional fields are left out exactly when they are empty. So a file written by one version can be read by other programs that rely on these names, not only by the same code.", "quantifier": "all acts, raw acts, pages, lists of fixups and notes", "why_tests_cant": "a round trip in tests passes also when a name is changed in the writer and the reader together; samples of files do not show all variants at all places", "anchors": ["src/structure.rs", "src/semantic_info.rs", "src/reference/mod.rs", "src/reference/structural.rs", "src/parser/mk_act_section.rs", "src/fixups.rs", "src/util/indentedline.rs"]}
{"id": "C130", "title": "Abbreviations introduced in running text are recorded and used", "statement": "When running text names an act and introduces an abbreviation for it (… törvény (a továbbiakban: Kbt.)), exactly those abbreviations are recorded, each with its own act, in the order of the text, and they can name that act right away: a reference later in the same sentence that uses the new abbreviation is found, with the act it was introduced for. The other references of the text are found as if no abbreviation was introduced.", "quantifier": "all running text made of words, groups of references, introductions of abbreviations, attachments, quotations, numbers and brackets, of any length, with any earlier abbreviations", "why_tests_cant": "the grammar keeps state while it reads: an alternative that is given up leaves its abbreviations behind; tests cover a few sentences and mostly one abbreviation each", "anchors": ["hun_law_grammar/grammar.ebnf: ActReference, ActIdWithFromNowOn, ListOfSimpleExpressions", "hun_law_grammar/src/lib.rs: parse_abbreviation, store_abbreviation", "src/parser/semantic_info/abbreviation.rs: get_new_abbreviations", "src/parser/semantic_info/reference.rs: GetOutgoingReferences for Root"]}
{"id": "C131", "title": "The references of a whole act are those which are meant", "statement": "If the texts of an act, each with the intro and the wrap-up around it, are running text in the usual form, then reading the act succeeds. About each text exactly those references are recorded which are meant in it and end in it, at their places within it. The abbreviations introduced in a text are recorded there and name their acts in all later texts; the last meaning counts. In the end the act knows its earlier abbreviations and all that were introduced in it.", "quantifier": "all acts with any number of articles, paragraphs, points and subpoints, all running texts in the usual form, all abbreviations known before", "why_tests_cant": "the tests read single sentences, or compare a few acts with stored results; that the state carried from text to text (abbreviations, prefixes, postfixes) never mixes up texts is about all acts", "anchors": ["src/parser/semantic_info/mod.rs: Act::add_semantic_info", "src/parser/semantic_info/sae.rs: SemanticInfoAdder, extract_semantic_info, assemble_to_be_parsed_text, adjust_outgoing_reference", "src/parser/semantic_info/abbreviation.rs: AbbreviationCache, get_new_abbreviations", "src/parser/semantic_info/reference.rs: GetOutgoingReferences for Root", "hun_law_grammar/grammar.ebnf: ListOfSimpleExpressions"]}
{"id": "C132", "title": "The amendments, repeals and enforcement dates of a whole act are those which are said", "statement": "Let each text of an act, with the intro and the wrap-up around it, be running text, an amendment of provisions, of structural parts, of subtitles or of words, a repeal, or a sentence about coming into force, in the usual forms and without those parts of them which are lost or misread by C104 to C109. Then reading the act succeeds. About each text its references are recorded which end in it, the abbreviations it introduces, and the phrase which is meant. In an intro only phrases which announce a quoted block are recorded. An abbreviation introduced in any of the texts names its act in all later ones, and is known to the act in the end.", "quantifier": "all acts with any number of articles, paragraphs, points and subpoints, all texts in these forms, all abbreviations known before", "why_tests_cant": "the tests read single sentences, or compare a few acts with stored results; an amending sentence that uses an abbreviation introduced by any kind of earlier text, at any depth, is about all acts", "anchors": ["src/parser/semantic_info/mod.rs: Act::add_semantic_info", "src/parser/semantic_info/sae.rs: SemanticInfoAdder, extract_semantic_info", "src/parser/semantic_info/sae.rs: extract_special_phrase", "src/parser/semantic_info/abbreviation.rs: AbbreviationCache, get_new_abbreviations", "hun_law_grammar/grammar.ebnf: Root"]}
{"id": "C133", "title": "The amendments in a whole act are those which its sentences announce", "statement": "Let the texts of an act be in the forms of C132, and let every single quoted block of a paragraph be the amendment which the text before it announces, no line of it ending with a space and no header of an article standing inside quotes in it. Then the act is read and its block amendments are converted without error. In place of each such block there is the amendment of the announced provisions, structural part or title which the lines are. Blocks that are not announced, and the texts and points of paragraphs, stay as they were.", "quantifier": "all acts with any number of articles and paragraphs, all texts in these forms, all quoted blocks, all abbreviations known before", "why_tests_cant": "the tests compare a few acts with stored results; that reading a sentence and converting the block after it always fit together, with any abbreviations from any earlier text, is about all acts", "anchors": ["src/parser/semantic_info/mod.rs: Act::add_semantic_info", "src/parser/structure/block_amendment.rs", "src/parser/structure/block_amendment.rs: convert_block_amendments", "src/parser/structure/block_amendment.rs: convert_articles", "src/parser/structure/sae.rs: extract_multiple"]}
{"id": "C134", "title": "The data written about an act are those which its lines say", "statement": "Let the lines of an act be divided into a preamble, structural elements, articles, paragraphs, points and quoted blocks as in C115, none of them ending with a space. Let its texts be in the forms of C132, and let every announced block be the amendment announced, as in C133. Then processing these lines up to the last step succeeds and writes the JSON or YAML document of one act. This act has the identifier, subject and date of the raw act; its announced blocks are converted to the amendments which they are; the references, abbreviations and phrases recorded at each of its texts are those which the text tells; it knows the abbreviations introduced in it, with their last meaning. The act can be read back from the document.", "quantifier": "all raw acts, all lines in these forms, both data formats, all classifications of capital letters", "why_tests_cant": "the tests compare a few acts with stored results; that the steps of the pipeline always fit together is about all acts in these forms", "anchors": ["src/bin/hun_law/main.rs: process_single_act", "src/parser/structure/act.rs: parse_act_structure", "src/parser/semantic_info/mod.rs: Act::add_semantic_info", "src/parser/structure/block_amendment.rs: convert_block_amendments", "src/output/mod.rs: cli_output"]}
{"id": "C135", "title": "The text written about an act is what its lines say", "statement": "Let the lines of an act be as in C134. Let each of its texts be followed by a wrap-up, or end with one of . : ! ?, or have a connective or a comma or semicolon at its end. Let the number of the act be at most 3999 and the width at least 50. Then processing these lines up to the last step succeeds and writes a plain text. If blanks are not looked at, the text is the number, subject, preamble, and the numbers, titles and texts of all parts in order, of an act with the head of the raw one, of which the announced blocks are converted to the amendments which they are, and at the texts of which the references, abbreviations and phrases are recorded which they tell. (Without the condition about the ends of the texts the program can panic, see C84.)", "quantifier": "all raw acts, all lines in these forms, all widths from 50, all ways of wrapping lines that keep the words, all classifications of capital letters", "why_tests_cant": "the tests compare the output of a few acts with stored text; that no act in these forms makes the printing fail or lose a text is about all of them", "anchors": ["src/bin/hun_law/main.rs: process_single_act", "src/output/mod.rs: cli_output", "src/parser/structure/act.rs: parse_act_structure", "src/parser/semantic_info/mod.rs: Act::add_semantic_info", "src/parser/structure/block_amendment.rs: convert_block_amendments"]}
