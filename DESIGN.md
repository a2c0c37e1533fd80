# Formal model of hun_law_rs: design

The model is written in Lean 4 under `lean/Verif`. It mirrors the Rust code in `/repo` function by
function; every definition cites the file and lines it models.

Layout:

* `Verif/Model/*.lean`  - the executable model (what the code does),
* `Verif/Spec/*.lean`   - small, independent specifications (what a user expects),
* `Verif/Lemmas/*.lean` - helper lemmas,
* `Verif/Props/*.lean`  - the property theorems, each with examples showing that its hypotheses are met,
* `conformance/`        - runs the model on the recorded test data of `/repo` (see below),
* `seeded/LOG.jsonl`    - wrong programs the theorems were tried against,
* `AXIOMS.txt`          - the axioms of every theorem in MANIFEST.json, as printed by `#print axioms`.

## Modelling conventions

* Rust `String`/`&str` is a list of Unicode scalar values (`List Char`, called `Str`); byte offsets are
  computed with the UTF-8 length of each character where the code uses byte offsets.
* `u8`/`u16` are `Fin 256`/`Fin 65536` with explicit wrap-around arithmetic; `i16`/`i32` are integers in range.
* `f64` and `f32` are exact rationals (no rounding, no infinities, no NaN).
* `Result` is data; a reachable panic (failed `unwrap`, index out of range, slice off a char boundary,
  subtraction below zero, stack overflow by endless recursion in rendering) is an explicit result value. Error
  messages are not modelled, only the fact of the error.
* `&mut self` methods return the new value. Where a failure leaves a half changed value behind, the value is
  returned together with the failure.
* Regular expressions are data, run by a small backtracking engine (`Model/Regex.lean`) that gives all matches
  in priority order; the comment at each pattern quotes it. `\d` is the decimal digits of
  Unicode 14.
* The grammar is written rule by rule with parsing expression combinators (`Model/Peg.lean`), with byte positions,
  white space skipping, memoization and the user context.
* Hash maps are ordered lists of entries where their order can be seen, and functions elsewhere.
* Everything outside of the program (network, disk, editor, terminal, PDF objects, sorting, line wrapping, writers
  of JSON and YAML) is either data or a parameter. Theorems hold for every value of the parameter, or for every
  value that meets a stated contract.

## What is modelled

| code | model |
| --- | --- |
| `src/identifier/*` | Alphabetic, Numeric, Identifiers, CompactString |
| `src/reference/*` | Reference, Structure |
| `src/util/indentedline.rs`, `util/mod.rs`, `hun_str.rs`, `build.rs` | Line, HunStr, Roman |
| `src/util/walker.rs`, `compact_string.rs` | Walker, CompactString |
| `src/fixups.rs`, `bin/hun_law/fixup_editor.rs` | Fixups |
| `src/mk_downloader.rs` | Downloader |
| `src/parser/mk_act_section.rs` | MkAct |
| `src/parser/structure/*` | Headers, Sae, ActParser, BlockAmendment |
| `src/structure.rs`, `src/semantic_info.rs` | Structure, Compare |
| `hun_law_grammar/*` | Peg, Grammar |
| `src/parser/semantic_info/*` | Outgoing, SemanticInfo |
| `src/parser/pdf/*` | PdfLines, Pdf |
| `src/output/*` | Output |
| `src/bin/hun_law/main.rs` | Cli |
| the serde derives and `#[serde(...)]` attributes | Serde, Stored |
| `serde_json::to_writer` as used by `src/output/mod.rs` | Json |

Not modelled:

* `src/util/debug.rs` and all text of errors and logs;
* the text encoding of YAML (`serde_yaml`; `util/singleton_yaml.rs` is covered only as far as it fixes how enums are
  represented), and the choice of the digits of floating point numbers in JSON;
* the Python scripts in `data/` and the data files they make;
* rounding of floating point numbers;
* block amendments inside of block amendments (the parsers do not make them);
* time and memory, except that endless recursion in rendering is a panic. The model is total, so termination of the
  loops in it is proved by the kernel's acceptance of their recursion.

## Trusted base

* The kernel of Lean 4.33.0. The axioms are at most `propext`, `Classical.choice` and `Quot.sound`; AXIOMS.txt has
  the list for each theorem. There is no axiom, `sorry`, `admit`, `native_decide` or `bv_decide` in the sources.
  `decide +kernel` is used for finite tables as a whole and for concrete witnesses; it is evaluated by the kernel.
* Faithfulness of the translation by hand. The code cannot be executed here; instead `conformance/run.sh` runs the
  model on the recorded tests of `/repo`: all 230 cases of the semantic parser tests, all 65 acts of the structure
  parser tests and all 12 pages of the PDF parser tests (read by a small PDF reader in Python) give the recorded
  result. The model of serde reads all 65 recorded acts, and they equal what the model of the parsers gives.
* Third party crates, by the behaviour stated next to each definition that models them:
  * `regex`/`lazy_regex`: leftmost-first semantics (Regex);
  * `peginator`: ordered choice, greedy repetition, white space skipping, positions, memoization (Peg);
  * `roman`: subtractive notation for 1..=3999, everything else refused (Roman);
  * `chrono`: the proleptic Gregorian calendar, years -262143..=262142 (MkAct);
  * `sort_unstable_by`: for a comparator that is a strict weak order in its `Less` part, some sorted permutation
    (PdfLines; the theorems hold for every function with this contract);
  * `pdf`: pages, forms, resources and fonts are data; objects have addresses (Pdf);
  * `textwrap` 0.15 without default features: breaks at ASCII spaces, drops only blanks at the breaks, keeps within
    the width if there is a place to break, breaks long words (the contract `Wraps` in Spec/Output);
  * `colored`: `ESC [ ... m` sequences around the text (Output);
  * `serde`: the derives on the level of serde's data model (Serde);
  * `serde_json`: the compact format, with the escapes of the crate (Json; the theorems hold for every way to write
    fractions that can be read back).
* Behaviour of the operating system as far as `Cli` and `Downloader` state it: a file written completely is read back
  as written; a program killed while writing leaves a beginning of the content.

## Where the code does not have the property

These are proved by a concrete witness; each theorem is named `Cnn_violated...`.

* C06, C08: 0 follows 65535 (and book 0 follows 255) by wrap-around.
* C10: act identifiers with numbers outside of 1..=3999 panic when displayed; years that do not have four digits are
  not read back.
* C18, C19, C20: ranges made backwards contain nothing; the empty reference is not taken for the parent of a whole act; the
  parent test takes point a) of article 1 for a parent of paragraph (2) of article 1.
* C25: a byte slice that starts at the end of the text panics.
* C32, C60: white space other than blanks at the ends of edited lines; doubled empty lines before replay.
* C33, C37: quotes closed before they are opened on one line.
* C38, C71: an article with only a title, and a header followed by blanks only, crash the structure parser.
* C46, C84: an abbreviation ending with a full stop at the end of the text makes a reference that ends after the text,
  which crashes the text output.
* C54: the comparator of characters gives `Greater` both ways for equal places.
* C55: a download killed while it is written stays in the cache as complete.
* C61: an even number of empty lines before a title hides the act.
* C70: the end of the range an amendment names is not checked.
* C122: the articles of an amendment are also divided at article headers inside quotes, which makes the conversion fail.
* C123: the title of chapter III can be amended by a block with the header of chapter IV.
* C74-C80: fonts restored by `Q` keep the boldness of the later font; font cache keyed by address; unknown glyph names
  beat the map to Unicode; code 255; unbalanced `q` in forms; forms that draw themselves; nested replacement text.
* C86, C87: long titles and quoted lines are wider than the width; tags of lines with small indentations move the line.
* C90-C94: exit status 0 after failed downloads; an output that cannot be created ends its issue; crashing error
  message for missing acts; forced editing appends attempts; later issues overwrite files.
* C99: the cached content of a line is read unchecked.
* C102, C116: an article number with a digraph (`3/CS. §`) is not recognised in text, also where the program printed it.
* C104: sentences with a number of days above thirty in words are not recognised.
* C104: exceptions without a word before "kivételével", and exceptions with two references, are not recognised.
* C105-C108: the book is lost where a chapter of a book is named together with a subtitle or article.
* C105: the title alone of a subtitle in another part ("III. Fejezet 12/A. alcím címe") is taken for the whole subtitle.
* C105: the article beside which a chapter, part or title is inserted ("a 12. §-t megelőzően a következő III. Fejezettel") is neither recorded nor found as a reference (C105_beside states this exactly).
* C107-C109: the subtitle after a range of articles is taken for that after the first of them.
* C109: "a következő alcím és rendelkezés lépnek:" is not recognised.
* C110: the message about a missing article panics if the number of the act is not in 1..=3999.
* C111: an act that gives one abbreviation two meanings reports new abbreviations for ever.
* C112: a point of an attachment with a letter (`1/A. melléklet 2. pontja`) is taken for a reference.
* C113: the width of the space stays that of the later font after `Q`.
* C117: whether a line reaches the right margin is not compared, but the conversion of amendments depends on it.
* C118: a structural amendment with articles in which no text is left is not empty.
* C119: a sentence about attachments only is recorded as an instruction about nothing.
* C125: a day of two digits at the end of a line is cut in two (`2021. május 13` is the first of May).

## Properties and plan

`violated` in a theorem name means that the code does not have the property: the full statement is the `def
Cnn_statement`, its negation is proved with a concrete witness, and the theorems with the suffix `_partial` say
what holds instead. MANIFEST.json lists the theorems of each property.

* **C01 Alphabetic identifiers survive their text form** - Enum of 34 constructors/letters, FromStr/Display as functions on character lists; case analysis over the finite type.
* **C02 Letter identifiers are ordered like the Hungarian alphabet** - ord_helper as a number; spec = position in the written-out alphabet; finite case analysis.
* **C03 Letter succession only moves forward** - is_next_from as a Boolean; finite case analysis over all pairs.
* **C04 Numeric identifiers survive their text forms** - Decimal printing/parsing of naturals proved inverse by induction; suffix splitting proved on the printed form.
* **C05 Numeric parsing accepts only what denotes its result** - Inversion lemma of the parser, spec = explicit grammar of the accepted strings.
* **C06 Numeric succession only moves forward** - wrapping_sub modelled modulo 65536; negation by witness; _partial theorem excludes exactly the wrap.
* **C07 Article identifiers survive their text forms** - split_once modelled on lists; composition of C04 with decimal round trip for u8.
* **C08 Article succession only moves forward** - as C06 with u8 books.
* **C09 Paragraph and subpoint identifiers survive their text forms** - composition of the numeric/letter round trips.
* **C10 Act identifiers survive both text forms** - signed decimal round trip; long form through the model of the regular expression engine (unanchored search, first match); Roman table. Two negations by witness; _partial for four digit years and numbers 1..3999.
* **C11 Identifier ranges survive their compact form** - split_once at '-' and the fact that no identifier prints a '-'.
* **C12 Roman numerals in headers round-trip** - roman crate modelled by its documented greedy table and verified inverse; whole table 1..3999 by kernel evaluation.
* **C13 Hungarian ordinals round-trip** - generated table of build.rs re-created by the same construction; whole table by kernel evaluation.
* **C14 References in hand are always well-formed** - reference as five options; well-formedness specified separately; induction over builder calls and over terms of all operations of the API; the converse as well.
* **C15 Setting a part resets only what is below it** - induction over builder call lists against a 'last set since' spec.
* **C16 Compact references round-trip** - join with '_' / split; no part prints '_'.
* **C17 Range construction yields exactly the two ends** - case analysis on the first differing level.
* **C18 A range reference contains its own parts and everything in between** - lexicographic order on the five parts; order lemmas; exact containment for each level; negation by witness for ranges made backwards.
* **C19 Parents contain their children** - case analysis; iteration of parent bounded by number of parts.
* **C20 Parent test means ancestor** - negation by witness; _partial with the hypothesis that the first reference has no part below the first differing level.
* **C21 Relative references resolve to the given position** - case analysis over the shapes of the two references; exact condition of success.
* **C22 First and last of a range are single references** - case analysis.
* **C23 Slicing lines slices their text** - line = list of parts (offset, char, bold), offsets exact rationals; induction.
* **C24 Cutting and gluing a line is lossless** - absolute positions as prefix sums; induction over the list of lines.
* **C25 Byte slicing never fails on character boundaries** - UTF-8 length of characters; panic as explicit result; negation by witness; _partial.
* **C26 Joining lines only adds spaces** - induction over the lines.
* **C27 Header recognition splits a line without losing text** - header patterns run by the regular expression engine; exact characterisation (iff) of each of the five header kinds; exact panic condition.
* **C28 Quote nesting is accepted exactly when balanced** - induction over lines against running counts.
* **C29 A fixup changes exactly the intended line** - windows count; case analysis.
* **C30 A fixed-up line keeps unchanged characters in place** - prefix/suffix lengths by induction.
* **C31 Fixups apply in order and stop at the first failure** - fold in the error monad.
* **C32 Edited text is reproduced by the generated fixups** - loop invariant: applying the fixups emitted so far to the start document gives the current document; measure = number of differing lines.
* **C33 Structure parsing never accepts unbalanced quotes** - loop invariant over the line list; negation by witness inside of one line.
* **C34 Article numbers are consecutive** - loop invariant over the line list.
* **C35 Lists of subelements are consecutively numbered** - structural recursion over the depth of elements; a predicate on the resulting tree, by induction over the segmentation of the lines.
* **C36 No text is lost by the structure parser** - space-erased flattening of the element equals that of the lines; mutual induction.
* **C37 Quoted blocks keep the quoted lines** - state machine invariant.
* **C38 Structure parsing never crashes** - panic as explicit result; negations by witness; _partial: no other crash exists (the two causes are excluded by hypotheses on the lines).
* **C39 Structural headers are recognised as printed** - whole-table evaluation plus suffix round trip.
* **C40 Removing double empty lines is safe** - recursion mirrored from the loop; induction.
* **C41 Extracted acts consist of gazette lines** - state machine invariant with region spec.
* **C42 Walking visits every element exactly once in document order** - visitor calls as a trace; tree recursion equals spec traversal.
* **C43 Visited positions are well-formed absolute references** - relative_to computed along the path.
* **C44 Abbreviation lookups return the latest definition** - association-map semantics by induction on the history.
* **C45 Abbreviations are found greedily in list order** - find-first characterisation.
* **C46 Outgoing references point into the element's text** - the whole grammar is modelled with byte positions; positions of all rules lie within the text by the type of parsers; arithmetic; negation by witness for a whole act; _partial: ranges are within the text and the full stop added to it.
* **C47 Context stack is restored** - tree recursion with stacks; invariant.
* **C48 Outgoing reference lists are ordered and disjoint** - builder state machine; induction over parts; the meaning of a phrase specified separately (Spec/Amendments.lean).
* **C49 A block amendment position covers all its references** - min/max of a list and make_range.
* **C50 Text amendments are the product of places and replacements** - lists product.
* **C51 Block amendment conversion only touches quoted blocks** - case analysis and list induction.
* **C52 Splitting text at references loses nothing** - induction over ranges.
* **C53 Line assembly keeps every glyph** - the sort is an arbitrary permutation sorted by the key (parameter); induction.
* **C54 Sorting comparator is a valid order** - negation by witness.
* **C55 Gazette cache returns complete downloads** - the disk as a map, a run gives every disk it goes through; histories of runs and kills; negation by witness; _partial for crash-free histories.
* **C56 Gazette issue names are unambiguous** - decimal printing injectivity; split on '/'.
* **C57 What may begin and continue a numbered list** - exact characterisation of first identifiers and of followers for subpoints, paragraphs and articles by case analysis.
* **C58 An unedited editor file adds no fixups** - the editor file is the written list of lines; reading back what was written is the identity on texts; the fixup loop stops at once.
* **C59 Fixed-up lines stay in reading order** - prefix sums of offsets before and after the replacement; induction over the common prefix and suffix.
* **C60 An interactive editing round can be replayed** - composition of the model of the editing loop with that of loading; negation by witness; _partial with C32 and C40.
* **C61 Every act of a gazette is found** - specification of a gazette as a sequence of acts; the state machine run over it by induction; negation by witness; _partial for an odd number of empty lines.
* **C62 Hungarian dates are read exactly** - chrono's calendar as a proleptic Gregorian table; iff between the read text and the printed date.
* **C63 Characters of assembled lines keep their positions** - prefix sums over the parts of a row, for any sort that meets its contract.
* **C64 Act bodies are divided at headers and nowhere else** - relational specification of a division (Spec/Division.lean, Spec/Grammar.lean); loop invariant of the line loop.
* **C65 Adding semantic information changes nothing else** - erasure of the information; the walk commutes with it.
* **C66 A pass without new abbreviations is final** - fixpoint: if no abbreviation changed, all reads in a second pass give the same answers; invariant over the walk.
* **C67 A repeal repeals exactly the listed elements** - meaning of the phrase specified on the grammar result; exact equality including errors.
* **C68 An enforcement date is for exactly the listed places** - as C67, with existence of dates.
* **C69 Converted amendments keep the quoted text** - space-erased text as in C36 through the conversion.
* **C70 A converted amendment has the elements the phrase names** - numbering of C35 from the named start; negation by witness for the unchecked end of the range.
* **C71 Amendment conversion never crashes** - panic freedom of the parsers as in C38; negation by witness.
* **C72 Lines do not depend on the order of drawing** - two sorts of two permutations give the same list if no two characters have the same place.
* **C73 Only visible text of the page is collected** - the drawing operations interpreted by a separate specification; equality by induction over operations and nesting of forms. The two crop boxes of the program are said in points of a page of size A4.
* **C74 Bold means a bold font** - fonts in effect specified by a stack of saves; negation by witness; _partial.
* **C75 Pages are read independently** - font cache keyed by addresses; negation by witness for reused addresses; _partial when addresses identify fonts.
* **C76 The font's map to Unicode wins** - lookup order against a specification; negation by witness; _partial.
* **C77 Codes without an entry are read by the encoding** - as C76; off by one at 255 by witness.
* **C78 Drawing a form leaves the text state alone** - balanced saves; induction over nesting.
* **C79 Rendering a page does not crash** - stack overflow as a panic when forms draw themselves; rank function on forms; negation by witness.
* **C80 Replacement text replaces** - marked content as a state machine; negation by witness for nested spans. Marks which replace nothing are shown to make no difference at any depth, so that replacing spans inside of each other are the only case left out.
* **C81 Text is where PDF says it is** - matrix arithmetic over the rationals; equality with the specification's positions.
* **C82 The printed act shows the whole act** - `textwrap` is a parameter that meets a stated contract; blank-erased output equals blank-erased text of the act in order.
* **C83 Colouring only adds colour codes** - erasing the escape sequences of the coloured output gives the plain output.
* **C84 A parsed act can be printed** - composition of all passes with the printer; panic freedom; negation by witness from the text of an act.
* **C85 The output shows the structure by indentation** - lines of the output as a function of the layout; every line starts with the indentation of its element.
* **C86 The output is not wider than asked** - width bound per line from the contract of wrapping; negation by witness; _partial.
* **C87 Lines written for tests can be read back** - printing and parsing of the line format are inverse; negation by witness for small indentations.
* **C88 Listings show every line** - each line of the input is matched with a line of the listing, in order.
* **C89 Which issues are processed** - specification by first and earlier issues of the table; induction over the arguments.
* **C90 The exit status tells if the acts were written** - the program as a function from environment and arguments to a log of events and an exit status; negation by witness.
* **C91 Acts are independent of each other in a run** - the event log is the concatenation over issues and acts; negation by witness.
* **C92 The program does not crash** - panic as explicit result; negation by witness; _partial reduces to the processing of one act.
* **C93 Interactive sessions write one result** - events of the retry loop; negation by witness.
* **C94 Each act has its own file** - injectivity of the file names; contents of the file from the log; negation by witness.
* **C95 What is written for an act** - exact events of a successful act; composition with C82/C83.
* **C96 A stored act is read back unchanged** - serde's data model as a tree of values; a format per type (writer, reader), lossless by composition; the acts of the pipeline meet the hypotheses.
* **C97 Only well-formed acts and references are read** - soundness of every reader by composition.
* **C98 Fixups are read back unchanged** - as C96.
* **C99 The content of a line that is read is the text of its parts** - negation by witness; _partial for stored lines.
* **C100 Empty lines separate the parts of a printed act** - relational specification of the lines of the output; induction over the parts, with the layout lemmas of C85.
* **C101 Quoted lines keep their layout in the output** - least element of a fold; exact lines of a block; containment in the output of the act.
* **C102 References in the usual form are recognised** - a specification that writes references as text; every grammar rule below CompoundReference is shown to take exactly that text and to fail where another alternative must be taken; induction over lists, ordinary text is consumed token by token, the six special alternatives are excluded by C103.
* **C103 Special phrases are recognised only in texts which announce them** - a relation between the result of a grammar rule and the text it takes, proved for every rule below the six special alternatives of the root rule; the specification is a list of words at the two ends of the text.
* **C104 Sentences about coming into force are read as written** - a specification that writes the sentences as text, with the day, the number or the month in words; the grammar rules below EnforcementDate are shown to take exactly that text, the other alternatives of the root rule are excluded by their words (C103); the values by the lemmas of C102; structural parts and lists of subtitles by the lemmas of C107, attachments by those of C112.
* **C105 Amendments of chapters, parts, titles and subtitles are read as written** - a specification that writes the sentences as text; the rules below BlockAmendmentStructural and BlockAmendmentWithSubtitle are shown to take exactly that text, the other alternatives fail before or inside it; the values by cases on what is written.
* **C106 Amendments of articles, paragraphs, points and subpoints are read as written** - a specification that writes the sentences as text, with the references of C102; the rules BlockAmendment and InsertionReference are shown to take exactly that text, with the references in it as in C102; the place by C48 and the antisymmetry of the order of references.
* **C107 Amendments of words are read as written** - a specification that writes the sentences as text; the rules before TextAmendment in the grammar are shown to refuse that text and to remember nothing harmful, TextAmendment to take exactly it; the places by C48 and C50.
* **C108 Repeals are read as written** - the same for the rule Repeal, with C50 and C67.
* **C109 Amendments of subtitles by their place are read as written** - a specification that writes the sentences as text; the rule BlockAmendment is shown to refuse that text, BlockAmendmentWithSubtitle to take exactly it; the references by C48.
* **C110 Reading one article again touches only that article** - the model of add_semantic_info_to_article; the visitor is shown to read exactly the texts of the article (as in C47) and to change nothing else (as in C65); the last part by C66. Violated for missing articles of acts whose number has no Roman form, by witness.
* **C111 Reading an act again and again comes to rest** - violated by an act which gives one abbreviation two meanings. Otherwise every pass with a change adds an abbreviation out of a finite set, by an invariant of the abbreviations over all passes.
* **C112 Running text gives exactly the references in it** - a specification of running text as words, groups (as in C102), mentions of attachments, quotations, numbers (also in dates) and brackets with words or any of these in them. Each item is shown to be taken whole by the grammar whatever follows it within the specification, then induction over the items. Violated by attachments with a letter in their number.
* **C113 Gaps between words are measured with the space of the font in effect** - the same invariant over the operations of a page as for C74, with the width of the space in place of the weight. Violated by restoring a font with another space.
* **C114 The fixup editor shows the whole act and opens where the quotation goes wrong** - the loop which writes the file, and the search for the place, as functions on the lines; induction over the lines against counts of quotation marks in the text before.
* **C115 The structure of an act is exactly what its lines say** - the same parsers as in C33-C39 and C64, and a declarative grammar (Spec/Exact) that says which structure is meant; both directions by induction over the lines, level by level: soundness as for C64 with the first place where children can begin, completeness by following the parser along the division, where it can only accept or panic, and no panic happens without trailing spaces.
* **C116 Printed references are read back** - the printed text is shown to be a group of references in the usual form of C102 by cases on the levels; the rest is C102. Violated for letters that are digraphs.
* **C117 Acts that compare equal behave the same** - the comparison is shown to be equality after all but the text, the indentation and the boldness of quoted lines is forgotten; printing and reading are shown to commute with forgetting, function by function. Violated by the conversion of amendments.
* **C118 Elements are empty exactly when nothing is left in them** - level by level, against a specification with quantifiers. Violated by structural amendments, which are not looked into.
* **C119 An instruction is not recorded as one about nothing** - from C104, C107 and C108: the meaning given by the specification is empty exactly when only attachments are named. Violated by those.
* **C120 The colours of the coloured output say what is what** - Spec/Styles.lean: a terminal as a machine which gives a style to every character, and the styles of all parts of an act; by induction along the printing functions, with the pieces of a text (C52) for the positions of references.
* **C121 Silence is a yes** - the model of confirm, with the line that was read; the session as in C93, where the attempt without end is an induction over the number of rounds.
* **C122 An amendment is exactly what its quoted lines say** - the conversion of BlockAmendment, with the lists of C115 that begin with a given element (Spec/ExactAmendment); articles by induction over the lines and over the division; negation by an article that has articles quoted in it.
* **C123 Amended titles are stored under what was announced** - the same with C39 for headers; negation by the header of another chapter.
* **C124 Forms are drawn as if they were written in place** - a relation between the operations of a page and those written in place, with names in common resources (Spec/Inline); by induction over it the renderer is the same up to its resources. That every page can be written: names of the page and of each form are told apart by a prefix.
* **C125 The day of a date is read whole** - the pattern run on texts of its shape, with the two ways of splitting the digits of the day; the other direction by comparing the match with that run; negation by a date at the end of a text.
* **C126 Compact references are read exactly as written** - integers, numbers, letters and ranges each by an equivalence with their texts; none of the texts contains the separator of the level above, so that the splitting finds the parts.
* **C127 Output in JSON can be read back** - a writer by recursion on documents and a separate reader of RFC 8259; induction on the document, with what can follow it, and fuel bounded by the length of the text.
* **C128 Notes about the last change can be read back** - from the lossless and sound readers of dates and references.
* **C129 Documents have the published form** - tables of names, in their order, with the predicate that each value satisfies (Spec/Documents), against the serializers of C95-C99 field by field; induction where structures are nested.
* **C130 Abbreviations introduced in running text are recorded and used** - the specification of running text of C112 with one more kind of item, an act with its abbreviation (after a colon or without it) and references. The list of known abbreviations grows along the text, so that each item is shown to be taken whole with the list at its place; what the root rule tried before leaves only abbreviations in the list that the text introduces anyway (C45, where introducing is now said exactly, with the white space and the colon). C112 is the case without such items.
* **C131 The references of a whole act are those which are meant** - the texts of the act with their contexts as in C47, each of them running text as in C130; induction over the texts, with the list of definitions so far in place of the cache (C44).
* **C132 The amendments, repeals and enforcement dates of a whole act are those which are said** - the induction of C131 with one case for each kind of sentence; each case is the theorem about that kind (C104 to C109, C112, C130), its conditions about known abbreviations being moved from the cache to the definitions so far.
* **C133 The amendments in a whole act are those which its sentences announce** - C132 gives the phrase at each paragraph, C65 that the paragraphs are otherwise the same, and C122 that the block becomes exactly the amendment which it is; the told sentences are grouped by paragraph.
* **C134 The data written about an act are those which its lines say** - C115 gives the act that is read, C133 the converted one, C133_recorded that conversion keeps what is recorded at the texts, and C96 that the document can be read back.
* **C135 The text written about an act is what its lines say** - as C134, with C84 for that the act can be printed and C82 for what is printed. The texts for which C84 is violated are left out by a condition.
