import Verif.Model.Fixups
import Verif.Model.HunStr
import Verif.Model.Identifiers

/-!
Model of /repo/src/parser/mk_act_section.rs, of the date reader in /repo/src/util/hun_str.rs and of the
part of /repo/src/bin/hun_law/main.rs that deals with fixups.
-/

set_option autoImplicit false

namespace HunLaw

/-- `chrono::NaiveDate`, by its three numbers. -/
structure Date where
  year : Int
  month : Nat
  day : Nat
  deriving Repr, DecidableEq

namespace Date

/-- Leap years of the proleptic Gregorian calendar. -/
def isLeap (y : Int) : Bool := (y % 4 == 0 && y % 100 != 0) || y % 400 == 0

/-- Number of days of a month (0 if there is no such month). -/
def daysIn (y : Int) (m : Nat) : Nat :=
  if m = 2 then (if isLeap y then 29 else 28)
  else if m = 4 ∨ m = 6 ∨ m = 9 ∨ m = 11 then 30
  else if 1 ≤ m ∧ m ≤ 12 then 31
  else 0

/-- `NaiveDate::from_ymd_opt`, for years that chrono supports (all that have four digits). -/
def ofYmd (y : Int) (m d : Nat) : Option Date :=
  if 1 ≤ d ∧ d ≤ daysIn y m then some ⟨y, m, d⟩ else none

/-- Zero padding to a width, as in `{:02}`. -/
def padTo (w : Nat) (s : Str) : Str := List.replicate (w - s.length) '0' ++ s

/-- `{:04}` for the years 0 to 9999 and `{:+05}` for the others. -/
def displayYear (y : Int) : Str :=
  if 0 ≤ y ∧ y ≤ 9999 then padTo 4 (dec y.natAbs)
  else (if y < 0 then '-' else '+') :: padTo 4 (dec y.natAbs)

/-- `Debug`, `Display` and `Serialize` of chrono's dates: the ISO 8601 form. -/
def display (d : Date) : Str :=
  displayYear d.year ++ str!"-" ++ padTo 2 (dec d.month) ++ str!"-" ++ padTo 2 (dec d.day)

/-- `^(\d{4}). ([^ ]+) (\d{1,2}).` (hun_str.rs:32) -/
def hungarianRe : Re :=
  .seqs [.cap 1 (.seqs [.cls Re.digit, .cls Re.digit, .cls Re.digit, .cls Re.digit]), .cls Re.anyChar,
    .lit str!" ", .cap 2 (.many1 (· != ' ')), .lit str!" ",
    .cap 3 (.seqs [.cls Re.digit, .opt (.cls Re.digit)]), .cls Re.anyChar]

/-- Models `NaiveDate::from_hungarian` (hun_str.rs:29-42). -/
def fromHungarian (s : Str) : Option Date := do
  let m ← Re.matchAt hungarianRe s
  let (_, year) ← m.group 1
  let (_, month) ← m.group 2
  let (_, day) ← m.group 3
  let year ← parseI32 year
  let month ← monthFromHungarian month
  let day ← parseUnsigned 4294967295 day
  ofYmd year.val month day

end Date

/-- Models `struct ActRawText` (mk_act_section.rs:27-33). -/
structure ActRawText where
  identifier : ActId
  subject : Str
  publicationDate : Date
  body : List Line
  deriving Repr, DecidableEq

/-- The loop of `remove_double_empty_lines` (mk_act_section.rs:37-44) from the line after `prev`, which
is kept already. -/
def removeDoubleAfter (prev : Line) : List Line → List Line
  | [] => []
  | l :: ls =>
    if prev.isEmpty && l.isEmpty then removeDoubleAfter prev ls
    else l :: removeDoubleAfter l ls

/-- Models `remove_double_empty_lines` (mk_act_section.rs:36-45). -/
def removeDoubleEmptyLines : List Line → List Line
  | [] => []
  | l :: ls => l :: removeDoubleAfter l ls

/-- Models `enum ActExtractionState` (mk_act_section.rs:55-62). -/
inductive ExtractState where
  | waitingForHeaderNewline
  | waitingForHeader
  | parsingActSubject
  | bodyBeforeAsteriskFooter
  | bodyAfterAsteriskFooter
  deriving Repr, DecidableEq

/-- Models `struct ActExtractor` (mk_act_section.rs:48-53), with the fields of `current_act`. -/
structure Extractor where
  date : Date
  id : ActId
  subject : Str
  body : List Line
  result : List ActRawText
  state : ExtractState
  deriving Repr, DecidableEq

namespace Extractor

/-- The derived `Default` of `ActIdentifier`. -/
def defaultId : ActId := ⟨⟨0, by decide⟩, ⟨0, by decide⟩⟩

/-- Models `ActExtractor::new` (mk_act_section.rs:66-73). -/
def new (date : Date) : Extractor := ⟨date, defaultId, [], [], [], .waitingForHeaderNewline⟩

/-- `^([12][09][0-9][0-9]). évi ([IVXLC]+). törvény` (mk_act_section.rs:95) -/
def headerRe : Re :=
  .seqs [.cap 1 (.seqs [.cls (fun c => c == '1' || c == '2'), .cls (fun c => c == '0' || c == '9'),
      .cls isDigit, .cls isDigit]),
    .cls Re.anyChar, .lit str!" évi ",
    .cap 2 (.many1 fun c => c == 'I' || c == 'V' || c == 'X' || c == 'L' || c == 'C'),
    .cls Re.anyChar, .lit str!" törvény"]

/-- The identifier in a header line (mk_act_section.rs:94-100). -/
def headerId (l : Line) : Option ActId := do
  let m ← Re.matchAt headerRe l.content
  let (_, year) ← m.group 1
  let (_, number) ← m.group 2
  let year ← parseI16 year
  let number ← romanFrom number
  if h : (-2147483648 : Int) ≤ number ∧ (number : Int) ≤ 2147483647 then
    some ⟨year, ⟨number, h⟩⟩
  else none

/-- Models `wait_for_header_newline` (mk_act_section.rs:85-91). -/
def waitForHeaderNewline (e : Extractor) (l : Line) : Extractor :=
  { e with state := if l.isEmpty then .waitingForHeader else .waitingForHeaderNewline }

/-- Models `wait_for_header` (mk_act_section.rs:93-106). -/
def waitForHeader (e : Extractor) (l : Line) : Extractor :=
  match headerId l with
  | some id => { e with id := id, state := .parsingActSubject }
  | none => { e with state := .waitingForHeaderNewline }

/-- Models `parse_act_subject` (mk_act_section.rs:108-121). -/
def parseActSubject (e : Extractor) (l : Line) : Extractor :=
  let subject := l.appendTo e.subject
  if subject.getLast? == some '*' then
    { e with subject := subject.dropLast, state := .bodyBeforeAsteriskFooter }
  else { e with subject := subject, state := .parsingActSubject }

/-- The lines that end an act (mk_act_section.rs:157-160). -/
def signatures : List Str :=
  [str!"köztársasági elnök az Országgyűlés elnöke", str!"köztársasági elnök az Országgyűlés alelnöke",
   str!"az Országgyűlés elnöke, az Országgyűlés alelnöke,"]

/-- Models `parse_body_after_footer` (mk_act_section.rs:147-170). The element three from the end exists
because of the check of the length. -/
def parseBodyAfterFooter (e : Extractor) (l : Line) : Extractor :=
  let body := e.body ++ [l]
  if body.length > 4 && (body.getD (body.length - 3) l).isEmpty && signatures.contains l.content then
    ⟨e.date, defaultId, [], [],
      e.result ++ [⟨e.id, e.subject, e.date, body.take (body.length - 3)⟩], .waitingForHeaderNewline⟩
  else { e with body := body, state := .bodyAfterAsteriskFooter }

/-- Models `parse_body_before_footer` (mk_act_section.rs:123-145). -/
def parseBodyBeforeFooter (e : Extractor) (l : Line) : Extractor :=
  let n := e.body.length
  if l.isEmpty && decide (n > 2) && (e.body.getD (n - 2) l).isEmpty &&
      startsWith (e.body.getD (n - 1) l).content str!"*" then
    { e with body := e.body.dropLast, state := .bodyAfterAsteriskFooter }
  else
    let e := e.parseBodyAfterFooter l
    match e.state with
    | .bodyAfterAsteriskFooter => { e with state := .bodyBeforeAsteriskFooter }
    | _ => e

/-- Models `feed_line` (mk_act_section.rs:75-83). -/
def feedLine (e : Extractor) (l : Line) : Extractor :=
  match e.state with
  | .waitingForHeaderNewline => e.waitForHeaderNewline l
  | .waitingForHeader => e.waitForHeader l
  | .parsingActSubject => e.parseActSubject l
  | .bodyBeforeAsteriskFooter => e.parseBodyBeforeFooter l
  | .bodyAfterAsteriskFooter => e.parseBodyAfterFooter l

end Extractor

/-- `ACTS_SECTION_START` (mk_act_section.rs:173) -/
def actsSectionStart : Str := str!"II. Törvények"

/-- `ACT_SECTION_STOPS` (mk_act_section.rs:176-184) -/
def actSectionStops : List Str :=
  [str!"III. Kormányrendeletek", str!"IV. A Magyar Nemzeti Bank elnökének rendeletei",
   str!"V. A Kormány tagjainak rendeletei", str!"VI. Az Alkotmánybíróság határozatai",
   str!"VII. A Kúria határozatai", str!"IX. Határozatok Tára"]

/-- Models `line_is_act_section_start` (mk_act_section.rs:206-208). -/
def lineIsActSectionStart (l : Line) : Bool := l.isBold && l.content == actsSectionStart

/-- Models `line_is_act_section_end` (mk_act_section.rs:210-215). -/
def lineIsActSectionEnd (l : Line) : Bool :=
  l.isBold && actSectionStops.any fun p => startsWith l.content p

/-- Models `struct PageOfLines` (page_of_lines.rs:31-34). -/
abbrev Page := List Line

/-- Models `parse_mk_cover_page` (mk_act_section.rs:186-204). -/
def parseMkCoverPage (page : Page) : Option Date :=
  match page with
  | l0 :: _ :: _ :: l3 :: _ =>
    if startsWith l0.content str!"MAGYAR KÖZLÖNY" then Date.fromHungarian l3.content else none
  | _ => none

/-- `[0-9]+. évi [CLXVI]+. törvény` (mk_act_section.rs:232) -/
def looseHeaderRe : Re :=
  .seqs [.many1 isDigit, .cls Re.anyChar, .lit str!" évi ",
    .many1 (fun c => c == 'C' || c == 'L' || c == 'X' || c == 'V' || c == 'I'), .cls Re.anyChar,
    .lit str!" törvény"]

/-- The condition in mk_act_section.rs:231-232. -/
def looseHeader (l : Line) : Bool := l.isBold && (Re.search looseHeaderRe l.content).isSome

/-- The variables of the loops in `parse_mk_pages_into_acts`. -/
structure SectionState where
  extractor : Extractor
  extracting : Bool
  seenHeader : Bool
  deriving Repr, DecidableEq

namespace SectionState

/-- The body of the inner loop (mk_act_section.rs:229-244). -/
def feed (s : SectionState) (l : Line) : SectionState :=
  let extracting := s.extracting || (!s.seenHeader && looseHeader l)
  if lineIsActSectionStart l then ⟨s.extractor, true, true⟩
  else if lineIsActSectionEnd l then ⟨s.extractor, false, true⟩
  else if extracting then ⟨s.extractor.feedLine l, extracting, s.seenHeader⟩
  else ⟨s.extractor, extracting, s.seenHeader⟩

/-- The body of the outer loop (mk_act_section.rs:227-251). -/
def feedPage (s : SectionState) (p : Page) : SectionState :=
  let s := p.foldl feed s
  if s.extracting then { s with extractor := s.extractor.feedLine .emptyLine } else s

end SectionState

/-- Models `parse_mk_pages_into_acts` (mk_act_section.rs:217-256). -/
def parseMkPagesIntoActs (pages : List Page) : Option (List ActRawText) :=
  match pages with
  | cover :: _ :: _ => match parseMkCoverPage cover with
    | none => none
    | some date =>
      let s := pages.foldl SectionState.feedPage ⟨Extractor.new date, false, false⟩
      some (s.extractor.result.map fun a => { a with body := removeDoubleEmptyLines a.body })
  | _ => none

/-! ### main.rs -/

/-- The lines that are parsed (main.rs:256-257 and 238-240). -/
def fixedBody (raw : List Line) (fixups : List Fixup) : Res (List Line) := do
  let body ← applyFixups fixups raw
  .ok (removeDoubleEmptyLines body)

/-- One round of `process_single_act_interactive` (main.rs:238-243): the fixups saved. -/
def interactiveRound (raw : List Line) (fixups : List Fixup) (edit : List Str → List Str) :
    Option (Res (List Fixup)) :=
  match fixedBody raw fixups with
  | .ok body => runEditor fixups body edit
  | .err => some .err
  | .panic => some .panic

end HunLaw
