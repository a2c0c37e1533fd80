import Verif.Model.Structure
import Verif.Model.Headers

/-! Model of /repo/src/parser/structure/{sae,quote}.rs. -/

set_option autoImplicit false

namespace HunLaw

/-- `Result::or_else` -/
def Res.orElse {α : Type} (x : Res α) (f : Unit → Res α) : Res α :=
  match x with
  | .ok a => .ok a
  | .err => f ()
  | .panic => .panic

/-- `Result::map` -/
def Res.map {α β : Type} (f : α → β) : Res α → Res β
  | .ok a => .ok (f a)
  | .err => .err
  | .panic => .panic

/-- Models `enum ParsingContext` (act.rs:41-45). -/
inductive ParsingContext where
  | fullAct
  | blockAmendment
  deriving Repr, DecidableEq

/-- Models `struct SAEParseParams` (sae.rs:35-40). -/
structure SAEParams where
  parseWrapUp : Bool
  checkChildrenCount : Bool
  context : ParsingContext
  deriving Repr, DecidableEq

/-- Models `children_parsing_default` (sae.rs:43-49). -/
def SAEParams.childrenDefault (context : ParsingContext) : SAEParams := ⟨true, true, context⟩

/-- Models `struct ExtractMultipleResult` (sae.rs:52-57). -/
structure Extracted (T : Type) where
  elements : T
  parentWrapUp : Option Str
  restOfWrapUp : List Line
  deriving Repr, DecidableEq

/-- The `.into()` of the elements. -/
def Extracted.map {T U : Type} (f : T → U) (e : Extracted T) : Extracted U :=
  ⟨f e.elements, e.parentWrapUp, e.restOfWrapUp⟩

/-- Models `struct ParseResult` (sae.rs:59-67). -/
structure ParseResult (I C : Type) where
  element : SAE I C
  restOfWrapUp : List Line
  deriving Repr, DecidableEq

/-- Models `enum RestOfWrapUpMode` (sae.rs:69-73). -/
inductive WrapUpMode where
  | keepIt
  | giveIt
  deriving Repr, DecidableEq

/-- Models `trait SAEParser` (sae.rs:75-91): the required methods. `tryExtractChildren` gets the
identifier, the previous non-empty line, the lines and the parameters. -/
structure SAEParser (I C : Type) where
  parseHeader : Line → Res (Option (I × Line))
  tryExtractChildren : I → Option Line → List Line → SAEParams → Res (Extracted C)

namespace SAEParser
variable {I C : Type} [DecidableEq I] [IdentifierCommon I]

/-- The loop that adds the rest of the wrap-up (sae.rs:116-122). -/
def keepWrapUp (wrapUp : Option Str) : List Line → Option Str
  | [] => wrapUp
  | l :: ls => match wrapUp with
    | some w => keepWrapUp (some (l.appendTo w)) ls
    | none => keepWrapUp (some l.content) ls

/-- The element with children (sae.rs:113-137). -/
def withChildren (id : I) (mode : WrapUpMode) (intro : Str) (ex : Extracted C) : ParseResult I C :=
  match mode with
  | .keepIt => ⟨⟨id, .children intro ex.elements (keepWrapUp ex.parentWrapUp ex.restOfWrapUp), .default, none⟩, []⟩
  | .giveIt => ⟨⟨id, .children intro ex.elements ex.parentWrapUp, .default, none⟩, ex.restOfWrapUp⟩

/-- The element without children (sae.rs:147-162). -/
def withoutChildren (id : I) (context : ParsingContext) (mode : WrapUpMode) (body : List Line) (intro : Str) :
    ParseResult I C :=
  if context = .blockAmendment ∧ mode = .giveIt then
    match body.findIdx? (fun l => !l.justified) with
    | some i => ⟨⟨id, .text (Line.join (body.take (i + 1))), .default, none⟩, body.drop (i + 1)⟩
    | none => ⟨⟨id, .text intro, .default, none⟩, []⟩
  else ⟨⟨id, .text intro, .default, none⟩, []⟩

/-- The loop of `parse` (sae.rs:104-146) from some line on. -/
def parseFrom (p : SAEParser I C) (id : I) (context : ParsingContext) (mode : WrapUpMode) (body : List Line)
    (q : QuoteCheck) (prev : Option Line) (intro : Str) : List Line → Res (ParseResult I C)
  | [] => do
    q.checkEnd
    .ok (withoutChildren id context mode body intro)
  | l :: ls => do
    let q ← q.update l
    let next := fun (_ : Unit) =>
      parseFrom p id context mode body q (if l.isEmpty then prev else some l) (l.appendTo intro) ls
    if q.beginningIsQuoted then next ()
    else match p.tryExtractChildren id prev (l :: ls) (.childrenDefault context) with
      | .ok ex => .ok (withChildren id mode intro ex)
      | .err => next ()
      | .panic => .panic

/-- Models `parse` (sae.rs:94-163). -/
def parse (p : SAEParser I C) (id : I) (body : List Line) (context : ParsingContext) (mode : WrapUpMode) :
    Res (ParseResult I C) :=
  parseFrom p id context mode body .new none [] body

/-- Models `parse_and_check_header` (sae.rs:273-288). -/
def parseAndCheckHeader (p : SAEParser I C) (last : I) (expectedIndent : Rat) (line : Line) :
    Res (Option (I × Line)) :=
  if line.indentLessOrEq expectedIndent then do
    match ← p.parseHeader line with
    | some (id, rest) => if isNextFrom id last then .ok (some (id, rest)) else .ok none
    | none => .ok none
  else .ok none

/-- The last element and the wrap-up (sae.rs:211-260). -/
def extractLast (p : SAEParser I C) (params : SAEParams) (headerIndent : Rat)
    (elements : List (SAE I C)) (id : I) (body : List Line) : Res (Extracted (List (SAE I C))) :=
  if params.parseWrapUp then
    match params.context with
    | .fullAct =>
      match body.findIdx? (fun l => l.indentLessOrEq headerIndent) with
      | some i => do
        let last ← p.parse id (body.take i) params.context .keepIt
        .ok ⟨elements ++ [last.element], some (Line.join (body.drop i)), []⟩
      | none => do
        let last ← p.parse id body params.context .keepIt
        .ok ⟨elements ++ [last.element], none, []⟩
    | .blockAmendment => do
      let last ← p.parse id body params.context .giveIt
      let (wrapUp, rest) := match last.restOfWrapUp.findIdx? (fun l => !l.justified) with
        | some i => (last.restOfWrapUp.take (i + 1), last.restOfWrapUp.drop (i + 1))
        | none => (last.restOfWrapUp, [])
      .ok ⟨elements ++ [last.element], if wrapUp = [] then none else some (Line.join wrapUp), rest⟩
  else do
    let last ← p.parse id body params.context .keepIt
    .ok ⟨elements ++ [last.element], none, []⟩

/-- The end of `extract_multiple` (sae.rs:210-268). -/
def extractEnd (p : SAEParser I C) (params : SAEParams) (headerIndent : Rat) (q : QuoteCheck)
    (elements : List (SAE I C)) (id : I) (body : List Line) : Res (Extracted (List (SAE I C))) := do
  q.checkEnd
  let r ← extractLast p params headerIndent elements id body
  if params.checkChildrenCount && decide (r.elements.length ≤ 1) then .err else .ok r

/-- The header of the next element, if the line does not begin in a quote (sae.rs:194-198). -/
def nextHeader (p : SAEParser I C) (q : QuoteCheck) (last : I) (headerIndent : Rat) (line : Line) :
    Res (Option (I × Line)) :=
  if q.beginningIsQuoted then .ok none else p.parseAndCheckHeader last headerIndent line

/-- The loop of `extract_multiple` (sae.rs:192-209) from some line on. -/
def extractFrom (p : SAEParser I C) (params : SAEParams) (headerIndent : Rat) (q : QuoteCheck)
    (elements : List (SAE I C)) (id : I) (body : List Line) : List Line → Res (Extracted (List (SAE I C)))
  | [] => extractEnd p params headerIndent q elements id body
  | l :: ls => do
    let q ← q.update l
    match ← nextHeader p q id headerIndent l with
    | some (newId, rest) => do
      let e ← p.parse id body params.context .keepIt
      extractFrom p params headerIndent q (elements ++ [e.element]) newId [rest] ls
    | none =>
      extractFrom p params headerIndent q elements id (if l.isEmpty then body else body ++ [l]) ls

/-- The check of the first identifier (sae.rs:178-185). -/
def goodFirst (expected : Option I) (id : I) : Bool :=
  match expected with
  | some e => decide (id = e)
  | none => isFirst id

/-- Models `extract_multiple` (sae.rs:166-269). -/
def extractMultiple (p : SAEParser I C) (lines : List Line) (params : SAEParams) (expected : Option I) :
    Res (Extracted (List (SAE I C))) :=
  match lines with
  | [] => .panic
  | first :: others => do
    match ← p.parseHeader first with
    | none => .err
    | some (id, rest) =>
      if goodFirst expected id then do
        let q ← QuoteCheck.new.update rest
        extractFrom p params first.indent q [] id [rest] others
      else .err

end SAEParser

/-! ### quote.rs -/

/-- The states of `QuotedBlockParser`. -/
inductive QuoteState where
  | start
  | startExpectIntro
  | quotedBlockIntro
  | quotedBlockWrapUp
  | waitingForQuotedBlock
  | waitingForQuotedBlockWrapUp
  | insideQuotedBlock
  | wrapUp
  deriving Repr, DecidableEq

/-- Models `struct QuotedBlockParser` (quote.rs:25-33). -/
structure QuoteParser where
  state : QuoteState
  blocks : List QuotedBlock
  wrapUp : Str
  quotedBlockIntro : Str
  quotedBlockWrapUp : Str
  quotedLines : List Line
  quoteChecker : QuoteCheck
  deriving Repr, DecidableEq

namespace QuoteParser

/-- Models `new` (quote.rs:36-50). -/
def new (expectIntro : Bool) : QuoteParser :=
  ⟨if expectIntro then .startExpectIntro else .start, [], [], [], [], [], .new⟩

/-- `starts_with([..])` -/
def startsWithAny (l : Line) (cs : List Char) : Bool :=
  match l.content with
  | c :: _ => cs.contains c
  | [] => false

/-- `ends_with([..])` -/
def endsWithAny (l : Line) (cs : List Char) : Bool :=
  match l.content.getLast? with
  | some c => cs.contains c
  | none => false

/-- Models `state_wrap_up` (quote.rs:155-157). -/
def stateWrapUp (s : QuoteParser) (l : Line) : QuoteParser := { s with wrapUp := l.appendTo s.wrapUp }

/-- Models `state_inside_quoted_block` (quote.rs:140-154). -/
def stateInside (s : QuoteParser) (l : Line) : QuoteParser :=
  if !l.isEmpty && !s.quoteChecker.endIsQuoted && endsWithAny l ['”'] then
    { s with
      blocks := s.blocks ++ [⟨none, s.quotedLines ++ [l.slice 0 (some (-1))], none⟩]
      quotedLines := []
      state := .waitingForQuotedBlock }
  else { s with quotedLines := s.quotedLines ++ [l] }

/-- Models `state_quoted_block_intro` (quote.rs:86-97). -/
def stateIntro (s : QuoteParser) (l : Line) : QuoteParser :=
  if !l.isEmpty && !s.quoteChecker.endIsQuoted && endsWithAny l [')', ']'] then
    { s with
      quotedBlockIntro := (l.slice 0 (some (-1))).appendTo s.quotedBlockIntro
      state := .startExpectIntro }
  else { s with quotedBlockIntro := l.appendTo s.quotedBlockIntro }

/-- Models `state_quoted_block_wrap_up` (quote.rs:99-110). -/
def stateBlockWrapUp (s : QuoteParser) (l : Line) : QuoteParser :=
  if !l.isEmpty && !s.quoteChecker.endIsQuoted && endsWithAny l [')', ']'] then
    { s with
      quotedBlockWrapUp := (l.slice 0 (some (-1))).appendTo s.quotedBlockWrapUp
      state := .waitingForQuotedBlockWrapUp }
  else { s with quotedBlockWrapUp := l.appendTo s.quotedBlockWrapUp }

/-- Models `state_start` (quote.rs:58-70). -/
def stateStart (s : QuoteParser) (l : Line) : QuoteParser :=
  if l.isEmpty then s
  else if startsWithAny l ['„', '“'] then
    stateInside { s with state := .insideQuotedBlock } (l.slice 1 none)
  else stateWrapUp { s with state := .wrapUp } l

/-- Models `state_start_expect_intro` (quote.rs:72-84). -/
def stateStartExpectIntro (s : QuoteParser) (l : Line) : QuoteParser :=
  if l.isEmpty then s
  else if startsWithAny l ['(', '['] then
    stateIntro { s with state := .quotedBlockIntro } (l.slice 1 none)
  else stateStart { s with state := .start } l

/-- Models `state_waiting_for_quoted_block_wrap_up` (quote.rs:126-138). -/
def stateWaitingWrapUp (s : QuoteParser) (l : Line) : QuoteParser :=
  if l.isEmpty then s
  else if startsWithAny l ['(', '['] then
    stateBlockWrapUp { s with state := .quotedBlockWrapUp } (l.slice 1 none)
  else stateWrapUp { s with state := .wrapUp } l

/-- Models `state_waiting_for_quoted_block` (quote.rs:112-124). -/
def stateWaiting (s : QuoteParser) (l : Line) : QuoteParser :=
  if l.isEmpty then s
  else if startsWithAny l ['„', '“'] then
    stateInside { s with state := .insideQuotedBlock } (l.slice 1 none)
  else stateWaitingWrapUp { s with state := .waitingForQuotedBlockWrapUp } l

/-- The call of the state (quote.rs:54). -/
def step (s : QuoteParser) (l : Line) : QuoteParser :=
  match s.state with
  | .start => s.stateStart l
  | .startExpectIntro => s.stateStartExpectIntro l
  | .quotedBlockIntro => s.stateIntro l
  | .quotedBlockWrapUp => s.stateBlockWrapUp l
  | .waitingForQuotedBlock => s.stateWaiting l
  | .waitingForQuotedBlockWrapUp => s.stateWaitingWrapUp l
  | .insideQuotedBlock => s.stateInside l
  | .wrapUp => s.stateWrapUp l

/-- Models `parse_line` (quote.rs:52-56). -/
def parseLine (s : QuoteParser) (l : Line) : Res QuoteParser := do
  let q ← s.quoteChecker.update l
  .ok (step { s with quoteChecker := q } l)

/-- The loop (quote.rs:181-183). -/
def parseLines (s : QuoteParser) : List Line → Res QuoteParser
  | [] => .ok s
  | l :: ls => do
    let s ← s.parseLine l
    parseLines s ls

/-- `None` if the text is empty. -/
def nonEmpty (s : Str) : Option Str := if s = [] then none else some s

/-- `first_block.intro = ..` (quote.rs:192-200) -/
def setIntro (s : Str) : List QuotedBlock → List QuotedBlock
  | [] => []
  | b :: bs => { b with intro := nonEmpty s } :: bs

/-- `last_block.wrap_up = ..` (quote.rs:202-210) -/
def setWrapUp (s : Str) : List QuotedBlock → List QuotedBlock
  | [] => []
  | [b] => [{ b with wrapUp := nonEmpty s }]
  | b :: bs => b :: setWrapUp s bs

/-- A previous line that ends with a colon (quote.rs:164). -/
def expectIntro (prev : Option Line) : Bool :=
  match prev with
  | some l => endsWithAny l [':']
  | none => false

/-- What the first line must start with (quote.rs:168-172). -/
def startTokens (expectIntro : Bool) : List Char :=
  if expectIntro then ['(', '[', '„', '“'] else ['„', '“']

/-- Models `extract_multiple` (quote.rs:160-221). -/
def extractMultiple (prev : Option Line) (lines : List Line) : Res (Extracted (List QuotedBlock)) :=
  match lines with
  | [] => .err
  | first :: _ =>
    if !startsWithAny first (startTokens (expectIntro prev)) then .err
    else do
      let s ← (QuoteParser.new (expectIntro prev)).parseLines lines
      if s.state = .waitingForQuotedBlock ∨ s.state = .wrapUp ∨ s.state = .waitingForQuotedBlockWrapUp then
        if s.blocks = [] then .err
        else .ok ⟨setWrapUp s.quotedBlockWrapUp (setIntro s.quotedBlockIntro s.blocks), nonEmpty s.wrapUp, []⟩
      else .err

end QuoteParser

/-! ### the parsers -/

/-- Models `AlphabeticSubpointParser` (sae.rs:393-423). -/
def alphabeticSubpointParser (pfx : Option HunChar) : SAEParser PrefixedId NoChildren :=
  ⟨parsePrefixedHeader pfx, fun _ _ _ _ => .err⟩

/-- Models `NumericSubpointParser` (sae.rs:371-391). -/
def numericSubpointParser : SAEParser NumericId NoChildren := ⟨parseNumericHeader, fun _ _ _ _ => .err⟩

/-- Models `AlphabeticPointParser` (sae.rs:339-369). -/
def alphabeticPointParser : SAEParser HunChar AlphabeticPointChildren :=
  ⟨parseAlphabeticHeader, fun id _ body params =>
    (Res.map (Extracted.map .numericSubpoint) (numericSubpointParser.extractMultiple body params none)).orElse
      fun _ => Res.map (Extracted.map .alphabeticSubpoint)
        ((alphabeticSubpointParser (some id)).extractMultiple body params none)⟩

/-- Models `NumericPointParser` (sae.rs:317-337). -/
def numericPointParser : SAEParser NumericId NumericPointChildren :=
  ⟨parseNumericHeader, fun _ _ body params =>
    Res.map (Extracted.map .alphabeticSubpoint)
      ((alphabeticSubpointParser none).extractMultiple body params none)⟩

/-- Models `ParagraphParser` (sae.rs:291-315). -/
def paragraphParser : SAEParser ParagraphId (ParagraphChildren Empty) :=
  ⟨parseParagraphHeader, fun _ prev body params =>
    ((Res.map (Extracted.map .quotedBlock) (QuoteParser.extractMultiple prev body)).orElse
      fun _ => Res.map (Extracted.map .numericPoint) (numericPointParser.extractMultiple body params none)).orElse
      fun _ => Res.map (Extracted.map .alphabeticPoint)
        (alphabeticPointParser.extractMultiple body params none)⟩

end HunLaw
