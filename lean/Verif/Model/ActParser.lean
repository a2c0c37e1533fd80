import Verif.Model.Sae

/-! Model of /repo/src/parser/structure/{article,structural_element,subtitle,act}.rs. -/

set_option autoImplicit false

namespace HunLaw

/-! ### article.rs -/

/-- Models `struct ArticleParser` (article.rs:86-91). -/
structure ArticleParser where
  identifier : ArticleId
  lines : List Line
  context : ParsingContext
  deriving Repr, DecidableEq

/-- Models `struct ArticleParserFactory` (article.rs:30-34). -/
structure ArticleFactory where
  lastId : Option ArticleId
  headerIndent : Option Rat
  context : ParsingContext
  deriving Repr, DecidableEq

namespace ArticleFactory

/-- Models `new` (article.rs:37-43). -/
def new (context : ParsingContext) : ArticleFactory := ⟨none, none, context⟩

/-- The check of the indentation (article.rs:50-55). -/
def goodIndent (f : ArticleFactory) (line : Line) : Bool := match f.headerIndent with
  | some i => line.indentLessOrEq i
  | none => true

/-- The check of the identifier (article.rs:64-74). -/
def goodId (f : ArticleFactory) (expected : Option ArticleId) (id : ArticleId) : Bool := match expected with
  | some e => decide (e = id)
  | none => match f.lastId with
    | some last => isNextFrom id last
    | none => !(decide (f.context = .fullAct) && !isFirst id)

/-- Models `try_create_from_header` (article.rs:45-83): the parser and the changed factory. An error leaves
the factory as it was. -/
def tryCreate (f : ArticleFactory) (line : Line) (expected : Option ArticleId) :
    Res (ArticleParser × ArticleFactory) :=
  if !f.goodIndent line then .err
  else do
    match ← parseArticleHeader line with
    | none => .err
    | some (id, rest) =>
      if f.goodId expected id then .ok (⟨id, [rest], f.context⟩, ⟨some id, some line.indent, f.context⟩)
      else .err

end ArticleFactory

namespace ArticleParser

/-- Models `feed_line` (article.rs:94-96). -/
def feedLine (p : ArticleParser) (l : Line) : ArticleParser := { p with lines := p.lines ++ [l] }

/-- The loop of `extract_title` (article.rs:145-147): the title and the lines left. -/
def titleLoop (title : Str) : List Line → Str × List Line
  | [] => (title, [])
  | l :: ls => if title.getLast? = some ']' then (title, l :: ls) else titleLoop (l.appendTo title) ls

/-- Models `extract_title` (article.rs:140-154): the title and the lines left. -/
def extractTitle (lines : List Line) : Res (Option Str × List Line) :=
  match lines with
  | [] => .panic
  | l :: ls => match l.content with
    | '[' :: t =>
      let (title, rest) := titleLoop t ls
      if title.getLast? = some ']' then .ok (some title.dropLast, rest) else .err
    | _ => .ok (none, lines)

/-- Removes an empty line at the beginning (article.rs:105-107). -/
def dropEmpty : List Line → Res (List Line)
  | [] => .panic
  | l :: ls => .ok (if l.isEmpty then ls else l :: ls)

/-- The paragraphs of an article (article.rs:108-131). -/
def paragraphs (context : ParsingContext) (lines : List Line) : Res (List (Paragraph Empty)) :=
  match paragraphParser.extractMultiple lines ⟨false, true, context⟩ none with
  | .ok ex => if ex.parentWrapUp.isSome then .panic else .ok ex.elements
  | .panic => .panic
  | .err => do
    let r ← paragraphParser.parse .default lines context .keepIt
    .ok [r.element]

/-- Models `finish` (article.rs:97-138). -/
def finish (p : ArticleParser) : Res (Article Empty) := do
  let (title, lines) ← extractTitle p.lines
  let lines ← dropEmpty lines
  let children ← paragraphs p.context lines
  .ok ⟨p.identifier, title, children, none⟩

end ArticleParser

/-! ### structural_element.rs -/

/-- `(?i)` for a lower case ASCII letter that no other character folds to. -/
def caseless (c : Char) : Re := .cls fun x => x == c || x == upAsciiChar c
where
  upAsciiChar (c : Char) : Char := Char.ofNat (c.toNat - 32)

/-- What follows the number in a header line of each type. -/
def SEType.suffixRe : SEType → Re
  | .book => .lit str!" KÖNYV"
  | .part _ => .lit str!" RÉSZ"
  | .title => .lit str!". CÍM"
  | .chapter => .seqs [.lit str!". ", caseless 'f', caseless 'e', caseless 'j', caseless 'e', caseless 'z',
      caseless 'e', caseless 't']

/-- Models `get_title_regex` (structural_element.rs:33-40): `^(.*) KÖNYV$`, `^(.*) RÉSZ$`, `^(.*)\. CÍM$`,
`^(?i)(.*)\. fejezet$`. -/
def SEType.titleRe (t : SEType) : Re := .seqs [.cap 1 (.many Re.anyChar), t.suffixRe, .eos]

/-- Models `StructuralElementParserFactory::try_create_from_header` (structural_element.rs:42-53); the
parser is the element with the title so far. -/
def SEType.tryCreate (t : SEType) (line : Line) : Option StructuralElement :=
  match Re.matchAt t.titleRe line.content with
  | none => none
  | some m => match m.group 1 with
    | none => none
    | some (_, s) => (t.parseIdentifier s).map fun id => ⟨id, [], t, none⟩

/-- Models `StructuralElementParser::feed_line` (structural_element.rs:64-66). -/
def StructuralElement.feedLine (e : StructuralElement) (l : Line) : StructuralElement :=
  { e with title := l.appendTo e.title }

/-! ### subtitle.rs -/

/-- `^([0-9]+(/[A-Z])?)\. ([^é§].*)$` (subtitle.rs:36) -/
def subtitleRe : Re :=
  .seqs [.cap 1 (.seqs [.many1 isDigit, .opt (.cap 2 (.seqs [.lit str!"/", .cls Re.upperAZ]))]),
    .lit str!". ", .cap 3 (.seqs [.cls (fun c => c != 'é' && c != '§'), .many Re.anyChar]), .eos]

/-- Models `SubtitleParserFactory::try_create_from_header` (subtitle.rs:26-52); the parser is the subtitle
with the title so far. `char::is_uppercase` is a parameter. -/
def subtitleTryCreate (upper : Char → Bool) (line : Line) (prevEmpty : Bool) (context : ParsingContext) :
    Option Subtitle :=
  if !line.isBold then none
  else match Re.matchAt subtitleRe line.content with
    | some m => match m.group 1, m.group 3 with
      | some (_, id), some (_, title) => (NumericId.parse id).map fun id => ⟨some id, title, none⟩
      | _, _ => none
    | none =>
      if prevEmpty || context = .blockAmendment then
        match line.content with
        | c :: _ => if upper c then some ⟨none, line.content, none⟩ else none
        | [] => none
      else none

/-- Models `SubtitleParser::feed_line` (subtitle.rs:62-64). -/
def Subtitle.feedLine (s : Subtitle) (l : Line) : Subtitle := { s with title := l.appendTo s.title }

/-! ### act.rs -/

/-- Models `enum ParseState` (act.rs:137-143). -/
inductive ParseState where
  | preamble
  | article (p : ArticleParser)
  | subtitle (s : Subtitle)
  | structuralElement (e : StructuralElement)
  deriving Repr, DecidableEq

/-- The result of a parser that is finished (act.rs:87-92 and 106-111); the preamble gives nothing. -/
def ParseState.finish : ParseState → Res (Option (ActChild Empty))
  | .preamble => .ok none
  | .article p => Res.map (fun a => some (.article a)) p.finish
  | .subtitle s => .ok (some (.subtitle s))
  | .structuralElement e => .ok (some (.structuralElement e))

/-- Feeding a line to the current parser (act.rs:95-100). -/
def ParseState.feedLine (s : ParseState) (l : Line) (preamble : Str) : ParseState × Str :=
  match s with
  | .preamble => (.preamble, l.appendTo preamble)
  | .article p => (.article (p.feedLine l), preamble)
  | .subtitle s => (.subtitle (s.feedLine l), preamble)
  | .structuralElement e => (.structuralElement (e.feedLine l), preamble)

/-- The types tried, in order (act.rs:54-60). -/
def seTypes : List SEType := [.book, .part false, .part true, .title, .chapter]

/-- Looking for a new element (act.rs:67-82). -/
def newState (upper : Char → Bool) (f : ArticleFactory) (line : Line) (prevEmpty : Bool)
    (context : ParsingContext) : Res (Option (ParseState × ArticleFactory)) :=
  match seTypes.findSome? (fun t => t.tryCreate line) with
  | some e => .ok (some (.structuralElement e, f))
  | none => match subtitleTryCreate upper line prevEmpty context with
    | some s => .ok (some (.subtitle s, f))
    | none => match f.tryCreate line none with
      | .ok (p, f) => .ok (some (.article p, f))
      | .err => .ok none
      | .panic => .panic

/-- A new element, if the line does not begin in a quote (act.rs:66-85). -/
def newStateIn (upper : Char → Bool) (q : QuoteCheck) (f : ArticleFactory) (line : Line) (prevEmpty : Bool)
    (context : ParsingContext) : Res (Option (ParseState × ArticleFactory)) :=
  if q.beginningIsQuoted then .ok none else newState upper f line prevEmpty context

/-- Adds the result of a finished parser. -/
def pushChild (cs : List (ActChild Empty)) : Option (ActChild Empty) → List (ActChild Empty)
  | some c => cs ++ [c]
  | none => cs

/-- The loop of `parse_complex_body` (act.rs:64-111) from some line on: preamble and children. -/
def complexFrom (upper : Char → Bool) (context : ParsingContext) (q : QuoteCheck) (f : ArticleFactory)
    (prevEmpty : Bool) (state : ParseState) (preamble : Str) (children : List (ActChild Empty)) :
    List Line → Res (Str × List (ActChild Empty))
  | [] => do
    q.checkEnd
    match ← state.finish with
    | none => .err
    | some c => .ok (preamble, children ++ [c])
  | l :: ls => do
    let q ← q.update l
    match ← newStateIn upper q f l prevEmpty context with
    | some (state', f) => do
      let c ← state.finish
      complexFrom upper context q f l.isEmpty state' preamble (pushChild children c) ls
    | none =>
      complexFrom upper context q f l.isEmpty (state.feedLine l preamble).1 (state.feedLine l preamble).2
        children ls

/-- A subtitle that is too long to be one (act.rs:121-131). -/
def tooLong : ActChild Empty → Bool
  | .subtitle s => decide (byteLen s.title > 1500)
  | _ => false

/-- Models `parse_complex_body` (act.rs:47-135). -/
def parseComplexBody (upper : Char → Bool) (lines : List Line) (context : ParsingContext) :
    Res (Str × List (ActChild Empty)) := do
  let (preamble, children) ← complexFrom upper context .new (.new context) true .preamble [] [] lines
  if context ≠ .fullAct ∧ preamble ≠ [] then .err
  else if children.any tooLong then .err
  else .ok (preamble, children)

/-- Models `parse_act_structure` (act.rs:29-39). -/
def parseActStructure (upper : Char → Bool) (raw : ActRawText) : Res (Act Empty) := do
  let (preamble, children) ← parseComplexBody upper raw.body .fullAct
  .ok ⟨raw.identifier, raw.subject, preamble, raw.publicationDate, [], children⟩

end HunLaw
