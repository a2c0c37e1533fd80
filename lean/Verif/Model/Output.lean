import Verif.Model.BlockAmendment
import Verif.Model.Fixups
import Verif.Model.MkAct

/-!
Model of /repo/src/output/text.rs and of the text formats of /repo/src/output/mod.rs.

The writer is modelled by what is written to it; if there is an error or a panic, what was written before it is
not modelled. Errors of the writer itself are not modelled. `textwrap::wrap` is a parameter, `Wrapper`.
Simplification: `usize` is not bounded above; a subtraction below zero panics, as in a debug build.
-/

set_option autoImplicit false

namespace HunLaw.Output

open HunLaw

/-- `textwrap::wrap(text, width)` of the crate `textwrap`, which is not modelled. -/
abbrev Wrapper := Str → Nat → List Str

/-- Models `struct TextOutputParams` (text.rs:32-38). -/
structure Params where
  width : Nat
  level : Nat
  indentNext : Bool
  colored : Bool
  deriving Repr, DecidableEq

/-- Models `BOLD` (text.rs:373). -/
def bold : Str := str!"1"
/-- Models `ITALIC` (text.rs:374). -/
def italic : Str := str!"3"

namespace Params

/-- Models `TextOutputParams::new` (text.rs:281-288). -/
def new (width : Nat) (colored : Bool) : Params := ⟨width, 0, true, colored⟩

/-- Models `indented` (text.rs:328-333). -/
def indented (p : Params) : Params := { p with level := p.level + 1 }

/-- Models `write_indent_if_needed` (text.rs:289-296). -/
def indentation (p : Params) : Str := if p.indentNext then List.replicate (p.level * 5) ' ' else []

/-- Models `write_header` (text.rs:298-303): what it writes. -/
def header (p : Params) (text : Str) : Str := p.indentation ++ text

/-- The parameters after `write_header` (text.rs:301). -/
def sameLine (p : Params) : Params := { p with indentNext := false }

/-- The parameters after `write_newline` (text.rs:316). -/
def nextLine (p : Params) : Params := { p with indentNext := true }

/-- Models `colorize` (text.rs:320-326). -/
def colorize (p : Params) (text code : Str) : Str :=
  if p.colored then ['\x1B', '['] ++ code ++ ['m'] ++ text ++ ['\x1B', '[', '0', 'm'] else text

/-- The loop of `write_wrapped_line` (text.rs:306-310), which has the loop's lines as an argument: what it writes
and the new parameters. -/
def lines (p : Params) : List Str → Str × Params
  | [] => ([], p)
  | l :: ls =>
    let r := lines p.nextLine ls
    (p.indentation ++ l ++ ['\n'] ++ r.1, r.2)

/-- Models `write_wrapped_line` (text.rs:305-312): what it writes and the new parameters. -/
def wrapped (w : Wrapper) (p : Params) (text : Str) : Res (Str × Params) :=
  if p.width < p.level * 5 then .panic else .ok (p.lines (w text (p.width - p.level * 5)))

/-- `write_wrapped_line` if there is a text. -/
def wrappedOpt (w : Wrapper) (p : Params) : Option Str → Res (Str × Params)
  | none => .ok ([], p)
  | some text => p.wrapped w text

end Params

/-! ### references in texts -/

/-- The first `n` bytes of a text and the rest of it; `none` if this is not a character boundary. -/
def splitBytes : Nat → Str → Option (Str × Str)
  | 0, s => some ([], s)
  | _ + 1, [] => none
  | n + 1, c :: cs =>
    if utf8Len c ≤ n + 1 then (splitBytes (n + 1 - utf8Len c) cs).map fun r => (c :: r.1, r.2) else none

/-- `&text[from..]`, which panics if it is not a character boundary. -/
def sliceFrom (text : Str) (from' : Nat) : Res Str :=
  match splitBytes from' text with
  | some r => .ok r.2
  | none => .panic

/-- `&text[from..to]`, which panics if these are not character boundaries or `to < from`. -/
def slice (text : Str) (from' to' : Nat) : Res Str :=
  if to' < from' then .panic
  else match splitBytes to' text with
    | some r => sliceFrom r.1 from'
    | none => .panic

/-- The loop of `split_string_at_references` (text.rs:364-369) and the piece after it. -/
def splitFrom (text : Str) (prevEnd : Nat) : List OutgoingRef → Res (List (Str × Bool))
  | [] => do
    let t ← sliceFrom text prevEnd
    .ok [(t, false)]
  | r :: rs => do
    let before ← slice text prevEnd r.start
    let inside ← slice text r.start r.fin
    let rest ← splitFrom text r.fin rs
    .ok ((before, false) :: (inside, true) :: rest)

/-- Models `split_string_at_references` (text.rs:358-371). -/
def splitAtReferences (text : Str) (refs : List OutgoingRef) : Res (List (Str × Bool)) := splitFrom text 0 refs

/-- The default colour of `colorize_sae_string` (text.rs:341-345). -/
def defaultColor (i : SemanticInfo) : Str := if i.specialPhrase.isSome then str!"33" else str!"0"

/-- Models `colorize_sae_string` (text.rs:336-356). -/
def colorizeSae (text : Str) (p : Params) (i : SemanticInfo) : Res Str := do
  let pieces ← splitAtReferences text i.outgoingReferences
  .ok (pieces.flatMap fun x => p.colorize x.1 (if x.2 then str!"36" else defaultColor i))

/-! ### elements -/

/-- `format!("{:<n$}", s)` -/
def pad (n : Nat) (s : Str) : Str := s ++ List.replicate (n - s.length) ' '

/-- Models `TextOutput for Vec<T>` (text.rs:270-278). -/
def list {X : Type} (f : Params → X → Res Str) (p : Params) : List X → Res Str
  | [] => .ok []
  | x :: xs => do
    let s ← f p x
    let t ← list f p.nextLine xs
    .ok (s ++ t)

/-- The body of `write_as_text for SubArticleElement` (text.rs:133-154). -/
def body {C : Type} (w : Wrapper) (children : Params → C → Res Str) (p : Params) (i : SemanticInfo) :
    SAEBody C → Res Str
  | .text t => do
    let t ← colorizeSae t p i
    let r ← p.wrapped w t
    .ok r.1
  | .children intro c wrapUp => do
    let t ← colorizeSae intro p i
    let r ← p.wrapped w t
    let s ← children r.2 c
    let r2 ← r.2.wrappedOpt w wrapUp
    .ok (r.1 ++ s ++ r2.1)

/-- Models `TextOutput for SubArticleElement` (text.rs:124-157); `head` is its `header_string`. -/
def sae {I C : Type} (w : Wrapper) (head : Str) (children : Params → C → Res Str) (p : Params) (e : SAE I C) :
    Res Str := do
  let s ← body w children p.sameLine.indented e.semanticInfo e.body
  .ok (p.header (pad 5 head) ++ s)

/-- Models `TextOutput for AlphabeticSubpointChildren` and `NumericSubpointChildren` (text.rs:188-200). -/
def noChildren (_ : Params) (c : NoChildren) : Res Str := nomatch c

/-- `TextOutput` of an alphabetic subpoint, with its header (structure.rs:592-596). -/
def alphabeticSubpoint (w : Wrapper) (p : Params) (e : AlphabeticSubpoint) : Res Str :=
  sae w (e.identifier.display ++ str!")") noChildren p e

/-- `TextOutput` of a numeric subpoint, with its header (structure.rs:586-590). -/
def numericSubpoint (w : Wrapper) (p : Params) (e : NumericSubpoint) : Res Str :=
  sae w (e.identifier.display ++ str!".") noChildren p e

/-- Models `TextOutput for AlphabeticPointChildren` (text.rs:171-178). -/
def alphabeticPointChildren (w : Wrapper) (p : Params) : AlphabeticPointChildren → Res Str
  | .alphabeticSubpoint l => list (alphabeticSubpoint w) p l
  | .numericSubpoint l => list (numericSubpoint w) p l

/-- Models `TextOutput for NumericPointChildren` (text.rs:180-186). -/
def numericPointChildren (w : Wrapper) (p : Params) : NumericPointChildren → Res Str
  | .alphabeticSubpoint l => list (alphabeticSubpoint w) p l

/-- `TextOutput` of an alphabetic point, with its header (structure.rs:580-584). -/
def alphabeticPoint (w : Wrapper) (p : Params) (e : AlphabeticPoint) : Res Str :=
  sae w (e.identifier.display ++ str!")") (alphabeticPointChildren w) p e

/-- `TextOutput` of a numeric point, with its header (structure.rs:574-578). -/
def numericPoint (w : Wrapper) (p : Params) (e : NumericPoint) : Res Str :=
  sae w (e.identifier.display ++ str!".") (numericPointChildren w) p e

/-- `f64 as usize`: towards zero, and zero for negative numbers. -/
def asUsize (x : Rat) : Nat := x.floor.toNat

/-- Models `min_indent` (text.rs:208-213). -/
def minIndent (l : List Line) : Rat :=
  ((l.map Line.indent).filter fun i => decide (i > 0)).foldl (fun a b => if a > b then b else a) 1000

/-- The loop of `TextOutput for QuotedBlock` (text.rs:214-219): what it writes and the new parameters. -/
def quotedLines (min : Rat) (p : Params) : List Line → Str × Params
  | [] => ([], p)
  | line :: ls =>
    let r := quotedLines min p.nextLine ls
    (p.header (List.replicate (asUsize ((line.indent - min) * (1 / 5)) + 5) ' ') ++ line.content ++ ['\n'] ++ r.1, r.2)

/-- Models `TextOutput for QuotedBlock` (text.rs:202-226). -/
def quotedBlock (w : Wrapper) (p : Params) (q : QuotedBlock) : Res Str := do
  let r0 ← p.wrappedOpt w q.intro
  let r1 ← r0.2.wrapped w str!"„"
  let l := quotedLines (minIndent q.lines) r1.2 q.lines
  let r2 ← l.2.wrapped w str!"”"
  let r3 ← r2.2.wrappedOpt w q.wrapUp
  .ok (r0.1 ++ r1.1 ++ l.1 ++ r2.1 ++ r3.1)

/-- Models `TextOutput for ParagraphChildren` (text.rs:159-169); `amendment` is that of its last two variants. -/
def paragraphChildren {A : Type} (w : Wrapper) (amendment : Params → A → Res Str) (p : Params) :
    ParagraphChildren A → Res Str
  | .alphabeticPoint l => list (alphabeticPoint w) p l
  | .numericPoint l => list (numericPoint w) p l
  | .quotedBlock l => list (quotedBlock w) p l
  | .amendment a => amendment p a

/-- Models `SAEHeaderString for Paragraph` (structure.rs:564-572). -/
def paragraphHeader (i : ParagraphId) : Str := if IdentifierCommon.isEmpty i then [] else str!"(" ++ i.display ++ str!")"

/-- `TextOutput` of a paragraph. -/
def paragraph {A : Type} (w : Wrapper) (amendment : Params → A → Res Str) (p : Params) (e : Paragraph A) : Res Str :=
  sae w (paragraphHeader e.identifier) (paragraphChildren w amendment) p e

/-- The title of an article (text.rs:113-115). -/
def articleTitle (a : Option Str) : Option Str := a.map fun t => str!"     [" ++ t ++ str!"]"

/-- The end of an article without children (text.rs:117-119). -/
def emptyEnd {X : Type} (l : List X) : Str := if l.isEmpty then ['\n'] else []

/-- Models `TextOutput for Article` (text.rs:106-122), with its header (structure.rs:244-248). -/
def article {A : Type} (w : Wrapper) (amendment : Params → A → Res Str) (p : Params) (a : Article A) : Res Str := do
  let r ← p.sameLine.indented.indented.wrappedOpt w (articleTitle a.title)
  let s ← list (paragraph w amendment) r.2 a.children
  .ok (p.header (p.colorize (pad 10 (a.identifier.display ++ str!". §")) bold) ++ r.1 ++ s ++ emptyEnd a.children)

/-- `if !self.title.is_empty()` (text.rs:85) -/
def nonEmpty (s : Str) : Option Str := if s.isEmpty then none else some s

/-- Models `TextOutput for StructuralElement` (text.rs:82-90). -/
def structuralElement (w : Wrapper) (p : Params) (e : StructuralElement) : Res Str := do
  let h ← Res.ofOption e.headerString
  let r ← p.wrapped w (p.colorize h italic)
  let r2 ← r.2.wrappedOpt w ((nonEmpty e.title).map fun t => p.colorize t italic)
  .ok (r.1 ++ r2.1)

/-- The text of a subtitle (text.rs:94-101). -/
def subtitleText (s : Subtitle) : Str :=
  match s.identifier with
  | some i => i.displaySlash ++ str!". " ++ s.title
  | none => s.title

/-- Models `TextOutput for Subtitle` (text.rs:92-104). -/
def subtitle (w : Wrapper) (p : Params) (s : Subtitle) : Res Str := do
  let r ← p.wrapped w (p.colorize (subtitleText s) bold)
  .ok r.1

/-- Models `TextOutput for ActChild` (text.rs:72-80). -/
def actChild {A : Type} (w : Wrapper) (amendment : Params → A → Res Str) (p : Params) : ActChild A → Res Str
  | .structuralElement e => structuralElement w p e
  | .subtitle s => subtitle w p s
  | .article a => article w amendment p a

/-- There are no amendments inside of an amendment. -/
def noAmendment (_ : Params) (a : Empty) : Res Str := nomatch a

/-- Models `TextOutput for BlockAmendmentChildren` (text.rs:228-238). -/
def blockAmendmentChildren (w : Wrapper) (p : Params) : BlockAmendmentChildren → Res Str
  | .paragraph l => list (paragraph w noAmendment) p l
  | .alphabeticPoint l => list (alphabeticPoint w) p l
  | .numericPoint l => list (numericPoint w) p l
  | .alphabeticSubpoint l => list (alphabeticSubpoint w) p l
  | .numericSubpoint l => list (numericSubpoint w) p l

/-- `params.colorize(format!("({intro})"), ITALIC)` (text.rs:243, 249) -/
def bracketed (p : Params) (t : Option Str) : Option Str :=
  t.map fun t => p.colorize (str!"(" ++ t ++ str!")") italic

/-- The two functions for amendments (text.rs:240-268) with that of their children. -/
def quoted {C : Type} (w : Wrapper) (children : Params → C → Res Str) (p : Params) (intro : Option Str) (c : C)
    (wrapUp : Option Str) : Res Str := do
  let r0 ← p.wrappedOpt w (bracketed p intro)
  let r1 ← r0.2.wrapped w str!"„"
  let s ← children r1.2.indented c
  let r2 ← r1.2.wrapped w str!"”"
  let r3 ← r2.2.wrappedOpt w (bracketed p wrapUp)
  .ok (r0.1 ++ r1.1 ++ s ++ r2.1 ++ r3.1)

/-- Models `TextOutput for BlockAmendment` (text.rs:240-253) and `for StructuralBlockAmendment`
(text.rs:255-268). -/
def amendment (w : Wrapper) (p : Params) : Amendment → Res Str
  | .block i c wu => quoted w (blockAmendmentChildren w) p i c wu
  | .structural i c wu => quoted w (list (actChild w noAmendment)) p i c wu

/-- `matches!(child, ActChild::Article(_))` -/
def isArticle {A : Type} : ActChild A → Bool
  | .article _ => true
  | _ => false

/-- The loop of `TextOutput for Act` (text.rs:59-67). -/
def actChildren {A : Type} (w : Wrapper) (amendment : Params → A → Res Str) (p : Params) :
    Bool → List (ActChild A) → Res Str
  | _, [] => .ok []
  | lastWasArticle, c :: cs => do
    let s ← actChild w amendment p c
    let t ← actChildren w amendment p (isArticle c) cs
    .ok ((if !lastWasArticle || !isArticle c then ['\n'] else []) ++ s ++ t)

/-- Models `TextOutput for Act` (text.rs:44-70). The parameters have `indent_next_line` set after the first
newline. -/
def act {A : Type} (w : Wrapper) (amendment : Params → A → Res Str) (p : Params) (a : Act A) : Res Str := do
  let id ← a.identifier.display
  let r ← p.nextLine.wrapped w a.preamble
  let s ← actChildren w amendment p.nextLine true a.children
  .ok (p.header (p.colorize id bold ++ str!" " ++ a.subject) ++ ['\n', '\n'] ++ r.1 ++ ['\n'] ++ s)

/-- Models `cli_output_plain` for an act (mod.rs:141-152), for the acts that the parser makes. -/
def cliAct (w : Wrapper) (width : Nat) (colored : Bool) (a : Act Amendment) : Res Str :=
  act w (amendment w) (Params.new width colored).indented a

/-! ### lines -/

/-- Models `quick_display_indented_line` (mod.rs:154-170). -/
def displayLine (testingTags : Bool) (l : Line) : Str :=
  let indent := asUsize (l.indent * (1 / 5))
  let isBold := testingTags && l.isBold
  let notJustified := testingTags && !l.justified
  let indent := if isBold then indent - 6 else indent
  let indent := if notJustified then indent - 4 else indent
  (if isBold then str!"<BOLD>" else []) ++ (if notJustified then str!"<NJ>" else []) ++
    List.replicate indent ' ' ++ l.content

/-- Models `cli_output_plain` for a page (mod.rs:100-117). -/
def cliPage (testingTags : Bool) (page : List Line) : Str :=
  page.flatMap fun l => displayLine testingTags l ++ ['\n']

/-- Models `cli_output_plain` for pages (mod.rs:79-98) from the one with the given number. -/
def cliPagesFrom (testingTags : Bool) (count : Nat) : Nat → List (List Line) → Str
  | _, [] => []
  | n, page :: pages =>
    str!"\n------- page " ++ dec (n + 1) ++ str!"/" ++ dec count ++ str!" -------\n\n" ++ cliPage testingTags page ++
      cliPagesFrom testingTags count (n + 1) pages

/-- Models `cli_output_plain` for pages (mod.rs:79-98). -/
def cliPages (testingTags : Bool) (pages : List (List Line)) : Str := cliPagesFrom testingTags pages.length 0 pages

/-- `{:?}` of a date (mod.rs:128). -/
def showDate (d : Date) : Str := d.display

/-- Models `cli_output_plain` for the lines of an act (mod.rs:119-139). -/
def cliRawAct (testingTags : Bool) (a : ActRawText) : Res Str := do
  let id ← a.identifier.display
  .ok (str!"Act ID: " ++ id ++ str!" - " ++ a.subject ++ str!"\nPub date: " ++ showDate a.publicationDate ++
    str!"\n\n" ++ cliPage testingTags a.body)

/-- The loop of `from_test_str` (indentedline.rs:152-169); `5.0 + spaces_num as f64 * 5.0`. -/
def testParts (bold : Bool) : Nat → Str → List LinePart
  | _, [] => []
  | spaces, c :: cs =>
    if c = ' ' then
      (if spaces = 0 then [⟨5, c, bold⟩] else []) ++ testParts bold (spaces + 1) cs
    else ⟨5 + (spaces : Rat) * 5, c, bold⟩ :: testParts bold 0 cs

/-- `s.replace(p, b)` where `b` are as many spaces as `p` has characters; the first argument is the number of
characters of the current occurrence that are still to come. -/
def blankFrom (p : Str) : Nat → Str → Str
  | _, [] => []
  | k + 1, _ :: cs => ' ' :: blankFrom p k cs
  | 0, c :: cs => if startsWith (c :: cs) p then ' ' :: blankFrom p (p.length - 1) cs else c :: blankFrom p 0 cs

/-- `"<NJ>"` -/
def njTag : Str := str!"<NJ>"

/-- Models `from_test_str` (indentedline.rs:146-172). -/
def fromTestStr (s : Str) : Line :=
  Line.fromParts (testParts (containsStr s boldTag) 1 (blankFrom njTag 0 (blankFrom boldTag 0 s)))
    (!containsStr s njTag)

end HunLaw.Output
