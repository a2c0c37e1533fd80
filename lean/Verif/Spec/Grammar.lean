import Verif.Spec.Structure

/-! How lines make up elements: a declarative grammar of lists, paragraphs, points and subpoints, independent
of the order in which the parser tries things. -/

set_option autoImplicit false

namespace HunLaw.Spec

/-- Opening and closing quotes in the lines are equal in number. -/
def BalancedLines (ls : List Line) : Prop := opening (allText ls) = closing (allText ls)

/-- Lines without the empty ones. -/
def nonEmptyLines (ls : List Line) : List Line := ls.filter fun l => l.parts ≠ []

/-- Lines joined, if there are any. -/
def joinOpt (ls : List Line) : Option Str := if ls = [] then none else some (Line.join ls)

/-- `a` is the part of the lines up to their first line that is not justified, `b` is what follows it. -/
def UpToUnjustified (ls a b : List Line) : Prop :=
  ls = a ++ b ∧
    ((b = [] ∧ ∀ l ∈ a, l.justified = true) ∨
      ∃ init x, a = init ++ [x] ∧ (∀ l ∈ init, l.justified = true) ∧ x.justified = false)

/-- One more line in a wrap-up. -/
def addLine (w : Option Str) (l : Line) : Option Str := some (l.appendTo (w.getD []))

/-- The last line that is not empty. -/
def lastNonEmpty (ls : List Line) : Option Line := (nonEmptyLines ls).getLast?

section
variable {I C : Type} [IdentifierCommon I]

/-- How the lines `ls` make up the element: the text is all of them, or they consist of an intro and the lines
of children. `given` are lines at the end that are not part of it. `ChildrenOf` says how lines after a given
line make up children of an element, with wrap-up and further lines. -/
def ElementOf (context : ParsingContext)
    (ChildrenOf : I → Option Line → List Line → C → Option Str → List Line → Prop)
    (mode : WrapUpMode) (id : I) (ls : List Line) (e : SAE I C) (given : List Line) : Prop :=
  e.identifier = id ∧ e.semanticInfo = .default ∧
  ((∃ own, e.body = .text (Line.join own) ∧ BalancedLines ls ∧
      if context = .blockAmendment ∧ mode = .giveIt then UpToUnjustified ls own given
      else own = ls ∧ given = []) ∨
   (∃ intro list cs w more, ls = intro ++ list ∧ BalancedLines intro ∧
      ChildrenOf id (lastNonEmpty intro) list cs w more ∧
      match mode with
      | .keepIt => e.body = .children (Line.join intro) cs (more.foldl addLine w) ∧ given = []
      | .giveIt => e.body = .children (Line.join intro) cs w ∧ given = more))

/-- An element of a list: header line with identifier and text after the header, other lines. -/
structure Item (I C : Type) where
  head : Line
  id : I
  rest : Line
  body : List Line
  element : SAE I C

/-- All lines of an element without the header. -/
def Item.own (i : Item I C) : List Line := i.rest :: nonEmptyLines i.body

/-- All lines of a list. -/
def itemLines (is : List (Item I C)) : List Line := is.flatMap fun i => i.head :: i.body

/-- Elements of a list after the lines `before` and the element `prev`: the further headers are outside of
quotes, not indented more than the margin, and their identifiers follow one another; no other line is such a
header. -/
def Items (Head : Line → I → Line → Prop) (margin : Rat) (before : List Line) (prev : Option I) :
    List (Item I C) → Prop
  | [] => True
  | i :: is =>
    Head i.head i.id i.rest ∧
    (∀ p, prev = some p → BalancedLines before ∧ i.head.indent < margin + 1 ∧ isNextFrom i.id p = true) ∧
    (∀ x l y, i.body = x ++ l :: y → BalancedLines (before ++ i.head :: x) → l.indent < margin + 1 →
      ∀ id rest, Head l id rest → isNextFrom id i.id = false) ∧
    Items Head margin (before ++ i.head :: i.body) (some i.id) is

/-- The last element of a list and the wrap-up. In a full act the wrap-up are the lines from the first one on
that is not indented more than the margin. In a block amendment it is what the last element leaves, up to the
first line that is not justified. -/
def LastOf (El : WrapUpMode → I → List Line → SAE I C → List Line → Prop) (context : ParsingContext)
    (wrapUps : Bool) (margin : Rat) (i : Item I C) (w : Option Str) (more : List Line) : Prop :=
  if wrapUps then
    match context with
    | .fullAct => ∃ own wrap, i.own = own ++ wrap ∧ (∀ l ∈ own, ¬ l.indent < margin + 1) ∧
        (∀ l, wrap.head? = some l → l.indent < margin + 1) ∧
        El .keepIt i.id own i.element [] ∧ w = joinOpt wrap ∧ more = []
    | .blockAmendment => ∃ given wrap, El .giveIt i.id i.own i.element given ∧
        UpToUnjustified given wrap more ∧ w = joinOpt wrap
  else El .keepIt i.id i.own i.element [] ∧ w = none ∧ more = []

/-- How lines make up a list of elements with wrap-up. -/
def ListOf (Head : Line → I → Line → Prop) (First : I → Prop)
    (El : WrapUpMode → I → List Line → SAE I C → List Line → Prop) (context : ParsingContext)
    (wrapUps : Bool) (atLeast : Nat) (ls : List Line) (es : List (SAE I C)) (w : Option Str)
    (more : List Line) : Prop :=
  ∃ is last first, ls = itemLines (is ++ [last]) ∧ es = (is ++ [last]).map Item.element ∧
    atLeast ≤ es.length ∧ BalancedLines ls ∧
    (is ++ [last]).head? = some first ∧ First first.id ∧
    Items Head first.head.indent [] none (is ++ [last]) ∧
    (∀ i ∈ is, El .keepIt i.id i.own i.element []) ∧
    LastOf El context wrapUps first.head.indent last w more

/-- A header: identifier and the rest of the line. -/
def HeadOf (Header : Str → Str → Str → Prop) (parse : Str → Option I) (l : Line) (id : I) (rest : Line) :
    Prop :=
  ∃ t r, Header l.content t r ∧ r ≠ [] ∧ parse t = some id ∧ rest = l.slice ((l.len : Int) - r.length) none
end

def ParagraphHead := HeadOf ParagraphHeader ParagraphId.parse
def NumericHead := HeadOf NumericHeader NumericId.parse
def AlphabeticHead := HeadOf AlphabeticHeader HunChar.parse
/-- The header of a lettered subpoint of a point with the letter `pfx`. -/
def PrefixedHead (pfx : Option HunChar) (l : Line) (id : PrefixedId) (rest : Line) : Prop :=
  HeadOf PrefixedHeader PrefixedId.parse l id rest ∧ id.pfx = pfx

variable (context : ParsingContext)

/-- Subpoints have no children. -/
def SubpointOf {I : Type} : WrapUpMode → I → List Line → SAE I NoChildren → List Line → Prop :=
  ElementOf context fun _ _ _ _ _ _ => False

/-- Lettered subpoints. -/
def AlphabeticSubpointsOf (pfx : Option HunChar) (First : PrefixedId → Prop) :=
  ListOf (PrefixedHead pfx) First (SubpointOf context) context true 2

/-- Numbered subpoints. -/
def NumericSubpointsOf (First : NumericId → Prop) := ListOf NumericHead First (SubpointOf context) context true 2

/-- Children of a lettered point: subpoints starting with the first one. -/
def AlphabeticChildrenOf (id : HunChar) (_ : Option Line) (ls : List Line) :
    AlphabeticPointChildren → Option Str → List Line → Prop
  | .numericSubpoint l => NumericSubpointsOf context (isFirst · = true) ls l
  | .alphabeticSubpoint l => AlphabeticSubpointsOf context (some id) (isFirst · = true) ls l

/-- A lettered point. -/
def AlphabeticPointOf := ElementOf context (AlphabeticChildrenOf context)

/-- Children of a numbered point. -/
def NumericChildrenOf (_ : NumericId) (_ : Option Line) (ls : List Line) :
    NumericPointChildren → Option Str → List Line → Prop
  | .alphabeticSubpoint l => AlphabeticSubpointsOf context none (isFirst · = true) ls l

/-- A numbered point. -/
def NumericPointOf := ElementOf context (NumericChildrenOf context)

/-- The lines of a quoted block: they are in quotes, the quotes in them are balanced, and it is the first line
that ends with a closing quote that balances the ones before it that ends the block. -/
def BlockLines (ls : List Line) (b : QuotedBlock) : Prop :=
  Unquoted ls b.lines ∧ BalancedLines ls ∧
    ∃ init last, ls = init ++ [last] ∧
      ∀ a l z, init = a ++ l :: z → ¬ (BalancedLines (a ++ [l]) ∧ l.content.getLast? = some '”')

/-- Quoted blocks: any number of notes in brackets, the blocks with empty lines between them, notes in
brackets, wrap-up. The notes are the intro of the first block and the wrap-up of the last one. -/
def QuotedOf (ls : List Line) (bs : List QuotedBlock) (w : Option Str) : Prop :=
  ∃ (pre post : List Line) (v : Str) (segs : List (List Line × List Line)), ls = pre ++ (segs.flatMap fun s => s.1 ++ s.2) ++ post ∧ segs ≠ [] ∧
    List.Forall₂ (fun s b => BlockLines s.1 b ∧ ∀ l ∈ s.2, l.parts = []) segs bs ∧
    NoteText (bs.head?.bind QuotedBlock.intro) (noSpaces (allText pre)) ∧ (∀ b ∈ bs.tail, b.intro = none) ∧
    NoteText (bs.getLast?.bind QuotedBlock.wrapUp) v ∧ (∀ b ∈ bs.dropLast, b.wrapUp = none) ∧
    noSpaces (allText post) = v ++ noSpaces (w.getD [])

/-- Children of a paragraph. Quoted blocks start with a quote, or, after a line that ends with a colon, also
with a bracket. -/
def ParagraphChildrenOf (_ : ParagraphId) (prev : Option Line) (ls : List Line) :
    ParagraphChildren Empty → Option Str → List Line → Prop
  | .quotedBlock l => fun w more => QuotedOf ls l w ∧ more = [] ∧
      ∃ first others c t, ls = first :: others ∧ first.content = c :: t ∧ (OpeningQuote c ∨
        (OpeningBracket c ∧ ∃ p, prev = some p ∧ p.content.getLast? = some ':'))
  | .numericPoint l => ListOf NumericHead (isFirst · = true) (NumericPointOf context) context true 2 ls l
  | .alphabeticPoint l =>
    ListOf AlphabeticHead (isFirst · = true) (AlphabeticPointOf context) context true 2 ls l

/-- A paragraph. -/
def ParagraphOf := ElementOf context (ParagraphChildrenOf context)

/-- The paragraphs of an article: several with headers, or a single one without. -/
def ParagraphsOf (ls : List Line) (ps : List (Paragraph Empty)) : Prop :=
  ListOf ParagraphHead (isFirst · = true) (ParagraphOf context) context false 2 ls ps none [] ∨
  ∃ p, ps = [p] ∧ ParagraphOf context .keepIt ⟨none⟩ ls p []

/-- The title of an article takes up the lines: the first one starts with `[`, the last one ends with `]`, and
none of the other ones does. -/
def ArticleTitleOf (ls : List Line) (title : Str) : Prop :=
  ∃ first others t, ls = first :: others ∧ first.content = '[' :: t ∧
    Joined ((t :: others.map Line.content).filter (· ≠ [])) (title ++ [']']) ∧
    ∀ a b, a ++ b = others → b ≠ [] →
      ∀ s, Joined ((t :: a.map Line.content).filter (· ≠ [])) s → s.getLast? ≠ some ']'

/-- The lines of an article without its header: title, an empty line at most, paragraphs. -/
def ArticleOf (ls : List Line) (a : Article Empty) : Prop :=
  ∃ titleLines gap rest, ls = titleLines ++ gap ++ rest ∧
    (match a.title with
      | some title => ArticleTitleOf titleLines title
      | none => titleLines = [] ∧ ∀ l t, ls.head? = some l → l.content ≠ '[' :: t) ∧
    (gap = [] ∨ ∃ l, gap = [l] ∧ l.parts = []) ∧
    ParagraphsOf context rest a.children

end HunLaw.Spec
