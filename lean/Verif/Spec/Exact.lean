import Verif.Spec.Division
import Verif.Spec.Numbering

/-!
Exactly which structure is given to the lines of an act (C115). This is the grammar of Spec/Grammar, with the rule that
tells which reading is meant where several are possible: children begin at the first line where they can.
-/

set_option autoImplicit false

namespace HunLaw.Spec

/-- No quote is closed by the end of a line which was not opened before it. -/
def NestedLines (ls : List Line) : Prop := ∀ x y, ls = x ++ y → closing (allText x) ≤ opening (allText x)

section
variable {I C : Type} [IdentifierCommon I]

/-- The lines `ls` are the element: its text, if no children can begin at any line outside quotes, or else an intro and
the children which begin at the first line where they can. `ChildrenAre` says which children lines after a given line
are, with the wrap-up and further lines. `given` are lines at the end that are not part of it. -/
def ElementIs (context : ParsingContext)
    (ChildrenAre : I → Option Line → List Line → C → Option Str → List Line → Prop)
    (mode : WrapUpMode) (id : I) (ls : List Line) (e : SAE I C) (given : List Line) : Prop :=
  e.identifier = id ∧ e.semanticInfo = .default ∧ e.lastChange = none ∧
  ((∃ own, e.body = .text (Line.join own) ∧ BalancedLines ls ∧ NestedLines ls ∧
      (∀ x l y, ls = x ++ l :: y → BalancedLines x → ∀ cs w more, ¬ ChildrenAre id (lastNonEmpty x) (l :: y) cs w more) ∧
      if context = .blockAmendment ∧ mode = .giveIt then UpToUnjustified ls own given
      else own = ls ∧ given = []) ∨
   (∃ intro list cs w more, ls = intro ++ list ∧ BalancedLines intro ∧ NestedLines intro ∧
      ChildrenAre id (lastNonEmpty intro) list cs w more ∧
      (∀ x l y, intro = x ++ l :: y → BalancedLines x →
        ∀ cs w more, ¬ ChildrenAre id (lastNonEmpty x) (l :: y ++ list) cs w more) ∧
      match mode with
      | .keepIt => e.body = .children (Line.join intro) cs (more.foldl addLine w) ∧ given = []
      | .giveIt => e.body = .children (Line.join intro) cs w ∧ given = more))

/-- The lines are a list of elements with wrap-up. -/
def ListIs (Head : Line → I → Line → Prop) (First : I → Prop)
    (El : WrapUpMode → I → List Line → SAE I C → List Line → Prop) (context : ParsingContext)
    (wrapUps : Bool) (atLeast : Nat) (ls : List Line) (es : List (SAE I C)) (w : Option Str)
    (more : List Line) : Prop :=
  ListOf Head First El context wrapUps atLeast ls es w more ∧ NestedLines ls

end

/-! ### quoted blocks -/

/-- A line ends with one of the characters. -/
def EndsIn (cs : List Char) (l : Line) : Prop := ∃ c ∈ cs, l.content.getLast? = some c

/-- Lines from an opening mark to the closing one: `l` is the current line, cut after the opening mark if it is the first
one, `before` are all lines up to it, and `ls` those after it. The closing mark is the last character of the first line where
one is outside of quotes. `stored` are the lines without the marks. -/
inductive Enclosed (marks : List Char) : List Line → Line → List Line → List Line → Prop
  | last {before : List Line} {l : Line} (closed : EndsIn marks l) (outside : BalancedLines before) :
      Enclosed marks before l [] [l.slice 0 (some (-1))]
  | more {before : List Line} {l m : Line} {ls stored : List Line} (inside : ¬ (EndsIn marks l ∧ BalancedLines before))
      (next : Enclosed marks (before ++ [m]) m ls stored) : Enclosed marks before l (m :: ls) (l :: stored)

/-- Lines after `before` with any number of notes in brackets, with empty lines between them: `stored` are the lines
of the notes without brackets. -/
inductive Notes : List Line → List Line → List Line → Prop
  | nil {before : List Line} : Notes before [] []
  | empty {before ls stored : List Line} {l : Line} (empty : l.parts = []) (next : Notes (before ++ [l]) ls stored) :
      Notes before (l :: ls) stored
  | note {before ls note stored rest : List Line} {l : Line} {c : Char} {t : Str} (bracket : l.content = c :: t)
      (opens : OpeningBracket c) (closes : Enclosed [')', ']'] (before ++ [l]) (l.slice 1 none) ls note)
      (next : Notes (before ++ l :: ls) rest stored) : Notes before (l :: ls ++ rest) (note ++ stored)

/-- Lines after `before` with blocks in quotes, with empty lines between them: `blocks` are the lines of the blocks
without the quotation marks around them. -/
inductive Blocks : List Line → List Line → List (List Line) → Prop
  | nil {before : List Line} : Blocks before [] []
  | empty {before ls : List Line} {blocks : List (List Line)} {l : Line} (empty : l.parts = [])
      (next : Blocks (before ++ [l]) ls blocks) : Blocks before (l :: ls) blocks
  | block {before ls block rest : List Line} {blocks : List (List Line)} {l : Line} {c : Char} {t : Str}
      (quote : l.content = c :: t) (opens : OpeningQuote c)
      (closes : Enclosed ['”'] (before ++ [l]) (l.slice 1 none) ls block)
      (next : Blocks (before ++ l :: ls) rest blocks) : Blocks before (l :: ls ++ rest) (block :: blocks)

/-- A text, if there is any. -/
def textOpt (s : Str) : Option Str := if s = [] then none else some s

/-- The lines are quoted blocks: notes in brackets (after a line that ends with a colon), blocks, notes in brackets, and
a wrap-up. The notes are the intro of the first block and the wrap-up of the last one. -/
def QuotedAre (prev : Option Line) (ls : List Line) (bs : List QuotedBlock) (w : Option Str) : Prop :=
  NestedLines ls ∧
  ∃ pre notes mid blocks post notes' wrap, ls = pre ++ mid ++ post ++ wrap ∧
    Notes [] pre notes ∧ (pre ≠ [] → ∃ p, prev = some p ∧ p.content.getLast? = some ':') ∧
    Blocks pre mid blocks ∧ blocks ≠ [] ∧ (∀ l, ls.head? = some l → l.parts ≠ []) ∧
    Notes (pre ++ mid) post notes' ∧
    (∀ l, wrap.head? = some l → l.parts ≠ [] ∧ ∀ c t, l.content = c :: t →
      ¬ OpeningBracket c ∧ ((∀ l ∈ post, l.parts = []) → ¬ OpeningQuote c)) ∧
    bs.map QuotedBlock.lines = blocks ∧
    (∀ b ∈ bs.tail, b.intro = none) ∧ (∀ b ∈ bs.head?, b.intro = textOpt (Line.join notes)) ∧
    (∀ b ∈ bs.dropLast, b.wrapUp = none) ∧ (∀ b ∈ bs.getLast?, b.wrapUp = textOpt (Line.join notes')) ∧
    w = textOpt (Line.join wrap)

/-! ### the levels -/

variable (context : ParsingContext)

/-- Subpoints have no children. -/
def SubpointIs {I : Type} : WrapUpMode → I → List Line → SAE I NoChildren → List Line → Prop :=
  ElementIs context fun _ _ _ _ _ _ => False

/-- The children of a lettered point. -/
def AlphabeticChildrenAre (id : HunChar) (_ : Option Line) (ls : List Line) :
    AlphabeticPointChildren → Option Str → List Line → Prop
  | .numericSubpoint l => ListIs NumericHead (isFirst · = true) (SubpointIs context) context true 2 ls l
  | .alphabeticSubpoint l => ListIs (PrefixedHead (some id)) (isFirst · = true) (SubpointIs context) context true 2 ls l

/-- A lettered point. -/
def AlphabeticPointIs := ElementIs context (AlphabeticChildrenAre context)

/-- The children of a numbered point. -/
def NumericChildrenAre (_ : NumericId) (_ : Option Line) (ls : List Line) :
    NumericPointChildren → Option Str → List Line → Prop
  | .alphabeticSubpoint l => ListIs (PrefixedHead none) (isFirst · = true) (SubpointIs context) context true 2 ls l

/-- A numbered point. -/
def NumericPointIs := ElementIs context (NumericChildrenAre context)

/-- The children of a paragraph. -/
def ParagraphChildrenAre (_ : ParagraphId) (prev : Option Line) (ls : List Line) :
    ParagraphChildren Empty → Option Str → List Line → Prop
  | .quotedBlock l => fun w more => QuotedAre prev ls l w ∧ more = []
  | .numericPoint l => ListIs NumericHead (isFirst · = true) (NumericPointIs context) context true 2 ls l
  | .alphabeticPoint l => ListIs AlphabeticHead (isFirst · = true) (AlphabeticPointIs context) context true 2 ls l

/-- A paragraph. -/
def ParagraphIs := ElementIs context (ParagraphChildrenAre context)

/-- The paragraphs of an article: several with headers, or a single one without if there are no such. -/
def ParagraphsAre (ls : List Line) (ps : List (Paragraph Empty)) : Prop :=
  ListIs ParagraphHead (isFirst · = true) (ParagraphIs context) context false 2 ls ps none [] ∨
  (∀ ps, ¬ ListIs ParagraphHead (isFirst · = true) (ParagraphIs context) context false 2 ls ps none []) ∧
    ∃ p, ps = [p] ∧ ParagraphIs context .keepIt ⟨none⟩ ls p []

/-- The lines of an article without its header: title, the empty line if there is one, and paragraphs. -/
def ArticleIs (ls : List Line) (a : Article Empty) : Prop :=
  a.lastChange = none ∧ ∃ titleLines gap rest, ls = titleLines ++ gap ++ rest ∧
    (match a.title with
      | some title => ArticleTitleOf titleLines title
      | none => titleLines = [] ∧ ∀ l t, ls.head? = some l → l.content ≠ '[' :: t) ∧
    ((∃ l, gap = [l] ∧ l.parts = []) ∨ gap = [] ∧ ∀ l, rest.head? = some l → l.parts ≠ []) ∧
    rest ≠ [] ∧ ParagraphsAre context rest a.children

/-- A piece of an act that is an article has what is written after its header. -/
def PieceIs (x : Piece) : Prop :=
  ∀ a, x.child = .article a → ∃ rest, HeadOf ArticleHeader ArticleId.parse x.head a.identifier rest ∧
    ArticleIs context (rest :: x.body) a

/-- The lines of an act or of a part of it: the quotes are right, and the lines are divided into those of the
preamble and of the children. There is a child, only a full act has a preamble, and no subtitle is longer than
1500 bytes. -/
def BodyIs (upper : Char → Bool) (ls : List Line) (preamble : Str) (children : List (ActChild Empty)) : Prop :=
  NestedLines ls ∧ BalancedLines ls ∧ (context ≠ .fullAct → preamble = []) ∧
    (∀ s, .subtitle s ∈ children → byteLen s.title ≤ 1500) ∧
    ∃ p ps, ls = p ++ pieceLines ps ∧ children = ps.map Piece.child ∧ ps ≠ [] ∧ preamble = Line.join p ∧
      NoStarts upper context none [] p ∧ Division upper context p none ps ∧ ∀ x ∈ ps, PieceIs context x

end HunLaw.Spec
