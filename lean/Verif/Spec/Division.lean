import Verif.Spec.Grammar

/-! How the lines of an act make up its preamble and its children (C33, C34, C36, C39). -/

set_option autoImplicit false

namespace HunLaw.Spec

/-- A line is the first one of a subtitle: it is bold, and either a number and a title, or the beginning of a
title. The latter starts with an upper case letter and follows an empty line, or is in a block amendment. -/
def SubtitleStart (upper : Char → Bool) (context : ParsingContext) (prevEmpty : Bool) (l : Line)
    (id : Option NumericId) (title : Str) : Prop :=
  l.isBold = true ∧ match id with
    | some id => ∃ n, SubtitleHeader l.content n title ∧ NumericId.parse n = some id
    | none => (∀ n t, ¬ SubtitleHeader l.content n t) ∧
        (prevEmpty = true ∨ context = .blockAmendment) ∧ title = l.content ∧
        ∃ c t, l.content = c :: t ∧ upper c = true

/-- A line is the header line of the article after the article `last`: the identifier follows, and the
header is not indented more. A full act begins with a first article. -/
def ArticleStart (context : ParsingContext) (last : Option (Line × ArticleId)) (l : Line) (id : ArticleId) :
    Prop :=
  (∃ t r, ArticleHeader l.content t r ∧ r ≠ [] ∧ ArticleId.parse t = some id) ∧
    match last with
    | some (h, prev) => l.indent < h.indent + 1 ∧ isNextFrom id prev = true
    | none => context = .fullAct → isFirst id = true

/-- A line is the first line of a structural element. -/
def IsStructuralHeader (l : Line) : Prop := ∃ type id, StructuralHeader type id l.content
/-- A line is the first line of a subtitle. -/
def IsSubtitleStart (upper : Char → Bool) (context : ParsingContext) (prevEmpty : Bool) (l : Line) : Prop :=
  ∃ id title, SubtitleStart upper context prevEmpty l id title

/-- The non-empty texts of lines. -/
def nonEmptyTexts (ls : List Line) : List Str := (ls.map Line.content).filter (· ≠ [])

/-- The child of an act that starts with the line `h` and goes on with the lines `body`. A line that can be
both is the header of a structural element rather than of a subtitle, of a subtitle rather than of an
article. -/
def ChildOf (upper : Char → Bool) (context : ParsingContext) (last : Option (Line × ArticleId))
    (prevEmpty : Bool) (h : Line) (body : List Line) : ActChild Empty → Prop
  | .structuralElement e =>
    StructuralHeader e.elementType e.identifier h.content ∧ Joined (nonEmptyTexts body) e.title ∧ e.lastChange = none
  | .subtitle s => ¬ IsStructuralHeader h ∧
      ∃ title, SubtitleStart upper context prevEmpty h s.identifier title ∧ Joined (title :: nonEmptyTexts body) s.title ∧
        s.lastChange = none
  | .article a => ¬ IsStructuralHeader h ∧ ¬ IsSubtitleStart upper context prevEmpty h ∧
      ArticleStart context last h a.identifier ∧ ArticleText a (noSpaces (allText (h :: body))) ∧
      ∃ rest, HeadOf ArticleHeader ArticleId.parse h a.identifier rest ∧ ArticleOf context (rest :: body) a

/-- The last of the lines is empty, or there is none. -/
def lastEmpty (ls : List Line) : Bool := match ls.getLast? with
  | some l => l.isEmpty
  | none => true

/-- The last article so far. -/
def lastArticle (last : Option (Line × ArticleId)) (h : Line) : ActChild Empty → Option (Line × ArticleId)
  | .article a => some (h, a.identifier)
  | _ => last

/-- None of the lines after `before` is, outside quotes, the first line of a child. -/
def NoStarts (upper : Char → Bool) (context : ParsingContext) (last : Option (Line × ArticleId))
    (before ls : List Line) : Prop :=
  ∀ x l y, ls = x ++ l :: y → opening (allText (before ++ x)) = closing (allText (before ++ x)) →
    ¬ IsStructuralHeader l ∧ ¬ IsSubtitleStart upper context (lastEmpty (before ++ x)) l ∧
    ∀ id, ¬ ArticleStart context last l id

/-- A child of an act with its lines: the first one and the other ones. -/
structure Piece where
  head : Line
  body : List Line
  child : ActChild Empty

/-- All lines of some pieces. -/
def pieceLines (ps : List Piece) : List Line := ps.flatMap fun p => p.head :: p.body

/-- Lines that come after the lines `before` are divided into pieces: each piece starts outside quotes with
a header, has no other header outside quotes, and its child is what is written in it. -/
def Division (upper : Char → Bool) (context : ParsingContext) (before : List Line)
    (last : Option (Line × ArticleId)) : List Piece → Prop
  | [] => True
  | p :: ps =>
    opening (allText before) = closing (allText before) ∧
    ChildOf upper context last (lastEmpty before) p.head p.body p.child ∧
    NoStarts upper context (lastArticle last p.head p.child) (before ++ [p.head]) p.body ∧
    Division upper context (before ++ p.head :: p.body) (lastArticle last p.head p.child) ps

/-- The lines are divided into those of the preamble and of the children. -/
def Divided (upper : Char → Bool) (context : ParsingContext) (ls : List Line) (preamble : Str)
    (children : List (ActChild Empty)) : Prop :=
  ∃ p ps, ls = p ++ pieceLines ps ∧ children = ps.map Piece.child ∧ ps ≠ [] ∧ preamble = Line.join p ∧
    NoStarts upper context none [] p ∧ Division upper context p none ps

end HunLaw.Spec
