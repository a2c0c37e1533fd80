import Verif.Model.Structure
import Verif.Model.Sae
import Verif.Spec.Line

/-! Independent specifications for the properties of the structure parser, C33-C39. -/

set_option autoImplicit false

namespace HunLaw.Spec

/-! ### Text of elements (C36) -/

/-- A text without its spaces. -/
def noSpaces (s : Str) : Str := s.filter (· ≠ ' ')

/-- How the header of a paragraph is written: `(12)`, `(12a)`. -/
def ParagraphMark (id : ParagraphId) (h : Str) : Prop :=
  ∃ t, ParagraphIdText t ∧ ParagraphId.parse t = some id ∧ h = ['('] ++ t ++ [')']
/-- `12.`, `12a.`, `12/a.` -/
def NumericMark (id : NumericId) (h : Str) : Prop :=
  ∃ t, NumericIdText t ∧ NumericId.parse t = some id ∧ h = t ++ ['.']
/-- `a)`, `cs)` -/
def AlphabeticMark (id : HunChar) (h : Str) : Prop :=
  ∃ t, AlphabeticIdText t ∧ HunChar.parse t = some id ∧ h = t ++ [')']
/-- `a)`, `ab)` -/
def PrefixedMark (id : PrefixedId) (h : Str) : Prop :=
  ∃ t, PrefixedIdText t ∧ PrefixedId.parse t = some id ∧ h = t ++ [')']
/-- `12.§`, `12/A.§`, `3:12.§` -/
def ArticleMark (id : ArticleId) (h : Str) : Prop :=
  ∃ t, ArticleIdText t ∧ ArticleId.parse t = some id ∧ h = t ++ ['.', '§']

/-- The text `t`, without spaces, is that of a body: of its text, or of its intro, its children, and its
wrap-up in this order. -/
def BodyText {C : Type} (childrenText : C → Str → Prop) (b : SAEBody C) (t : Str) : Prop :=
  match b with
  | .text s => t = noSpaces s
  | .children intro cs wrapUp =>
    ∃ u, childrenText cs u ∧ t = noSpaces intro ++ u ++ noSpaces (wrapUp.getD [])

/-- The text of a list of elements: for each its header and its body. -/
def ElementsText {I C : Type} (mark : I → Str → Prop) (childrenText : C → Str → Prop) :
    List (SAE I C) → Str → Prop
  | [], t => t = []
  | e :: es, t => ∃ h b u, mark e.identifier h ∧ BodyText childrenText e.body b ∧
      ElementsText mark childrenText es u ∧ t = h ++ b ++ u

/-- Elements at the lowest level have no children. -/
def NoChildrenText (_ : NoChildren) (_ : Str) : Prop := False

/-- The text of the children of a numeric point. -/
def NumericChildrenText : NumericPointChildren → Str → Prop
  | .alphabeticSubpoint l => ElementsText PrefixedMark NoChildrenText l

/-- The text of the children of an alphabetic point. -/
def AlphabeticChildrenText : AlphabeticPointChildren → Str → Prop
  | .alphabeticSubpoint l => ElementsText PrefixedMark NoChildrenText l
  | .numericSubpoint l => ElementsText NumericMark NoChildrenText l

def OpeningBracket (c : Char) : Prop := c = '(' ∨ c = '['
def ClosingBracket (c : Char) : Prop := c = ')' ∨ c = ']'
def OpeningQuote (c : Char) : Prop := c = '„' ∨ c = '“'

/-- Texts in brackets, one after the other. -/
def Bracketed : List Str → Str → Prop
  | [], t => t = []
  | p :: ps, t => ∃ o c u, OpeningBracket o ∧ ClosingBracket c ∧ Bracketed ps u ∧ t = [o] ++ p ++ [c] ++ u

/-- The text of an intro or wrap-up of a quoted block: any number of texts in brackets. -/
def NoteText (note : Option Str) (t : Str) : Prop :=
  ∃ ps, noSpaces (note.getD []) = ps.flatten ∧ Bracketed ps t

/-- The text of quoted blocks: intro, the lines in quotes, wrap-up. -/
def QuotedText : List QuotedBlock → Str → Prop
  | [], t => t = []
  | b :: bs, t => ∃ i q w u, NoteText b.intro i ∧ OpeningQuote q ∧ NoteText b.wrapUp w ∧ QuotedText bs u ∧
      t = i ++ [q] ++ noSpaces (allText b.lines) ++ ['”'] ++ w ++ u

/-- The text of the children of a paragraph. -/
def ParagraphChildrenText : ParagraphChildren Empty → Str → Prop
  | .alphabeticPoint l => ElementsText AlphabeticMark AlphabeticChildrenText l
  | .numericPoint l => ElementsText NumericMark NumericChildrenText l
  | .quotedBlock l => QuotedText l

/-- The text of the paragraphs of an article: one paragraph without header, or several. -/
def ParagraphsText (ps : List (Paragraph Empty)) (t : Str) : Prop :=
  (∃ p, ps = [p] ∧ p.identifier = ⟨none⟩ ∧ BodyText ParagraphChildrenText p.body t) ∨
  (2 ≤ ps.length ∧ ElementsText ParagraphMark ParagraphChildrenText ps t)

/-- The title of an article is in square brackets. -/
def titleText : Option Str → Str
  | some s => ['['] ++ noSpaces s ++ [']']
  | none => []

/-- The text of an article: header, title in square brackets, paragraphs. -/
def ArticleText (a : Article Empty) (t : Str) : Prop :=
  ∃ h p, ArticleMark a.identifier h ∧ ParagraphsText a.children p ∧
    t = h ++ titleText a.title ++ p

/-- How the header line of a structural element is written: `ELSŐ KÖNYV`, `ELSŐ RÉSZ`, `ÁLTALÁNOS RÉSZ`,
`I. CÍM`, `I. FEJEZET` with the last word in any case. -/
def StructuralHeader (type : SEType) (id : NumericId) (s : Str) : Prop :=
  ∃ num, type.parseIdentifier num = some id ∧ '\n' ∉ num ∧
    match type with
    | .book => s = num ++ str!" KÖNYV"
    | .part _ => s = num ++ str!" RÉSZ"
    | .title => s = num ++ str!". CÍM"
    | .chapter => ∃ w, w.map upAscii = str!"FEJEZET" ∧ s = num ++ str!". " ++ w

/-- How the first line of a numbered subtitle is written: `12. Title`, `12/A. Title`; the title does not
start with `é` or `§`. -/
def SubtitleHeader (s n title : Str) : Prop :=
  s = n ++ str!". " ++ title ∧
    (∃ d, Digits d ∧ (n = d ∨ ∃ c, UpperLetter c ∧ n = d ++ ['/', c])) ∧
    (∃ c t, title = c :: t ∧ c ≠ 'é' ∧ c ≠ '§' ∧ '\n' ∉ t)

/-! ### Quoted blocks (C37) -/

/-- The lines `inner` are the lines `outer` without the opening quote that they begin with and the closing
quote that they end with; the other characters have not moved. -/
inductive Unquoted : (outer inner : List Line) → Prop
  | one (l m : Line) (g h : Glyph) : OpeningQuote g.char → h.char = '”' →
      glyphs l = [g] ++ glyphs m ++ [h] → Unquoted [l] [m]
  | more (a a' z z' : Line) (mid : List Line) (g h : Glyph) : OpeningQuote g.char → h.char = '”' →
      glyphs a = [g] ++ glyphs a' → glyphs z = glyphs z' ++ [h] →
      Unquoted (a :: mid ++ [z]) (a' :: mid ++ [z'])

/-- Opening and closing quotes are equal in number. -/
def Balanced (s : Str) : Prop := opening s = closing s

end HunLaw.Spec
