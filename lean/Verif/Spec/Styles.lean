import Verif.Spec.Output

/-!
How an act looks on a terminal: every character has a style.
-/

set_option autoImplicit false

namespace HunLaw.Spec

open HunLaw

/-- Characters with their styles, which are codes of escape sequences. -/
abbrev Cells := List (Char × Str)

/-- Nothing special. -/
def plainStyle : Str := str!"0"
def boldStyle : Str := str!"1"
def italicStyle : Str := str!"3"
/-- Yellow: the text is an instruction. -/
def phraseStyle : Str := str!"33"
/-- Cyan: the text is a reference. -/
def referenceStyle : Str := str!"36"

/-- What a terminal shows. The sequence of ESC, an opening bracket, a code and the letter "m" sets the style for all that
follows; the first argument is the beginning of the code if the text begins inside of one, the second is the style. -/
def cells : Option Str → Str → Str → Cells
  | _, _, [] => []
  | some code, style, c :: s => if c = 'm' then cells none code s else cells (some (if c = '[' then code else code ++ [c])) style s
  | none, style, c :: s => if c = '\x1B' then cells (some []) style s else (c, style) :: cells none style s

/-- All of a text in one style. -/
def inStyle (style t : Str) : Cells := t.map fun c => (c, style)

/-- Without spaces and line breaks. -/
def noBlankCells (l : Cells) : Cells := l.filter fun x => x.1 != ' ' && x.1 != '\n'

/-- The style of the byte of a text with this semantic information: references stand out; the rest has the style of
instructions if the text is one. -/
def styleAt (i : SemanticInfo) (n : Nat) : Str :=
  if ∃ r ∈ ranges i.outgoingReferences, r.1 ≤ n ∧ n < r.2 then referenceStyle
  else if i.specialPhrase = none then plainStyle else phraseStyle

/-- A text with this semantic information, from this byte on. -/
def textStyled (i : SemanticInfo) : Nat → Str → Cells
  | _, [] => []
  | n, c :: s => (c, styleAt i n) :: textStyled i (n + utf8Len c) s

/-- There is no such child. -/
def noChildrenStyled (c : NoChildren) : Cells := nomatch c

/-- There are no amendments inside of an amendment. -/
def noAmendmentStyled (a : Empty) : Cells := nomatch a

/-- An element of an article: its number, then its text, or the texts around and of its children. -/
def saeStyled {I C : Type} (head : Str) (children : C → Cells) (e : SAE I C) : Cells :=
  inStyle plainStyle head ++ match e.body with
    | .text t => textStyled e.semanticInfo 0 t
    | .children intro c wrapUp => textStyled e.semanticInfo 0 intro ++ children c ++ inStyle plainStyle (wrapUp.getD [])

def alphabeticSubpointStyled (e : AlphabeticSubpoint) : Cells :=
  saeStyled (e.identifier.display ++ str!")") noChildrenStyled e

def numericSubpointStyled (e : NumericSubpoint) : Cells :=
  saeStyled (e.identifier.display ++ str!".") noChildrenStyled e

def alphabeticPointStyled (e : AlphabeticPoint) : Cells :=
  saeStyled (e.identifier.display ++ str!")") (fun
    | .alphabeticSubpoint l => l.flatMap alphabeticSubpointStyled
    | .numericSubpoint l => l.flatMap numericSubpointStyled) e

def numericPointStyled (e : NumericPoint) : Cells :=
  saeStyled (e.identifier.display ++ str!".") (fun
    | .alphabeticSubpoint l => l.flatMap alphabeticSubpointStyled) e

def paragraphStyled {A : Type} (amendment : A → Cells) (e : Paragraph A) : Cells :=
  saeStyled (paragraphNumber e.identifier) (fun
    | .alphabeticPoint l => l.flatMap alphabeticPointStyled
    | .numericPoint l => l.flatMap numericPointStyled
    | .quotedBlock l => l.flatMap fun q => inStyle plainStyle (quotedBlockShown q)
    | .amendment a => amendment a) e

/-- The number of an article is bold, its title is not. -/
def articleStyled {A : Type} (amendment : A → Cells) (a : Article A) : Cells :=
  inStyle boldStyle (a.identifier.display ++ str!". §") ++ inStyle plainStyle (inBrackets str!"[" str!"]" a.title) ++
    a.children.flatMap (paragraphStyled amendment)

/-- Parts, chapters and the like are in italics, subtitles are bold. -/
def actChildStyled {A : Type} (amendment : A → Cells) : ActChild A → Cells
  | .structuralElement e => inStyle italicStyle (e.headerString.getD [] ++ e.title)
  | .subtitle ⟨some i, t, _⟩ => inStyle boldStyle (i.displaySlash ++ str!"." ++ t)
  | .subtitle ⟨none, t, _⟩ => inStyle boldStyle t
  | .article a => articleStyled amendment a

/-- What is amended is in italics. -/
def amendmentStyled : Amendment → Cells
  | .block i c w => inStyle italicStyle (inBrackets str!"(" str!")" i) ++ inStyle plainStyle str!"„" ++ (match c with
      | .paragraph l => l.flatMap (paragraphStyled noAmendmentStyled)
      | .alphabeticPoint l => l.flatMap alphabeticPointStyled
      | .numericPoint l => l.flatMap numericPointStyled
      | .alphabeticSubpoint l => l.flatMap alphabeticSubpointStyled
      | .numericSubpoint l => l.flatMap numericSubpointStyled) ++ inStyle plainStyle str!"”" ++
      inStyle italicStyle (inBrackets str!"(" str!")" w)
  | .structural i c w => inStyle italicStyle (inBrackets str!"(" str!")" i) ++ inStyle plainStyle str!"„" ++
      c.flatMap (actChildStyled noAmendmentStyled) ++ inStyle plainStyle str!"”" ++ inStyle italicStyle (inBrackets str!"(" str!")" w)

/-- All of the act: its number is bold. -/
def actStyled (a : Act Amendment) : Cells :=
  inStyle boldStyle (match a.identifier.display with | .ok s => s | _ => []) ++ inStyle plainStyle (a.subject ++ a.preamble) ++
    a.children.flatMap (actChildStyled amendmentStyled)

end HunLaw.Spec
