import Verif.Spec.Semantic
import Verif.Model.BlockAmendment

/-!
Vocabulary for the properties of the text output.
-/

set_option autoImplicit false

namespace HunLaw.Spec

open HunLaw

/-! ### Wrapping -/

/-- The text consists of the lines, with nothing but spaces and line breaks left out where a line ends. -/
inductive WrapsTo : Str → List Str → Prop
  | last (l gap : Str) : (∀ c ∈ gap, c = ' ' ∨ c = '\n') → WrapsTo (l ++ gap) [l]
  | cons (l gap rest : Str) (ls : List Str) : (∀ c ∈ gap, c = ' ' ∨ c = '\n') → WrapsTo rest ls →
      WrapsTo (l ++ gap ++ rest) (l :: ls)

/-- What is relied on about the function that wraps texts at a given width. -/
structure Wraps (w : Str → Nat → List Str) : Prop where
  /-- The lines are those of the text. -/
  pieces : ∀ text n, WrapsTo text (w text n)
  /-- No line has a line break in it. -/
  noBreak : ∀ text n, ∀ l ∈ w text n, '\n' ∉ l
  /-- Lines fit in the width, if there are no escape sequences, which have no width. -/
  short : ∀ text n, '\x1B' ∉ text → ∀ l ∈ w text n, l.length ≤ max n 1

/-! ### Pieces of a text -/

/-- The byte ranges of the highlighted pieces, if the first piece is at the given byte. -/
def highlighted : Nat → List (Str × Bool) → List (Nat × Nat)
  | _, [] => []
  | pos, (s, b) :: l => (if b then [(pos, pos + byteLen s)] else []) ++ highlighted (pos + byteLen s) l

/-! ### What is shown -/

/-- The text without spaces and line breaks. -/
def noBlanks (s : Str) : Str := s.filter fun c => c != ' ' && c != '\n'

/-- The text without escape sequences, which begin with ESC and end with the letter "m"; the first argument tells
whether the text begins inside of one. -/
def unescape : Bool → Str → Str
  | _, [] => []
  | true, c :: s => unescape (c != 'm') s
  | false, c :: s => if c = '\x1B' then unescape true s else c :: unescape false s

/-- There is no such child. -/
def noChildrenShown (c : NoChildren) : Str := nomatch c

/-- There are no amendments inside of an amendment. -/
def noAmendmentShown (a : Empty) : Str := nomatch a

/-- The text of an element of an article: its number, then its text, or the texts around and of its children. -/
def bodyShown {C : Type} (children : C → Str) : SAEBody C → Str
  | .text t => t
  | .children intro c wrapUp => intro ++ children c ++ wrapUp.getD []

def alphabeticSubpointShown (e : AlphabeticSubpoint) : Str :=
  e.identifier.display ++ str!")" ++ bodyShown noChildrenShown e.body

def numericSubpointShown (e : NumericSubpoint) : Str :=
  e.identifier.display ++ str!"." ++ bodyShown noChildrenShown e.body

def alphabeticPointShown (e : AlphabeticPoint) : Str :=
  e.identifier.display ++ str!")" ++ bodyShown (fun
    | .alphabeticSubpoint l => l.flatMap alphabeticSubpointShown
    | .numericSubpoint l => l.flatMap numericSubpointShown) e.body

def numericPointShown (e : NumericPoint) : Str :=
  e.identifier.display ++ str!"." ++ bodyShown (fun
    | .alphabeticSubpoint l => l.flatMap alphabeticSubpointShown) e.body

/-- A quoted block: what is quoted is between quotation marks. -/
def quotedBlockShown (q : QuotedBlock) : Str :=
  q.intro.getD [] ++ str!"„" ++ q.lines.flatMap Line.content ++ str!"”" ++ q.wrapUp.getD []

/-- The number of a paragraph is in brackets; an unnumbered one has none. -/
def paragraphNumber (i : ParagraphId) : Str :=
  match i.id with
  | some n => str!"(" ++ n.display ++ str!")"
  | none => []

def paragraphShown {A : Type} (amendment : A → Str) (e : Paragraph A) : Str :=
  paragraphNumber e.identifier ++ bodyShown (fun
    | .alphabeticPoint l => l.flatMap alphabeticPointShown
    | .numericPoint l => l.flatMap numericPointShown
    | .quotedBlock l => l.flatMap quotedBlockShown
    | .amendment a => amendment a) e.body

/-- A text in brackets, if there is one. -/
def inBrackets (op cl : Str) : Option Str → Str
  | some t => op ++ t ++ cl
  | none => []

def articleShown {A : Type} (amendment : A → Str) (a : Article A) : Str :=
  a.identifier.display ++ str!". §" ++ inBrackets str!"[" str!"]" a.title ++ a.children.flatMap (paragraphShown amendment)

def actChildShown {A : Type} (amendment : A → Str) : ActChild A → Str
  | .structuralElement e => e.headerString.getD [] ++ e.title
  | .subtitle ⟨some i, t, _⟩ => i.displaySlash ++ str!"." ++ t
  | .subtitle ⟨none, t, _⟩ => t
  | .article a => articleShown amendment a

/-- An amendment: what is amended is in brackets, the new text is between quotation marks. -/
def amendmentShown : Amendment → Str
  | .block i c w => inBrackets str!"(" str!")" i ++ str!"„" ++ (match c with
      | .paragraph l => l.flatMap (paragraphShown noAmendmentShown)
      | .alphabeticPoint l => l.flatMap alphabeticPointShown
      | .numericPoint l => l.flatMap numericPointShown
      | .alphabeticSubpoint l => l.flatMap alphabeticSubpointShown
      | .numericSubpoint l => l.flatMap numericSubpointShown) ++ str!"”" ++ inBrackets str!"(" str!")" w
  | .structural i c w => inBrackets str!"(" str!")" i ++ str!"„" ++ c.flatMap (actChildShown noAmendmentShown) ++
      str!"”" ++ inBrackets str!"(" str!")" w

/-- All of the act: its number, subject, preamble and its parts in order. -/
def actShown (a : Act Amendment) : Str :=
  (match a.identifier.display with | .ok s => s | _ => []) ++ a.subject ++ a.preamble ++
    a.children.flatMap (actChildShown amendmentShown)

/-! ### Which acts can be shown -/

/-- The references of an element are in its text or introduction. -/
def ReferencesFit {I C : Type} (e : SAE I C) (children : C → Prop) : Prop :=
  match e.body with
  | .text t => RangesInOrder t 0 (ranges e.semanticInfo.outgoingReferences)
  | .children intro c _ => RangesInOrder intro 0 (ranges e.semanticInfo.outgoingReferences) ∧ children c

def AlphabeticSubpointFits (e : AlphabeticSubpoint) : Prop := ReferencesFit e fun _ => True
def NumericSubpointFits (e : NumericSubpoint) : Prop := ReferencesFit e fun _ => True

def AlphabeticPointChildrenFit : AlphabeticPointChildren → Prop
  | .alphabeticSubpoint l => ∀ x ∈ l, AlphabeticSubpointFits x
  | .numericSubpoint l => ∀ x ∈ l, NumericSubpointFits x

def AlphabeticPointFits (e : AlphabeticPoint) : Prop := ReferencesFit e AlphabeticPointChildrenFit

def NumericPointChildrenFit : NumericPointChildren → Prop
  | .alphabeticSubpoint l => ∀ x ∈ l, AlphabeticSubpointFits x

def NumericPointFits (e : NumericPoint) : Prop := ReferencesFit e NumericPointChildrenFit

def ParagraphChildrenFit {A : Type} (amendment : A → Prop) : ParagraphChildren A → Prop
  | .alphabeticPoint l => ∀ x ∈ l, AlphabeticPointFits x
  | .numericPoint l => ∀ x ∈ l, NumericPointFits x
  | .quotedBlock _ => True
  | .amendment a => amendment a

def ParagraphFits {A : Type} (amendment : A → Prop) (e : Paragraph A) : Prop :=
  ReferencesFit e (ParagraphChildrenFit amendment)

/-- The number of a part or chapter can be written out, and references are in the texts. -/
def ActChildFits {A : Type} (amendment : A → Prop) : ActChild A → Prop
  | .structuralElement e => e.headerString ≠ none
  | .subtitle _ => True
  | .article a => ∀ x ∈ a.children, ParagraphFits amendment x

/-- There are no amendments inside of an amendment. -/
def NoAmendmentFits (a : Empty) : Prop := nomatch a

def AmendmentFits : Amendment → Prop
  | .block _ c _ => (match c with
      | .paragraph l => ∀ x ∈ l, ParagraphFits NoAmendmentFits x
      | .alphabeticPoint l => ∀ x ∈ l, AlphabeticPointFits x
      | .numericPoint l => ∀ x ∈ l, NumericPointFits x
      | .alphabeticSubpoint l => ∀ x ∈ l, AlphabeticSubpointFits x
      | .numericSubpoint l => ∀ x ∈ l, NumericSubpointFits x)
  | .structural _ c _ => ∀ x ∈ c, ActChildFits NoAmendmentFits x

/-- The act has a number that can be written in Roman numerals, and all its parts can be shown. -/
def ActFits (a : Act Amendment) : Prop :=
  1 ≤ a.identifier.number.val ∧ a.identifier.number.val ≤ 3999 ∧ ∀ c ∈ a.children, ActChildFits AmendmentFits c

/-! ### The lines of the output -/

/-- The line is empty or begins with so many spaces. -/
def Indented (n : Nat) (l : Str) : Prop := l = [] ∨ List.replicate n ' ' <+: l

/-- All headers of an element and inside of it meet `H`, which has the room for the header as its first argument,
and all quoted blocks in it meet `Q`. -/
def SaeAll (H : Nat → Str → Prop) {I C : Type} (head : Str) (children : C → Prop) (e : SAE I C) : Prop :=
  H 5 head ∧ match e.body with
    | .text _ => True
    | .children _ c _ => children c

section

variable (H : Nat → Str → Prop) (Q : QuotedBlock → Prop)

def AlphabeticSubpointAll (e : AlphabeticSubpoint) : Prop := SaeAll H (e.identifier.display ++ str!")") (fun _ => True) e
def NumericSubpointAll (e : NumericSubpoint) : Prop := SaeAll H (e.identifier.display ++ str!".") (fun _ => True) e

def AlphabeticPointAll (e : AlphabeticPoint) : Prop := SaeAll H (e.identifier.display ++ str!")") (fun
  | .alphabeticSubpoint l => ∀ x ∈ l, AlphabeticSubpointAll H x
  | .numericSubpoint l => ∀ x ∈ l, NumericSubpointAll H x) e

def NumericPointAll (e : NumericPoint) : Prop := SaeAll H (e.identifier.display ++ str!".") (fun
  | .alphabeticSubpoint l => ∀ x ∈ l, AlphabeticSubpointAll H x) e

def ParagraphAll {A : Type} (amendment : A → Prop) (e : Paragraph A) : Prop :=
  SaeAll H (paragraphNumber e.identifier) (fun
    | .alphabeticPoint l => ∀ x ∈ l, AlphabeticPointAll H x
    | .numericPoint l => ∀ x ∈ l, NumericPointAll H x
    | .quotedBlock l => ∀ x ∈ l, Q x
    | .amendment a => amendment a) e

def ArticleAll {A : Type} (amendment : A → Prop) (a : Article A) : Prop :=
  H 10 (a.identifier.display ++ str!". §") ∧ ∀ x ∈ a.children, ParagraphAll H Q amendment x

def ActChildAll {A : Type} (amendment : A → Prop) : ActChild A → Prop
  | .structuralElement _ => True
  | .subtitle _ => True
  | .article a => ArticleAll H Q amendment a

def AmendmentAll : Amendment → Prop
  | .block _ c _ => (match c with
      | .paragraph l => ∀ x ∈ l, ParagraphAll H Q NoAmendmentFits x
      | .alphabeticPoint l => ∀ x ∈ l, AlphabeticPointAll H x
      | .numericPoint l => ∀ x ∈ l, NumericPointAll H x
      | .alphabeticSubpoint l => ∀ x ∈ l, AlphabeticSubpointAll H x
      | .numericSubpoint l => ∀ x ∈ l, NumericSubpointAll H x)
  | .structural _ c _ => ∀ x ∈ c, ActChildAll H Q NoAmendmentFits x

end

/-- No line of a quoted block has a line break inside. -/
def UnbrokenQuote (q : QuotedBlock) : Prop := ∀ l ∈ q.lines, '\n' ∉ l.content

/-- The lines of a text whose lines all end with a line break. -/
def linesOf (out : Str) : List Str := (splitAll '\n' out).dropLast

end HunLaw.Spec
