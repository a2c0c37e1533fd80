import Verif.Model.BlockAmendment

/-!
What two acts have in common if they are equal, and what is left in an element that is not empty. These do
not use the comparison or `is_empty` of the model.
-/

set_option autoImplicit false

namespace HunLaw.Spec

/-! ### equal acts -/

/-- A line of which only the place of its first character, its text and its boldness are kept. The other
characters are all at the same place. -/
def looseLine (l : Line) : Line :=
  ⟨match l.content with
    | [] => []
    | c :: cs => ⟨l.indent, c, l.isBold⟩ :: cs.map fun c => ⟨0, c, l.isBold⟩,
    false, l.isBold⟩

/-- The block with loose lines. -/
def looseBlock (q : QuotedBlock) : QuotedBlock := { q with lines := q.lines.map looseLine }

/-- The body with other children. -/
def looseBody {C D : Type} (f : C → D) : SAEBody C → SAEBody D
  | .text t => .text t
  | .children i c w => .children i (f c) w

/-- The element with other children. -/
def looseElement {I C D : Type} (f : C → D) (e : SAE I C) : SAE I D :=
  ⟨e.identifier, looseBody f e.body, e.semanticInfo,
  e.lastChange⟩

/-- The children of a paragraph with loose lines. -/
def looseChildren {A : Type} (amendment : A → A) : ParagraphChildren A → ParagraphChildren A
  | .alphabeticPoint l => .alphabeticPoint l
  | .numericPoint l => .numericPoint l
  | .quotedBlock l => .quotedBlock (l.map looseBlock)
  | .amendment a => .amendment (amendment a)

/-- The article with loose lines. -/
def looseArticle {A : Type} (amendment : A → A) (a : Article A) : Article A :=
  { a with children := a.children.map (looseElement (looseChildren amendment)) }

/-- The child of an act with loose lines. -/
def looseChild {A : Type} (amendment : A → A) : ActChild A → ActChild A
  | .structuralElement e => .structuralElement e
  | .subtitle s => .subtitle s
  | .article a => .article (looseArticle amendment a)

/-- The act with loose lines: what is quoted in it keeps only the text, the indentation and the boldness of its
lines, everything else is unchanged. -/
def looseAct {A : Type} (amendment : A → A) (a : Act A) : Act A :=
  { a with children := a.children.map (looseChild amendment) }

/-- The amendment with loose lines. -/
def looseAmendment : Amendment → Amendment
  | .block i (.paragraph l) w => .block i (.paragraph (l.map (looseElement (looseChildren id)))) w
  | .block i c w => .block i c w
  | .structural i c w => .structural i (c.map (looseChild id)) w

/-! ### what is left in an element -/

/-- There is something left in an element: a text of it or of an element in it has a character. The text
before the children and the text after them do not count. -/
def LeftElement {I C : Type} (children : C → Prop) (e : SAE I C) : Prop :=
  match e.body with
  | .text t => t ≠ []
  | .children _ c _ => children c

def LeftNo (_ : NoChildren) : Prop := False

def LeftAlphabetic : AlphabeticPointChildren → Prop
  | .alphabeticSubpoint l => ∃ e ∈ l, LeftElement LeftNo e
  | .numericSubpoint l => ∃ e ∈ l, LeftElement LeftNo e

def LeftNumeric : NumericPointChildren → Prop
  | .alphabeticSubpoint l => ∃ e ∈ l, LeftElement LeftNo e

/-- For paragraphs what is quoted counts as well. -/
def LeftParagraph {A : Type} (amendment : A → Prop) : ParagraphChildren A → Prop
  | .alphabeticPoint l => ∃ e ∈ l, LeftElement LeftAlphabetic e
  | .numericPoint l => ∃ e ∈ l, LeftElement LeftNumeric e
  | .quotedBlock l => l ≠ []
  | .amendment a => amendment a

def LeftBlock : BlockAmendmentChildren → Prop
  | .paragraph l => ∃ e ∈ l, LeftElement (LeftParagraph fun _ : Empty => False) e
  | .alphabeticPoint l => ∃ e ∈ l, LeftElement LeftAlphabetic e
  | .numericPoint l => ∃ e ∈ l, LeftElement LeftNumeric e
  | .alphabeticSubpoint l => ∃ e ∈ l, LeftElement LeftNo e
  | .numericSubpoint l => ∃ e ∈ l, LeftElement LeftNo e

/-- Headers of an act are always something. -/
def LeftChild : ActChild Empty → Prop
  | .structuralElement _ => True
  | .subtitle _ => True
  | .article a => ∃ e ∈ a.children, LeftElement (LeftParagraph fun _ : Empty => False) e

def LeftAmendment : Amendment → Prop
  | .block _ c _ => LeftBlock c
  | .structural _ c _ => ∃ x ∈ c, LeftChild x

end HunLaw.Spec
