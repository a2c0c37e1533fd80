import Verif.Spec.Division

/-! What is to hold of the identifiers in a parsed act, in terms of the result only (C34, C35), its text (C36),
and when parsing crashes (C38). -/

set_option autoImplicit false

namespace HunLaw.Spec

/-- Each identifier is the follower of the one before. -/
def Consecutive {I : Type} [IdentifierCommon I] : List I → Prop
  | a :: b :: ids => isNextFrom b a = true ∧ Consecutive (b :: ids)
  | _ => True

/-- The identifiers of the articles in document order. -/
def articleIds {A : Type} (cs : List (ActChild A)) : List ArticleId := cs.filterMap fun c => match c with
  | .article a => some a.identifier
  | _ => none

section
variable {I C : Type} [IdentifierCommon I]

/-- A list of elements that starts with the identifier demanded, goes on with consecutive ones, and all
children in it are good. -/
def NumberedList (First : I → Prop) (Child : I → C → Prop) (es : List (SAE I C)) : Prop :=
  (∃ id, (es.map SAE.identifier).head? = some id ∧ First id) ∧ Consecutive (es.map SAE.identifier) ∧
  ∀ e ∈ es, ∀ intro cs w, e.body = .children intro cs w → Child e.identifier cs
end

/-- Subpoints with letters: at least two, with the given prefix. -/
def NumberedAlphabeticSubpoints (pfx : Option HunChar) (First : PrefixedId → Prop) (es : List AlphabeticSubpoint) :
    Prop :=
  2 ≤ es.length ∧ NumberedList First (fun _ _ => False) es ∧ ∀ e ∈ es, e.identifier.pfx = pfx

/-- Subpoints with numbers: at least two. -/
def NumberedNumericSubpoints (First : NumericId → Prop) (es : List NumericSubpoint) : Prop :=
  2 ≤ es.length ∧ NumberedList First (fun _ _ => False) es

/-- Children of a point with a letter. -/
def NumberedInAlphabeticPoint (id : HunChar) : AlphabeticPointChildren → Prop
  | .alphabeticSubpoint l => NumberedAlphabeticSubpoints (some id) (isFirst · = true) l
  | .numericSubpoint l => NumberedNumericSubpoints (isFirst · = true) l

/-- Children of a point with a number. -/
def NumberedInNumericPoint (_ : NumericId) : NumericPointChildren → Prop
  | .alphabeticSubpoint l => NumberedAlphabeticSubpoints none (isFirst · = true) l

/-- Children of a paragraph. Every quoted block has lines. -/
def NumberedInParagraph (_ : ParagraphId) : ParagraphChildren Empty → Prop
  | .alphabeticPoint l => 2 ≤ l.length ∧ NumberedList (isFirst · = true) NumberedInAlphabeticPoint l
  | .numericPoint l => 2 ≤ l.length ∧ NumberedList (isFirst · = true) NumberedInNumericPoint l
  | .quotedBlock l => l ≠ [] ∧ ∀ b ∈ l, b.lines ≠ []

/-- Paragraphs of an article: one without an identifier, or at least two. -/
def NumberedParagraphs (ps : List (Paragraph Empty)) : Prop :=
  (∃ p, ps = [p] ∧ p.identifier = ⟨none⟩ ∧
    ∀ intro cs w, p.body = .children intro cs w → NumberedInParagraph p.identifier cs) ∨
  (2 ≤ ps.length ∧ NumberedList (isFirst · = true) NumberedInParagraph ps)

/-- The text of a child of an act. -/
def ActChildText : ActChild Empty → Str → Prop
  | .structuralElement e => fun t =>
    ∃ h, StructuralHeader e.elementType e.identifier h ∧ t = noSpaces h ++ noSpaces e.title
  | .subtitle s => fun t => match s.identifier with
    | none => t = noSpaces s.title
    | some id => ∃ n, NumericId.parse n = some id ∧ ' ' ∉ n ∧ t = n ++ ['.'] ++ noSpaces s.title
  | .article a => ArticleText a

/-- The text of the children of an act. -/
def ActChildrenText : List (ActChild Empty) → Str → Prop
  | [], t => t = []
  | c :: cs, t => ∃ a b, ActChildText c a ∧ ActChildrenText cs b ∧ t = a ++ b

/-- Every closing quote has an opening quote before it. -/
def Nested (s : Str) : Prop := ∀ a b, s = a ++ b → closing a ≤ opening a

/-- No line ends with a space. -/
def NoTrailingSpace (ls : List Line) : Prop := ∀ l ∈ ls, l.content.getLast? ≠ some ' '

/-- Somewhere there is an article header followed by a title, and possibly one empty line, that could make up
a whole article. -/
def TitleOnlyArticle (ls : List Line) : Prop :=
  ∃ before h body after id rest title gap, ls = before ++ h :: body ++ after ∧
    HeadOf ArticleHeader ArticleId.parse h id rest ∧
    (∃ titleLines, rest :: body = titleLines ++ gap ∧ ArticleTitleOf titleLines title) ∧
    (gap = [] ∨ ∃ l, gap = [l] ∧ l.parts = [])

end HunLaw.Spec
