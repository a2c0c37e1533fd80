import Verif.Model.BlockAmendment
import Verif.Spec.Numbering

/-! What the conversion of block amendments is to do (C51, C69-C71). -/

set_option autoImplicit false

namespace HunLaw.Spec

/-! ### C51 -/

/-- The texts in brackets before and after an amendment. -/
def amendmentNotes : Amendment → Option Str × Option Str
  | .block i _ w => (i, w)
  | .structural i _ w => (i, w)

/-- The phrase announces an amendment of paragraphs, points or subpoints. -/
def IsBlockAmendment (s : Option SpecialPhrase) : Prop := ∃ p f, s = some (.blockAmendment p f)
/-- The phrase announces an amendment of articles or larger elements. -/
def IsStructuralAmendment (s : Option SpecialPhrase) : Prop := ∃ p f, s = some (.structuralBlockAmendment p f)

/-- A paragraph that consists of its introduction, exactly one quoted block and maybe a wrap-up, and announces an
amendment. -/
def Awaits (p : Paragraph Amendment) (intro : Str) (b : QuotedBlock) (wrapUp : Option Str) : Prop :=
  p.body = .children intro (.quotedBlock [b]) wrapUp ∧
    (IsBlockAmendment p.semanticInfo.specialPhrase ∨ IsStructuralAmendment p.semanticInfo.specialPhrase)

/-- A paragraph with its quoted block converted: there is an amendment of the announced kind in place of the block,
with the same texts around it. Other paragraphs are as they were. -/
def ConvertedParagraph (p q : Paragraph Amendment) : Prop :=
  q.identifier = p.identifier ∧ q.semanticInfo = p.semanticInfo ∧
    ((q.body = p.body ∧ ∀ i b w, ¬ Awaits p i b w) ∨
      ∃ i b w a, Awaits p i b w ∧ q.body = .children i (.amendment a) w ∧ amendmentNotes a = (b.intro, b.wrapUp) ∧
        match a with
        | .block _ _ _ => IsBlockAmendment p.semanticInfo.specialPhrase
        | .structural _ _ _ => IsStructuralAmendment p.semanticInfo.specialPhrase)

/-- A paragraph whose conversion failed: the introduction of its block is gone. -/
def FailedParagraph (p q : Paragraph Amendment) : Prop :=
  ∃ i b w, Awaits p i b w ∧ q.identifier = p.identifier ∧ q.semanticInfo = p.semanticInfo ∧
    q.body = .children i (.quotedBlock [{ b with intro := none }]) w

/-- What a list becomes if its elements are processed in order until one fails. The first argument tells if
none has. -/
inductive UpTo {X : Type} (Done Failed : X → X → Prop) : Bool → List X → List X → Prop
  | nil : UpTo Done Failed true [] []
  | done {r : Bool} {x y : X} {l m : List X} : Done x y → UpTo Done Failed r l m → UpTo Done Failed r (x :: l) (y :: m)
  | failed {x y : X} {l : List X} : Failed x y → UpTo Done Failed false (x :: l) (y :: l)

/-- An article of which all paragraphs have been converted, or those up to one that failed. -/
def ArticleUpTo (success : Bool) (a b : Article Amendment) : Prop :=
  b.identifier = a.identifier ∧ b.title = a.title ∧
    UpTo ConvertedParagraph FailedParagraph success a.children b.children

/-- The same for a child of an act. Only articles change. -/
def ChildUpTo (success : Bool) (a b : ActChild Amendment) : Prop :=
  match a, b with
  | .article x, .article y => ArticleUpTo success x y
  | .article _, _ => False
  | _, _ => success = true ∧ a = b

/-- The same for an act. -/
def ActUpTo (success : Bool) (a b : Act Amendment) : Prop :=
  b.identifier = a.identifier ∧ b.subject = a.subject ∧ b.preamble = a.preamble ∧
    b.publicationDate = a.publicationDate ∧ b.containedAbbreviations = a.containedAbbreviations ∧
    UpTo (ChildUpTo true) (ChildUpTo false) success a.children b.children

/-! ### C69 -/

/-- The text of the elements in an amendment. -/
def BlockChildrenText : BlockAmendmentChildren → Str → Prop
  | .paragraph l => ElementsText ParagraphMark ParagraphChildrenText l
  | .alphabeticPoint l => ElementsText AlphabeticMark AlphabeticChildrenText l
  | .numericPoint l => ElementsText NumericMark NumericChildrenText l
  | .alphabeticSubpoint l => ElementsText PrefixedMark NoChildrenText l
  | .numericSubpoint l => ElementsText NumericMark NoChildrenText l

/-- The header of an article without spaces. -/
def articleMark (id : ArticleId) : Str := id.display ++ str!".§"

/-- The text of an amendment announced by a phrase. In front of paragraphs there may be the header of their article.
If only the title of a structural element is amended, its header may be missing. -/
def AmendmentText : Option SpecialPhrase → Amendment → Str → Prop
  | some (.blockAmendment position _), .block _ c _, t =>
    BlockChildrenText c t ∨
      ∃ ps r u, c = .paragraph ps ∧ position.article = some r ∧ BlockChildrenText c u ∧ t = articleMark r.first ++ u
  | some (.structuralBlockAmendment position _), .structural _ cs _, t =>
    ActChildrenText cs t ∨
      ∃ e, position.titleOnly = true ∧ cs = [.structuralElement e] ∧ t = noSpaces e.title
  | _, _, _ => False

/-! ### C70 -/

/-- A list of elements begins with the one named and goes on with consecutive ones, as does everything in them. -/
def BlockChildrenNumbered (position : Ref) : BlockAmendmentChildren → Prop
  | .paragraph l => ∃ r, position.getLastPart = .paragraph r ∧
      NumberedList (· = ParagraphId.ofNumeric r.first) NumberedInParagraph l
  | .alphabeticPoint l => ∃ r, position.getLastPart = .point (.alphabetic r) ∧
      NumberedList (· = r.first) NumberedInAlphabeticPoint l
  | .numericPoint l => ∃ r, position.getLastPart = .point (.numeric r) ∧
      NumberedList (· = r.first) NumberedInNumericPoint l
  | .alphabeticSubpoint l => ∃ r, position.getLastPart = .subpoint (.alphabetic r) ∧
      NumberedList (· = r.first) (fun _ _ => False) l ∧ ∀ e ∈ l, e.identifier.pfx = r.first.pfx
  | .numericSubpoint l => ∃ r, position.getLastPart = .subpoint (.numeric r) ∧
      NumberedList (· = r.first) (fun _ _ => False) l

/-- Articles begin with the one named, are consecutive, and are numbered inside. -/
def ArticlesNumbered (first : ArticleId) (cs : List (ActChild Empty)) : Prop :=
  (∀ c ∈ cs, ∃ a, c = .article a ∧ NumberedParagraphs a.children) ∧ (articleIds cs).head? = some first ∧
    Consecutive (articleIds cs)

end HunLaw.Spec
