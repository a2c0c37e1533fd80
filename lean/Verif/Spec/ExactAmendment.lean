import Verif.Spec.Exact
import Verif.Spec.BlockAmendment

/-! Exactly which amendment the lines of a quoted block are (C122). -/

set_option autoImplicit false

namespace HunLaw.Spec

/-! ### paragraphs, points and subpoints -/

/-- The lines without the header of an article in front, if the first line has it. -/
def WithoutHeader (id : ArticleId) (ls ls' : List Line) : Prop :=
  ∃ l rest, ls = l :: rest ∧
    ((∃ t, l.content = id.display ++ str!". § " ++ t ∧ t ≠ [] ∧ ls' = l.slice ((l.len : Int) - t.length) none :: rest) ∨
     (∀ t, l.content ≠ id.display ++ str!". § " ++ t) ∧ ls' = ls)

/-- The lines are the elements that are amended: a list that begins with the first one named. In front of paragraphs
there may be the header of their article. -/
def BlockChildrenAre (position : Ref) (ls : List Line) : BlockAmendmentChildren → Prop
  | .paragraph es => ∃ r art ls', position.getLastPart = .paragraph r ∧ position.article = some art ∧
      WithoutHeader art.first ls ls' ∧
      ListIs ParagraphHead (· = ParagraphId.ofNumeric r.first) (ParagraphIs .blockAmendment) .blockAmendment false 1 ls' es none []
  | .numericPoint es => ∃ r, position.getLastPart = .point (.numeric r) ∧
      ListIs NumericHead (· = r.first) (NumericPointIs .blockAmendment) .blockAmendment false 1 ls es none []
  | .alphabeticPoint es => ∃ r, position.getLastPart = .point (.alphabetic r) ∧
      ListIs AlphabeticHead (· = r.first) (AlphabeticPointIs .blockAmendment) .blockAmendment false 1 ls es none []
  | .numericSubpoint es => ∃ r, position.getLastPart = .subpoint (.numeric r) ∧
      ListIs NumericHead (· = r.first) (SubpointIs .blockAmendment) .blockAmendment false 1 ls es none []
  | .alphabeticSubpoint es => ∃ r, position.getLastPart = .subpoint (.alphabetic r) ∧
      ListIs (PrefixedHead r.first.pfx) (· = r.first) (SubpointIs .blockAmendment) .blockAmendment false 1 ls es none []

/-! ### articles -/

/-- An article with its lines: the first one and the other ones. -/
structure ArticlePiece where
  head : Line
  body : List Line
  article : Article Empty

/-- All lines of some articles. -/
def articleLines (ps : List ArticlePiece) : List Line := ps.flatMap fun p => p.head :: p.body

/-- Lines after the lines `before` are articles after the article `last`: each begins outside quotes with the header that
comes next, and no other line outside quotes is such a header. -/
def ArticleDivision (before : List Line) (last : Option (Line × ArticleId)) : List ArticlePiece → Prop
  | [] => True
  | p :: ps =>
    BalancedLines before ∧ ArticleStart .blockAmendment last p.head p.article.identifier ∧
    (∃ rest, HeadOf ArticleHeader ArticleId.parse p.head p.article.identifier rest ∧
      ArticleIs .blockAmendment (rest :: p.body) p.article) ∧
    (∀ x l y, p.body = x ++ l :: y → BalancedLines (before ++ p.head :: x) →
      ∀ id, ¬ ArticleStart .blockAmendment (some (p.head, p.article.identifier)) l id) ∧
    ArticleDivision (before ++ p.head :: p.body) (some (p.head, p.article.identifier)) ps

/-- The lines are consecutive articles, and the first one is the one given. -/
def ArticlesAre (first : ArticleId) (ls : List Line) (cs : List (ActChild Empty)) : Prop :=
  ∃ p ps, ls = articleLines (p :: ps) ∧ cs = (p :: ps).map (fun p => .article p.article) ∧
    p.article.identifier = first ∧ ArticleDivision [] none (p :: ps)

/-! ### titles -/

/-- The lines are the title of an element, perhaps with its header. The element is the given one if there is no header. -/
def TitleIs (type : SEType) (id : NumericId) (ls : List Line) : ActChild Empty → Prop
  | .structuralElement e => e.elementType = type ∧ e.lastChange = none ∧ ∃ l rest, ls = l :: rest ∧
      ((StructuralHeader type e.identifier l.content ∧ Joined (nonEmptyTexts rest) e.title) ∨
       ((∀ id', ¬ StructuralHeader type id' l.content) ∧ e.identifier = id ∧ Joined (nonEmptyTexts ls) e.title))
  | _ => False

/-- The lines are the title of a subtitle, perhaps with its number. -/
def SubtitleIs (upper : Char → Bool) (ls : List Line) : ActChild Empty → Prop
  | .subtitle s => s.lastChange = none ∧ ∃ l rest title, ls = l :: rest ∧ SubtitleStart upper .blockAmendment true l s.identifier title ∧
      Joined (title :: nonEmptyTexts rest) s.title
  | _ => False

/-- The lines are the title of the element that is named. -/
def TitleOnlyIs (upper : Char → Bool) (e : StructuralRefElement) (ls : List Line) (c : ActChild Empty) : Prop :=
  match e with
  | .part id => TitleIs (.part false) id ls c
  | .title id => TitleIs .title id ls c
  | .chapter id => TitleIs .chapter id ls c
  | .subtitleId _ | .subtitleTitle _ | .subtitleAfterArticle _ | .subtitleBeforeArticle _
  | .subtitleBeforeArticleInclusive _ => SubtitleIs upper ls c
  | .subtitleUnknown | .subtitleRange _ | .article _ => False

/-! ### amendments -/

/-- The lines are what a phrase about articles or larger elements announces. -/
def StructuralChildrenAre (upper : Char → Bool) (position : StructuralRef) (ls : List Line)
    (cs : List (ActChild Empty)) : Prop :=
  match position.element with
  | .article r => ArticlesAre r.first ls cs
  | e => if position.titleOnly then ∃ c, cs = [c] ∧ TitleOnlyIs upper e ls c
    else ∃ preamble, BodyIs .blockAmendment upper ls preamble cs

/-- The quoted block is the amendment that the phrase announces. -/
def AmendmentIs (upper : Char → Bool) (s : Option SpecialPhrase) (b : QuotedBlock) : Amendment → Prop
  | .block i c w => i = b.intro ∧ w = b.wrapUp ∧
      ∃ pos f, s = some (.blockAmendment pos f) ∧ BlockChildrenAre pos b.lines c
  | .structural i cs w => i = b.intro ∧ w = b.wrapUp ∧
      ∃ pos f, s = some (.structuralBlockAmendment pos f) ∧ StructuralChildrenAre upper pos b.lines cs

/-- No line which begins inside quotes is the header of an article. -/
def HeadersOutside (ls : List Line) : Prop :=
  ∀ x l y, ls = x ++ l :: y → ¬ BalancedLines x → ∀ id rest, ¬ HeadOf ArticleHeader ArticleId.parse l id rest

/-- The phrase announces articles. -/
def AnnouncesArticles (s : Option SpecialPhrase) : Prop :=
  ∃ pos f r, s = some (.structuralBlockAmendment pos f) ∧ pos.element = .article r

end HunLaw.Spec
