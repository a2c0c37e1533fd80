import Verif.Model.ActParser

/-!
Model of /repo/src/parser/structure/block_amendment.rs.

The functions change the element in place, so their models return the changed element together with the
result. The error message is not modelled.
-/

set_option autoImplicit false

namespace HunLaw

/-! ### the types -/

/-- Models `enum BlockAmendmentChildren` (structure.rs:459-466). -/
inductive BlockAmendmentChildren where
  | paragraph (l : List (Paragraph Empty))
  | alphabeticPoint (l : List AlphabeticPoint)
  | numericPoint (l : List NumericPoint)
  | alphabeticSubpoint (l : List AlphabeticSubpoint)
  | numericSubpoint (l : List NumericSubpoint)
  deriving Repr, DecidableEq

/-- Models `struct BlockAmendment` (structure.rs:444-451) and `struct StructuralBlockAmendment`
(structure.rs:484-491), the variants of `ParagraphChildren` for these (structure.rs:317-318). Inside of an
amendment there is no other one: the conversion builds its children with the structure parser. -/
inductive Amendment where
  | block (intro : Option Str) (children : BlockAmendmentChildren) (wrapUp : Option Str)
  | structural (intro : Option Str) (children : List (ActChild Empty)) (wrapUp : Option Str)
  deriving Repr, DecidableEq

/-- Children of the structure parser's type as children of the type with amendments. In Rust these are the
same type. -/
def ParagraphChildren.lift : ParagraphChildren Empty → ParagraphChildren Amendment
  | .alphabeticPoint l => .alphabeticPoint l
  | .numericPoint l => .numericPoint l
  | .quotedBlock l => .quotedBlock l

/-- A body of the structure parser's type as one of the type with amendments. -/
def SAEBody.lift : SAEBody (ParagraphChildren Empty) → SAEBody (ParagraphChildren Amendment)
  | .text t => .text t
  | .children i c w => .children i c.lift w

/-- A paragraph of the structure parser's type as one of the type with amendments. -/
def Paragraph.lift (p : Paragraph Empty) : Paragraph Amendment :=
  ⟨p.identifier, SAEBody.lift p.body, p.semanticInfo, p.lastChange⟩

/-- An article of the structure parser's type as one of the type with amendments. -/
def Article.lift (a : Article Empty) : Article Amendment :=
  ⟨a.identifier, a.title, a.children.map Paragraph.lift, a.lastChange⟩

/-- A child of an act of the structure parser's type as one of the type with amendments. -/
def ActChild.lift : ActChild Empty → ActChild Amendment
  | .structuralElement e => .structuralElement e
  | .subtitle s => .subtitle s
  | .article a => .article a.lift

/-- An act of the structure parser's type as one of the type with amendments. -/
def Act.lift (a : Act Empty) : Act Amendment :=
  ⟨a.identifier, a.subject, a.preamble, a.publicationDate, a.containedAbbreviations, a.children.map ActChild.lift⟩

/-! ### the conversion -/

namespace BlockAmend

/-- Models `BA_PARSE_PARAMS` (block_amendment.rs:273-277). -/
def params : SAEParams := ⟨false, false, .blockAmendment⟩

/-- The loop of `convert_articles` (block_amendment.rs:191-200). -/
def articlesFrom (f : ArticleFactory) (p : ArticleParser) (result : List (ActChild Empty)) :
    List Line → Res (List (ActChild Empty))
  | [] => do
    let a ← p.finish
    .ok (result ++ [.article a])
  | l :: ls =>
    match f.tryCreate l none with
    | .ok (p', f') => do
      let a ← p.finish
      articlesFrom f' p' (result ++ [.article a]) ls
    | .err => articlesFrom f (p.feedLine l) result ls
    | .panic => .panic

/-- Models `convert_articles` (block_amendment.rs:183-201). -/
def articles (first : ArticleId) : List Line → Res (List (ActChild Empty))
  | [] => .panic
  | l :: ls => do
    let (p, f) ← (ArticleFactory.new .blockAmendment).tryCreate l (some first)
    articlesFrom f p [] ls

/-- The parser of the first line (block_amendment.rs:240-252). -/
def titleStart (id : NumericId) (t : SEType) (l : Line) : StructuralElement :=
  match t.tryCreate l with
  | some e => e
  | none => (StructuralElement.mk id [] t none).feedLine l

/-- Models `convert_title_only_se` (block_amendment.rs:235-257). -/
def titleOnlySe (id : NumericId) (t : SEType) : List Line → Res (ActChild Empty)
  | [] => .panic
  | l :: ls => .ok (.structuralElement (ls.foldl StructuralElement.feedLine (titleStart id t l)))

/-- Models `convert_subtitle_only_se` (block_amendment.rs:259-271). -/
def subtitleOnlySe (upper : Char → Bool) : List Line → Res (ActChild Empty)
  | [] => .panic
  | l :: ls => do
    let s ← Res.ofOption (subtitleTryCreate upper l true .blockAmendment)
    .ok (.subtitle (ls.foldl Subtitle.feedLine s))

/-- The match in `convert_title_only_block_amendment` (block_amendment.rs:207-231). -/
def titleOnlyChild (upper : Char → Bool) (e : StructuralRefElement) (lines : List Line) : Res (ActChild Empty) :=
  match e with
  | .part id => titleOnlySe id (.part false) lines
  | .title id => titleOnlySe id .title lines
  | .chapter id => titleOnlySe id .chapter lines
  | .subtitleId _ | .subtitleTitle _ | .subtitleAfterArticle _ | .subtitleBeforeArticle _
  | .subtitleBeforeArticleInclusive _ => subtitleOnlySe upper lines
  | .subtitleUnknown | .subtitleRange _ | .article _ => .err

/-- Models `convert_title_only_block_amendment` (block_amendment.rs:203-233). -/
def titleOnly (upper : Char → Bool) (position : StructuralRef) (lines : List Line) :
    Res (List (ActChild Empty)) := do
  let r ← titleOnlyChild upper position.element lines
  .ok [r]

/-- Models `convert_structural_block_amendment` (block_amendment.rs:111-123). -/
def structural (upper : Char → Bool) (position : StructuralRef) (lines : List Line) :
    Res (List (ActChild Empty)) :=
  match position.element with
  | .article r => articles r.first lines
  | _ =>
    if position.titleOnly then titleOnly upper position lines
    else Res.map Prod.snd (parseComplexBody upper lines .blockAmendment)

/-- The beginning of an article that may be in front of its first paragraph (block_amendment.rs:133-139). -/
def articleHeader (id : ArticleId) : Str := id.display ++ str!". § "

/-- Removes the beginning of the article (block_amendment.rs:140-147). -/
def trimHeader (header : Str) : List Line → Res (List Line)
  | [] => .panic
  | l :: ls =>
    if startsWith l.content header then do
      let l ← l.sliceBytes (byteLen header) none
      .ok (l :: ls)
    else .ok (l :: ls)

/-- The elements of `extract_multiple`. -/
def elements {I C : Type} [DecidableEq I] [IdentifierCommon I] (p : SAEParser I C) (lines : List Line)
    (first : I) : Res (List (SAE I C)) :=
  Res.map Extracted.elements (p.extractMultiple lines params (some first))

/-- The paragraphs (block_amendment.rs:132-155). -/
def paragraphs (position : Ref) (id : IdRange NumericId) (lines : List Line) : Res (List (Paragraph Empty)) := do
  let article ← Res.ofOption position.article
  let lines ← trimHeader (articleHeader article.first) lines
  elements paragraphParser lines (ParagraphId.ofNumeric id.first)

/-- Models `convert_simple_block_amendment` (block_amendment.rs:125-181). -/
def simple (position : Ref) (lines : List Line) : Res BlockAmendmentChildren :=
  if lines = [] then .err
  else match position.getLastPart with
    | .paragraph id => Res.map .paragraph (paragraphs position id lines)
    | .point (.numeric id) => Res.map .numericPoint (elements numericPointParser lines id.first)
    | .point (.alphabetic id) => Res.map .alphabeticPoint (elements alphabeticPointParser lines id.first)
    | .subpoint (.numeric id) => Res.map .numericSubpoint (elements numericSubpointParser lines id.first)
    | .subpoint (.alphabetic id) =>
      Res.map .alphabeticSubpoint (elements (alphabeticSubpointParser id.first.pfx) lines id.first)
    | .article _ | .act _ | .empty => .err

/-- The conversion of the only quoted block (block_amendment.rs:76-105): the new children and the result.
The block's introduction has been moved out when the conversion fails (block_amendment.rs:81, 93). -/
def block (upper : Char → Bool) (phrase : Option SpecialPhrase) (b : QuotedBlock) :
    ParagraphChildren Amendment × Res Unit :=
  match phrase with
  | some (.blockAmendment position _) =>
    match simple position b.lines with
    | .ok c => (.amendment (.block b.intro c b.wrapUp), .ok ())
    | .err => (.quotedBlock [{ b with intro := none }], .err)
    | .panic => (.quotedBlock [{ b with intro := none }], .panic)
  | some (.structuralBlockAmendment position _) =>
    match structural upper position b.lines with
    | .ok c => (.amendment (.structural b.intro c b.wrapUp), .ok ())
    | .err => (.quotedBlock [{ b with intro := none }], .err)
    | .panic => (.quotedBlock [{ b with intro := none }], .panic)
  | _ => (.quotedBlock [b], .ok ())

/-- The children of a paragraph (block_amendment.rs:72-107). -/
def children (upper : Char → Bool) (phrase : Option SpecialPhrase) (c : ParagraphChildren Amendment) :
    ParagraphChildren Amendment × Res Unit :=
  match c with
  | .quotedBlock [b] => block upper phrase b
  | _ => (c, .ok ())

/-- Models `Paragraph::convert_block_amendments` (block_amendment.rs:64-109). -/
def paragraph (upper : Char → Bool) (p : Paragraph Amendment) : Paragraph Amendment × Res Unit :=
  match p.body with
  | .text _ => (p, .ok ())
  | .children i c w =>
    ({ p with body := .children i (children upper p.semanticInfo.specialPhrase c).1 w },
      (children upper p.semanticInfo.specialPhrase c).2)

/-- `iter_mut().try_for_each(..)` -/
def tryForEach {X : Type} (f : X → X × Res Unit) : List X → List X × Res Unit
  | [] => ([], .ok ())
  | x :: l =>
    match f x with
    | (x', .ok ()) => (x' :: (tryForEach f l).1, (tryForEach f l).2)
    | (x', r) => (x' :: l, r)

/-- Models `Article::convert_block_amendments` (block_amendment.rs:54-62). -/
def article (upper : Char → Bool) (a : Article Amendment) : Article Amendment × Res Unit :=
  ({ a with children := (tryForEach (paragraph upper) a.children).1 },
    (tryForEach (paragraph upper) a.children).2)

/-- An article among the children of an act (structure.rs:114-122). -/
def actChild (upper : Char → Bool) : ActChild Amendment → ActChild Amendment × Res Unit
  | .article a => (.article (article upper a).1, (article upper a).2)
  | c => (c, .ok ())

/-- Models `Act::convert_block_amendments` (block_amendment.rs:44-52). -/
def act (upper : Char → Bool) (a : Act Amendment) : Act Amendment × Res Unit :=
  ({ a with children := (tryForEach (actChild upper) a.children).1 },
    (tryForEach (actChild upper) a.children).2)

end BlockAmend
end HunLaw
