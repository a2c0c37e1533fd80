import Verif.Lemmas.BlockAmendment
import Verif.Props.Amendments

/-! Properties C51 and C69 to C71: the conversion of block amendments. -/

set_option autoImplicit false

namespace HunLaw.Props

open HunLaw Spec Semantic BlockAmend

/-! ### C51 -/

/-- C51: conversion goes through the paragraphs in order. It puts an amendment in place of the quoted block of each
paragraph that has exactly one and announces an amendment, and keeps the texts around the block. Other paragraphs and
everything else stay the same. On failure, the failing paragraph's block has lost its introduction, and nothing that
comes later has changed. -/
theorem C51_act (upper : Char → Bool) (a : Act Amendment) :
    ((BlockAmend.act upper a).2 = .ok () ∧ ActUpTo true a (BlockAmend.act upper a).1) ∨
    ((BlockAmend.act upper a).2 ≠ .ok () ∧ ActUpTo false a (BlockAmend.act upper a).1) := by
  rcases tryForEach_upTo (actChild_cases upper) a.children with ⟨h1, h2⟩ | ⟨h1, h2⟩
  · exact .inl ⟨h1, rfl, rfl, rfl, rfl, rfl, h2⟩
  · exact .inr ⟨h1, rfl, rfl, rfl, rfl, rfl, h2⟩

/-- C51 for one article. -/
theorem C51_article (upper : Char → Bool) (a : Article Amendment) :
    ((article upper a).2 = .ok () ∧ ArticleUpTo true a (article upper a).1) ∨
    ((article upper a).2 ≠ .ok () ∧ ArticleUpTo false a (article upper a).1) := by
  rcases tryForEach_upTo (paragraph_cases upper) a.children with ⟨h1, h2⟩ | ⟨h1, h2⟩
  · exact .inl ⟨h1, rfl, rfl, h2⟩
  · exact .inr ⟨h1, rfl, rfl, h2⟩

/-- C51 for one paragraph. -/
theorem C51_paragraph (upper : Char → Bool) (p : Paragraph Amendment) :
    ((paragraph upper p).2 = .ok () ∧ ConvertedParagraph p (paragraph upper p).1) ∨
    ((paragraph upper p).2 ≠ .ok () ∧ FailedParagraph p (paragraph upper p).1) :=
  paragraph_cases upper p

/-- An act is parsed, semantic information is added, and amendments are converted. -/
def convertText (ls : List Line) : Res (Act Amendment × Res Unit) :=
  Res.map (fun a => BlockAmend.act asciiUpper (addSemanticInfo a).1.lift) (parseActStructure asciiUpper (sampleRaw ls))

/-- A body with an amendment of a paragraph, an amendment of an article, and a quoted block that is no amendment. -/
def amendingBody : List Line :=
  [sampleLine str!"1. § (1) A 2012. évi C. törvény 3. § (2) bekezdése helyébe a következő rendelkezés lép:" 0,
    sampleLine str!"[Az alany]" 0,
    sampleLine str!"„(2) Más szöveg.”" 0,
    sampleLine str!"(2) A 2012. évi C. törvény 5. §-a helyébe a következő rendelkezés lép:" 0,
    sampleLine str!"„5. § Új szöveg.”" 0,
    sampleLine str!"(3) Az eskü szövege:" 0,
    sampleLine str!"„Esküszöm.”" 0]

/-- What the children of a paragraph are. -/
def childrenKind : SAEBody (ParagraphChildren Amendment) → Nat × Option Str
  | .text _ => (0, none)
  | .children _ (.amendment (.block i _ _)) _ => (1, i)
  | .children _ (.amendment (.structural i _ _)) _ => (2, i)
  | .children _ (.quotedBlock bs) _ => (3, bs.head?.bind QuotedBlock.intro)
  | .children _ _ _ => (4, none)

/-- The kinds of all paragraphs. -/
def childrenKinds (r : Act Amendment × Res Unit) : List (Nat × Option Str) × Res Unit :=
  (r.1.articles.flatMap fun a => a.children.map fun p => childrenKind p.body, r.2)

example : Res.map childrenKinds (convertText amendingBody) =
    .ok ([(1, some str!"Az alany"), (2, none), (3, none)], .ok ()) := by decide +kernel

/-- The same with a wrong paragraph number in the first amendment. -/
def failingBody : List Line :=
  [sampleLine str!"1. § (1) A 2012. évi C. törvény 3. § (2) bekezdése helyébe a következő rendelkezés lép:" 0,
    sampleLine str!"[Az alany]" 0,
    sampleLine str!"„(3) Más szöveg.”" 0,
    sampleLine str!"(2) A 2012. évi C. törvény 5. §-a helyébe a következő rendelkezés lép:" 0,
    sampleLine str!"„5. § Új szöveg.”" 0]

example : Res.map childrenKinds (convertText failingBody) = .ok ([(3, none), (3, none)], .err) := by decide +kernel

/-! ### C69 -/

/-- C69: ignoring spaces, the text of the amendment is the text of the lines of the quoted block. Only the header of
the article in front of paragraphs is not in the amendment. -/
theorem C69_text (upper : Char → Bool) (p : Paragraph Amendment) (i : Str) (b : QuotedBlock) (w : Option Str)
    (h : Awaits p i b w) (hok : (paragraph upper p).2 = .ok ()) :
    ∃ a, (paragraph upper p).1.body = .children i (.amendment a) w ∧
      AmendmentText p.semanticInfo.specialPhrase a (noSpaces (allText b.lines)) := by
  obtain ⟨hb, hs⟩ := h
  unfold paragraph at hok ⊢
  simp only [hb, children] at hok ⊢
  rcases hs with ⟨pos, f, hs⟩ | ⟨pos, f, hs⟩
  · rw [hs] at hok ⊢
    simp only [block] at hok ⊢
    cases hc : simple pos b.lines with
    | ok c => exact ⟨_, rfl, simple_text hc⟩
    | err => rw [hc] at hok; cases hok
    | panic => rw [hc] at hok; cases hok
  · rw [hs] at hok ⊢
    simp only [block] at hok ⊢
    cases hc : structural upper pos b.lines with
    | ok c => exact ⟨_, rfl, structural_text hc⟩
    | err => rw [hc] at hok; cases hok
    | panic => rw [hc] at hok; cases hok

/-! ### C70 -/

/-- C70: the elements of a block amendment are numbered consecutively and begin with the first one that the phrase
names. Missing: that they end with the last one that the phrase names, see `C70_violated`. -/
theorem C70_numbered_partial (upper : Char → Bool) (p : Paragraph Amendment) (i : Str) (b : QuotedBlock)
    (w : Option Str) (h : Awaits p i b w) (hok : (paragraph upper p).2 = .ok ()) :
    (∀ pos f, p.semanticInfo.specialPhrase = some (.blockAmendment pos f) →
      ∃ c, (paragraph upper p).1.body = .children i (.amendment (.block b.intro c b.wrapUp)) w ∧
        BlockChildrenNumbered pos c) ∧
    (∀ pos f r, p.semanticInfo.specialPhrase = some (.structuralBlockAmendment pos f) → pos.element = .article r →
      ∃ cs, (paragraph upper p).1.body = .children i (.amendment (.structural b.intro cs b.wrapUp)) w ∧
        ArticlesNumbered r.first cs) := by
  obtain ⟨hb, -⟩ := h
  unfold paragraph at hok ⊢
  simp only [hb, children] at hok ⊢
  constructor
  · intro pos f hs
    rw [hs] at hok ⊢
    simp only [block] at hok ⊢
    cases hc : simple pos b.lines with
    | ok c => exact ⟨_, rfl, simple_numbered hc⟩
    | err => rw [hc] at hok; cases hok
    | panic => rw [hc] at hok; cases hok
  · intro pos f r hs hr
    rw [hs] at hok ⊢
    simp only [block] at hok ⊢
    cases hc : structural upper pos b.lines with
    | ok c =>
      refine ⟨_, rfl, ?_⟩
      unfold structural at hc
      rw [hr] at hc
      exact (articles_spec hc).2
    | err => rw [hc] at hok; cases hok
    | panic => rw [hc] at hok; cases hok

/-- C70, full statement for paragraphs: the amendment has exactly the paragraphs that the phrase names. -/
def C70_statement : Prop :=
  ∀ (upper : Char → Bool) (p : Paragraph Amendment) (i : Str) (b : QuotedBlock) (w : Option Str) (pos : Ref)
    (f : Bool) (r : IdRange NumericId) (ps : List (Paragraph Empty)),
    Awaits p i b w → p.semanticInfo.specialPhrase = some (.blockAmendment pos f) → pos.getLastPart = .paragraph r →
    (paragraph upper p).1.body = .children i (.amendment (.block b.intro (.paragraph ps) b.wrapUp)) w →
    (ps.map SAE.identifier).head? = some (ParagraphId.ofNumeric r.first) ∧
    (ps.map SAE.identifier).getLast? = some (ParagraphId.ofNumeric r.last)

/-- Paragraphs (2) to (4) are announced. -/
def announcedParagraph : Paragraph Amendment :=
  ⟨⟨none⟩, .children str!"A Tv. 3. § (2)–(4) bekezdése helyébe a következő rendelkezések lépnek:"
    (.quotedBlock [⟨none, [sampleLine str!"(2) Ez." 0, sampleLine str!"(3) Az." 0], none⟩]) none,
    { SemanticInfo.default with
      specialPhrase := some (.blockAmendment ⟨none, some (.single ⟨none, .ofNum 3⟩),
        some ⟨.ofNum 2, .ofNum 4⟩, none, none⟩ false) }, none⟩

/-- It does not hold: the announced paragraphs (2) to (4) may be just (2) and (3). -/
theorem C70_violated : ¬ C70_statement := by
  intro h
  have e : (match (paragraph asciiUpper announcedParagraph).1.body with
      | .children _ (.amendment (.block _ (.paragraph ps) _)) _ => some ps
      | _ => none) =
    some [⟨⟨some ⟨2, none⟩⟩, .text str!"Ez.", .default, none⟩, ⟨⟨some ⟨3, none⟩⟩, .text str!"Az.", .default, none⟩] := by
    decide +kernel
  have := h asciiUpper announcedParagraph _ _ _ _ _ ⟨.ofNum 2, .ofNum 4⟩
    [⟨⟨some ⟨2, none⟩⟩, .text str!"Ez.", .default, none⟩, ⟨⟨some ⟨3, none⟩⟩, .text str!"Az.", .default, none⟩]
    ⟨rfl, .inl ⟨_, _, rfl⟩⟩ rfl rfl (by decide +kernel)
  exact absurd this.2 (by decide)

/-! ### C71 -/

/-- C71, full statement: converting the amendments of an act never crashes. -/
def C71_statement : Prop :=
  ∀ (upper : Char → Bool) (raw : ActRawText) (a : Act Empty), parseActStructure upper raw = .ok a →
    (BlockAmend.act upper (addSemanticInfo a).1.lift).2 ≠ .panic

/-- An amendment of an article that has nothing but a title. -/
def titleOnlyBody : List Line :=
  [sampleLine str!"1. § A 2012. évi C. törvény 5. §-a helyébe a következő rendelkezés lép:" 0,
    sampleLine str!"„5. § [Cím]”" 0]

/-- It does not hold for an amendment that is an article with a title only. -/
theorem C71_violated : ¬ C71_statement := by
  intro h
  have e : Res.map (fun r => r.2) (convertText titleOnlyBody) = .ok .panic := by decide +kernel
  obtain ⟨r, hr, he⟩ := map_ok.1 e
  obtain ⟨a, ha, rfl⟩ := map_ok.1 hr
  exact h asciiUpper _ a ha he

/-- C71: conversion does not crash if the lines of the quoted blocks do not end with a space, and those of
amendments of articles and larger elements are not empty and have no article with a title only. Missing: such
blocks. -/
theorem C71_no_panic_partial (upper : Char → Bool) (a : Act Amendment)
    (h : ∀ art ∈ a.articles, ∀ p ∈ art.children, ∀ i b w, Awaits p i b w → NoTrailingSpace b.lines ∧
      (IsStructuralAmendment p.semanticInfo.specialPhrase → b.lines ≠ [] ∧ ¬ TitleOnlyArticle b.lines)) :
    (BlockAmend.act upper a).2 ≠ .panic := by
  refine tryForEach_ne_panic _ ?_
  intro c hc
  cases c with
  | structuralElement e => simp [actChild]
  | subtitle s => simp [actChild]
  | article art =>
    refine tryForEach_ne_panic _ ?_
    intro p hp
    refine paragraph_ne_panic upper p (h art ?_ p hp)
    unfold Act.articles
    rw [List.mem_filterMap]
    exact ⟨_, hc, rfl⟩

/-- C71: in a parsed act no quoted block of a paragraph is without lines. -/
theorem C71_blocks (upper : Char → Bool) (raw : ActRawText) (act : Act Empty)
    (h : parseActStructure upper raw = .ok act) (a : Article Empty) (ha : .article a ∈ act.children)
    (p : Paragraph Empty) (hp : p ∈ a.children) (i : Str) (bs : List QuotedBlock) (w : Option Str)
    (hb : p.body = .children i (.quotedBlock bs) w) : bs ≠ [] ∧ ∀ b ∈ bs, b.lines ≠ [] := by
  rcases C35_elements_numbered upper raw act h a ha with ⟨q, hq, -, hn⟩ | ⟨-, -, -, hn⟩
  · rw [hq, List.mem_singleton] at hp
    subst hp
    exact hn _ _ _ hb
  · exact hn p hp _ _ _ hb

end HunLaw.Props
