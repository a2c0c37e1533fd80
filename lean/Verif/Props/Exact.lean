import Verif.Lemmas.ExactAct
import Verif.Props.Structure

/-! Exactly which structure is given to the lines of an act: C115. -/

set_option autoImplicit false

namespace HunLaw.Props

open HunLaw.Spec SAEParser

/-! ### C115 -/

/-- C115, for one article: what is read from lines is the article those lines are, by the rule that children begin at the
first line outside quotes where they can. -/
theorem C115_article_sound (p : ArticleParser) (a : Article Empty) (h : p.finish = .ok a) :
    a.identifier = p.identifier ∧ ArticleIs p.context p.lines a := finish_sound h

/-- C115, for one article: an article is read from lines exactly when it is what those lines are. No line ends with a
space. -/
theorem C115_article_exact (p : ArticleParser) (a : Article Empty) (hn : NoTrailingSpace p.lines) :
    p.finish = .ok a ↔ a.identifier = p.identifier ∧ ArticleIs p.context p.lines a :=
  ⟨finish_sound, fun h => finish_complete hn h.1 h.2⟩

/-- C115: what is read from the text of an act is what its lines are. -/
theorem C115_act_sound (upper : Char → Bool) (raw : ActRawText) (act : Act Empty)
    (h : parseActStructure upper raw = .ok act) :
    BodyIs .fullAct upper raw.body act.preamble act.children ∧ act.identifier = raw.identifier ∧
      act.subject = raw.subject ∧ act.publicationDate = raw.publicationDate ∧ act.containedAbbreviations = [] := by
  have h1 := parseComplexBody_sound (parseAct_ok h)
  unfold parseActStructure at h
  rw [Res.bind_eq_ok] at h
  obtain ⟨⟨p, cs⟩, -, h⟩ := h
  simp only [Res.ok.injEq] at h
  subst h
  exact ⟨h1, rfl, rfl, rfl, rfl⟩

/-- C115: an act is read from a text exactly when its preamble and children are what the lines are, and the rest is as
given. No line ends with a space. -/
theorem C115_act_exact (upper : Char → Bool) (raw : ActRawText) (act : Act Empty) (hn : NoTrailingSpace raw.body) :
    parseActStructure upper raw = .ok act ↔
    BodyIs .fullAct upper raw.body act.preamble act.children ∧ act.identifier = raw.identifier ∧
      act.subject = raw.subject ∧ act.publicationDate = raw.publicationDate ∧ act.containedAbbreviations = [] := by
  refine ⟨C115_act_sound upper raw act, ?_⟩
  rintro ⟨h1, h2, h3, h4, h5⟩
  unfold parseActStructure
  rw [parseComplexBody_complete hn h1]
  cases act
  simp only at h2 h3 h4 h5
  simp only [Res.bind_ok, h2, h3, h4, h5]

/-- C115, for the articles and titles in an amendment: likewise. -/
theorem C115_amendment_exact (upper : Char → Bool) (ls : List Line) (preamble : Str) (children : List (ActChild Empty))
    (hn : NoTrailingSpace ls) :
    parseComplexBody upper ls .blockAmendment = .ok (preamble, children) ↔
    BodyIs .blockAmendment upper ls preamble children :=
  ⟨fun h => parseComplexBody_sound h, parseComplexBody_complete hn⟩

/-- C115: lines are at most one act. -/
theorem C115_act_unique (context : ParsingContext) (upper : Char → Bool) (ls : List Line) (preamble preamble' : Str)
    (children children' : List (ActChild Empty)) (hn : NoTrailingSpace ls)
    (h : BodyIs context upper ls preamble children) (h' : BodyIs context upper ls preamble' children') :
    preamble = preamble' ∧ children = children' := by
  have h1 := parseComplexBody_complete hn h
  rw [parseComplexBody_complete hn h'] at h1
  simp only [Res.ok.injEq, Prod.mk.injEq] at h1
  exact ⟨h1.1.symm, h1.2.symm⟩

/-- The lists at each level: paragraphs, points and subpoints are read exactly from the lines that are such lists. No line
ends with a space. -/
theorem C115_lists_exact (context : ParsingContext) (wrapUps : Bool) (ls : List Line) (hne : ls ≠ [])
    (hn : NoTrailingSpace ls) (w : Option Str) (more : List Line) :
    (∀ es, paragraphParser.extractMultiple ls ⟨wrapUps, true, context⟩ none = .ok ⟨es, w, more⟩ ↔
      ListIs ParagraphHead (isFirst · = true) (ParagraphIs context) context wrapUps 2 ls es w more) ∧
    (∀ es, numericPointParser.extractMultiple ls ⟨wrapUps, true, context⟩ none = .ok ⟨es, w, more⟩ ↔
      ListIs NumericHead (isFirst · = true) (NumericPointIs context) context wrapUps 2 ls es w more) ∧
    (∀ es, alphabeticPointParser.extractMultiple ls ⟨wrapUps, true, context⟩ none = .ok ⟨es, w, more⟩ ↔
      ListIs AlphabeticHead (isFirst · = true) (AlphabeticPointIs context) context wrapUps 2 ls es w more) ∧
    (∀ es, numericSubpointParser.extractMultiple ls ⟨wrapUps, true, context⟩ none = .ok ⟨es, w, more⟩ ↔
      ListIs NumericHead (isFirst · = true) (SubpointIs context) context wrapUps 2 ls es w more) ∧
    (∀ pfx es, (alphabeticSubpointParser pfx).extractMultiple ls ⟨wrapUps, true, context⟩ none = .ok ⟨es, w, more⟩ ↔
      ListIs (PrefixedHead pfx) (isFirst · = true) (SubpointIs context) context wrapUps 2 ls es w more) := by
  have go : ∀ {I C : Type} [DecidableEq I] [IdentifierCommon I] {p : SAEParser I C} {Head : Line → I → Line → Prop}
      {El : WrapUpMode → I → List Line → SAE I C → List Line → Prop}, LevelExact p context Head El →
      p.extractMultiple ls ⟨wrapUps, true, context⟩ none ≠ .panic →
      ∀ es, p.extractMultiple ls ⟨wrapUps, true, context⟩ none = .ok ⟨es, w, more⟩ ↔
        ListIs Head (isFirst · = true) El context wrapUps 2 ls es w more := by
    intro I C _ _ p Head El hl hp es
    refine ⟨fun h => extractMultiple_listIs hl h, fun h => ?_⟩
    rcases extractMultiple_complete hl h with h | h
    · exact h
    · exact absurd h hp
  exact ⟨go paragraph_level (paragraphList_ne_panic ls hne hn _ _),
    go numericPoint_level (numericPoints_ne_panic ls hne hn _ _),
    go alphabeticPoint_level (alphabeticPoints_ne_panic ls hne hn _ _),
    go numericSubpoint_level (numericSubpoints_ne_panic ls hne hn _ _),
    fun pfx => go (alphabeticSubpoint_level pfx) (alphabeticSubpoints_ne_panic pfx ls hne hn _ _)⟩

/-- Quoted blocks are read exactly from the lines that are quoted blocks. -/
theorem C115_quoted_exact (prev : Option Line) (ls : List Line) (bs : List QuotedBlock) (w : Option Str)
    (more : List Line) :
    QuoteParser.extractMultiple prev ls = .ok ⟨bs, w, more⟩ ↔ QuotedAre prev ls bs w ∧ more = [] :=
  ⟨quoted_sound, fun ⟨h, e⟩ => by rw [e]; exact quoted_complete h⟩

/-- Two blocks, with a note before and after them, and a wrap-up. -/
example : ∃ bs, QuotedAre (some (sampleLine str!"így szól:" 0)) [sampleLine str!"(Intro)" 0,
    sampleLine str!"„1. § A" 0, sampleLine str!"„b” c.”" 0, sampleLine str!"„D”" 0, sampleLine str!"(Vége)" 0,
    sampleLine str!"lép." 0] bs (some str!"lép.") ∧ bs.length = 2 ∧
    bs.map (fun b => (b.intro, b.lines.length, b.wrapUp)) =
      [(some str!"Intro", 2, none), (none, 1, some str!"Vége")] := by
  have : Res.map (fun r : Extracted (List QuotedBlock) => decide (r.elements.map (fun b => (b.intro, b.lines.length,
      b.wrapUp)) = [(some str!"Intro", 2, none), (none, 1, some str!"Vége")] ∧ r.parentWrapUp = some str!"lép."))
      (QuoteParser.extractMultiple (some (sampleLine str!"így szól:" 0)) [sampleLine str!"(Intro)" 0,
      sampleLine str!"„1. § A" 0, sampleLine str!"„b” c.”" 0, sampleLine str!"„D”" 0, sampleLine str!"(Vége)" 0,
      sampleLine str!"lép." 0]) = .ok true := by decide +kernel
  obtain ⟨r, h, e⟩ := map_ok.1 this
  replace e := of_decide_eq_true e
  have hs := (quoted_sound h).1
  rw [e.2] at hs
  refine ⟨r.elements, hs, ?_, e.1⟩
  have := congrArg List.length e.1
  simpa using this

/-- The lines of an article with points, subpoints, a wrap-up and a quoted block. -/
def exactLines : List Line := [
  sampleLine str!"(1) Ez „a" 0, sampleLine str!"2. § (2)” és:" 0, sampleLine str!"a) egy" 5,
  sampleLine str!"b) kettő:" 5, sampleLine str!"ba) alma" 8, sampleLine str!"bb) szilva" 8,
  sampleLine str!"vége" 5, .emptyLine, sampleLine str!"(2) Itt:" 0, sampleLine str!"„A”" 0]

/-- The lines are an article, whose first paragraph has two points; nothing else is what the lines are. -/
example : NoTrailingSpace exactLines ∧ ∃ a : Article Empty, ArticleIs .fullAct exactLines a ∧
    (a.children.map fun p => match p.body with
      | .children _ (.alphabeticPoint es) w => (es.length, w)
      | .children _ (.quotedBlock bs) w => (10 + bs.length, w)
      | _ => (0, none)) = [(2, some str!"vége"), (11, none)] ∧
    ∀ b, b.identifier = a.identifier → ArticleIs .fullAct exactLines b → b = a := by
  have hn : NoTrailingSpace exactLines := by
    have : ∀ l ∈ exactLines, l.content.getLast? ≠ some ' ' := by decide +kernel
    exact this
  refine ⟨hn, ?_⟩
  have : Res.map (fun a : Article Empty => a.children.map fun p => match p.body with
      | .children _ (.alphabeticPoint es) w => (es.length, w)
      | .children _ (.quotedBlock bs) w => (10 + bs.length, w)
      | _ => (0, none)) (ArticleParser.finish ⟨⟨none, .ofNum 1⟩, exactLines, .fullAct⟩) =
      .ok [(2, some str!"vége"), (11, none)] := by decide +kernel
  obtain ⟨a, ha, e⟩ := map_ok.1 this
  obtain ⟨h1, h2⟩ := C115_article_sound _ a ha
  refine ⟨a, h2, e, fun b hb hb2 => ?_⟩
  have := (C115_article_exact ⟨⟨none, .ofNum 1⟩, exactLines, .fullAct⟩ b hn).2 ⟨hb.trans h1, hb2⟩
  rw [ha] at this
  simpa using this.symm

/-- The sample act has lines without a space at the end, and is read. -/
example : NoTrailingSpace sampleActBody ∧
    ∃ act : Act Empty, BodyIs .fullAct asciiUpper sampleActBody act.preamble act.children := by
  constructor
  · have : ∀ l ∈ sampleActBody, l.content.getLast? ≠ some ' ' := by decide +kernel
    exact this
  · have : Res.map (fun _ => ()) (parseActStructure asciiUpper (sampleRaw sampleActBody)) = .ok () := by decide +kernel
    obtain ⟨act, h, -⟩ := map_ok.1 this
    exact ⟨act, (C115_act_sound _ _ _ h).1⟩

end HunLaw.Props
