import Verif.Lemmas.Numbering
import Verif.Props.Identifiers
import Verif.Props.MkAct

/-! The properties of the structure parser: C33-C39, C64. -/

set_option autoImplicit false

namespace HunLaw.Props

open HunLaw.Spec SAEParser

/-- An act body for the examples: preamble, chapter with title, article with paragraphs, points, subpoints, a
wrap-up and quotes, article with a title. -/
def sampleActBody : List Line := [
  sampleLine str!"Az Országgyűlés" 0, sampleLine str!"I. FEJEZET" 0, sampleLine str!"ALAP" 0,
  sampleLine str!"1. § (1) Ez „a" 0, sampleLine str!"2. § (2)” és:" 0, sampleLine str!"a) egy" 5,
  sampleLine str!"b) kettő:" 5, sampleLine str!"ba) alma" 8, sampleLine str!"bb) szilva" 8,
  sampleLine str!"vége" 5, .emptyLine, sampleLine str!"(2) Itt:" 0, sampleLine str!"„A”" 0,
  sampleLine str!"2. § [Cím]" 0, sampleLine str!"Szöveg." 0]

/-- The gazette text with a given body. -/
def sampleRaw (body : List Line) : ActRawText := ⟨⟨⟨2022, by decide⟩, ⟨1, by decide⟩⟩, str!"a dolgokról", sampleDate, body⟩

/-- `char::is_uppercase` on the ASCII letters; enough for examples. -/
def asciiUpper (c : Char) : Bool := c.isUpper

theorem parseAct_ok {upper : Char → Bool} {raw : ActRawText} {act : Act Empty}
    (h : parseActStructure upper raw = .ok act) :
    parseComplexBody upper raw.body .fullAct = .ok (act.preamble, act.children) := by
  unfold parseActStructure at h
  rw [Res.bind_eq_ok] at h
  obtain ⟨⟨p, cs⟩, h1, h⟩ := h
  simp only [Res.ok.injEq] at h
  subst h
  exact h1

/-! ### C33 -/

/-- C33, full statement: the quotes in the body of a parsed act are balanced, each closing quote comes after
its opening quote, and no child of the act starts inside a quote. -/
def C33_statement : Prop :=
  ∀ (upper : Char → Bool) (raw : ActRawText) (act : Act Empty), parseActStructure upper raw = .ok act →
    Balanced (allText raw.body) ∧ Nested (allText raw.body) ∧
    ∃ p ps, raw.body = p ++ pieceLines ps ∧ act.children = ps.map Piece.child ∧
      ∀ a x b, ps = a ++ x :: b → Balanced (allText (p ++ pieceLines a))

/-- C33 does not hold: quotes are only counted at the end of each line, so that a closing quote can come
before its opening quote on the same line. -/
theorem C33_violated : ¬ C33_statement := by
  intro h
  obtain ⟨act, hact⟩ : ∃ act, parseActStructure asciiUpper (sampleRaw [sampleLine str!"1. § a” és „b" 0]) =
      .ok act := by
    have : Res.map (fun _ => ()) (parseActStructure asciiUpper (sampleRaw [sampleLine str!"1. § a” és „b" 0])) =
        .ok () := by decide +kernel
    obtain ⟨act, h, -⟩ := map_ok.1 this
    exact ⟨act, h⟩
  have := (h _ _ _ hact).2.1 str!"1. § a”" str!" és „b" (by decide +kernel)
  exact absurd this (by decide)

/-- C33: in the body of a parsed act opening and closing quotes are equal in number; up to the end of each line
there are not more closing ones than opening ones; every child of the act starts with a line before which the
quotes are balanced. Missing: the order of quotes within one line. -/
theorem C33_quotes_partial (upper : Char → Bool) (raw : ActRawText) (act : Act Empty)
    (h : parseActStructure upper raw = .ok act) :
    Balanced (allText raw.body) ∧
    (∀ n ≤ raw.body.length, closing (allText (raw.body.take n)) ≤ opening (allText (raw.body.take n))) ∧
    ∃ p ps, raw.body = p ++ pieceLines ps ∧ act.children = ps.map Piece.child ∧
      ∀ a x b, ps = a ++ x :: b → Balanced (allText (p ++ pieceLines a)) := by
  have h' := parseAct_ok h
  obtain ⟨⟨p, ps, h1, h2, -, -, -, h3⟩, hb⟩ := parseComplexBody_divided h'
  refine ⟨hb, ?_, p, ps, h1, h2, fun a x b e => (division_children ps h3 a x b e).1⟩
  unfold parseComplexBody at h'
  rw [Res.bind_eq_ok] at h'
  obtain ⟨r, hr, -⟩ := h'
  exact (C28_accepted_iff raw.body).1 (complexFrom_quotes raw.body hr)

/-- The sample is parsed although a line in quotes looks like an article. -/
example : Res.map (fun _ => ()) (parseActStructure asciiUpper (sampleRaw sampleActBody)) = .ok () ∧
    parseActStructure asciiUpper (sampleRaw (sampleActBody ++ [sampleLine str!"„" 0])) = .err := by decide +kernel

/-! ### C34 -/

/-- C34: the first article of a parsed act is 1 or 1:1, and every other one is the follower of the one before,
whatever is between them. -/
theorem C34_articles_consecutive (upper : Char → Bool) (raw : ActRawText) (act : Act Empty)
    (h : parseActStructure upper raw = .ok act) :
    Consecutive (articleIds act.children) ∧
    ∀ id, (articleIds act.children).head? = some id → id = ⟨none, ⟨1, none⟩⟩ ∨ id = ⟨some 1, ⟨1, none⟩⟩ := by
  obtain ⟨⟨p, ps, -, h2, -, -, -, h3⟩, -⟩ := parseComplexBody_divided (parseAct_ok h)
  obtain ⟨d1, d2⟩ := division_articles ps h3
  simp only at h2
  rw [h2]
  refine ⟨by simpa using d1, ?_⟩
  intro id hid
  have := d2 rfl rfl id hid
  exact (C57_first (.latin 0) ⟨1, none⟩ id ⟨none⟩ ⟨none, .latin 0⟩).2.2.1.1 this

example : ∃ act, parseActStructure asciiUpper (sampleRaw sampleActBody) = .ok act ∧
    articleIds act.children = [⟨none, ⟨1, none⟩⟩, ⟨none, ⟨2, none⟩⟩] := by
  have : (Res.map (fun a => articleIds a.children) (parseActStructure asciiUpper (sampleRaw sampleActBody))) =
    .ok [⟨none, ⟨1, none⟩⟩, ⟨none, ⟨2, none⟩⟩] := by decide +kernel
  exact map_ok.1 this

/-! ### C35 -/

/-- C35: in every article of a parsed act, the paragraphs, points and subpoints at every depth are
consecutively numbered from the first one on; there are at least two in every list, and the lettered
subpoints of a lettered point carry its letter. -/
theorem C35_elements_numbered (upper : Char → Bool) (raw : ActRawText) (act : Act Empty)
    (h : parseActStructure upper raw = .ok act) (a : Article Empty) (ha : .article a ∈ act.children) :
    NumberedParagraphs a.children := by
  obtain ⟨⟨p, ps, -, h2, -, -, -, h3⟩, -⟩ := parseComplexBody_divided (parseAct_ok h)
  simp only at h2
  rw [h2] at ha
  obtain ⟨x, hx, e⟩ := List.mem_map.1 ha
  obtain ⟨s, t, rfl⟩ := List.append_of_mem hx
  obtain ⟨-, last, hc⟩ := division_children _ h3 s x t rfl
  rw [e] at hc
  obtain ⟨-, -, -, -, rest, -, hof⟩ := hc
  exact articleOf_numbered hof

/-- C35 for lists in amendments: the first element is the one demanded, if there is one, and the following ones
are consecutive; likewise everything in them. -/
theorem C35_amendment_lists (context : ParsingContext) (wrapUps count : Bool) (ls : List Line) :
    (∀ expected r, paragraphParser.extractMultiple ls ⟨wrapUps, count, context⟩ expected = .ok r →
      NumberedList (FirstIs expected) NumberedInParagraph r.elements) ∧
    (∀ expected r, alphabeticPointParser.extractMultiple ls ⟨wrapUps, count, context⟩ expected = .ok r →
      NumberedList (FirstIs expected) NumberedInAlphabeticPoint r.elements) ∧
    (∀ expected r, numericPointParser.extractMultiple ls ⟨wrapUps, count, context⟩ expected = .ok r →
      NumberedList (FirstIs expected) NumberedInNumericPoint r.elements) ∧
    (∀ expected r, numericSubpointParser.extractMultiple ls ⟨wrapUps, count, context⟩ expected = .ok r →
      NumberedList (FirstIs expected) (fun _ _ => False) r.elements) ∧
    (∀ pfx expected r, (alphabeticSubpointParser pfx).extractMultiple ls ⟨wrapUps, count, context⟩ expected = .ok r →
      NumberedList (FirstIs expected) (fun _ _ => False) r.elements ∧
        ∀ e ∈ r.elements, e.identifier.pfx = pfx) := by
  refine ⟨?_, ?_, ?_, ?_, ?_⟩
  · intro expected r h
    exact (listOf_numbered paragraphOf_numbered (paragraphList_of h)).2.1
  · intro expected r h
    exact (listOf_numbered alphabeticPointOf_numbered (alphabeticPoints_of h)).2.1
  · intro expected r h
    exact (listOf_numbered numericPointOf_numbered (numericPoints_of h)).2.1
  · intro expected r h
    exact (listOf_numbered (elementOf_child (fun _ _ _ _ _ _ h => h)) (numericSubpoints_of h)).2.1
  · intro pfx expected r h
    obtain ⟨-, h2, h3⟩ := listOf_numbered (Child := fun _ _ => False)
      (elementOf_child (fun _ _ _ _ _ _ h => h)) (alphabeticSubpoints_of h)
    refine ⟨h2, ?_⟩
    intro e he
    obtain ⟨l, rest, h⟩ := h3 e he
    exact h.2

/-- The lettered points of the sample's first paragraph. -/
example : ∃ act, parseActStructure asciiUpper (sampleRaw sampleActBody) = .ok act ∧
    (act.articles.flatMap fun a => a.children.map fun p => match p.body with
      | .children _ (.alphabeticPoint l) _ => l.map fun e => match e.body with
        | .children _ (.alphabeticSubpoint l) _ => l.map SAE.identifier
        | _ => []
      | _ => []) = [[[], [⟨some (.latin 1), .latin 0⟩, ⟨some (.latin 1), .latin 1⟩]], [], []] := by
  have : (Res.map (fun act : Act Empty =>
      (act.articles.flatMap fun a => a.children.map fun p => match p.body with
        | .children _ (.alphabeticPoint l) _ => l.map fun e => match e.body with
          | .children _ (.alphabeticSubpoint l) _ => l.map SAE.identifier
          | _ => []
        | _ => [])) (parseActStructure asciiUpper (sampleRaw sampleActBody))) =
    .ok [[[], [⟨some (.latin 1), .latin 0⟩, ⟨some (.latin 1), .latin 1⟩]], [], []] := by decide +kernel
  exact map_ok.1 this
example : (Res.map (fun r : Extracted (List (Paragraph Empty)) => r.elements.map SAE.identifier)
    (paragraphParser.extractMultiple [sampleLine str!"(3) x" 0, sampleLine str!"(4) y" 0]
      ⟨false, false, .blockAmendment⟩ (some ⟨some ⟨3, none⟩⟩))) =
    .ok [⟨some ⟨3, none⟩⟩, ⟨some ⟨4, none⟩⟩] := by decide +kernel

/-! ### C36 -/

/-- C36: ignoring spaces, the text of a parsed act is that of its preamble and of its children: headers, titles,
intros, children in order, and wrap-ups, each once. -/
theorem C36_act_text (upper : Char → Bool) (raw : ActRawText) (act : Act Empty)
    (h : parseActStructure upper raw = .ok act) :
    ∃ t, ActChildrenText act.children t ∧ noSpaces (allText raw.body) = noSpaces act.preamble ++ t := by
  obtain ⟨⟨p, ps, h1, h2, -, h4, -, h3⟩, -⟩ := parseComplexBody_divided (parseAct_ok h)
  simp only at h2 h4
  refine ⟨_, by rw [h2]; exact division_text ps h3, ?_⟩
  rw [h1, h4, noSpaces_join, allText_append, noSpaces_append]

/-- C36 for the lists of elements in amendments: the text of the lines is that of the elements, the wrap-up of
their parent and the lines given back. -/
theorem C36_list_text (params : SAEParams) (ls : List Line) :
    (∀ expected r, paragraphParser.extractMultiple ls params expected = .ok r →
      ∃ t, ElementsText ParagraphMark ParagraphChildrenText r.elements t ∧ noSpaces (allText ls) =
        t ++ noSpaces (r.parentWrapUp.getD []) ++ noSpaces (allText r.restOfWrapUp)) ∧
    (∀ expected r, alphabeticPointParser.extractMultiple ls params expected = .ok r →
      ∃ t, ElementsText AlphabeticMark AlphabeticChildrenText r.elements t ∧ noSpaces (allText ls) =
        t ++ noSpaces (r.parentWrapUp.getD []) ++ noSpaces (allText r.restOfWrapUp)) ∧
    (∀ expected r, numericPointParser.extractMultiple ls params expected = .ok r →
      ∃ t, ElementsText NumericMark NumericChildrenText r.elements t ∧ noSpaces (allText ls) =
        t ++ noSpaces (r.parentWrapUp.getD []) ++ noSpaces (allText r.restOfWrapUp)) ∧
    (∀ expected r, numericSubpointParser.extractMultiple ls params expected = .ok r →
      ∃ t, ElementsText NumericMark NoChildrenText r.elements t ∧ noSpaces (allText ls) =
        t ++ noSpaces (r.parentWrapUp.getD []) ++ noSpaces (allText r.restOfWrapUp)) ∧
    (∀ pfx expected r, (alphabeticSubpointParser pfx).extractMultiple ls params expected = .ok r →
      ∃ t, ElementsText PrefixedMark NoChildrenText r.elements t ∧ noSpaces (allText ls) =
        t ++ noSpaces (r.parentWrapUp.getD []) ++ noSpaces (allText r.restOfWrapUp)) :=
  ⟨fun _ _ h => extractMultiple_text paragraph_keeps h, fun _ _ h => extractMultiple_text alphabeticPoint_keeps h,
    fun _ _ h => extractMultiple_text numericPoint_keeps h, fun _ _ h => extractMultiple_text numericSubpoint_keeps h,
    fun pfx _ _ h => extractMultiple_text (alphabeticSubpoint_keeps pfx) h⟩

/-- C36: a paragraph, point or subpoint that is parsed by itself keeps its text. -/
theorem C36_element_text (context : ParsingContext) (ls : List Line) :
    (∀ id r, paragraphParser.parse id ls context .keepIt = .ok r →
      BodyText ParagraphChildrenText r.element.body (noSpaces (allText ls))) ∧
    (∀ id r, alphabeticPointParser.parse id ls context .keepIt = .ok r →
      BodyText AlphabeticChildrenText r.element.body (noSpaces (allText ls))) ∧
    (∀ id r, numericPointParser.parse id ls context .keepIt = .ok r →
      BodyText NumericChildrenText r.element.body (noSpaces (allText ls))) :=
  ⟨fun _ _ h => parse_keepIt_text paragraph_keeps h, fun _ _ h => parse_keepIt_text alphabeticPoint_keeps h,
    fun _ _ h => parse_keepIt_text numericPoint_keeps h⟩

example : (Res.map (fun act : Act Empty => act.preamble) (parseActStructure asciiUpper (sampleRaw sampleActBody))) =
    .ok str!"Az Országgyűlés" := by decide +kernel
example : noSpaces str!"a  b c" = str!"abc" ∧ ParagraphMark ⟨some ⟨2, none⟩⟩ str!"(2)" := by
  refine ⟨by decide, str!"2", ⟨str!"2", ⟨by decide, by unfold AllDigits; decide⟩, .inl rfl⟩, by decide +kernel, rfl⟩

/-! ### C37 -/

/-- C37: quoted blocks are made of the lines as `QuotedOf` says: each block has the lines from the one that
starts with the opening quote to the one that ends with the closing quote, without these two characters; the
quotes in it are balanced; only empty lines are between blocks; and the text before and after is in the notes
and in the wrap-up. -/
theorem C37_quoted_blocks (prev : Option Line) (ls : List Line) (r : Extracted (List QuotedBlock))
    (h : QuoteParser.extractMultiple prev ls = .ok r) :
    QuotedOf ls r.elements r.parentWrapUp ∧ r.restOfWrapUp = [] := by
  obtain ⟨h1, h2, -⟩ := quoted_of h
  exact ⟨h1, h2⟩

/-- C37, full statement of the last part: the quotes inside a block are balanced and each closing quote comes
after its opening quote. -/
def C37_nested_statement : Prop :=
  ∀ (prev : Option Line) (ls : List Line) (r : Extracted (List QuotedBlock)),
    QuoteParser.extractMultiple prev ls = .ok r →
    ∀ b ∈ r.elements, Balanced (allText b.lines) ∧ Nested (allText b.lines)

/-- It does not hold: the closing quote that ends a block need not be the one that belongs to its opening
quote. The lines `„a” és` and `„b”` make up one block `a” és „b`. -/
theorem C37_nested_violated : ¬ C37_nested_statement := by
  intro h
  have e : Res.map (fun r : Extracted (List QuotedBlock) => r.elements.map fun b => allText b.lines)
      (QuoteParser.extractMultiple none [sampleLine str!"„a” és" 0, sampleLine str!"„b”" 0]) =
      .ok [str!"a” és„b"] := by decide +kernel
  obtain ⟨r, hr, he⟩ := map_ok.1 e
  cases hb : r.elements with
  | nil => rw [hb] at he; simp at he
  | cons b bs =>
    rw [hb] at he
    simp only [List.map_cons, List.cons.injEq] at he
    have := (h _ _ r hr b (by simp [hb])).2 str!"a”" str!" és„b" (by rw [he.1]; decide)
    exact absurd this (by decide)

theorem unquoted_balanced {a b : List Line} (h : Unquoted a b) (hb : BalancedLines a) : Balanced (allText b) := by
  obtain ⟨o, ho, -, he⟩ := QuoteParser.unquoted_text h
  unfold BalancedLines at hb
  unfold Balanced
  rw [he] at hb
  simp only [opening_append, closing_append] at hb
  have h1 : opening [o] = 1 ∧ closing [o] = 0 := by rcases ho with rfl | rfl <;> decide
  have h2 : opening ['”'] = 0 ∧ closing ['”'] = 1 := by decide
  omega

/-- C37: the quotes inside of each block are equal in number. Missing: their order, see
`C37_nested_violated`. -/
theorem C37_balanced_partial (prev : Option Line) (ls : List Line) (r : Extracted (List QuotedBlock))
    (h : QuoteParser.extractMultiple prev ls = .ok r) : ∀ b ∈ r.elements, Balanced (allText b.lines) := by
  obtain ⟨⟨pre, post, v, segs, -, -, hf, -⟩, -⟩ := quoted_of h
  intro b hb
  obtain ⟨s, ⟨hu, hbal, -⟩, -⟩ := forall₂_right hf b hb
  exact unquoted_balanced hu hbal

example : (Res.map (fun r : Extracted (List QuotedBlock) =>
      r.elements.map fun b => ((b.intro, b.wrapUp), b.lines.map Line.content))
    (QuoteParser.extractMultiple (some (sampleLine str!"helyébe:" 0))
      [sampleLine str!"(intro)" 0, sampleLine str!"„(1) a „b”" 0, sampleLine str!"c”" 0, .emptyLine,
        sampleLine str!"„d”" 0, sampleLine str!"[x" 0, sampleLine str!"y]" 0, sampleLine str!"lép." 0])) =
    .ok [((some str!"intro", none), [str!"(1) a „b”", str!"c"]), ((none, some str!"x y"), [str!"d"])] := by
  decide +kernel

/-! ### C38 -/

/-- C38, full statement. -/
def C38_statement : Prop :=
  ∀ (upper : Char → Bool) (raw : ActRawText), parseActStructure upper raw ≠ .panic

/-- C38 does not hold: an article that has a title only makes the parser crash. -/
theorem C38_violated : ¬ C38_statement := by
  intro h
  exact h asciiUpper (sampleRaw [sampleLine str!"1. § [Cím]" 0]) (by decide +kernel)

/-- An empty line after the title does not help. -/
theorem C38_violated_empty_line :
    parseActStructure asciiUpper (sampleRaw [sampleLine str!"1. § [Cím]" 0, .emptyLine]) = .panic := by
  decide +kernel

/-- A header followed by nothing but a space is the other reason for a crash. -/
theorem C38_violated_trailing_space :
    parseActStructure asciiUpper (sampleRaw [sampleLine str!"1. § " 0]) = .panic := by
  decide +kernel

/-- C38: if no line ends with a space, then parsing crashes only if there is an article header with a title, and
at most one empty line, that can be a whole article. Missing: such bodies. -/
theorem C38_no_panic_partial (upper : Char → Bool) (raw : ActRawText) (hn : NoTrailingSpace raw.body)
    (ht : ¬ TitleOnlyArticle raw.body) : parseActStructure upper raw ≠ .panic := by
  intro h
  unfold parseActStructure at h
  refine bind_ne_panic (fun h => ht (parseComplexBody_panic hn h)) ?_ h
  intro a _
  simp

/-- The same for block amendments. -/
theorem C38_no_panic_amendment_partial (upper : Char → Bool) (ls : List Line) (hn : NoTrailingSpace ls)
    (ht : ¬ TitleOnlyArticle ls) (context : ParsingContext) : parseComplexBody upper ls context ≠ .panic :=
  fun h => ht (parseComplexBody_panic hn h)

/-- Lines without `[` after an article header have no such article. -/
theorem no_title_article {ls : List Line}
    (h : ∀ l ∈ ls, ∀ t r, ArticleHeader l.content t r → r.head? ≠ some '[') : ¬ TitleOnlyArticle ls := by
  rintro ⟨before, hd, body, after, id, rest, title, gap, e, hh, ⟨tl, e2, ⟨first, others, t, e3, e4, -⟩⟩, -⟩
  subst e3
  simp only [List.cons_append, List.cons.injEq] at e2
  obtain ⟨rfl, -⟩ := e2
  obtain ⟨t', r, h1, h2, h3, h4⟩ := hh
  have := (C27_rest hd rest r (headerLine_suffix h1) h2 h4).1
  refine h hd (by simp [e]) t' r h1 ?_
  rw [← this, e4]; rfl

/-- The hypotheses of C38 are met by a body without any titles. -/
example : NoTrailingSpace [sampleLine str!"a" 0, sampleLine str!"2. Cím" 0] ∧
    ¬ TitleOnlyArticle [sampleLine str!"a" 0, sampleLine str!"2. Cím" 0] := by
  refine ⟨by unfold NoTrailingSpace; decide +kernel, no_title_article ?_⟩
  intro l hl t r h
  have : ∀ l ∈ [sampleLine str!"a" 0, sampleLine str!"2. Cím" 0], '[' ∉ l.content := by decide +kernel
  have hb := this l hl
  obtain ⟨b, e⟩ := headerLine_suffix h
  rw [e] at hb
  intro hr
  cases r with
  | nil => simp at hr
  | cons c r => simp at hr; subst hr; simp at hb

/-! ### C39 -/

theorem structuralHeader_unique {t t' : SEType} {id id' : NumericId} {s : Str} (h : StructuralHeader t id s)
    (h' : StructuralHeader t' id' s) : t = t' ∧ id = id' := by
  have hlast : ∀ {t : SEType} {id : NumericId} {s : Str}, StructuralHeader t id s → ∃ c, s.getLast? = some c ∧
      match t with
      | .book => c = 'V'
      | .part _ => c = 'Z'
      | .title => c = 'M'
      | .chapter => upAscii c = 'T' := by
    rintro t id s ⟨num, -, -, hs⟩
    cases t with
    | book => exact ⟨'V', by rw [hs, List.getLast?_append]; rfl, rfl⟩
    | part b => exact ⟨'Z', by rw [hs, List.getLast?_append]; rfl, rfl⟩
    | title => exact ⟨'M', by rw [hs, List.getLast?_append]; rfl, rfl⟩
    | chapter =>
      obtain ⟨w, hw, rfl⟩ := hs
      have hne : w ≠ [] := by rintro rfl; simp at hw
      refine ⟨w.getLast hne, ?_, ?_⟩
      · rw [List.getLast?_append_of_ne_nil _ hne, List.getLast?_eq_some_getLast hne]
      · have : (w.map upAscii).getLast? = some (upAscii (w.getLast hne)) := by
          rw [List.getLast?_map, List.getLast?_eq_some_getLast hne]; rfl
        rw [hw] at this
        simpa using this.symm
  obtain ⟨c, hc, h1⟩ := hlast h
  obtain ⟨c', hc', h1'⟩ := hlast h'
  rw [hc] at hc'
  simp only [Option.some.injEq] at hc'
  subst hc'
  obtain ⟨num, hn, -, hs⟩ := h
  obtain ⟨num', hn', -, hs'⟩ := h'
  have hspecial : ∀ {num : Str} {id id' : NumericId}, specialPart num = some id → hunNumeric num = some id' → False := by
    intro num id id' h1 h2
    unfold specialPart at h1
    split at h1
    · rename_i e; subst e; revert h2; rw [show hunNumeric str!"ÁLTALÁNOS" = none by decide +kernel]; simp
    · split at h1
      · rename_i e; subst e; revert h2; rw [show hunNumeric str!"KÜLÖNÖS" = none by decide +kernel]; simp
      · split at h1
        · rename_i e; subst e; revert h2; rw [show hunNumeric str!"ZÁRÓ" = none by decide +kernel]; simp
        · simp at h1
  have hsame : t = t' → num = num' → id = id' := by
    rintro rfl rfl
    rw [hn] at hn'
    simpa using hn'
  cases t <;> cases t' <;> simp only at h1 h1' hs hs' <;> (try subst h1) <;>
    first
    | (exfalso; revert h1'; decide)
    | skip
  · rw [hs] at hs'
    exact ⟨rfl, hsame rfl (List.append_cancel_right hs')⟩
  · rename_i b b'
    rw [hs] at hs'
    have e := List.append_cancel_right hs'
    subst e
    cases b <;> cases b'
    · exact ⟨rfl, hsame rfl rfl⟩
    · exact (hspecial hn' hn).elim
    · exact (hspecial hn hn').elim
    · exact ⟨rfl, hsame rfl rfl⟩
  · rw [hs] at hs'
    exact ⟨rfl, hsame rfl (List.append_cancel_right hs')⟩
  · subst h1'; exact absurd h1 (by decide)
  · subst h1'; exact absurd h1 (by decide)
  · subst h1'; exact absurd h1 (by decide)
  · obtain ⟨w, hw, rfl⟩ := hs
    obtain ⟨w', hw', hs'⟩ := hs'
    have hlen : w.length = w'.length := by
      have a := congrArg List.length hw
      have b := congrArg List.length hw'
      simp only [List.length_map] at a b
      rw [a, b]
    have e := (List.append_inj' hs' hlen).1
    exact ⟨rfl, hsame rfl (List.append_cancel_right e)⟩

theorem hungarian_chars : ∀ n : Fin 101, ((toHungarian n.val).map fun s => decide (∀ c ∈ str!"\n„“”", c ∉ upperStr s)) =
    some true := by decide +kernel

theorem roman_chars {n : Nat} {s : Str} (h : romanTo n = some s) : ∀ c ∈ str!"\n„“”", c ∉ s := by
  obtain ⟨h1, h2⟩ := romanTo_range h
  obtain ⟨r, hr1, -, hr3, -⟩ := roman_roundtrip h1 h2
  rw [h] at hr1
  simp only [Option.some.injEq] at hr1
  subst hr1
  intro c hc hm
  have h := hr3 c hm
  have : ∀ c ∈ str!"\n„“”", isRomanDigit c = false := by decide
  rw [this c hc] at h
  simp at h

theorem slashSuffix_chars (o : Option HunChar) : ∀ c ∈ str!"\n„“”", c ∉ NumericId.slashSuffix o := by
  cases o with
  | none => simp [NumericId.slashSuffix]
  | some h =>
    have : ∀ h : HunChar, ∀ c ∈ str!"\n„“”", c ∉ NumericId.slashSuffix (some h) := by decide +kernel
    exact this h

/-- A printed header is a header line. -/
theorem headerString_header {e : StructuralElement} {s : Str} (hs : e.headerString = some s)
    (hsfx : e.identifier.suffix = none ∨ e.elementType = .title ∨ e.elementType = .chapter) :
    StructuralHeader e.elementType e.identifier s ∧ ∀ c ∈ str!"„“”", c ∉ s := by
  obtain ⟨id, title, type⟩ := e
  simp only at hsfx
  have hord : ∀ s, id.suffix = none → id.toHungarian = some s → hunNumeric (upperNumeral s) = some id ∧
      ∀ c ∈ str!"\n„“”", c ∉ upperNumeral s := by
    intro s h1 h2
    obtain ⟨n, sfx⟩ := id
    simp only at h1
    subst h1
    simp only [NumericId.toHungarian, NumericId.slashSuffix, List.append_nil, Option.map_eq_some_iff] at h2
    obtain ⟨x, hx, rfl⟩ := h2
    have hle : n.val < 101 := by
      by_contra hgt
      rw [(C13_ordinal_range n.val).2 (by omega)] at hx
      simp at hx
    obtain ⟨y, hy1, -, hy2, -⟩ := C13_ordinal_roundtrip ⟨n.val, hle⟩
    simp only at hy1 hy2
    rw [hx] at hy1
    simp only [Option.some.injEq] at hy1
    subst hy1
    refine ⟨?_, ?_⟩
    · unfold hunNumeric upperNumeral
      rw [hy2]
      simp only
      rw [dif_pos n.isLt]
      rfl
    · have := hungarian_chars ⟨n.val, hle⟩
      rw [hx] at this
      simpa [upperNumeral] using this
  have hrom : ∀ s, id.toRoman = some s → NumericId.fromRoman s = some id ∧ ∀ c ∈ str!"\n„“”", c ∉ s := by
    intro s h
    have h0 := h
    simp only [NumericId.toRoman, Option.map_eq_some_iff] at h
    obtain ⟨x, hx, rfl⟩ := h
    obtain ⟨r1, r2⟩ := romanTo_range hx
    obtain ⟨y, hy1, hy2⟩ := C12_roman_roundtrip id r1 r2
    rw [h0] at hy1
    simp only [Option.some.injEq] at hy1
    rw [← hy1] at hy2
    refine ⟨hy2, ?_⟩
    intro c hc hm
    rcases List.mem_append.1 hm with hm | hm
    · exact roman_chars hx c hc hm
    · exact slashSuffix_chars _ c hc hm
  have sub : ∀ c ∈ str!"„“”", c ∈ str!"\n„“”" := by decide
  have app : ∀ a b : Str, (∀ c ∈ str!"\n„“”", c ∉ a) → (∀ c ∈ str!"„“”", c ∉ b) → ∀ c ∈ str!"„“”", c ∉ a ++ b := by
    intro a b ha hb c hc hm
    rcases List.mem_append.1 hm with hm | hm
    · exact ha c (sub c hc) hm
    · exact hb c hc hm
  have nl : '\n' ∈ str!"\n„“”" := by decide
  cases type with
  | book =>
    simp only [StructuralElement.headerString, Option.map_eq_some_iff] at hs
    obtain ⟨x, hx, rfl⟩ := hs
    have hsfx : id.suffix = none := by simpa using hsfx
    obtain ⟨h1, h2⟩ := hord x hsfx hx
    exact ⟨⟨_, h1, h2 _ nl, rfl⟩, app _ _ h2 (by decide)⟩
  | part b =>
    cases b with
    | false =>
      simp only [StructuralElement.headerString, Option.map_eq_some_iff] at hs
      obtain ⟨x, hx, rfl⟩ := hs
      have hsfx : id.suffix = none := by simpa using hsfx
      obtain ⟨h1, h2⟩ := hord x hsfx hx
      exact ⟨⟨_, h1, h2 _ nl, rfl⟩, app _ _ h2 (by decide)⟩
    | true =>
      simp only [StructuralElement.headerString] at hs
      split at hs
      · rename_i e
        simp only [Option.some.injEq] at hs
        subst hs; subst e
        exact ⟨⟨str!"ÁLTALÁNOS", rfl, by decide, rfl⟩, by decide⟩
      · split at hs
        · rename_i e
          simp only [Option.some.injEq] at hs
          subst hs; subst e
          exact ⟨⟨str!"KÜLÖNÖS", rfl, by decide, rfl⟩, by decide⟩
        · split at hs
          · rename_i e
            simp only [Option.some.injEq] at hs
            subst hs; subst e
            exact ⟨⟨str!"ZÁRÓ", rfl, by decide, rfl⟩, by decide⟩
          · simp at hs
  | title =>
    simp only [StructuralElement.headerString, Option.map_eq_some_iff] at hs
    obtain ⟨x, hx, rfl⟩ := hs
    obtain ⟨h1, h2⟩ := hrom x hx
    exact ⟨⟨_, h1, h2 _ nl, rfl⟩, app _ _ h2 (by decide)⟩
  | chapter =>
    simp only [StructuralElement.headerString, Option.map_eq_some_iff] at hs
    obtain ⟨x, hx, rfl⟩ := hs
    obtain ⟨h1, h2⟩ := hrom x hx
    exact ⟨⟨_, h1, h2 _ nl, str!"FEJEZET", by decide, by simp⟩, app _ _ h2 (by decide)⟩

/-- C39: a line with the printed header of a structural element is parsed as an element of the same type and
number (books and parts without a letter). -/
theorem C39_printed_header (upper : Char → Bool) (context : ParsingContext) (e : StructuralElement) (s : Str)
    (hs : e.headerString = some s)
    (hsfx : e.identifier.suffix = none ∨ e.elementType = .title ∨ e.elementType = .chapter) (l : Line)
    (hl : l.content = s) :
    parseComplexBody upper [l] context = .ok ([], [.structuralElement ⟨e.identifier, [], e.elementType, none⟩]) := by
  obtain ⟨hh, hq⟩ := headerString_header hs hsfx
  rw [← hl] at hh hq
  obtain ⟨x, hx⟩ : ∃ x, seTypes.findSome? (fun t => t.tryCreate l) = some x := by
    cases hf : seTypes.findSome? (fun t => t.tryCreate l) with
    | none => exact absurd ⟨_, _, hh⟩ (findSE_none.1 hf)
    | some x => exact ⟨x, rfl⟩
  obtain ⟨hx1, hx2, hx3⟩ := findSE_some hx
  obtain ⟨e1, e2⟩ := structuralHeader_unique hx1 hh
  have ex : x = ⟨e.identifier, [], e.elementType, none⟩ := by
    cases x; simp only at hx2 hx3 e1 e2; simp [hx2, hx3, e1, e2]
  have ho : opening l.content = 0 ∧ closing l.content = 0 := by
    unfold opening closing
    rw [List.count_eq_zero_of_not_mem (hq '„' (by decide)), List.count_eq_zero_of_not_mem (hq '“' (by decide)),
      List.count_eq_zero_of_not_mem (hq '”' (by decide))]
    exact ⟨rfl, rfl⟩
  have hu : QuoteCheck.new.update l = .ok ⟨0, false, false⟩ := by
    rw [update_eq]
    simp [ho.1, ho.2, QuoteCheck.new]
  have hc : complexFrom upper context .new (.new context) true .preamble [] [] [l] =
      .ok ([], [.structuralElement ⟨e.identifier, [], e.elementType, none⟩]) := by
    simp [complexFrom, hu, newStateIn, newState, hx, ex, ParseState.finish, pushChild, QuoteCheck.checkEnd]
  unfold parseComplexBody
  rw [hc]
  simp [tooLong]

example : (StructuralElement.mk ⟨4, none⟩ [] .book none).headerString = some str!"NEGYEDIK KÖNYV" ∧
    (StructuralElement.mk ⟨14, some (.latin 0)⟩ [] .chapter none).headerString = some str!"XIV/a. FEJEZET" := by
  decide +kernel

/-- C39: one line is the header of at most one type and number. -/
theorem C39_header_unambiguous (t t' : SEType) (id id' : NumericId) (l : Line)
    (h : t.tryCreate l = some ⟨id, [], t, none⟩) (h' : t'.tryCreate l = some ⟨id', [], t', none⟩) : t = t' ∧ id = id' :=
  structuralHeader_unique ((SEType.tryCreate_iff _ _ _).1 h).1 ((SEType.tryCreate_iff _ _ _).1 h').1

example : (SEType.part false).tryCreate (sampleLine str!"MÁSODIK RÉSZ" 0) = some ⟨⟨2, none⟩, [], .part false, none⟩ := by
  decide +kernel

/-! ### C64 -/

/-- C64: the body of a parsed act is divided into the preamble and the children as `Divided` says: at the header
lines outside of quotes and nowhere else, and each child is made of its lines as the grammar says. -/
theorem C64_division (upper : Char → Bool) (raw : ActRawText) (act : Act Empty)
    (h : parseActStructure upper raw = .ok act) :
    Divided upper .fullAct raw.body act.preamble act.children ∧
    act.identifier = raw.identifier ∧ act.subject = raw.subject ∧ act.publicationDate = raw.publicationDate ∧
    act.containedAbbreviations = [] := by
  refine ⟨(parseComplexBody_divided (parseAct_ok h)).1, ?_⟩
  unfold parseActStructure at h
  rw [Res.bind_eq_ok] at h
  obtain ⟨⟨p, cs⟩, h1, h⟩ := h
  simp only [Res.ok.injEq] at h
  subst h
  exact ⟨rfl, rfl, rfl, rfl⟩

/-- C64 for block amendments: the same, and there is no preamble. -/
theorem C64_amendment_division (upper : Char → Bool) (ls : List Line) (r : Str × List (ActChild Empty))
    (h : parseComplexBody upper ls .blockAmendment = .ok r) :
    r.1 = [] ∧ Divided upper .blockAmendment ls [] r.2 := by
  have hd := (parseComplexBody_divided h).1
  have : r.1 = [] := by
    unfold parseComplexBody at h
    rw [Res.bind_eq_ok] at h
    obtain ⟨⟨p, cs⟩, h1, h⟩ := h
    simp only at h
    split at h
    · simp at h
    · rename_i hp
      split at h
      · simp at h
      · simp only [Res.ok.injEq] at h
        subst h
        simpa using hp
  exact ⟨this, this ▸ hd⟩

/-- C64: no subtitle is longer than 1500 bytes. -/
theorem C64_subtitle_length (upper : Char → Bool) (ls : List Line) (context : ParsingContext)
    (r : Str × List (ActChild Empty)) (h : parseComplexBody upper ls context = .ok r) :
    ∀ s, .subtitle s ∈ r.2 → byteLen s.title ≤ 1500 := by
  unfold parseComplexBody at h
  rw [Res.bind_eq_ok] at h
  obtain ⟨⟨p, cs⟩, h1, h⟩ := h
  simp only at h
  split at h
  · simp at h
  · split at h
    · simp at h
    · rename_i hl
      simp only [Res.ok.injEq] at h
      subst h
      intro s hs
      by_contra hgt
      refine hl (List.any_eq_true.2 ⟨_, hs, ?_⟩)
      simp only [tooLong, decide_eq_true_eq]
      omega

example : Res.map (fun r => r.2.map fun c => match c with
      | .subtitle s => (s.identifier, s.title)
      | _ => (none, []))
    (parseComplexBody asciiUpper [{ sampleLine str!"12/A. Az" 0 with cachedBold := true },
      sampleLine str!"adatok" 0] .blockAmendment) =
    .ok [(some ⟨12, some (.latin 0)⟩, str!"Az adatok")] := by decide +kernel

end HunLaw.Props
