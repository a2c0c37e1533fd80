import Verif.Props.Reference
import Verif.Props.StructuralSentence
import Verif.Props.Amendments
import Verif.Lemmas.Provisions

/-! Property C106: sentences which amend articles, paragraphs, points and subpoints are read as they are written. -/

set_option autoImplicit false

namespace HunLaw.Props

open HunLaw Spec Semantic Grammar P

/-- The sentence is read as the phrase, and its references are those meant. -/
def ProvisionReadAs (c : Cache) (s : ProvisionSentence) (phrase : SpecialPhrase) : Prop :=
  ∃ x refs, parse s.text c.allAbbreviations = some x ∧ getNewAbbreviations x = some s.intro.new ∧
    extractSpecialPhrase (c.addMultiple s.intro.new) x = some (some phrase) ∧ outgoingRefs (c.addMultiple s.intro.new) x = some refs ∧ refs.map (·.reference) = s.meant

/-- The full statement: every sentence in the usual form is read as it is written. -/
def C106_statement : Prop :=
  ∀ (c : Cache) (s : ProvisionSentence) (phrase : SpecialPhrase), s.Usual → s.intro.Usual c.allAbbreviations s.rest →
    (∀ b a, s.intro.act = .short b a → c.resolve b = some a) → s.Means phrase → ProvisionReadAs c s phrase

theorem rest_changeText (s : ProvisionSentence) :
    s.rest = (s.container.map fun q => ' ' :: q.text).getD [] ++ changeText s.change := by
  obtain ⟨i, q, x⟩ := s
  cases q <;> simp [ProvisionSentence.rest, changeText]

/-- No abbreviation is empty. -/
theorem intro_known {i : ActIntro} {known : List Str} {rest : Str} (h : i.Usual known rest) : ∀ a ∈ known, a ≠ [] := by
  rintro a ha rfl
  obtain ⟨h1, b, h2⟩ := h.abbreviations [] ha [] _ rfl (Nat.zero_le _)
  have h3 := h.act
  rw [h2] at h3
  obtain ⟨-, c, h4, -⟩ := h3
  cases h4

/-- The range over references is the one which covers them. -/
theorem coveringRange_of {refs : List OutgoingRef} {l : List Ref} {place : Ref} (e : refs.map (·.reference) = l) (h : Covering l place) :
    coveringRange (amendedPositions refs) = some place := by
  have hmem : ∀ r, r ∈ amendedPositions refs ↔ r ∈ l ∧ r.article ≠ none := by
    intro r
    rw [amendedPositions, e, List.mem_filter]
    cases h : r.article <;> simp [Ref.isActOnly, h]
  obtain ⟨f, hf, hf2, hf3⟩ := h.first
  obtain ⟨z, hz, hz2, hz3⟩ := h.last
  have h1 : minOf ((amendedPositions refs).map Ref.firstInRange) = some place.firstInRange := by
    cases hm : minOf ((amendedPositions refs).map Ref.firstInRange) with
    | none =>
      have := List.mem_map_of_mem (f := Ref.firstInRange) ((hmem f).2 ⟨hf, hf2⟩)
      revert hm this
      cases (amendedPositions refs).map Ref.firstInRange <;> simp [minOf]
    | some m =>
      obtain ⟨g1, g2⟩ := minOf_spec hm
      obtain ⟨y, hy, rfl⟩ := List.mem_map.1 g2
      obtain ⟨hy1, hy2⟩ := (hmem y).1 hy
      have g3 := g1 _ (List.mem_map_of_mem (f := Ref.firstInRange) ((hmem f).2 ⟨hf, hf2⟩))
      rw [← hf3] at g3
      rw [rle_antisymm g3 (h.noneBefore y hy1 hy2)]
  have h2 : maxOf ((amendedPositions refs).map Ref.lastInRange) = some place.lastInRange := by
    cases hm : maxOf ((amendedPositions refs).map Ref.lastInRange) with
    | none =>
      have := List.mem_map_of_mem (f := Ref.lastInRange) ((hmem z).2 ⟨hz, hz2⟩)
      revert hm this
      cases (amendedPositions refs).map Ref.lastInRange <;> simp [maxOf]
    | some m =>
      obtain ⟨g1, g2⟩ := maxOf_spec hm
      obtain ⟨y, hy, rfl⟩ := List.mem_map.1 g2
      obtain ⟨hy1, hy2⟩ := (hmem y).1 hy
      have g3 := g1 _ (List.mem_map_of_mem (f := Ref.lastInRange) ((hmem z).2 ⟨hz, hz2⟩))
      rw [← hz3] at g3
      rw [rle_antisymm (h.noneAfter y hy1 hy2) g3]
  rw [coveringRange, h1, Option.bind_eq_bind, Option.bind_some, h2]
  exact C17_range_of_ends place h.wellFormed

theorem first_act (r : Ref) : r.firstInRange.act = r.act := by
  obtain ⟨a, b, c, d, e⟩ := r
  rcases b with _ | b <;> rcases c with _ | c <;> rcases d with _ | ⟨d⟩ | ⟨d⟩ <;> rcases e with _ | ⟨e⟩ | ⟨e⟩ <;> rfl

/-- C106, what is read in every case: a sentence which replaces or inserts articles, paragraphs, points or subpoints is read
as it is written: the act, the place of the amendment, which goes from the first to the last of the provisions, and whether
they are inserted. If they are articles then the part of the structure where they are is kept, but not the book where that
is. The references are those of the act and of the provisions. An abbreviation of the act which the sentence introduces is
the one new abbreviation. -/
theorem C106_recorded (c : Cache) (s : ProvisionSentence) (phrase : SpecialPhrase) (hs : s.Usual)
    (hi : s.intro.Usual c.allAbbreviations s.rest) (hc : ∀ b a, s.intro.act = .short b a → c.resolve b = some a)
    (hm : s.Means phrase) : ProvisionReadAs c s (booklessPhrase phrase) := by
  have er := rest_changeText s
  have hcont : Continues s.rest := by
    rw [er]
    cases hq : s.container with
    | none =>
      obtain ⟨t, e, h1, h2⟩ := change_head hs.change
      refine ⟨t, e, h1, h2.mono fun c hc => ?_⟩
      rcases hc with hc | rfl
      · refine ⟨?_, ?_, ?_, ?_⟩ <;> (rintro rfl; revert hc; decide)
      · decide
    | some q =>
      obtain ⟨b, d, hq'⟩ := hs.container q hq
      exact place_continues hq' _
  obtain ⟨hA, m, hm'⟩ := reads_intro hi hcont
  have hstr : ∃ p d, (∀ n, Reads (opt (call structuralReference)) n ((s.container.map fun q => ' ' :: q.text).getD []) (changeText s.change) p) ∧
      convertParent? p = some d ∧ (s.container = none → d = none) ∧ ∀ q b d', s.container = some q → q.Means b d' false → d = some d' := by
    cases hq : s.container with
    | none => exact ⟨none, none, reads_noContainer hs.change, rfl, fun _ => rfl, fun _ _ _ h => by cases h⟩
    | some q =>
      obtain ⟨b, d, hq'⟩ := hs.container q hq
      refine ⟨some (placeAt q), some d, reads_container hs.change hq', by simp [convertParent?, parent_value hq'], fun h => (by cases h), ?_⟩
      intro q' b' d' h h2
      cases h
      have h3 := parent_value hq'
      rw [parent_value h2] at h3
      exact h3.symm
  obtain ⟨p, d, hp, hd, hd1, hd2⟩ := hstr
  obtain ⟨r, hr, hr2, lv, hlv, halt⟩ := reads_change (G := Remembers c.allAbbreviations s.intro.introduces (byteLen (s.intro.article ++ str!" ")) m) hs.change
    (0 + byteLen (s.intro.article ++ str!" ") + byteLen (s.intro.title ++ (s.intro.act.text ++ introduction s.intro.introduces)) + byteLen ((s.container.map fun q => ' ' :: q.text).getD []))
  rw [er] at hm'
  have hparse := parse_change (remembers_start ..) hA hm' hp hr
  have etext : s.intro.article ++ str!" " ++ (s.intro.title ++ (s.intro.act.text ++ introduction s.intro.introduces) ++ ((s.container.map fun q => ' ' :: q.text).getD [] ++ changeText s.change)) =
      s.text := by
    rw [← er]
    simp [ProvisionSentence.text, ActIntro.text]
  rw [etext] at hparse
  have hc' := intro_resolves hi hc
  clear hc
  unfold ProvisionReadAs
  generalize c.addMultiple s.intro.new = c' at *
  have hact := introAct_act hi hc' (byteLen (s.intro.article ++ str!" ") + byteLen s.intro.title)
  have hmean : meaning c' (rootMentions (.blockAmendment ⟨introAct (byteLen (s.intro.article ++ str!" ") + byteLen s.intro.title) s.intro.act s.intro.introduces, p, r.1, r.2⟩)) =
      some s.meant := by
    have hl : (rootMentions (.blockAmendment ⟨introAct (byteLen (s.intro.article ++ str!" ") + byteLen s.intro.title) s.intro.act s.intro.introduces, p, r.1, r.2⟩)).mapM
        (Mention.levels c') = some [[[.act s.intro.act.act]], lv] := by
      rw [rootMentions, List.append_assoc, List.singleton_append, List.mapM_cons, hlv c']
      simp only [Mention.levels, actLevels, hact]
      rfl
    have he : chain Ref.empty [[[.act s.intro.act.act]], lv] = s.meant := by
      simp only [ProvisionSentence.meant, chain, halt]
    rw [meaning, hl]
    show (if _ then _ else _) = _
    rw [he, if_pos fun r hr => Ref.tryFrom_eq_some.2 ⟨rfl, hs.proper r hr⟩]
  have hout := C48_meaning _ _ _ c' (intro_known hi) hparse (by simp)
  rw [hmean] at hout
  obtain ⟨refs, hrefs, hrefs2⟩ := Option.map_eq_some_iff.1 hout
  refine ⟨_, refs, hparse, intro_new hi rfl, ?_, hrefs, hrefs2⟩
  have hplace : ∀ place, Covering s.meant place → place.act = some s.intro.act.act := by
    intro place hpl
    obtain ⟨i, h1, h2⟩ := meaning_act (c := c') (l := r.1.toList.map .reference ++ r.2.toList.map .insertion)
      (a := introAct (byteLen (s.intro.article ++ str!" ") + byteLen s.intro.title) s.intro.act s.intro.introduces) (refs := s.meant)
      (by
        intro m hm
        rcases List.mem_append.1 hm with hm | hm <;> obtain ⟨_, -, rfl⟩ := List.mem_map.1 hm <;> trivial)
      (by rw [← hmean]; simp only [rootMentions, List.cons_append, List.nil_append])
    obtain ⟨f, hf, -, hf2⟩ := hpl.first
    have h3 := congrArg Ref.act hf2
    rw [hact] at h1
    cases h1
    have h4 : place.firstInRange.act = place.act := first_act place
    have h5 : f.firstInRange.act = f.act := first_act f
    rw [← h4, h3, h5]
    exact h2 f hf
  have hconv : ∀ place, Covering s.meant place →
      convertBlockAmendment c' ⟨introAct (byteLen (s.intro.article ++ str!" ") + byteLen s.intro.title) s.intro.act s.intro.introduces, p, r.1, r.2⟩ =
        blockAmendmentPhrase ⟨introAct (byteLen (s.intro.article ++ str!" ") + byteLen s.intro.title) s.intro.act s.intro.introduces, p, r.1, r.2⟩ place := by
    intro place hpl
    have h1 : blockAmendmentRefs c' ⟨introAct (byteLen (s.intro.article ++ str!" ") + byteLen s.intro.title) s.intro.act s.intro.introduces, p, r.1, r.2⟩ = some refs := hrefs
    rw [convertBlockAmendment, h1, Option.bind_eq_bind, Option.bind_some, coveringRange_of hrefs2 hpl]
    rfl
  have hfin : convertBlockAmendment c' ⟨introAct (byteLen (s.intro.article ++ str!" ") + byteLen s.intro.title) s.intro.act s.intro.introduces, p, r.1, r.2⟩ = some (booklessPhrase phrase) := by
    cases hm with
    | @provisions place hpl hl =>
      rw [hconv place hpl, blockAmendmentPhrase]
      split
      · rename_i a ha
        exact absurd ha (hl a)
      · rw [hr2]; rfl
    | @articles place a hpl hl hno =>
      rw [hconv place hpl, blockAmendmentPhrase]
      simp only [hl, hd, Option.bind_eq_bind, Option.bind_some, hplace place hpl, hd1 hno, hr2]
      rfl
    | @articlesIn place a q b e hpl hl hq hqm =>
      rw [hconv place hpl, blockAmendmentPhrase]
      simp only [hl, hd, Option.bind_eq_bind, Option.bind_some, hplace place hpl, hd2 q b e hq hqm, hr2]
      rfl
  show (convertBlockAmendment _ _ >>= fun p => some (some p)) = _
  rw [hfin]
  rfl

/-- C106: a sentence which replaces or inserts articles, paragraphs, points or subpoints is read as it is written, as in
`C106_recorded`.

Missing: sentences about articles in a part of the structure which is in a book: the book is lost, see
`C106_violated`. -/
theorem C106_provisions_partial (c : Cache) (s : ProvisionSentence) (phrase : SpecialPhrase) (hs : s.Usual)
    (hi : s.intro.Usual c.allAbbreviations s.rest) (hc : ∀ b a, s.intro.act = .short b a → c.resolve b = some a)
    (hm : s.Means phrase) (hbook : ∀ q, s.container = some q → q.book = none) : ProvisionReadAs c s phrase := by
  have h := C106_recorded c s phrase hs hi hc hm
  have e : booklessPhrase phrase = phrase := by
    cases hm with
    | provisions hpl hl => rfl
    | articles hpl hl hno => rfl
    | @articlesIn place a q b e hpl hl hq hqm => rw [hqm.noBook (hbook q hq)]; rfl
  rwa [e] at h

/-! ### examples -/

/-- "3. § (2) és (3) bekezdése" -/
def twoParagraphs : Phrase :=
  { article := some ⟨.one ⟨none, .ofNum 3⟩, [], []⟩, paragraph := some ⟨.one (.ofNum 2), [(str!" és ", .one (.ofNum 3))], str!"e"⟩ }

theorem twoParagraphs_usual : twoParagraphs.Usual where
  article l h := by cases h; exact ⟨⟨by simp [ArticleUsual, NumericId.ofNum], by simp⟩, .inl rfl⟩
  paragraph l h := by cases h; exact ⟨⟨trivial, by simp [Span.Fits]; decide⟩, by unfold Ending; decide⟩
  numericPoint l h := by cases h
  alphabeticPoint l h := by cases h
  numericSubpoint l h := by cases h
  alphabeticSubpoint l h := by cases h
  onePoint := .inl rfl
  oneSubpoint := .inl rfl
  inPoint h := by simp [twoParagraphs] at h
  named := by decide

/-- Two paragraphs are replaced. -/
def twoReplaced : ProvisionSentence := ⟨procurementAct, none, .replaced twoParagraphs str!"helyébe a következő rendelkezések lépnek"⟩

example : twoReplaced.text =
    str!"A közbeszerzésekről szóló 2015. évi CXLIII. törvény 3. § (2) és (3) bekezdése helyébe a következő rendelkezések lépnek:" := by decide +kernel

theorem twoReplaced_usual : twoReplaced.Usual where
  change := .replaced twoParagraphs_usual (by simp [twoParagraphs])
    (.provision (f := str!"a következő") (w := str!"rendelkezések lépnek") (.inl rfl) (by decide))
  container q h := by cases h
  proper r hr := (Ref.tryFrom_eq_some.1 ((by decide +kernel : ∀ y ∈ twoReplaced.meant, Ref.tryFrom y = some y) r hr)).2

/-- The two paragraphs as a range. -/
def twoParagraphsRange : Ref :=
  ⟨some ⟨⟨2015, by decide⟩, ⟨143, by decide⟩⟩, some ⟨⟨none, .ofNum 3⟩, ⟨none, .ofNum 3⟩⟩, some ⟨.ofNum 2, .ofNum 3⟩, none, none⟩

theorem twoReplaced_means : twoReplaced.Means (.blockAmendment twoParagraphsRange false) := by
  refine .provisions ⟨?_, ?_, ?_, ?_, ?_⟩ fun a h => (by cases h)
  · exact (Ref.tryFrom_eq_some.1 (by decide +kernel : Ref.tryFrom twoParagraphsRange = some twoParagraphsRange)).2
  all_goals decide +kernel

example : ProvisionReadAs ⟨[], false⟩ twoReplaced (.blockAmendment twoParagraphsRange false) :=
  C106_provisions_partial _ _ _ twoReplaced_usual (procurementAct_usual _) (fun _ _ h => by cases h) twoReplaced_means (fun _ h => by cases h)

/-- "3. §-a" -/
def thirdArticle : Phrase := { article := some ⟨.one ⟨none, .ofNum 3⟩, [], str!"-a"⟩ }

/-- "(2a) bekezdéssel" -/
def paragraph2a : Phrase := { paragraph := some ⟨.one ⟨2, some (.latin 0)⟩, [], str!"sel"⟩ }

/-- A paragraph is inserted. -/
def paragraphInserted : ProvisionSentence :=
  ⟨procurementAct, none, .inserted (some thirdArticle) str!"a következő" paragraph2a str!"egészül ki"⟩

example : paragraphInserted.text =
    str!"A közbeszerzésekről szóló 2015. évi CXLIII. törvény 3. §-a a következő (2a) bekezdéssel egészül ki:" := by decide +kernel

theorem thirdArticle_usual : thirdArticle.Usual where
  article l h := by cases h; exact ⟨⟨by simp [ArticleUsual, NumericId.ofNum], by simp⟩, .inr ⟨str!"a", rfl, by decide, by unfold Ending; decide⟩⟩
  paragraph l h := by cases h
  numericPoint l h := by cases h
  alphabeticPoint l h := by cases h
  numericSubpoint l h := by cases h
  alphabeticSubpoint l h := by cases h
  onePoint := .inl rfl
  oneSubpoint := .inl rfl
  inPoint h := by simp [thirdArticle] at h
  named := by decide

theorem paragraph2a_usual : paragraph2a.Usual where
  article l h := by cases h
  paragraph l h := by cases h; exact ⟨⟨trivial, by simp⟩, by unfold Ending; decide⟩
  numericPoint l h := by cases h
  alphabeticPoint l h := by cases h
  numericSubpoint l h := by cases h
  alphabeticSubpoint l h := by cases h
  onePoint := .inl rfl
  oneSubpoint := .inl rfl
  inPoint h := by simp [paragraph2a] at h
  named := by decide

example : ProvisionReadAs ⟨[], false⟩ paragraphInserted (.blockAmendment ⟨some ⟨⟨2015, by decide⟩, ⟨143, by decide⟩⟩,
    some ⟨⟨none, .ofNum 3⟩, ⟨none, .ofNum 3⟩⟩, some ⟨⟨2, some (.latin 0)⟩, ⟨2, some (.latin 0)⟩⟩, none, none⟩ true) := by
  refine C106_provisions_partial _ _ _ ⟨.inserted ?_ paragraph2a_usual (.paragraph _ _) (.inl rfl) (by decide), fun _ h => (by cases h), ?_⟩
    (procurementAct_usual _) (fun _ _ h => by cases h) (.provisions ⟨?_, ?_, ?_, ?_, ?_⟩ fun a h => (by cases h)) (fun _ h => by cases h)
  · intro x h; cases h; exact thirdArticle_usual
  · exact fun r hr => (Ref.tryFrom_eq_some.1 ((by decide +kernel : ∀ y ∈ paragraphInserted.meant, Ref.tryFrom y = some y) r hr)).2
  · exact (Ref.tryFrom_eq_some.1 rfl).2
  all_goals decide +kernel

/-! ### the book of the containing part -/

/-- "3/A. §-sal" -/
def article3A : Phrase := { article := some ⟨.one ⟨none, ⟨3, some (.latin 0)⟩⟩, [], str!"-sal"⟩ }

theorem article3A_usual : article3A.Usual where
  article l h := by
    cases h
    refine ⟨⟨fun c hc => ?_, by simp⟩, .inr ⟨str!"sal", rfl, by decide, by unfold Ending; decide⟩⟩
    cases hc; exact ⟨_, rfl⟩
  paragraph l h := by cases h
  numericPoint l h := by cases h
  alphabeticPoint l h := by cases h
  numericSubpoint l h := by cases h
  alphabeticSubpoint l h := by cases h
  onePoint := .inl rfl
  oneSubpoint := .inl rfl
  inPoint h := by simp [article3A] at h
  named := by decide

/-- An article is inserted into a part of the structure. -/
def articleInserted (q : Place) : ProvisionSentence := ⟨procurementAct, some q, .inserted none str!"a következő" article3A str!"egészül ki"⟩

theorem articleInserted_usual {q : Place} {b : Option NumericId} {d : StructuralRefParent} (hq : q.Means b d false) : (articleInserted q).Usual where
  change := .inserted (fun _ h => by cases h) article3A_usual (.article _ _) (.inl rfl) (by decide)
  container q' h := by cases h; exact ⟨b, d, hq⟩
  proper r hr := (Ref.tryFrom_eq_some.1 ((by decide +kernel : ∀ y ∈ (articleInserted thirdChapter).meant, Ref.tryFrom y = some y) r hr)).2

theorem articleInserted_means {q : Place} {b : Option NumericId} {d : StructuralRefParent} (hq : q.Means b d false) :
    (articleInserted q).Means (.structuralBlockAmendment ⟨some ⟨⟨2015, by decide⟩, ⟨143, by decide⟩⟩, b, some d,
      .article ⟨⟨none, ⟨3, some (.latin 0)⟩⟩, ⟨none, ⟨3, some (.latin 0)⟩⟩⟩, false⟩ true) := by
  refine .articlesIn (place := ⟨some ⟨⟨2015, by decide⟩, ⟨143, by decide⟩⟩, some ⟨⟨none, ⟨3, some (.latin 0)⟩⟩, ⟨none, ⟨3, some (.latin 0)⟩⟩⟩, none, none, none⟩)
    ?_ rfl rfl hq
  show Covering (articleInserted thirdChapter).meant _
  refine ⟨(Ref.tryFrom_eq_some.1 rfl).2, ?_, ?_, ?_, ?_⟩ <;> decide +kernel

/-- "… III. Fejezet a következő 3/A. §-sal egészül ki:" -/
example : ProvisionReadAs ⟨[], false⟩ (articleInserted thirdChapter) (.structuralBlockAmendment ⟨some ⟨⟨2015, by decide⟩, ⟨143, by decide⟩⟩, none,
    some (.chapter ⟨3, none⟩), .article ⟨⟨none, ⟨3, some (.latin 0)⟩⟩, ⟨none, ⟨3, some (.latin 0)⟩⟩⟩, false⟩ true) :=
  C106_provisions_partial _ _ _ (articleInserted_usual thirdChapter_means) (procurementAct_usual _) (fun _ _ h => by cases h)
    (articleInserted_means thirdChapter_means) (fun _ h => by cases h; rfl)

/-- The same in a book: what is read is without it. -/
example : ProvisionReadAs ⟨[], false⟩ (articleInserted thirdChapterOfBook) (.structuralBlockAmendment ⟨some ⟨⟨2015, by decide⟩, ⟨143, by decide⟩⟩, none,
    some (.chapter ⟨3, none⟩), .article ⟨⟨none, ⟨3, some (.latin 0)⟩⟩, ⟨none, ⟨3, some (.latin 0)⟩⟩⟩, false⟩ true) := by
  have h := C106_recorded ⟨[], false⟩ _ _ (articleInserted_usual thirdChapterOfBook_means) (procurementAct_usual _) (fun _ _ h => by cases h)
      (articleInserted_means thirdChapterOfBook_means)
  exact h

/-- C106: "Második Könyv III. Fejezet a következő 3/A. §-sal egészül ki" is taken for the article of the third chapter of
the act: the book is lost. -/
theorem C106_violated : ¬ C106_statement := by
  intro h
  obtain ⟨x, refs, h2, -, h3, -⟩ := h ⟨[], false⟩ (articleInserted thirdChapterOfBook) _ (articleInserted_usual thirdChapterOfBook_means)
    (procurementAct_usual _) (fun _ _ h => by cases h) (articleInserted_means thirdChapterOfBook_means)
  replace h3 : extractSpecialPhrase ⟨[], false⟩ x = _ := h3
  have h4 : ((parse str!"A közbeszerzésekről szóló 2015. évi CXLIII. törvény Második Könyv III. Fejezet a következő 3/A. §-sal egészül ki:" []).bind
      fun r => extractSpecialPhrase ⟨[], false⟩ r) = some (some (.structuralBlockAmendment ⟨some ⟨⟨2015, by decide⟩, ⟨143, by decide⟩⟩, none,
        some (.chapter ⟨3, none⟩), .article ⟨⟨none, ⟨3, some (.latin 0)⟩⟩, ⟨none, ⟨3, some (.latin 0)⟩⟩⟩, false⟩ true)) := by decide +kernel
  have e : (articleInserted thirdChapterOfBook).text =
    str!"A közbeszerzésekről szóló 2015. évi CXLIII. törvény Második Könyv III. Fejezet a következő 3/A. §-sal egészül ki:" := by decide +kernel
  rw [e] at h2
  rw [show (Cache.mk [] false).allAbbreviations = [] from rfl] at h2
  rw [h2, Option.bind_some, h3] at h4
  cases h4

end HunLaw.Props
