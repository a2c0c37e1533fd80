import Verif.Props.Provisions
import Verif.Props.TextAmendments
import Verif.Lemmas.SubtitleSentence

/-! Property C109: sentences which amend subtitles by their place among the articles are read as they are written. -/

set_option autoImplicit false

namespace HunLaw.Props

open HunLaw Spec Semantic Grammar P

/-- The sentence is read as the phrase, and its references are those meant. -/
def SubtitleReadAs (c : Cache) (s : SubtitleSentence) (phrase : SpecialPhrase) : Prop :=
  ∃ x refs, parse s.text c.allAbbreviations = some x ∧ getNewAbbreviations x = some s.intro.new ∧
    extractSpecialPhrase (c.addMultiple s.intro.new) x = some (some phrase) ∧ outgoingRefs (c.addMultiple s.intro.new) x = some refs ∧ refs.map (·.reference) = s.meant

/-- The full statement: every sentence in the usual form is read as it is written. -/
def C109_statement : Prop :=
  ∀ (c : Cache) (s : SubtitleSentence) (phrase : SpecialPhrase), s.Usual [str!"lép", str!"lépnek"] →
    s.intro.Usual c.allAbbreviations s.rest → (∀ b a, s.intro.act = .short b a → c.resolve b = some a) → s.Means phrase →
    SubtitleReadAs c s phrase

/-- The subtitle found is the one meant. -/
theorem subtitlePlace_value {verbs : List Str} {s : SubtitleSentence} (hs : s.Usual verbs) {x : Option ArticleRelative} {r : ReferenceWithSubtitle}
    (hr : WhatIs s.what r) (h1 : s.beside = none → x = none) (h2 : ∀ b, s.beside = some b → ∃ y, BesideIs b y ∧ x = some y)
    (hp : ∀ b, s.beside = some b → b.Plain) (a : ActReference) (q : Option StructuralReference) : subtitlePlace ⟨a, q, x, r, s.following.isSome⟩ = some s.subtitle := by
  obtain ⟨i, ct, b, f, w, e⟩ := s
  have hw := hs.what
  cases w with
  | articleFirst y the which w =>
    obtain ⟨z, hz, rfl⟩ := hr
    cases hw with
    | articleFirst hy _ _ _ _ => simp [subtitlePlace, (articleIs_value hy hz).1, SubtitleSentence.subtitle]
  | subtitleFirst n w y =>
    cases hw with
    | subtitleFirst hn hw hy =>
      cases y with
      | some y =>
        obtain ⟨z, hz, rfl⟩ := hr
        simp [subtitlePlace, (articleIs_value (hy y rfl).1 hz).1, SubtitleSentence.subtitle]
      | none =>
        obtain rfl := hr
        cases b with
        | some b =>
          obtain ⟨z, hz, rfl⟩ := h2 b rfl
          simp [subtitlePlace, (besideIs_value (hs.beside b rfl) hz ⟨[], false⟩).1 (hp b rfl), SubtitleSentence.subtitle]
        | none =>
          cases h1 rfl
          cases n with
          | number i => simp [subtitlePlace, nameAt, SubtitleSentence.subtitle, NumericId.parse_displaySlash]
          | title t => simp [subtitlePlace, nameAt, SubtitleSentence.subtitle]
          | unnamed =>
            cases f with
            | some f => simp [subtitlePlace, nameAt, SubtitleSentence.subtitle]
            | none =>
              obtain ⟨_, _, _, _, h⟩ := (hs.place rfl).1 rfl
              cases h

/-- The articles named are those meant. -/
theorem subtitle_levels {verbs : List Str} {s : SubtitleSentence} (hs : s.Usual verbs) {x : Option ArticleRelative} {r : ReferenceWithSubtitle}
    (hr : WhatIs s.what r) (h1 : s.beside = none → x = none) (h2 : ∀ b, s.beside = some b → ∃ y, BesideIs b y ∧ x = some y) (c : Cache) :
    (x.toList.map relativeMention ++ r.article.toList.map Mention.single).mapM (Mention.levels c) =
      some (s.articles.map fun a => [[.article a.span.range]]) := by
  have hx : (x.toList.map relativeMention).mapM (Mention.levels c) = some ((s.beside.toList.map Beside.article).map fun a => [[.article a.span.range]]) := by
    cases hb : s.beside with
    | none => cases h1 hb; rfl
    | some b =>
      obtain ⟨y, hy, rfl⟩ := h2 b hb
      simp [(besideIs_value (hs.beside b hb) hy c).2]
  have hw : (r.article.toList.map Mention.single).mapM (Mention.levels c) = some (s.what.article.toList.map fun a => [[.article a.span.range]]) := by
    have hu := hs.what
    cases hx : s.what with
    | articleFirst y the which w =>
      rw [hx] at hr hu
      obtain ⟨z, hz, rfl⟩ := hr
      cases hu with
      | articleFirst hy _ _ _ _ => simp [SubtitleWhat.article, Mention.levels, (articleIs_value hy hz).2]
    | subtitleFirst n w y =>
      rw [hx] at hr hu
      cases hu with
      | subtitleFirst hn hw hy =>
        cases y with
        | some y =>
          obtain ⟨z, hz, rfl⟩ := hr
          simp [SubtitleWhat.article, Mention.levels, (articleIs_value (hy y rfl).1 hz).2]
        | none =>
          obtain rfl := hr
          rfl
  rw [List.mapM_append, hx, hw]
  simp [SubtitleSentence.articles]

theorem chain_articles (act : ActId) (l : List NamedArticle) : ∀ base : Ref, base.act = some act →
    chain base (l.map fun a => [[.article a.span.range]]) = l.map fun a => ⟨some act, some a.span.range, none, none, none⟩ := by
  induction l with
  | nil => intro base _; rfl
  | cons a l ih =>
    intro base hb
    rw [List.map_cons, chain, alternatives_single]
    simp only [put, hb, List.map_cons, List.singleton_append, List.cons.injEq, true_and]
    exact ih _ rfl

theorem meant_wellFormed (s : SubtitleSentence) : ∀ r ∈ s.meant, WellFormed r := by
  intro r hr
  rw [SubtitleSentence.meant, List.mem_cons, List.mem_map] at hr
  rcases hr with rfl | ⟨a, -, rfl⟩
  · exact whole_wellFormed _
  · refine ⟨fun i j k h1 h2 h3 h4 => ?_, fun i j h1 h2 => ?_⟩
    · cases k <;> simp [Present, part] at h4 <;> cases j <;> cases i <;> simp [Level.depth] at h1 h2
    · cases i <;> simp [part, IsRangePart] at h2
      cases j <;> simp [Level.depth, Present, part] at h1 ⊢

/-- C109, what is read in every case but that of "lépnek" and of ranges: a sentence which replaces or inserts a subtitle by
its place among the articles — before or after an article, or together with the article after it, perhaps in a part of the
structure — is read as it is written: the act, the containing part but not the book where that is, the place of the
subtitle, and whether it is inserted. The references are those of the act and of the articles. An abbreviation of the act
which the sentence introduces is the one new abbreviation. -/
theorem C109_recorded (c : Cache) (s : SubtitleSentence) (phrase : SpecialPhrase) (hs : s.Usual [str!"lép"])
    (hi : s.intro.Usual c.allAbbreviations s.rest) (hc : ∀ b a, s.intro.act = .short b a → c.resolve b = some a)
    (hm : s.Means phrase) (hafter : ∀ b, s.beside = some b → b.Plain) : SubtitleReadAs c s (booklessPhrase phrase) := by
  have er := subtitle_rest s
  have hcont : Continues s.rest := by
    rw [er]
    cases hq : s.container with
    | none =>
      obtain ⟨t, e, h1, h2⟩ := subtitle_head hs
      refine ⟨t, e, h1, h2.mono fun c hc => ?_⟩
      rcases hc with hc | rfl
      · refine ⟨?_, ?_, ?_, ?_⟩ <;> (rintro rfl; revert hc; decide)
      · decide
    | some q =>
      obtain ⟨b, d, hq'⟩ := hs.container q hq
      exact place_continues hq' _
  obtain ⟨hA, m, hm'⟩ := reads_intro hi hcont
  have hstr : ∃ p d, (∀ n, Reads (opt (call structuralReference)) n ((s.container.map fun q => ' ' :: q.text).getD []) (besideText s ++ subtitleTail s) p) ∧
      convertParent? p = some d ∧ (s.container = none → d = none) ∧ ∀ q b d', s.container = some q → q.Means b d' false → d = some d' := by
    cases hq : s.container with
    | none => exact ⟨none, none, fun n => Reads.opt_none (fails_subtitleContainer hs n), rfl, fun _ => rfl, fun _ _ _ h => by cases h⟩
    | some q =>
      obtain ⟨b, d, hq'⟩ := hs.container q hq
      refine ⟨some (placeAt q), some d, reads_subtitleContainer hs hq', by simp [convertParent?, parent_value hq'], fun h => (by cases h), ?_⟩
      intro q' b' d' h h2
      cases h
      have h3 := parent_value hq'
      rw [parent_value h2] at h3
      exact h3.symm
  obtain ⟨p, d, hp, hd, hd1, hd2⟩ := hstr
  rw [er] at hm'
  obtain ⟨x, r, hparse, hr, hx1, hx2⟩ := parse_subtitle (remembers_start ..) hs hA hm' hp
  have etext : s.intro.article ++ str!" " ++ (s.intro.title ++ (s.intro.act.text ++ introduction s.intro.introduces) ++
      ((s.container.map fun q => ' ' :: q.text).getD [] ++ (besideText s ++ subtitleTail s))) = s.text := by
    rw [← er]
    simp [SubtitleSentence.text, ActIntro.text]
  rw [etext] at hparse
  have hnew := intro_new hi (n := byteLen (s.intro.article ++ str!" ") + byteLen s.intro.title) 
    (x := .blockAmendmentWithSubtitle ⟨introAct (byteLen (s.intro.article ++ str!" ") + byteLen s.intro.title) s.intro.act s.intro.introduces, p, x, r, s.following.isSome⟩) rfl
  have hc' := intro_resolves hi hc
  clear hc
  unfold SubtitleReadAs
  generalize c.addMultiple s.intro.new = c' at *
  have hact := introAct_act hi hc' (byteLen (s.intro.article ++ str!" ") + byteLen s.intro.title)
  generalize introAct (byteLen (s.intro.article ++ str!" ") + byteLen s.intro.title) s.intro.act s.intro.introduces = A at *
  have hmean : meaning c' (rootMentions (.blockAmendmentWithSubtitle ⟨A, p, x, r, s.following.isSome⟩)) = some s.meant := by
    have hl : (rootMentions (.blockAmendmentWithSubtitle ⟨A, p, x, r, s.following.isSome⟩)).mapM (Mention.levels c') =
        some ([[.act s.intro.act.act]] :: s.articles.map fun a => [[.article a.span.range]]) := by
      rw [rootMentions, List.append_assoc, List.singleton_append, List.mapM_cons, subtitle_levels hs hr hx1 hx2 c']
      simp only [Mention.levels, actLevels, hact]
      rfl
    have he : chain Ref.empty ([[.act s.intro.act.act]] :: s.articles.map fun a => [[.article a.span.range]]) = s.meant := by
      rw [Props.chain_act, chain_articles s.intro.act.act _ _ rfl]
      rfl
    rw [meaning, hl]
    show (if _ then _ else _) = _
    rw [he, if_pos fun r hr => Ref.tryFrom_eq_some.2 ⟨rfl, meant_wellFormed s r hr⟩]
  have hout := C48_meaning _ _ _ c' (intro_known hi) hparse (by simp)
  rw [hmean] at hout
  obtain ⟨refs, hrefs, hrefs2⟩ := Option.map_eq_some_iff.1 hout
  refine ⟨_, refs, hparse, hnew, ?_, hrefs, hrefs2⟩
  have hplace := subtitlePlace_value hs hr hx1 hx2 hafter A p
  have hfin : convertSubtitleBlockAmendment c' ⟨A, p, x, r, s.following.isSome⟩ = some (booklessPhrase phrase) := by
    rw [convertSubtitleBlockAmendment, hplace]
    simp only [Option.bind_eq_bind, Option.bind_some, hd, hact]
    cases hm with
    | act hno => rw [hd1 hno]; rfl
    | @place q b e hq hqm => rw [hd2 q b e hq hqm]; rfl
  show (convertSubtitleBlockAmendment _ _ >>= fun p => some (some p)) = _
  rw [hfin]
  rfl

/-- C109: a sentence which replaces or inserts a subtitle by its place among the articles is read as it is written, as in
`C109_recorded`.

Missing: sentences which end in "lépnek" after the word "alcím", which are not recognised, containing parts which are
in a book, where the book is lost, and places after a range of articles, where the last article is lost; see
`C109_violated`, `C109_book` and `C109_range`. -/
theorem C109_subtitles_partial (c : Cache) (s : SubtitleSentence) (phrase : SpecialPhrase) (hs : s.Usual [str!"lép"])
    (hi : s.intro.Usual c.allAbbreviations s.rest) (hc : ∀ b a, s.intro.act = .short b a → c.resolve b = some a)
    (hm : s.Means phrase) (hbook : ∀ q, s.container = some q → q.book = none)
    (hafter : ∀ b, s.beside = some b → b.Plain) : SubtitleReadAs c s phrase := by
  have h := C109_recorded c s phrase hs hi hc hm hafter
  have e : booklessPhrase phrase = phrase := by
    cases hm with
    | act hno => rfl
    | @place q b e hq hqm => rw [hqm.noBook (hbook q hq)]; rfl
  rwa [e] at h

/-! ### examples -/

/-- "a 300. §-t megelőzően" -/
def before300 : Beside := ⟨str!"a ", ⟨.one ⟨none, .ofNum 300⟩, str!"-t"⟩, true, str!"megelőzően"⟩

theorem before300_usual : before300.Usual where
  the := by decide
  article := ⟨by simp [before300, ArticleUsual, NumericId.ofNum], .inr ⟨str!"t", rfl, by decide, by unfold Ending; decide⟩⟩
  word := by decide

/-- "a 300–302. §-t megelőzően", "a 300–302. §-t követően" -/
def besideRange : Bool → Beside
  | true => ⟨str!"a ", ⟨.upTo '–' ⟨none, .ofNum 300⟩ ⟨none, .ofNum 302⟩, str!"-t"⟩, true, str!"megelőzően"⟩
  | false => ⟨str!"a ", ⟨.upTo '–' ⟨none, .ofNum 300⟩ ⟨none, .ofNum 302⟩, str!"-t"⟩, false, str!"követően"⟩

theorem besideRange_usual (b : Bool) : (besideRange b).Usual := by
  cases b <;> exact ⟨by decide, ⟨⟨by decide, rfl, fun _ h => (by cases h), fun _ h => (by cases h)⟩,
    .inr ⟨str!"t", rfl, by decide, by unfold Ending; decide⟩⟩, by decide⟩

/-- A subtitle is inserted beside an article. -/
def subtitleInserted (b : Beside) : SubtitleSentence :=
  ⟨procurementAct, none, some b, some str!"a következő", .subtitleFirst .unnamed ⟨str!"alcím", str!"mel"⟩ none, str!"egészül ki"⟩

example : (subtitleInserted before300).text =
    str!"A közbeszerzésekről szóló 2015. évi CXLIII. törvény a 300. §-t megelőzően a következő alcímmel egészül ki:" := by decide +kernel

theorem alcim_of (e : Str) (h : Ending e) : Inflected.Of [str!"alcím"] ⟨str!"alcím", e⟩ := ⟨by simp, h⟩

theorem subtitleInserted_usual {b : Beside} (hb : b.Usual) : (subtitleInserted b).Usual [str!"lép"] where
  container _ h := by cases h
  beside b h := by cases h; exact hb
  what := .subtitleFirst trivial (alcim_of _ (by unfold Ending; decide)) (fun _ h => by cases h)
  replaced h := by cases h
  place h := by cases h
  inserted f h := by cases h; exact ⟨.inl rfl, (by decide : str!"egészül ki" ∈ insertionEnds)⟩

example : SubtitleReadAs ⟨[], false⟩ (subtitleInserted before300)
    (.structuralBlockAmendment ⟨some procurementId, none, none, .subtitleBeforeArticle ⟨none, .ofNum 300⟩, false⟩ true) :=
  C109_subtitles_partial _ _ _ (subtitleInserted_usual before300_usual) (procurementAct_usual _) (fun _ _ h => by cases h) (.act rfl) (fun _ h => by cases h)
    (fun b h => by cases h; exact fun h => by cases h)

/-- "… a 300–302. §-t megelőzően a következő alcímmel egészül ki:" -/
example : SubtitleReadAs ⟨[], false⟩ (subtitleInserted (besideRange true))
    (.structuralBlockAmendment ⟨some procurementId, none, none, .subtitleBeforeArticle ⟨none, .ofNum 300⟩, false⟩ true) :=
  C109_subtitles_partial _ _ _ (subtitleInserted_usual (besideRange_usual _)) (procurementAct_usual _) (fun _ _ h => by cases h) (.act rfl)
    (fun _ h => by cases h) (fun b h => by cases h; exact fun h => by cases h)

/-- An article and the subtitle before it are replaced. -/
def bothReplaced (verb : Str) : SubtitleSentence :=
  ⟨procurementAct, some thirdChapter, none, none,
    .articleFirst ⟨.one ⟨none, ⟨388, some (.latin 0)⟩⟩, str!"-a"⟩ str!"az " (some str!"azt") ⟨str!"alcím", []⟩,
    str!"helyébe a következő alcím és rendelkezés " ++ verb⟩

example : (bothReplaced str!"lép").text =
    str!"A közbeszerzésekről szóló 2015. évi CXLIII. törvény III. Fejezet 388/A. §-a és az azt megelőző alcím helyébe a következő alcím és rendelkezés lép:" := by
  decide +kernel

theorem bothReplaced_usual {verbs : List Str} {v : Str} (hv : v ∈ verbs) : (bothReplaced v).Usual verbs where
  container q h := by cases h; exact ⟨_, _, thirdChapter_means⟩
  beside b h := by cases h
  what := .articleFirst ⟨fun c hc => by cases hc; exact ⟨_, rfl⟩, .inr ⟨str!"a", rfl, by decide, by unfold Ending; decide⟩⟩ ⟨_, rfl⟩ (by decide) (by decide)
    (alcim_of _ (by unfold Ending; decide))
  replaced _ := .named (f := str!"a következő") (w := str!"alcím és rendelkezés") (.inl rfl) (by decide) hv
  place _ := ⟨fun _ => ⟨_, _, _, _, rfl⟩, fun _ => rfl⟩
  inserted f h := by cases h

example : SubtitleReadAs ⟨[], false⟩ (bothReplaced str!"lép")
    (.structuralBlockAmendment ⟨some procurementId, none, some (.chapter ⟨3, none⟩), .subtitleBeforeArticleInclusive ⟨none, ⟨388, some (.latin 0)⟩⟩, false⟩ false) :=
  C109_subtitles_partial _ _ _ (bothReplaced_usual (by simp)) (procurementAct_usual _) (fun _ _ h => by cases h) (.place rfl thirdChapter_means)
    (fun _ h => by cases h; rfl) (fun _ h => by cases h)

/-- A subtitle with an article is inserted into a part of the structure. -/
def bothInserted (q : Place) : SubtitleSentence :=
  ⟨procurementAct, some q, none, some str!"a következő",
    .subtitleFirst .unnamed ⟨str!"alcím", str!"mel"⟩ (some ⟨.one ⟨none, ⟨300, some (.latin 0)⟩⟩, str!"-sal"⟩), str!"egészül ki"⟩

theorem bothInserted_usual {q : Place} {b : Option NumericId} {d : StructuralRefParent} (hq : q.Means b d false) {verbs : List Str} :
    (bothInserted q).Usual verbs where
  container q' h := by cases h; exact ⟨_, _, hq⟩
  beside b h := by cases h
  what := .subtitleFirst trivial (alcim_of _ (by unfold Ending; decide)) (fun x h => by
    cases h
    exact ⟨⟨fun c hc => by cases hc; exact ⟨_, rfl⟩, .inr ⟨str!"sal", rfl, by decide, by unfold Ending; decide⟩⟩, _, rfl⟩)
  replaced h := by cases h
  place h := by cases h
  inserted f h := by cases h; exact ⟨.inl rfl, (by decide : str!"egészül ki" ∈ insertionEnds)⟩

/-- "… III. Fejezet a következő alcímmel és 300/A. §-sal egészül ki:" -/
example : SubtitleReadAs ⟨[], false⟩ (bothInserted thirdChapter)
    (.structuralBlockAmendment ⟨some procurementId, none, some (.chapter ⟨3, none⟩), .subtitleBeforeArticleInclusive ⟨none, ⟨300, some (.latin 0)⟩⟩, false⟩ true) :=
  C109_subtitles_partial _ _ _ (bothInserted_usual thirdChapter_means) (procurementAct_usual _) (fun _ _ h => by cases h)
    (.place rfl thirdChapter_means) (fun _ h => by cases h; rfl) (fun _ h => by cases h)

/-- In a book: what is read is without it. -/
example : SubtitleReadAs ⟨[], false⟩ (bothInserted thirdChapterOfBook)
    (.structuralBlockAmendment ⟨some procurementId, none, some (.chapter ⟨3, none⟩), .subtitleBeforeArticleInclusive ⟨none, ⟨300, some (.latin 0)⟩⟩, false⟩ true) := by
  have h := C109_recorded ⟨[], false⟩ _ _ (bothInserted_usual thirdChapterOfBook_means) (procurementAct_usual _) (fun _ _ h => by cases h)
      (.place rfl thirdChapterOfBook_means) (fun _ h => by cases h)
  exact h

/-- C109: "… helyébe a következő alcím és rendelkezés lépnek:" is not recognised, although the grammar names the verb. -/
theorem C109_violated : ¬ C109_statement := by
  intro h
  obtain ⟨x, refs, h2, -, h3, -⟩ := h ⟨[], false⟩ (bothReplaced str!"lépnek") _ (bothReplaced_usual (by simp))
    (procurementAct_usual _) (fun _ _ h => by cases h) (.place rfl thirdChapter_means)
  replace h3 : extractSpecialPhrase ⟨[], false⟩ x = _ := h3
  have h4 : ((parse str!"A közbeszerzésekről szóló 2015. évi CXLIII. törvény III. Fejezet 388/A. §-a és az azt megelőző alcím helyébe a következő alcím és rendelkezés lépnek:" []).bind
      fun r => extractSpecialPhrase ⟨[], false⟩ r) = some none := by decide +kernel
  have e : (bothReplaced str!"lépnek").text =
    str!"A közbeszerzésekről szóló 2015. évi CXLIII. törvény III. Fejezet 388/A. §-a és az azt megelőző alcím helyébe a következő alcím és rendelkezés lépnek:" := by decide +kernel
  rw [e] at h2
  rw [show (Cache.mk [] false).allAbbreviations = [] from rfl] at h2
  rw [h2, Option.bind_some, h3] at h4
  cases h4

/-- The same with the verb in the singular: only the book of the containing part is lost. -/
theorem C109_book : ¬ ∀ (c : Cache) (s : SubtitleSentence) (phrase : SpecialPhrase), s.Usual [str!"lép"] →
    s.intro.Usual c.allAbbreviations s.rest → (∀ b a, s.intro.act = .short b a → c.resolve b = some a) → s.Means phrase →
    SubtitleReadAs c s phrase := by
  intro h
  obtain ⟨x, refs, h2, -, h3, -⟩ := h ⟨[], false⟩ (bothInserted thirdChapterOfBook) _ (bothInserted_usual thirdChapterOfBook_means)
    (procurementAct_usual _) (fun _ _ h => by cases h) (.place rfl thirdChapterOfBook_means)
  replace h3 : extractSpecialPhrase ⟨[], false⟩ x = _ := h3
  have h4 : ((parse str!"A közbeszerzésekről szóló 2015. évi CXLIII. törvény Második Könyv III. Fejezet a következő alcímmel és 300/A. §-sal egészül ki:" []).bind
      fun r => extractSpecialPhrase ⟨[], false⟩ r) = some (some (.structuralBlockAmendment ⟨some procurementId, none,
        some (.chapter ⟨3, none⟩), .subtitleBeforeArticleInclusive ⟨none, ⟨300, some (.latin 0)⟩⟩, false⟩ true)) := by decide +kernel
  have e : (bothInserted thirdChapterOfBook).text =
    str!"A közbeszerzésekről szóló 2015. évi CXLIII. törvény Második Könyv III. Fejezet a következő alcímmel és 300/A. §-sal egészül ki:" := by decide +kernel
  rw [e] at h2
  rw [show (Cache.mk [] false).allAbbreviations = [] from rfl] at h2
  rw [h2, Option.bind_some, h3] at h4
  cases h4

/-- Without books as well: "… a 300–302. §-t követően a következő alcímmel egészül ki:" inserts a subtitle after article 302,
but it is recorded as that after article 300. -/
theorem C109_range : ¬ ∀ (c : Cache) (s : SubtitleSentence) (phrase : SpecialPhrase), s.Usual [str!"lép"] →
    s.intro.Usual c.allAbbreviations s.rest → (∀ b a, s.intro.act = .short b a → c.resolve b = some a) → s.Means phrase →
    (∀ q, s.container = some q → q.book = none) → SubtitleReadAs c s phrase := by
  intro h
  obtain ⟨x, refs, h2, -, h3, -⟩ := h ⟨[], false⟩ (subtitleInserted (besideRange false)) _ (subtitleInserted_usual (besideRange_usual _))
    (procurementAct_usual _) (fun _ _ h => by cases h) (.act rfl) (fun _ h => by cases h)
  replace h3 : extractSpecialPhrase ⟨[], false⟩ x = _ := h3
  have h4 : ((parse str!"A közbeszerzésekről szóló 2015. évi CXLIII. törvény a 300–302. §-t követően a következő alcímmel egészül ki:" []).bind
      fun r => extractSpecialPhrase ⟨[], false⟩ r) = some (some (.structuralBlockAmendment ⟨some procurementId, none, none,
        .subtitleAfterArticle ⟨none, .ofNum 300⟩, false⟩ true)) := by decide +kernel
  have e : (subtitleInserted (besideRange false)).text =
    str!"A közbeszerzésekről szóló 2015. évi CXLIII. törvény a 300–302. §-t követően a következő alcímmel egészül ki:" := by decide +kernel
  rw [e] at h2
  rw [show (Cache.mk [] false).allAbbreviations = [] from rfl] at h2
  rw [h2, Option.bind_some, h3] at h4
  cases h4

end HunLaw.Props
