import Verif.Props.StructuralSentence
import Verif.Lemmas.StructuralBeside
import Verif.Spec.StructuralBeside

/-! Property C105, with a place beside an article before the part. -/

set_option autoImplicit false

namespace HunLaw.Props

open HunLaw Spec Semantic Grammar P

/-- The sentence is read as the amendment of this part. -/
def BesideReadAs (c : Cache) (s : BesideSentence) (r : StructuralRef) : Prop :=
  ∃ x, parse s.text c.allAbbreviations = some x ∧ getNewAbbreviations x = some s.sentence.intro.new ∧
    extractSpecialPhrase (c.addMultiple s.sentence.intro.new) x = some (some (.structuralBlockAmendment r s.sentence.following.isSome)) ∧
    outgoingRefs (c.addMultiple s.sentence.intro.new) x = some [⟨byteLen s.sentence.intro.article + 1 + byteLen s.sentence.intro.title,
      byteLen s.sentence.intro.article + 1 + byteLen s.sentence.intro.title + byteLen s.sentence.intro.act.text,
      ⟨some s.sentence.intro.act.act, none, none, none, none⟩⟩]

theorem beside_continues {b : Beside} (hb : b.Usual) (R : Str) : Continues (' ' :: b.text ++ R) := by
  have e : b.text ++ R = b.the ++ (b.article.text ++ (' ' :: b.word ++ R)) := by simp [Beside.text]
  refine ⟨_, rfl, ?_, ?_⟩
  · show NoWs (b.text ++ R)
    rw [e]; exact the_noWs hb.the (levelText_one _ _).noWs
  · show Head _ (b.text ++ R)
    rw [e]
    rcases the_cases hb.the with h | h | h <;> rw [h]
    · exact (one_digit _ _).mono fun c hc => by
        refine ⟨?_, ?_, ?_, ?_⟩ <;> (rintro rfl; exact absurd hc (by decide))
    · exact Head.cons (f := fun c => c ≠ '(' ∧ c ≠ 'h' ∧ c ≠ 'm' ∧ c ≠ 'ö') (by decide)
    · exact Head.cons (f := fun c => c ≠ '(' ∧ c ≠ 'h' ∧ c ≠ 'm' ∧ c ≠ 'ö') (by decide)

theorem read_beside {c : Cache} {s : BesideSentence} {p : Place} {par : Option Place} {book : Option BookText}
    {b i : Option NumericId} {e : StructuralRefParent} {d : Option StructuralRefParent} {o : Bool} {S : Str} (hb : s.beside.Usual)
    (hi : s.sentence.intro.Usual c.allAbbreviations s.rest) (hc : ∀ b a, s.sentence.intro.act = .short b a → c.resolve b = some a)
    (hp : p.Means b e o)
    (hpar : (par = none ∧ d = none) ∨ ∃ q d' b', par = some q ∧ d = some d' ∧ q.Means b' d' false)
    (hbook : (book = none ∧ i = b) ∨ ∃ k n, book = some k ∧ i = some n ∧ k.Means n)
    (hS : s.sentence.rest = ' ' :: S) (h1 : ∀ n, Fails subtitleAmendment n (' ' :: S))
    (h2 : ∃ x, TailReads (' ' :: S) p (par.map placeAt) (book.map (·.number)) s.sentence.following.isSome x) :
    BesideReadAs c s ⟨some s.sentence.intro.act.act, i, d, e.toElement, o⟩ := by
  have hrest : s.rest = ' ' :: s.beside.text ++ (' ' :: S) := by simp [BesideSentence.rest, hS]
  obtain ⟨hA, m, hm⟩ := reads_intro hi (hrest ▸ beside_continues hb _)
  have etext : s.sentence.intro.article ++ str!" " ++ (s.sentence.intro.title ++ (s.sentence.intro.act.text ++
      introduction s.sentence.intro.introduces) ++ s.rest) = s.text := by
    simp [BesideSentence.text, ActIntro.text]
  have epos : byteLen (s.sentence.intro.article ++ str!" ") = byteLen s.sentence.intro.article + 1 := by rw [byteLen_append]; rfl
  have hc' := intro_resolves hi hc
  have hact := introAct_act hi hc' (byteLen (s.sentence.intro.article ++ str!" ") + byteLen s.sentence.intro.title)
  obtain ⟨bu, hb1, hb2⟩ := intro_outgoing hi hc' (byteLen (s.sentence.intro.article ++ str!" ") + byteLen s.sentence.intro.title)
  have hparent : convertParent? (par.map placeAt) = some d := by
    rcases hpar with ⟨rfl, rfl⟩ | ⟨q, d', b', rfl, rfl, hq⟩
    · rfl
    · simp [convertParent?, parent_value hq]
  obtain ⟨x, t, u, q, -, -, -, -, -, -, h2, -⟩ := h2
  rw [hrest] at hm
  have hpt := parse_beside (remembers_start ..) hA hb hm h1 h2
  rw [← hrest, etext] at hpt
  refine ⟨_, hpt, intro_new hi rfl, ?_, ?_⟩
  · have hw : withBook (book.map (·.number)) ⟨some s.sentence.intro.act.act, b, d, e.toElement, o⟩ =
        some ⟨some s.sentence.intro.act.act, i, d, e.toElement, o⟩ := by
      rcases hbook with ⟨rfl, rfl⟩ | ⟨k, n, rfl, rfl, hk⟩
      · rfl
      · simp [withBook, bookText_value hk]
    simp only [extractSpecialPhrase, convertStructuralBlockAmendment, hact, hparent, place_value hp, hw, Option.bind_eq_bind, Option.bind_some]
  · simp only [outgoingRefs, structuralAmendmentRefs, hb1, hb2, Option.bind_eq_bind, Option.bind_some]; rw [epos]

theorem not_endsOther {e : Str} (h : e ∈ insertionEnds) : ¬ EndsOther e := by
  rintro ⟨f, w, -, -, e⟩
  simp only [insertionEnds, List.mem_cons, List.not_mem_nil, or_false] at h
  rcases h with rfl | rfl <;> simp at e

theorem subtitleAt_book {p : Place} {k : BookText} (h : p.book = some k) : subtitleAt p = none := by
  obtain ⟨bk, part, tl⟩ := p
  cases h
  rfl

/-- C105, with the article beside which the part is: the sentence is read as it is without that place, and the place is
not recorded, nor is there a reference to the article. But here it is recorded that only the title of a subtitle in
another part is meant. -/
theorem C105_beside (c : Cache) (s : BesideSentence) (r r' : StructuralRef) (hs : s.Usual)
    (hi : s.sentence.intro.Usual c.allAbbreviations s.rest) (hc : ∀ b a, s.sentence.intro.act = .short b a → c.resolve b = some a)
    (hm : s.sentence.Means r) (hr : s.Recorded r r') : BesideReadAs c s r' := by
  obtain ⟨s, be⟩ := s
  obtain ⟨ra, rb, rp, re, rt⟩ := r'
  have hs' := hs.sentence
  have hone : ∀ p : Place, s.container = .act → s.element = p → subtitleAt p ≠ none → EndsOther s.ending := fun p h1 h2 h3 => by
    subst h2
    have hbk : s.element.book = none := by
      cases h : s.element.book with
      | none => rfl
      | some k => exact absurd (subtitleAt_book h) h3
    exact hs.part h1 ((one_subtitle hbk).2 h3) hbk
  cases hm with
  | @act i f p end_ b e o hp =>
    have hno : ¬ ∃ q, Container.act = .place q := by simp
    obtain rfl : ra = some i.act.act := hr.act
    obtain rfl : rp = none := hr.parent
    obtain rfl : re = e.toElement := hr.element
    obtain rfl : rb = b := hr.book hno
    obtain rfl : rt = o := hr.titleOnly
    cases f with
    | none =>
      have he : ReplacementEnd end_ := hs'.replaced rfl
      refine read_beside (par := none) (book := none) (S := p.text ++ (' ' :: end_ ++ str!":")) hs.beside hi hc hp (.inl ⟨rfl, rfl⟩)
        (.inl ⟨rfl, rfl⟩) (by simp [StructuralSentence.rest, Container.text]) ?_ ⟨_, tail_replaced_act hp he⟩
      rcases subtitle_replaced hp he rfl with ⟨-, h⟩ | ⟨r, h, h', -⟩
      · exact h
      · exact absurd (hone p rfl rfl (by rw [h]; simp)) h'
    | some f =>
      obtain ⟨hf, he, ht⟩ := hs'.inserted f rfl
      refine read_beside (par := none) (book := none) (S := f ++ (' ' :: p.text ++ (' ' :: end_ ++ str!":"))) hs.beside hi hc hp (.inl ⟨rfl, rfl⟩)
        (.inl ⟨rfl, rfl⟩) (by simp [StructuralSentence.rest, Container.text]) ?_ ⟨_, tail_inserted_act hp hf he ht⟩
      rcases subtitle_inserted hp ht hf he rfl with h | ⟨r, h, -⟩
      · exact h
      · exact absurd (hone p rfl rfl (by rw [h]; simp)) (not_endsOther he)
  | @place i f q p end_ b d e o hq hp =>
    obtain rfl : ra = some i.act.act := hr.act
    obtain rfl : rp = some d := hr.parent
    obtain rfl : re = e.toElement := hr.element
    obtain rfl : rb = none := hr.inBook ⟨q, rfl⟩
    obtain rfl : rt = o := hr.titleOnly
    cases f with
    | none =>
      have he : ReplacementEnd end_ := hs'.replaced rfl
      refine read_beside (par := some q) (book := none) (S := q.text ++ (' ' :: p.text ++ (' ' :: end_ ++ str!":"))) hs.beside hi hc hp
        (.inr ⟨q, d, b, rfl, rfl, hq⟩) (.inl ⟨rfl, rfl⟩) (by simp [StructuralSentence.rest, Container.text])
        (fun n => place_notSubtitle hq (notEnd_place hp _) n) ?_
      by_cases h : subtitleAt p = none ∨ EndsOther end_
      · exact ⟨p.title.isSome, tail_replaced_place hp hq he (fun h1 h2 => by rcases h with h | h <;> contradiction) fun _ => rfl⟩
      · exact ⟨false, tail_replaced_place hp hq he (fun _ _ => rfl) fun h' => absurd h' h⟩
    | some f =>
      obtain ⟨hf, he, ht⟩ := hs'.inserted f rfl
      exact read_beside (par := some q) (book := none) (S := q.text ++ (' ' :: f ++ (' ' :: p.text ++ (' ' :: end_ ++ str!":")))) hs.beside hi hc hp
        (.inr ⟨q, d, b, rfl, rfl, hq⟩) (.inl ⟨rfl, rfl⟩) (by simp [StructuralSentence.rest, Container.text])
        (fun n => place_notSubtitle hq (notEnd_following hp hf _) n) ⟨_, tail_inserted_place hp hq hf he ht⟩
  | @book i f k p end_ b e o hk hp =>
    have hno : ¬ ∃ q, Container.book k = .place q := by simp
    obtain rfl : ra = some i.act.act := hr.act
    obtain rfl : rp = none := hr.parent
    obtain rfl : re = e.toElement := hr.element
    obtain rfl : rb = some b := hr.book hno
    obtain rfl : rt = o := hr.titleOnly
    obtain ⟨hf, he, ht⟩ := hs'.inserted f rfl
    exact read_beside (par := none) (book := some k) (S := k.text ++ (' ' :: f ++ (' ' :: p.text ++ (' ' :: end_ ++ str!":")))) hs.beside hi hc hp
      (.inl ⟨rfl, rfl⟩) (.inr ⟨k, b, rfl, rfl, hk⟩) (by simp [StructuralSentence.rest, Container.text])
      (fun n => book_notSubtitle hk hf _ n) ⟨_, tail_inserted_book hp hk hf he ht⟩

/-! ### examples -/

/-- "a 12. §-t megelőzően" -/
def beforeArticle12 : Beside := ⟨str!"a ", ⟨.one ⟨none, .ofNum 12⟩, str!"-t"⟩, true, str!"megelőzően"⟩

theorem beforeArticle12_usual : beforeArticle12.Usual where
  the := by decide
  article := ⟨by simp [beforeArticle12, ArticleUsual, NumericId.ofNum], .inr ⟨str!"t", rfl, by decide, by unfold Ending; decide⟩⟩
  word := by decide

/-- "… a 12. §-t megelőzően a következő III. Fejezettel egészül ki:" -/
def insertedBefore12 : BesideSentence := ⟨⟨procurementAct, .act, some str!"a következő",
  { thirdChapter with part := .chapter ⟨3, none⟩ ⟨str!"Fejezet", str!"tel"⟩ }, str!"egészül ki"⟩, beforeArticle12⟩

example : insertedBefore12.text =
    str!"A közbeszerzésekről szóló 2015. évi CXLIII. törvény a 12. §-t megelőzően a következő III. Fejezettel egészül ki:" := by decide +kernel

example : BesideReadAs ⟨[], false⟩ insertedBefore12 ⟨some ⟨⟨2015, by decide⟩, ⟨143, by decide⟩⟩, none, none, .chapter ⟨3, none⟩, false⟩ :=
  C105_beside _ _ _ _ ⟨⟨fun h => (by cases h), fun f h => (by cases h; exact ⟨.inl rfl, by decide, rfl⟩)⟩, beforeArticle12_usual, fun _ h => h.elim⟩
    (procurementAct_usual _) (fun _ _ h => by cases h) (.act (e := .chapter ⟨3, none⟩) ⟨fun _ => rfl, fun _ h => (by cases h),
      .chapter ⟨by decide, fun _ h => by cases h⟩ ⟨by decide, by unfold Ending; decide⟩, fun _ h => (by cases h), rfl⟩)
    ⟨rfl, rfl, rfl, fun ⟨_, h⟩ => (by cases h), fun _ => rfl, rfl⟩

/-- "… a 12. §-t megelőzően III. Fejezet 12/A. alcím címe helyébe a következő rendelkezés lép:": here the word "címe" is
not lost. -/
example : BesideReadAs ⟨[], false⟩ ⟨⟨procurementAct, .place thirdChapter, none, subtitleTitle, str!"helyébe a következő rendelkezés lép"⟩, beforeArticle12⟩
    ⟨some ⟨⟨2015, by decide⟩, ⟨143, by decide⟩⟩, none, some (.chapter ⟨3, none⟩), .subtitleId ⟨12, some (.latin 0)⟩, true⟩ :=
  C105_beside _ _ _ _ ⟨⟨fun _ => .provision (f := str!"a következő") (w := str!"rendelkezés lép") (.inl rfl) (by decide), fun _ h => by cases h⟩,
      beforeArticle12_usual, fun h => by cases h⟩
    (procurementAct_usual _) (fun _ _ h => by cases h) (.place thirdChapter_means subtitleTitle_means)
    ⟨rfl, rfl, rfl, fun _ => rfl, fun h => absurd ⟨_, rfl⟩ h, rfl⟩

end HunLaw.Props
