import Verif.Lemmas.ExactAmendment
import Verif.Props.BlockAmendment
import Verif.Props.Exact

/-! Exactly which amendment a quoted block becomes: C122. -/

set_option autoImplicit false

namespace HunLaw.Props

open HunLaw Spec Semantic BlockAmend SAEParser

/-! ### C122 -/

/-- C122, full statement: a quoted block becomes an amendment exactly if it is that amendment. No line ends with a space. -/
def C122_statement : Prop :=
  ∀ (upper : Char → Bool) (p : Paragraph Amendment) (i : Str) (b : QuotedBlock) (w : Option Str), Awaits p i b w →
    NoTrailingSpace b.lines → ∀ a,
    ((paragraph upper p).2 = .ok () ∧ (paragraph upper p).1.body = .children i (.amendment a) w) ↔
      AmendmentIs upper p.semanticInfo.specialPhrase b a

/-- An amendment of the article 5, which has two articles quoted in it. -/
def nestedBlock : QuotedBlock := ⟨none, [sampleLine str!"5. § A törvény így szól:" 0, sampleLine str!"„5. § Ez." 0,
  sampleLine str!"6. § Az.”" 0], none⟩

/-- The paragraph with this amendment. -/
def nestedParagraph : Paragraph Amendment :=
  ⟨⟨none⟩, .children str!"A törvény 5. §-a helyébe a következő rendelkezés lép:" (.quotedBlock [nestedBlock]) none,
    { SemanticInfo.default with
      specialPhrase := some (.structuralBlockAmendment
        ⟨none, none, none, .article (.single ⟨none, .ofNum 5⟩), false⟩ false) }, none⟩

/-- It does not hold: if an article of the amendment has articles quoted in it, the header of a quoted one may be taken
for that of the next article. -/
theorem C122_violated : ¬ C122_statement := by
  intro hst
  have hn : ∀ l ∈ nestedBlock.lines, l.content.getLast? ≠ some ' ' := by decide +kernel
  have herr : (paragraph asciiUpper nestedParagraph).2 = .err := by decide +kernel
  have hp : (do
      match ← parseArticleHeader (sampleLine str!"5. § A törvény így szól:" 0) with
      | some (id, rest) => Res.map (fun _ => decide (id = (⟨none, .ofNum 5⟩ : ArticleId))) (ArticleParser.finish ⟨id, [rest, sampleLine str!"„5. § Ez." 0,
          sampleLine str!"6. § Az.”" 0], .blockAmendment⟩)
      | none => .err) = .ok true := by decide +kernel
  rw [Res.bind_eq_ok] at hp
  obtain ⟨o, ho, hp⟩ := hp
  cases o with
  | none => cases hp
  | some x =>
    obtain ⟨id, rest⟩ := x
    obtain ⟨a, ha, hid⟩ := map_ok.1 hp
    obtain rfl := of_decide_eq_true hid
    obtain ⟨e, hi⟩ := C115_article_sound _ a ha
    simp only at e hi
    have hh := (C27_article_header_iff _ _ _).1 ho
    have hl2 : ∀ id r, parseArticleHeader (sampleLine str!"„5. § Ez." 0) ≠ .ok (some (id, r)) := by
      have : Res.map Option.isSome (parseArticleHeader (sampleLine str!"„5. § Ez." 0)) = .ok false := by decide +kernel
      intro id r h
      rw [h] at this
      cases this
    have hub : ¬ BalancedLines [sampleLine str!"5. § A törvény így szól:" 0, sampleLine str!"„5. § Ez." 0] := by
      unfold BalancedLines
      decide +kernel
    have := (hst asciiUpper nestedParagraph _ nestedBlock none ⟨rfl, .inr ⟨_, _, rfl⟩⟩ hn
      (.structural none [.article a] none)).2 ⟨rfl, rfl, _, _, rfl, ⟨_, _, a⟩, [], rfl, rfl, e, rfl, ?_, ⟨rest, e ▸ hh, hi⟩, ?_, trivial⟩
    · rw [herr] at this
      cases this.1
    · obtain ⟨t, r, h1, h2, h3, -⟩ := hh
      exact ⟨⟨t, r, h1, h2, e ▸ h3⟩, by simp⟩
    · intro x l y hx hb id' hs
      obtain ⟨r, hr⟩ := start_header hs
      have hr := (C27_article_header_iff _ _ _).2 hr
      simp only at hx
      match x, hx with
      | [], hx =>
        simp only [List.nil_append, List.cons.injEq] at hx
        rw [← hx.1] at hr
        exact hl2 _ _ hr
      | [m], hx =>
        simp only [List.cons_append, List.nil_append, List.cons.injEq] at hx
        rw [← hx.1] at hb
        exact hub hb
      | m :: k :: x, hx => simp at hx

/-- C122: a quoted block becomes an amendment exactly if it is that amendment. No line ends with a space. Missing: blocks
that announce articles and have a line inside quotes which is the header of an article, see `C122_violated`. -/
theorem C122_exact_partial (upper : Char → Bool) (p : Paragraph Amendment) (i : Str) (b : QuotedBlock) (w : Option Str)
    (h : Awaits p i b w) (hn : NoTrailingSpace b.lines)
    (hq : AnnouncesArticles p.semanticInfo.specialPhrase → HeadersOutside b.lines) (a : Amendment) :
    ((paragraph upper p).2 = .ok () ∧ (paragraph upper p).1.body = .children i (.amendment a) w) ↔
      AmendmentIs upper p.semanticInfo.specialPhrase b a := paragraph_exact h hn hq a

/-- C122: a quoted block is at most one amendment. Missing: as in `C122_exact_partial`. -/
theorem C122_unique_partial (upper : Char → Bool) (s : Option SpecialPhrase) (b : QuotedBlock)
    (hn : NoTrailingSpace b.lines) (hq : AnnouncesArticles s → HeadersOutside b.lines) (a a' : Amendment)
    (h : AmendmentIs upper s b a) (h' : AmendmentIs upper s b a') : a = a' := by
  have hs : IsBlockAmendment s ∨ IsStructuralAmendment s := by
    cases a with
    | block _ _ _ => obtain ⟨-, -, pos, f, e, -⟩ := h; exact .inl ⟨pos, f, e⟩
    | structural _ _ _ => obtain ⟨-, -, pos, f, e, -⟩ := h; exact .inr ⟨pos, f, e⟩
  have key := fun a => C122_exact_partial upper
    ⟨⟨none⟩, .children [] (.quotedBlock [b]) none, { SemanticInfo.default with specialPhrase := s }, none⟩ [] b none
    ⟨rfl, hs⟩ hn hq a
  have h1 := ((key a).2 h).2
  rw [((key a').2 h').2] at h1
  simpa using h1.symm

/-- C122: the amendments of an act are converted exactly if every block which is announced is an amendment of the kind
announced. Missing: as in `C122_exact_partial`. -/
theorem C122_success_partial (upper : Char → Bool) (act : Act Amendment)
    (h : ∀ art ∈ act.articles, ∀ p ∈ art.children, ∀ i b w, Awaits p i b w → NoTrailingSpace b.lines ∧
      (AnnouncesArticles p.semanticInfo.specialPhrase → HeadersOutside b.lines)) :
    (BlockAmend.act upper act).2 = .ok () ↔
      ∀ art ∈ act.articles, ∀ p ∈ art.children, ∀ i b w, Awaits p i b w →
        ∃ a, AmendmentIs upper p.semanticInfo.specialPhrase b a := by
  have each : ∀ {X : Type} (f : X → X × Res Unit) (l : List X),
      (tryForEach f l).2 = .ok () ↔ ∀ x ∈ l, (f x).2 = .ok () := by
    intro X f l
    induction l with
    | nil => simp [tryForEach]
    | cons x l ih =>
      unfold tryForEach
      rcases hx : f x with ⟨y, r⟩
      cases r with
      | ok u => simp [ih, hx]
      | err => simp [hx]
      | panic => simp [hx]
  have one : ∀ art ∈ act.articles, ∀ p ∈ art.children, (paragraph upper p).2 = .ok () ↔
      ∀ i b w, Awaits p i b w → ∃ a, AmendmentIs upper p.semanticInfo.specialPhrase b a := by
    intro art ha p hp
    constructor
    · intro hok i b w haw
      obtain ⟨hn, hq⟩ := h art ha p hp i b w haw
      rcases C51_paragraph upper p with ⟨-, -, -, ⟨-, hno⟩ | ⟨i', b', w', a, haw', hb, -⟩⟩ | ⟨hne, -⟩
      · exact absurd haw (hno _ _ _)
      · obtain ⟨rfl, rfl, rfl⟩ := awaits_unique haw haw'
        exact ⟨a, (C122_exact_partial upper p i b w haw hn hq a).1 ⟨hok, hb⟩⟩
      · exact absurd hok hne
    · intro hall
      rcases C51_paragraph upper p with ⟨hok, -⟩ | ⟨-, i, b, w, haw, -⟩
      · exact hok
      · obtain ⟨a, ham⟩ := hall i b w haw
        obtain ⟨hn, hq⟩ := h art ha p hp i b w haw
        exact ((C122_exact_partial upper p i b w haw hn hq a).2 ham).1
  unfold BlockAmend.act
  simp only
  rw [each]
  constructor
  · intro hall art ha p hp
    refine (one art ha p hp).1 ?_
    have ha' := ha
    unfold Act.articles at ha'
    rw [List.mem_filterMap] at ha'
    obtain ⟨c, hc, e⟩ := ha'
    cases c with
    | article x =>
      cases e
      exact (each _ _).1 (hall _ hc) p hp
    | _ => cases e
  · intro hall c hc
    cases c with
    | structuralElement e => rfl
    | subtitle s => rfl
    | article art =>
      have ha : art ∈ act.articles := by
        unfold Act.articles
        rw [List.mem_filterMap]
        exact ⟨_, hc, rfl⟩
      exact (each _ _).2 fun p hp => (one art ha p hp).2 (hall art ha p hp)

/-- The quoted blocks of the paragraphs of an act with what is announced. -/
def announcedBlocks (a : Act Amendment) : List (Option SpecialPhrase × QuotedBlock) :=
  a.articles.flatMap fun art => art.children.filterMap fun p => match p.body with
    | .children _ (.quotedBlock [b]) _ => some (p.semanticInfo.specialPhrase, b)
    | _ => none

/-- The blocks of the sample act with amendments are as asked for, there are three of them, and two are amendments. -/
example : Res.map (fun a => ((announcedBlocks a).map fun x => (x.1.isSome, x.2.lines.length,
      x.2.lines.all fun l => l.content.getLast? != some ' ')))
    (Res.map (fun a => (addSemanticInfo a).1.lift) (parseActStructure asciiUpper (sampleRaw amendingBody))) =
    .ok [(true, 1, true), (true, 1, true), (false, 1, true)] := by decide +kernel

/-- A block of two articles, the first of which has a quote over two lines. -/
def twoArticles : QuotedBlock := ⟨some str!"A törvény", [sampleLine str!"5. § Az „alany" 0, sampleLine str!"2. pontja” szerint." 0,
  sampleLine str!"6. § [Cím]" 0, sampleLine str!"(1) Ez." 0, sampleLine str!"(2) Az." 0], none⟩

/-- It is an amendment of articles, of two articles, of which the second has two paragraphs. -/
example : NoTrailingSpace twoArticles.lines ∧ HeadersOutside twoArticles.lines ∧
    ∃ cs, AmendmentIs asciiUpper (some (.structuralBlockAmendment
      ⟨none, none, none, .article ⟨⟨none, .ofNum 5⟩, ⟨none, .ofNum 6⟩⟩, false⟩ false)) twoArticles
      (.structural (some str!"A törvény") cs none) ∧
    cs.map (fun c => match c with
      | .article a => (a.title, a.children.length)
      | _ => (none, 0)) = [(none, 1), (some str!"Cím", 2)] := by
  have hn : ∀ l ∈ twoArticles.lines, l.content.getLast? ≠ some ' ' := by decide +kernel
  have hh : HeadersOutside twoArticles.lines := by
    have hl2 : Res.map Option.isSome (parseArticleHeader (sampleLine str!"2. pontja” szerint." 0)) = .ok false := by
      decide +kernel
    intro x l y hx hb id rest h
    have hr := (C27_article_header_iff _ _ _).2 h
    unfold twoArticles at hx
    simp only at hx
    match x, hx with
    | [], hx => exact hb rfl
    | [m], hx =>
      simp only [List.cons_append, List.nil_append, List.cons.injEq] at hx
      rw [← hx.2.1, ] at hr
      rw [hr] at hl2
      cases hl2
    | [m, k], hx =>
      simp only [List.cons_append, List.nil_append, List.cons.injEq] at hx
      refine hb ?_
      rw [← hx.1, ← hx.2.1]
      unfold BalancedLines
      decide +kernel
    | [m, k, j], hx =>
      simp only [List.cons_append, List.nil_append, List.cons.injEq] at hx
      refine hb ?_
      rw [← hx.1, ← hx.2.1, ← hx.2.2.1]
      unfold BalancedLines
      decide +kernel
    | [m, k, j, i], hx =>
      simp only [List.cons_append, List.nil_append, List.cons.injEq] at hx
      refine hb ?_
      rw [← hx.1, ← hx.2.1, ← hx.2.2.1, ← hx.2.2.2.1]
      unfold BalancedLines
      decide +kernel
    | m :: k :: j :: i :: n :: x, hx => simp at hx
  refine ⟨hn, hh, ?_⟩
  have : Res.map (List.map (fun c : ActChild Empty => match c with
      | .article a => (a.title, a.children.length)
      | _ => (none, 0))) (structural asciiUpper ⟨none, none, none, .article ⟨⟨none, .ofNum 5⟩, ⟨none, .ofNum 6⟩⟩, false⟩
        twoArticles.lines) = .ok [(none, 1), (some str!"Cím", 2)] := by decide +kernel
  obtain ⟨cs, h, e⟩ := map_ok.1 this
  exact ⟨cs, ⟨rfl, rfl, _, _, rfl, (structural_exact hn (fun _ _ => hh) cs).1 h⟩, e⟩

/-! ### C123 -/

/-- The part, title or chapter whose title alone is announced. -/
def TitleAnnounced (s : Option SpecialPhrase) (type : SEType) (id : NumericId) : Prop :=
  ∃ pos f, s = some (.structuralBlockAmendment pos f) ∧ pos.titleOnly = true ∧
    (pos.element = .part id ∧ type = .part false ∨ pos.element = .title id ∧ type = .title ∨
      pos.element = .chapter id ∧ type = .chapter)

/-- C123, full statement: an amendment of the title of a part, title or chapter is stored as one of the element that is
announced. -/
def C123_statement : Prop :=
  ∀ (upper : Char → Bool) (p : Paragraph Amendment) (i : Str) (b : QuotedBlock) (w : Option Str) (type : SEType)
    (id : NumericId), Awaits p i b w → TitleAnnounced p.semanticInfo.specialPhrase type id →
    (paragraph upper p).2 = .ok () →
    ∃ e, (paragraph upper p).1.body = .children i (.amendment (.structural b.intro [.structuralElement e] b.wrapUp)) w ∧
      e.elementType = type ∧ e.identifier = id

/-- The title of chapter III is announced, and that of chapter IV follows. -/
def otherTitleParagraph : Paragraph Amendment :=
  ⟨⟨none⟩, .children str!"A törvény III. Fejezetének címe helyébe a következő cím lép:"
    (.quotedBlock [⟨none, [sampleLine str!"IV. FEJEZET" 0, sampleLine str!"A TANÁCS" 0], none⟩]) none,
    { SemanticInfo.default with
      specialPhrase := some (.structuralBlockAmendment ⟨none, none, none, .chapter (.ofNum 3), true⟩ false) }, none⟩

/-- It does not hold: the header in the quoted block may be that of another chapter. -/
theorem C123_violated : ¬ C123_statement := by
  intro h
  obtain ⟨e, h1, -, h2⟩ := h asciiUpper otherTitleParagraph _ _ _ .chapter (.ofNum 3) ⟨rfl, .inr ⟨_, _, rfl⟩⟩
    ⟨_, _, rfl, rfl, .inr (.inr ⟨rfl, rfl⟩)⟩ (by decide +kernel)
  have : (match (paragraph asciiUpper otherTitleParagraph).1.body with
    | .children _ (.amendment (.structural _ [.structuralElement e] _)) _ => some e.identifier
    | _ => none) = some (.ofNum 4) := by decide +kernel
  rw [h1] at this
  simp only [Option.some.injEq] at this
  rw [h2] at this
  exact absurd this (by decide)

/-- C123: the type is the one announced, and so is the number unless the first line of the block is the header of an
element of this type; then it is the number in the header. The title is made of the lines, without the header. Missing:
that the header is that of the element announced, see `C123_violated`. -/
theorem C123_title_partial (upper : Char → Bool) (p : Paragraph Amendment) (i : Str) (b : QuotedBlock) (w : Option Str)
    (type : SEType) (id : NumericId) (h : Awaits p i b w) (hs : TitleAnnounced p.semanticInfo.specialPhrase type id)
    (hok : (paragraph upper p).2 = .ok ()) :
    ∃ e l rest, (paragraph upper p).1.body = .children i (.amendment (.structural b.intro [.structuralElement e] b.wrapUp)) w ∧
      e.elementType = type ∧ b.lines = l :: rest ∧
      ((∀ id', ¬ StructuralHeader type id' l.content) → e.identifier = id ∧ Joined (nonEmptyTexts b.lines) e.title) ∧
      (∀ id', StructuralHeader type id' l.content → e.identifier = id' ∧ Joined (nonEmptyTexts rest) e.title) := by
  obtain ⟨pos, f, hp, ht, hel⟩ := hs
  rcases C51_paragraph upper p with ⟨-, -, -, ⟨-, hno⟩ | ⟨i', b', w', a, haw', hb, -⟩⟩ | ⟨hne, -⟩
  · exact absurd h (hno _ _ _)
  · obtain ⟨rfl, rfl, rfl⟩ := awaits_unique h haw'
    have : ∃ c, titleOnlyChild upper pos.element b.lines = .ok c ∧
        (paragraph upper p).1.body = .children i (.amendment (.structural b.intro [c] b.wrapUp)) w := by
      obtain ⟨hbody, -⟩ := h
      unfold paragraph at hok ⊢
      simp only [hbody, children, hp, block] at hok ⊢
      have hst : structural upper pos b.lines = titleOnly upper pos b.lines := by
        unfold structural
        rcases hel with ⟨he, -⟩ | ⟨he, -⟩ | ⟨he, -⟩ <;> rw [he] <;> simp [ht]
      rw [hst] at hok ⊢
      unfold titleOnly at hok ⊢
      cases hc : titleOnlyChild upper pos.element b.lines with
      | ok c => exact ⟨c, rfl, rfl⟩
      | err => rw [hc] at hok; cases hok
      | panic => rw [hc] at hok; cases hok
    obtain ⟨c, hc, hbody⟩ := this
    have hti : TitleIs type id b.lines c := by
      have := (titleOnlyChild_exact c).1 hc
      unfold TitleOnlyIs at this
      rcases hel with ⟨he, rfl⟩ | ⟨he, rfl⟩ | ⟨he, rfl⟩ <;> rw [he] at this <;> exact this
    cases c with
    | subtitle s => exact hti.elim
    | article x => exact hti.elim
    | structuralElement e =>
      obtain ⟨h1, -, l, rest, h2, h3⟩ := hti
      refine ⟨e, l, rest, hbody, h1, h2, ?_, ?_⟩
      · intro hno
        rcases h3 with ⟨h3, -⟩ | ⟨-, h3, h4⟩
        · exact absurd h3 (hno _)
        · exact ⟨h3, h4⟩
      · intro id' hid
        rcases h3 with ⟨h3, h4⟩ | ⟨h3, -⟩
        · exact ⟨(structuralHeader_unique h3 hid).2, h4⟩
        · exact absurd hid (h3 _)
  · exact absurd hok hne

/-- The sample is one where the title of a chapter is announced, and it is converted. -/
example : TitleAnnounced otherTitleParagraph.semanticInfo.specialPhrase .chapter (.ofNum 3) ∧
    (paragraph asciiUpper otherTitleParagraph).2 = .ok () :=
  ⟨⟨_, _, rfl, rfl, .inr (.inr ⟨rfl, rfl⟩)⟩, by decide +kernel⟩

end HunLaw.Props
