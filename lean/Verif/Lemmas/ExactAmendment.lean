import Verif.Lemmas.ExactAct
import Verif.Lemmas.BlockAmendment
import Verif.Spec.ExactAmendment

/-! Which amendments are read from lines. -/

set_option autoImplicit false

namespace HunLaw.BlockAmend

open HunLaw Spec SAEParser

/-! ### paragraphs, points and subpoints -/

theorem elements_exact {I C : Type} [DecidableEq I] [IdentifierCommon I] {p : SAEParser I C}
    {Head : Line → I → Line → Prop} {El : WrapUpMode → I → List Line → SAE I C → List Line → Prop}
    (hl : LevelExact p .blockAmendment Head El) {ls : List Line} {first : I}
    (hnp : ls ≠ [] → p.extractMultiple ls params (some first) ≠ .panic) (es : List (SAE I C)) :
    elements p ls first = .ok es ↔ ListIs Head (· = first) El .blockAmendment false 1 ls es none [] := by
  constructor
  · intro h
    obtain ⟨r, hr, rfl, h1, h2⟩ := elements_ok h
    have := extractMultiple_listIs_from hl hr
    rw [h1, h2] at this
    exact this
  · intro h
    have hne : ls ≠ [] := by
      rintro rfl
      obtain ⟨⟨is, last, _, h1, _⟩, _⟩ := h
      simp [itemLines] at h1
    have h' : ListIs Head (goodFirst (some first) · = true) El .blockAmendment false 1 ls es none [] := by
      obtain ⟨⟨is, last, f, h1, h2, h3, h4, h5, h6, h7⟩, h8⟩ := h
      exact ⟨⟨is, last, f, h1, h2, h3, h4, h5, by simpa [goodFirst] using h6, h7⟩, h8⟩
    rcases extractMultiple_complete_from (check := false) hl (by simp) h' with h1 | h1
    · unfold elements
      rw [show params = ⟨false, false, .blockAmendment⟩ from rfl, h1]
      rfl
    · exact absurd h1 (hnp hne)

theorem trimHeader_exact {id : ArticleId} {ls ls' : List Line} (hn : NoTrailingSpace ls) :
    trimHeader (articleHeader id) ls = .ok ls' ↔ WithoutHeader id ls ls' := by
  cases ls with
  | nil => simp [trimHeader, WithoutHeader]
  | cons l rest =>
    have key : ∀ t, l.content = articleHeader id ++ t →
        t ≠ [] ∧ l.sliceBytes (byteLen (articleHeader id)) none = .ok (l.slice ((l.len : Int) - t.length) none) := by
      intro t ht
      have hne : t ≠ [] := by
        rintro rfl
        refine hn l (by simp) ?_
        rw [ht, List.append_nil, articleHeader_last]
      refine ⟨hne, ?_⟩
      unfold Line.sliceBytes
      rw [ht, Line.charPosition_append _ _ hne]
      simp only
      have : (l.len : Int) - t.length = ((articleHeader id).length : Nat) := by
        rw [← l.content_length, ht]
        simp
      rw [this]
    unfold WithoutHeader
    simp only [trimHeader]
    by_cases hs : startsWith l.content (articleHeader id) = true
    · obtain ⟨t, ht⟩ := startsWith_iff.1 hs
      obtain ⟨hne, hsl⟩ := key t ht
      rw [if_pos hs, hsl]
      simp only [Res.bind_ok, Res.ok.injEq]
      constructor
      · rintro rfl
        exact ⟨l, rest, rfl, .inl ⟨t, ht, hne, rfl⟩⟩
      · rintro ⟨l', rest', e, h⟩
        simp only [List.cons.injEq] at e
        obtain ⟨rfl, rfl⟩ := e
        rcases h with ⟨t', ht', _, rfl⟩ | ⟨h, _⟩
        · have : t' = t := List.append_cancel_left (ht'.symm.trans ht)
          rw [this]
        · exact absurd ht (h t)
    · rw [if_neg hs]
      simp only [Res.ok.injEq]
      have hno : ∀ t, l.content ≠ articleHeader id ++ t := fun t ht => hs (startsWith_iff.2 ⟨t, ht⟩)
      constructor
      · rintro rfl
        exact ⟨l, rest, rfl, .inr ⟨hno, rfl⟩⟩
      · rintro ⟨l', rest', e, h⟩
        simp only [List.cons.injEq] at e
        obtain ⟨rfl, rfl⟩ := e
        rcases h with ⟨t', ht', _⟩ | ⟨_, rfl⟩
        · exact absurd ht' (hno t')
        · rfl

theorem paragraphs_exact {position : Ref} {id : IdRange NumericId} {ls : List Line} (hn : NoTrailingSpace ls)
    (es : List (Paragraph Empty)) :
    paragraphs position id ls = .ok es ↔ ∃ art ls', position.article = some art ∧ WithoutHeader art.first ls ls' ∧
      ListIs ParagraphHead (· = ParagraphId.ofNumeric id.first) (ParagraphIs .blockAmendment) .blockAmendment false 1 ls' es
        none [] := by
  have key : ∀ art ls', trimHeader (articleHeader art) ls = .ok ls' →
      (elements paragraphParser ls' (ParagraphId.ofNumeric id.first) = .ok es ↔
        ListIs ParagraphHead (· = ParagraphId.ofNumeric id.first) (ParagraphIs .blockAmendment) .blockAmendment false 1 ls' es
          none []) := by
    intro art ls' h
    refine elements_exact paragraph_level (fun hne' => ?_) es
    by_cases hne : ls = []
    · subst hne; cases h
    · exact paragraphList_ne_panic ls' hne' ((trimHeader_ne_panic (articleHeader_last art) hne hn).2 ls' h).2 _ _
  unfold paragraphs
  constructor
  · intro h
    rw [Res.bind_eq_ok] at h
    obtain ⟨art, ha, h⟩ := h
    rw [Res.bind_eq_ok] at h
    obtain ⟨ls', hl, h⟩ := h
    refine ⟨art, ls', ?_, (trimHeader_exact hn).1 hl, (key _ _ hl).1 h⟩
    cases hq : position.article with
    | none => rw [hq] at ha; cases ha
    | some x => rw [hq] at ha; cases ha; rfl
  · rintro ⟨art, ls', ha, hl, h⟩
    have hl := (trimHeader_exact hn).2 hl
    rw [ha]
    simp only [Res.ofOption, Res.bind_ok]
    rw [hl, Res.bind_ok]
    exact (key _ _ hl).2 h

theorem listIs_ne_nil {I C : Type} [IdentifierCommon I] {Head : Line → I → Line → Prop} {First : I → Prop}
    {El : WrapUpMode → I → List Line → SAE I C → List Line → Prop} {context : ParsingContext} {wrapUps : Bool}
    {n : Nat} {es : List (SAE I C)} {w : Option Str} {more : List Line} :
    ¬ ListIs Head First El context wrapUps n [] es w more := by
  rintro ⟨⟨is, last, _, h1, _⟩, _⟩
  simp [itemLines] at h1

theorem simple_exact {position : Ref} {ls : List Line} (hn : NoTrailingSpace ls) (c : BlockAmendmentChildren) :
    simple position ls = .ok c ↔ BlockChildrenAre position ls c := by
  unfold simple
  by_cases hne : ls = []
  · subst hne
    rw [if_pos rfl]
    constructor
    · intro h; cases h
    · intro h
      cases c with
      | paragraph es =>
        obtain ⟨r, art, ls', _, _, ⟨l, rest, h, _⟩, _⟩ := h
        cases h
      | alphabeticPoint es => obtain ⟨r, _, h⟩ := h; exact (listIs_ne_nil h).elim
      | numericPoint es => obtain ⟨r, _, h⟩ := h; exact (listIs_ne_nil h).elim
      | alphabeticSubpoint es => obtain ⟨r, _, h⟩ := h; exact (listIs_ne_nil h).elim
      | numericSubpoint es => obtain ⟨r, _, h⟩ := h; exact (listIs_ne_nil h).elim
  · rw [if_neg hne]
    have k1 := fun r => elements_exact numericPoint_level (fun h => numericPoints_ne_panic ls h hn params (some r))
    have k2 := fun r => elements_exact alphabeticPoint_level (fun h => alphabeticPoints_ne_panic ls h hn params (some r))
    have k3 := fun r => elements_exact numericSubpoint_level (fun h => numericSubpoints_ne_panic ls h hn params (some r))
    have k4 := fun pfx r => elements_exact (alphabeticSubpoint_level pfx)
      (fun h => alphabeticSubpoints_ne_panic pfx ls h hn params (some r))
    constructor
    · intro h
      split at h
      · rename_i r hp
        obtain ⟨es, he, rfl⟩ := map_ok.1 h
        obtain ⟨art, ls', h1, h2, h3⟩ := (paragraphs_exact hn es).1 he
        exact ⟨r, art, ls', hp, h1, h2, h3⟩
      · rename_i r hp
        obtain ⟨es, he, rfl⟩ := map_ok.1 h
        exact ⟨r, hp, (k1 _ es).1 he⟩
      · rename_i r hp
        obtain ⟨es, he, rfl⟩ := map_ok.1 h
        exact ⟨r, hp, (k2 _ es).1 he⟩
      · rename_i r hp
        obtain ⟨es, he, rfl⟩ := map_ok.1 h
        exact ⟨r, hp, (k3 _ es).1 he⟩
      · rename_i r hp
        obtain ⟨es, he, rfl⟩ := map_ok.1 h
        exact ⟨r, hp, (k4 _ _ es).1 he⟩
      · cases h
      · cases h
      · cases h
    · intro h
      cases c with
      | paragraph es =>
        obtain ⟨r, art, ls', h1, h2⟩ := h
        rw [h1]
        exact map_ok.2 ⟨es, (paragraphs_exact hn es).2 ⟨art, ls', h2⟩, rfl⟩
      | alphabeticPoint es =>
        obtain ⟨r, h1, h2⟩ := h
        rw [h1]
        exact map_ok.2 ⟨es, (k2 _ es).2 h2, rfl⟩
      | numericPoint es =>
        obtain ⟨r, h1, h2⟩ := h
        rw [h1]
        exact map_ok.2 ⟨es, (k1 _ es).2 h2, rfl⟩
      | alphabeticSubpoint es =>
        obtain ⟨r, h1, h2⟩ := h
        rw [h1]
        exact map_ok.2 ⟨es, (k4 _ _ es).2 h2, rfl⟩
      | numericSubpoint es =>
        obtain ⟨r, h1, h2⟩ := h
        rw [h1]
        exact map_ok.2 ⟨es, (k3 _ es).2 h2, rfl⟩

/-! ### articles -/

theorem tryCreate_none {f : ArticleFactory} {last : Option (Line × ArticleId)} (hk : Knows f .blockAmendment last)
    {l : Line} (hl : l.content.getLast? ≠ some ' ') (h : ∀ id, ¬ ArticleStart .blockAmendment last l id) :
    f.tryCreate l none = .err := by
  cases hx : f.tryCreate l none with
  | err => rfl
  | panic => exact absurd hx (tryCreate_ne_panic hl)
  | ok r =>
    obtain ⟨p, f'⟩ := r
    exact absurd (tryCreate_ok hk hx).1 (h _)

theorem articlesFrom_feed {f : ArticleFactory} {h : Line} {id : ArticleId} {r : Line} {result : List (ActChild Empty)}
    (hk : Knows f .blockAmendment (some (h, id))) (more y : List Line) : ∀ {x : List Line}, NoTrailingSpace y →
    (∀ l ∈ y, ∀ id', ¬ ArticleStart .blockAmendment (some (h, id)) l id') →
    articlesFrom f ⟨id, r :: x, .blockAmendment⟩ result (y ++ more) =
      articlesFrom f ⟨id, r :: (x ++ y), .blockAmendment⟩ result more := by
  induction y with
  | nil => intro x _ _; simp
  | cons l y ih =>
    intro x hn hno
    rw [List.cons_append, articlesFrom, tryCreate_none hk (hn l (by simp)) (hno l (by simp))]
    simp only [ArticleParser.feedLine, List.cons_append]
    rw [ih (x := x ++ [l]) (fun m hm => hn m (by simp [hm])) (fun m hm => hno m (by simp [hm]))]
    simp

theorem start_header {last : Option (Line × ArticleId)} {l : Line} {id : ArticleId}
    (h : ArticleStart .blockAmendment last l id) : ∃ rest, HeadOf ArticleHeader ArticleId.parse l id rest := by
  obtain ⟨⟨t, r, h1, h2, h3⟩, _⟩ := h
  exact ⟨_, t, r, h1, h2, h3, rfl⟩

theorem head_unique {l : Line} {id id' : ArticleId} {rest rest' : Line}
    (h : HeadOf ArticleHeader ArticleId.parse l id rest) (h' : HeadOf ArticleHeader ArticleId.parse l id' rest') :
    id = id' ∧ rest = rest' := by
  have h1 := (Props.C27_article_header_iff _ _ _).2 h
  rw [(Props.C27_article_header_iff _ _ _).2 h'] at h1
  simp only [Res.ok.injEq, Option.some.injEq, Prod.mk.injEq] at h1
  exact ⟨h1.1.symm, h1.2.symm⟩

theorem articlesFrom_complete (ps : List ArticlePiece) : ∀ {f : ArticleFactory} {p : ArticlePiece} {r : Line}
    {before : List Line} {last : Option (Line × ArticleId)} {result : List (ActChild Empty)},
    Knows f .blockAmendment (some (p.head, p.article.identifier)) →
    HeadOf ArticleHeader ArticleId.parse p.head p.article.identifier r →
    HeadersOutside (before ++ articleLines (p :: ps)) → NoTrailingSpace (before ++ articleLines (p :: ps)) →
    ArticleDivision before last (p :: ps) →
    articlesFrom f ⟨p.article.identifier, [r], .blockAmendment⟩ result (p.body ++ articleLines ps) =
      .ok (result ++ (p :: ps).map (fun p => .article p.article)) := by
  induction ps with
  | nil =>
    intro f p r before last result hk hr hq hn hd
    obtain ⟨h1, h2, ⟨r', h3, h4⟩, h5, -⟩ := hd
    obtain rfl := (head_unique hr h3).2
    have hno : ∀ l ∈ p.body, ∀ id', ¬ ArticleStart .blockAmendment (some (p.head, p.article.identifier)) l id' := by
      intro l hl id' hs
      obtain ⟨x, y, e⟩ := List.append_of_mem hl
      by_cases hb : BalancedLines (before ++ p.head :: x)
      · exact h5 x l y e hb id' hs
      · obtain ⟨rest, hh⟩ := start_header hs
        refine hq (before ++ p.head :: x) l y ?_ hb _ _ hh
        simp [articleLines, e]
    rw [articlesFrom_feed hk _ _ (fun l hl => hn l (by simp [articleLines, hl])) hno]
    simp only [articleLines, List.flatMap_nil, List.nil_append]
    rw [articlesFrom, finish_complete (a := p.article) ?_ rfl h4]
    · simp
    · intro l hl
      simp only [List.mem_cons] at hl
      rcases hl with rfl | hl
      · exact (articleHead_rest hr).2 (hn p.head (by simp [articleLines]))
      · exact hn l (by simp [articleLines, hl])
  | cons q ps ih =>
    intro f p r before last result hk hr hq hn hd
    obtain ⟨h1, h2, ⟨r', h3, h4⟩, h5, h6⟩ := hd
    obtain rfl := (head_unique hr h3).2
    have hno : ∀ l ∈ p.body, ∀ id', ¬ ArticleStart .blockAmendment (some (p.head, p.article.identifier)) l id' := by
      intro l hl id' hs
      obtain ⟨x, y, e⟩ := List.append_of_mem hl
      by_cases hb : BalancedLines (before ++ p.head :: x)
      · exact h5 x l y e hb id' hs
      · obtain ⟨rest, hh⟩ := start_header hs
        refine hq (before ++ p.head :: x) l (y ++ articleLines (q :: ps)) ?_ hb _ _ hh
        simp [articleLines, e]
    rw [articlesFrom_feed hk _ _ (fun l hl => hn l (by simp [articleLines, hl])) hno]
    have e : articleLines (q :: ps) = q.head :: (q.body ++ articleLines ps) := by simp [articleLines]
    have h6' := h6
    obtain ⟨g1, g2, ⟨rq, g3, g4⟩, _⟩ := h6'
    have hfin : ArticleParser.finish ⟨p.article.identifier, r :: p.body, .blockAmendment⟩ = .ok p.article := by
      refine finish_complete (a := p.article) ?_ rfl h4
      intro l hl
      simp only [List.mem_cons] at hl
      rcases hl with rfl | hl
      · exact (articleHead_rest hr).2 (hn p.head (by simp [articleLines]))
      · exact hn l (by simp [articleLines, hl])
    rw [e, articlesFrom]
    cases hx : f.tryCreate q.head none with
    | panic => exact absurd hx (tryCreate_ne_panic (hn q.head (by simp [articleLines])))
    | err => exact absurd g2 (tryCreate_err hk hx _)
    | ok y =>
      obtain ⟨p', f'⟩ := y
      obtain ⟨k1, k2, rest', k3, k4⟩ := tryCreate_ok hk hx
      obtain ⟨e1, rfl⟩ := head_unique ((Props.C27_article_header_iff _ _ _).1 k3) g3
      rw [e1] at k2 k4
      simp only
      rw [List.nil_append, hfin, Res.bind_ok, k4]
      have hl : before ++ articleLines (p :: q :: ps) = (before ++ p.head :: p.body) ++ articleLines (q :: ps) := by
        simp [articleLines]
      rw [hl] at hq hn
      rw [ih k2 g3 hq hn h6]
      simp

theorem articlesFrom_sound (ls : List Line) : ∀ {f : ArticleFactory} {h rest : Line} {body before : List Line}
    {id : ArticleId} {last : Option (Line × ArticleId)} {result out : List (ActChild Empty)},
    Knows f .blockAmendment (some (h, id)) → HeadOf ArticleHeader ArticleId.parse h id rest →
    ArticleStart .blockAmendment last h id → BalancedLines before → HeadersOutside (before ++ h :: body ++ ls) →
    (∀ l ∈ body, ∀ id', ¬ ArticleStart .blockAmendment (some (h, id)) l id') →
    articlesFrom f ⟨id, rest :: body, .blockAmendment⟩ result ls = .ok out →
    ∃ p ps, out = result ++ (p :: ps).map (fun p => .article p.article) ∧ p.article.identifier = id ∧
      h :: body ++ ls = articleLines (p :: ps) ∧ ArticleDivision before last (p :: ps) := by
  induction ls with
  | nil =>
    intro f h rest body before id last result out hk hh hs hb hq hno hf
    rw [articlesFrom, Res.bind_eq_ok] at hf
    obtain ⟨a, ha, hf⟩ := hf
    cases hf
    obtain ⟨e, hi⟩ := finish_sound ha
    simp only at e hi
    refine ⟨⟨h, body, a⟩, [], rfl, e, by simp [articleLines], hb, e ▸ hs, ⟨rest, e ▸ hh, hi⟩, ?_, trivial⟩
    intro x l y hx _ id'
    simp only at hx
    rw [e]
    exact hno l (by rw [hx]; simp) id'
  | cons l ls ih =>
    intro f h rest body before id last result out hk hh hs hb hq hno hf
    rw [articlesFrom] at hf
    split at hf
    · rename_i p' f' hc
      rw [Res.bind_eq_ok] at hf
      obtain ⟨a, ha, hf⟩ := hf
      obtain ⟨e, hi⟩ := finish_sound ha
      simp only at e hi
      obtain ⟨h1, h2, rest', h3, h4⟩ := tryCreate_ok hk hc
      rw [h4] at hf
      have hbal : BalancedLines (before ++ h :: body) := by
        by_contra hnb
        exact hq (before ++ h :: body) l ls (by simp) hnb _ _ ((Props.C27_article_header_iff _ _ _).1 h3)
      obtain ⟨p, ps, g1, g2, g3, g4⟩ := ih (body := []) (before := before ++ h :: body) h2
        ((Props.C27_article_header_iff _ _ _).1 h3) h1 hbal (by simpa using hq) (by simp) hf
      refine ⟨⟨h, body, a⟩, p :: ps, by rw [g1]; simp, e, ?_, hb, e ▸ hs, ⟨rest, e ▸ hh, hi⟩, ?_, ?_⟩
      · rw [show articleLines (⟨h, body, a⟩ :: p :: ps) = h :: body ++ articleLines (p :: ps) by simp [articleLines], ← g3]
        simp
      · intro x l y hx _ id'
        simp only at hx
        rw [e]
        exact hno l (by rw [hx]; simp) id'
      · rw [e]; exact g4
    · rename_i hc
      have := ih (body := body ++ [l]) hk hh hs hb (by simpa using hq) (by
        intro m hm
        simp only [List.mem_append, List.mem_singleton] at hm
        rcases hm with hm | rfl
        · exact hno m hm
        · exact tryCreate_err hk hc) hf
      simpa using this
    · cases hf

theorem articles_exact {first : ArticleId} {ls : List Line} (hn : NoTrailingSpace ls) (hq : HeadersOutside ls)
    (cs : List (ActChild Empty)) : articles first ls = .ok cs ↔ ArticlesAre first ls cs := by
  constructor
  · intro h
    cases ls with
    | nil => cases h
    | cons l ls =>
      unfold articles at h
      rw [Res.bind_eq_ok] at h
      obtain ⟨⟨p, f⟩, hc, h⟩ := h
      obtain ⟨hk, rest, hr, rfl⟩ := tryCreate_first rfl hc
      have hh := (Props.C27_article_header_iff _ _ _).1 hr
      have hs : ArticleStart .blockAmendment none l first := by
        obtain ⟨t, r, h1, h2, h3, -⟩ := hh
        exact ⟨⟨t, r, h1, h2, h3⟩, by simp⟩
      obtain ⟨p, ps, h1, h2, h3, h4⟩ := articlesFrom_sound ls (body := []) (before := []) hk hh hs rfl
        (by simpa using hq) (by simp) h
      exact ⟨p, ps, by simpa using h3, by simpa using h1, h2, h4⟩
  · rintro ⟨p, ps, rfl, rfl, rfl, hd⟩
    have hd' := hd
    obtain ⟨-, -, ⟨rest, h3, -⟩, -⟩ := hd
    have e : articleLines (p :: ps) = p.head :: (p.body ++ articleLines ps) := by simp [articleLines]
    have hc : (ArticleFactory.new .blockAmendment).tryCreate p.head (some p.article.identifier) =
        .ok (⟨p.article.identifier, [rest], .blockAmendment⟩,
          ⟨some p.article.identifier, some p.head.indent, .blockAmendment⟩) := by
      unfold ArticleFactory.tryCreate
      rw [(Props.C27_article_header_iff _ _ _).2 h3]
      simp [ArticleFactory.goodIndent, ArticleFactory.new, ArticleFactory.goodId]
    rw [e, articles, hc, Res.bind_ok]
    exact articlesFrom_complete ps (before := []) (result := []) ⟨rfl, rfl, rfl⟩ h3 (by simpa using hq)
      (by simpa using hn) hd'

/-! ### titles -/

theorem foldl_feed (ls : List Line) (e : StructuralElement) :
    ls.foldl StructuralElement.feedLine e = { e with title := ls.foldl (fun s l => l.appendTo s) e.title } := by
  induction ls generalizing e with
  | nil => rfl
  | cons l ls ih => rw [List.foldl_cons, ih]; rfl

theorem foldl_feedSubtitle (ls : List Line) (e : Subtitle) :
    ls.foldl Subtitle.feedLine e = { e with title := ls.foldl (fun s l => l.appendTo s) e.title } := by
  induction ls generalizing e with
  | nil => rfl
  | cons l ls ih => rw [List.foldl_cons, ih]; rfl

theorem titleOnlySe_exact {id : NumericId} {t : SEType} {ls : List Line} (c : ActChild Empty) :
    titleOnlySe id t ls = .ok c ↔ TitleIs t id ls c := by
  cases ls with
  | nil =>
    constructor
    · intro h; cases h
    · intro h
      cases c with
      | structuralElement e => obtain ⟨_, _, _, _, h, _⟩ := h; cases h
      | subtitle s => exact h.elim
      | article a => exact h.elim
  | cons l ls =>
    simp only [titleOnlySe, Res.ok.injEq]
    constructor
    · rintro rfl
      unfold titleStart
      cases ht : t.tryCreate l with
      | some e =>
        obtain ⟨h1, h2, h3, h4⟩ := (SEType.tryCreate_iff t l e).1 ht
        simp only [foldl_feed, h2]
        exact ⟨h3, h4, l, ls, rfl, .inl ⟨h1, Props.C26_join ls⟩⟩
      | none =>
        simp only [foldl_feed]
        refine ⟨rfl, rfl, l, ls, rfl, .inr ⟨?_, rfl, ?_⟩⟩
        · intro id' h
          rw [(SEType.tryCreate_iff t l ⟨id', [], t, none⟩).2 ⟨h, rfl, rfl, rfl⟩] at ht
          cases ht
        · exact Props.C26_join (l :: ls)
    · intro h
      cases c with
      | subtitle s => exact h.elim
      | article a => exact h.elim
      | structuralElement e =>
        obtain ⟨h1, h0, l', ls', he, h⟩ := h
        simp only [List.cons.injEq] at he
        obtain ⟨rfl, rfl⟩ := he
        unfold titleStart
        rcases h with ⟨h2, h3⟩ | ⟨h2, h3, h4⟩
        · rw [(SEType.tryCreate_iff t l ⟨e.identifier, [], t, none⟩).2 ⟨h2, rfl, rfl, rfl⟩]
          simp only [foldl_feed]
          rw [show ls.foldl (fun s l => l.appendTo s) [] = e.title from joined_unique (Props.C26_join ls) h3, ← h1, ← h0]
        · have : t.tryCreate l = none := by
            cases ht : t.tryCreate l with
            | none => rfl
            | some e' => exact absurd ((SEType.tryCreate_iff t l e').1 ht).1 (h2 _)
          rw [this]
          simp only [foldl_feed]
          have : ls.foldl (fun s l => l.appendTo s) (StructuralElement.feedLine ⟨id, [], t, none⟩ l).title = e.title :=
            joined_unique (Props.C26_join (l :: ls)) h4
          rw [this, ← h1, ← h3]
          cases e
          simp only at h0
          rw [h0]
          rfl

theorem subtitleStart_ne_nil {upper : Char → Bool} {context : ParsingContext} {prevEmpty : Bool} {l : Line}
    {id : Option NumericId} {title : Str} (h : SubtitleStart upper context prevEmpty l id title) : title ≠ [] := by
  obtain ⟨_, h⟩ := h
  cases id with
  | none =>
    obtain ⟨_, _, rfl, c, t, e, _⟩ := h
    rw [e]; simp
  | some id =>
    obtain ⟨n, h, _⟩ := h
    rintro rfl
    revert h
    unfold SubtitleHeader
    simp

theorem subtitleOnlySe_exact {upper : Char → Bool} {ls : List Line} (c : ActChild Empty) :
    subtitleOnlySe upper ls = .ok c ↔ SubtitleIs upper ls c := by
  cases ls with
  | nil =>
    constructor
    · intro h; cases h
    · intro h
      cases c with
      | structuralElement e => exact h.elim
      | subtitle s => obtain ⟨_, _, _, _, h, _⟩ := h; cases h
      | article a => exact h.elim
  | cons l ls =>
    have key : ∀ title, title ≠ [] → Joined (title :: nonEmptyTexts ls) (ls.foldl (fun s l => l.appendTo s) title) := by
      intro title ht
      have := joined_fold title ls
      rw [List.filter_cons_of_pos (by simpa using ht)] at this
      exact this
    unfold subtitleOnlySe
    constructor
    · intro h
      rw [Res.bind_eq_ok] at h
      obtain ⟨s, hs, h⟩ := h
      cases h
      have hs' : subtitleTryCreate upper l true .blockAmendment = some s := by
        cases hq : subtitleTryCreate upper l true .blockAmendment with
        | none => rw [hq] at hs; cases hs
        | some x => rw [hq] at hs; cases hs; rfl
      obtain ⟨hst, h0⟩ := (subtitleTryCreate_iff _ _ _ _ _).1 hs'
      rw [foldl_feedSubtitle]
      exact ⟨h0, l, ls, s.title, rfl, hst, key _ (subtitleStart_ne_nil hst)⟩
    · intro h
      cases c with
      | structuralElement e => exact h.elim
      | article a => exact h.elim
      | subtitle s =>
        obtain ⟨h0, l', ls', title, he, h1, h2⟩ := h
        simp only [List.cons.injEq] at he
        obtain ⟨rfl, rfl⟩ := he
        simp only
        rw [(subtitleTryCreate_iff upper l true .blockAmendment ⟨s.identifier, title, none⟩).2 ⟨h1, rfl⟩]
        simp only [Res.ofOption, Res.bind_ok, foldl_feedSubtitle]
        rw [joined_unique (key _ (subtitleStart_ne_nil h1)) h2, ← h0]

theorem titleOnlyChild_exact {upper : Char → Bool} {e : StructuralRefElement} {ls : List Line} (c : ActChild Empty) :
    titleOnlyChild upper e ls = .ok c ↔ TitleOnlyIs upper e ls c := by
  unfold titleOnlyChild TitleOnlyIs
  cases e <;> first
    | exact titleOnlySe_exact c
    | exact subtitleOnlySe_exact c
    | simp

/-! ### all -/

theorem structural_exact {upper : Char → Bool} {position : StructuralRef} {ls : List Line} (hn : NoTrailingSpace ls)
    (hq : ∀ r, position.element = .article r → HeadersOutside ls) (cs : List (ActChild Empty)) :
    structural upper position ls = .ok cs ↔ StructuralChildrenAre upper position ls cs := by
  have body : Res.map Prod.snd (parseComplexBody upper ls .blockAmendment) = .ok cs ↔
      ∃ preamble, BodyIs .blockAmendment upper ls preamble cs := by
    rw [map_ok]
    constructor
    · rintro ⟨⟨pre, cs'⟩, h, rfl⟩
      exact ⟨pre, parseComplexBody_sound h⟩
    · rintro ⟨pre, h⟩
      exact ⟨(pre, cs), parseComplexBody_complete hn h, rfl⟩
  have titles : titleOnly upper position ls = .ok cs ↔ ∃ c, cs = [c] ∧ TitleOnlyIs upper position.element ls c := by
    unfold titleOnly
    rw [Res.bind_eq_ok]
    constructor
    · rintro ⟨c, h, he⟩
      cases he
      exact ⟨c, rfl, (titleOnlyChild_exact c).1 h⟩
    · rintro ⟨c, rfl, h⟩
      exact ⟨c, (titleOnlyChild_exact c).2 h, rfl⟩
  unfold structural StructuralChildrenAre
  cases he : position.element with
  | article r => exact articles_exact hn (hq r he) cs
  | _ =>
    simp only
    rw [he] at titles
    split
    · exact titles
    · exact body

theorem paragraph_exact {upper : Char → Bool} {p : Paragraph Amendment} {i : Str} {b : QuotedBlock} {w : Option Str}
    (h : Awaits p i b w) (hn : NoTrailingSpace b.lines)
    (hq : AnnouncesArticles p.semanticInfo.specialPhrase → HeadersOutside b.lines) (a : Amendment) :
    ((paragraph upper p).2 = .ok () ∧ (paragraph upper p).1.body = .children i (.amendment a) w) ↔
      AmendmentIs upper p.semanticInfo.specialPhrase b a := by
  obtain ⟨hb, hs⟩ := h
  unfold paragraph
  simp only [hb, children]
  rcases hs with ⟨pos, f, hs⟩ | ⟨pos, f, hs⟩
  · rw [hs]
    simp only [block]
    cases hc : simple pos b.lines with
    | ok c =>
      simp only [true_and]
      constructor
      · intro h
        simp only [SAEBody.children.injEq, ParagraphChildren.amendment.injEq, true_and, and_true] at h
        subst h
        exact ⟨rfl, rfl, pos, f, rfl, (simple_exact hn c).1 hc⟩
      · intro h
        cases a with
        | block i' c' w' =>
          obtain ⟨rfl, rfl, pos', f', e, h⟩ := h
          simp only [Option.some.injEq, SpecialPhrase.blockAmendment.injEq] at e
          obtain ⟨rfl, rfl⟩ := e
          have := (simple_exact hn c').2 h
          rw [hc] at this
          cases this
          rfl
        | structural i' c' w' => obtain ⟨_, _, pos', f', e, h⟩ := h; cases e
    | _ =>
      simp only [reduceCtorEq, false_and, false_iff]
      intro h
      cases a with
      | block i' c' w' =>
        obtain ⟨rfl, rfl, pos', f', e, h⟩ := h
        simp only [Option.some.injEq, SpecialPhrase.blockAmendment.injEq] at e
        obtain ⟨rfl, rfl⟩ := e
        have := (simple_exact hn c').2 h
        rw [hc] at this
        cases this
      | structural i' c' w' => obtain ⟨_, _, pos', f', e, h⟩ := h; cases e
  · have hq' : ∀ r, pos.element = .article r → HeadersOutside b.lines := fun r hr => hq ⟨pos, f, r, hs, hr⟩
    rw [hs]
    simp only [block]
    cases hc : structural upper pos b.lines with
    | ok c =>
      simp only [true_and]
      constructor
      · intro h
        simp only [SAEBody.children.injEq, ParagraphChildren.amendment.injEq, true_and, and_true] at h
        subst h
        exact ⟨rfl, rfl, pos, f, rfl, (structural_exact hn hq' c).1 hc⟩
      · intro h
        cases a with
        | structural i' c' w' =>
          obtain ⟨rfl, rfl, pos', f', e, h⟩ := h
          simp only [Option.some.injEq, SpecialPhrase.structuralBlockAmendment.injEq] at e
          obtain ⟨rfl, rfl⟩ := e
          have := (structural_exact hn hq' c').2 h
          rw [hc] at this
          cases this
          rfl
        | block i' c' w' => obtain ⟨_, _, pos', f', e, h⟩ := h; cases e
    | _ =>
      simp only [reduceCtorEq, false_and, false_iff]
      intro h
      cases a with
      | structural i' c' w' =>
        obtain ⟨rfl, rfl, pos', f', e, h⟩ := h
        simp only [Option.some.injEq, SpecialPhrase.structuralBlockAmendment.injEq] at e
        obtain ⟨rfl, rfl⟩ := e
        have := (structural_exact hn hq' c').2 h
        rw [hc] at this
        cases this
      | block i' c' w' => obtain ⟨_, _, pos', f', e, h⟩ := h; cases e

end HunLaw.BlockAmend
