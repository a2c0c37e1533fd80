import Verif.Lemmas.Numbering
import Verif.Spec.BlockAmendment
import Verif.Props.Structure

/-! Lemmas about the conversion of block amendments. -/

set_option autoImplicit false

namespace HunLaw.BlockAmend

open HunLaw Spec

/-! ### what changes -/

theorem awaits_unique {p : Paragraph Amendment} {i i' : Str} {b b' : QuotedBlock} {w w' : Option Str}
    (h : Awaits p i b w) (h' : Awaits p i' b' w') : i = i' ∧ b = b' ∧ w = w' := by
  have := h.1.symm.trans h'.1
  simpa using this

theorem paragraph_cases (upper : Char → Bool) (p : Paragraph Amendment) :
    ((paragraph upper p).2 = .ok () ∧ ConvertedParagraph p (paragraph upper p).1) ∨
    ((paragraph upper p).2 ≠ .ok () ∧ FailedParagraph p (paragraph upper p).1) := by
  unfold paragraph
  cases hb : p.body with
  | text t =>
    refine .inl ⟨rfl, rfl, rfl, .inl ⟨rfl, ?_⟩⟩
    rintro i b w ⟨h, -⟩
    rw [hb] at h
    cases h
  | children i c w =>
    simp only
    unfold children
    split
    · rename_i b
      unfold block
      split
      · rename_i pos f hs
        have ha : Awaits p i b w := ⟨hb, .inl ⟨pos, f, hs⟩⟩
        split
        · exact .inl ⟨rfl, rfl, rfl, .inr ⟨i, b, w, _, ha, rfl, rfl, ⟨pos, f, hs⟩⟩⟩
        · exact .inr ⟨by simp, i, b, w, ha, rfl, rfl, rfl⟩
        · exact .inr ⟨by simp, i, b, w, ha, rfl, rfl, rfl⟩
      · rename_i pos f hs
        have ha : Awaits p i b w := ⟨hb, .inr ⟨pos, f, hs⟩⟩
        split
        · exact .inl ⟨rfl, rfl, rfl, .inr ⟨i, b, w, _, ha, rfl, rfl, ⟨pos, f, hs⟩⟩⟩
        · exact .inr ⟨by simp, i, b, w, ha, rfl, rfl, rfl⟩
        · exact .inr ⟨by simp, i, b, w, ha, rfl, rfl, rfl⟩
      · rename_i h1 h2
        refine .inl ⟨rfl, rfl, rfl, .inl ⟨hb.symm, ?_⟩⟩
        rintro i' b' w' ⟨-, ⟨pos, f, h⟩ | ⟨pos, f, h⟩⟩
        · exact h1 _ _ h
        · exact h2 _ _ h
    · rename_i hne
      refine .inl ⟨rfl, rfl, rfl, .inl ⟨hb.symm, ?_⟩⟩
      rintro i' b' w' ⟨h, -⟩
      rw [hb] at h
      cases h
      exact hne b' rfl

theorem tryForEach_upTo {X : Type} {f : X → X × Res Unit} {Done Failed : X → X → Prop}
    (hf : ∀ x, ((f x).2 = .ok () ∧ Done x (f x).1) ∨ ((f x).2 ≠ .ok () ∧ Failed x (f x).1)) (l : List X) :
    ((tryForEach f l).2 = .ok () ∧ UpTo Done Failed true l (tryForEach f l).1) ∨
    ((tryForEach f l).2 ≠ .ok () ∧ UpTo Done Failed false l (tryForEach f l).1) := by
  induction l with
  | nil => exact .inl ⟨rfl, .nil⟩
  | cons x l ih =>
    unfold tryForEach
    rcases hx : f x with ⟨y, r⟩
    have := hf x
    rw [hx] at this
    rcases this with ⟨h1, h2⟩ | ⟨h1, h2⟩
    · simp only at h1 h2
      subst h1
      rcases ih with ⟨h3, h4⟩ | ⟨h3, h4⟩
      · exact .inl ⟨h3, .done h2 h4⟩
      · exact .inr ⟨h3, .done h2 h4⟩
    · simp only at h1 h2
      cases r with
      | ok u => exact absurd rfl h1
      | err => exact .inr ⟨by simp, .failed h2⟩
      | panic => exact .inr ⟨by simp, .failed h2⟩

theorem actChild_cases (upper : Char → Bool) (c : ActChild Amendment) :
    ((actChild upper c).2 = .ok () ∧ ChildUpTo true c (actChild upper c).1) ∨
    ((actChild upper c).2 ≠ .ok () ∧ ChildUpTo false c (actChild upper c).1) := by
  cases c with
  | article a =>
    rcases tryForEach_upTo (paragraph_cases upper) a.children with ⟨h1, h2⟩ | ⟨h1, h2⟩
    · exact .inl ⟨h1, rfl, rfl, h2⟩
    · exact .inr ⟨h1, rfl, rfl, h2⟩
  | structuralElement e => exact .inl ⟨rfl, rfl, rfl⟩
  | subtitle s => exact .inl ⟨rfl, rfl, rfl⟩

/-! ### texts -/

theorem elements_ok {I C : Type} [DecidableEq I] [IdentifierCommon I] {p : SAEParser I C} {lines : List Line}
    {first : I} {es : List (SAE I C)} (h : elements p lines first = .ok es) :
    ∃ r, p.extractMultiple lines params (some first) = .ok r ∧ r.elements = es ∧ r.parentWrapUp = none ∧
      r.restOfWrapUp = [] := by
  obtain ⟨r, hr, rfl⟩ := map_ok.1 h
  obtain ⟨h1, h2⟩ := extractMultiple_noWrapUp rfl hr
  exact ⟨r, hr, rfl, h1, h2⟩

theorem elements_text {I C : Type} [DecidableEq I] [IdentifierCommon I] {p : SAEParser I C} {lines : List Line}
    {first : I} {es : List (SAE I C)} {Text : List (SAE I C) → Str → Prop}
    (ht : ∀ r, p.extractMultiple lines params (some first) = .ok r → ∃ t, Text r.elements t ∧
      noSpaces (allText lines) = t ++ noSpaces (r.parentWrapUp.getD []) ++ noSpaces (allText r.restOfWrapUp))
    (h : elements p lines first = .ok es) : Text es (noSpaces (allText lines)) := by
  obtain ⟨r, hr, rfl, h1, h2⟩ := elements_ok h
  obtain ⟨t, ht, he⟩ := ht r hr
  rw [h1, h2] at he
  simp only [Option.getD_none, noSpaces_nil, allText_nil, List.append_nil] at he
  rw [he]
  exact ht

theorem noSpaces_display (id : ArticleId) : noSpaces id.display = id.display := by
  apply noSpaces_of_not_mem
  have hd : ∀ n, ' ' ∉ dec n := fun n h => absurd (dec_digits n _ h) (by decide)
  have hc : ∀ c : HunChar, ' ' ∉ c.displayUpper := by decide +kernel
  have hs : ' ' ∉ id.identifier.displaySlash := by
    unfold NumericId.displaySlash
    split
    · rename_i c _
      simp [hd, hc c]
    · exact hd _
  unfold ArticleId.display
  split <;> simp [hd, hs]

theorem trimHeader_text {id : ArticleId} {lines ls : List Line} (h : trimHeader (articleHeader id) lines = .ok ls) :
    ls = lines ∨ noSpaces (allText lines) = articleMark id ++ noSpaces (allText ls) := by
  cases lines with
  | nil => cases h
  | cons l rest =>
    simp only [trimHeader] at h
    by_cases hs : startsWith l.content (articleHeader id) = true
    · rw [if_pos hs, Res.bind_eq_ok] at h
      obtain ⟨m, hm, h⟩ := h
      cases h
      right
      obtain ⟨r, hr⟩ := startsWith_iff.1 hs
      by_cases hne : r = []
      · exfalso
        subst hne
        unfold Line.sliceBytes at hm
        rw [hr, List.append_nil, Line.charPosition_end] at hm
        cases hm
      · obtain ⟨-, m', hm', hc, -⟩ := Props.C25_slice_bytes_partial l (articleHeader id) r [] (by simpa using hr)
          (by simpa using hne)
        rw [hm] at hm'
        cases hm'
        rw [allText_cons, allText_cons, hr, hc, noSpaces_append, noSpaces_append, noSpaces_append, List.append_nil]
        unfold articleHeader articleMark
        rw [noSpaces_append, noSpaces_display]
        simp only [List.append_assoc]
        rfl
    · rw [if_neg hs] at h
      cases h
      exact .inl rfl

theorem simple_text {position : Ref} {lines : List Line} {c : BlockAmendmentChildren}
    (h : simple position lines = .ok c) :
    BlockChildrenText c (noSpaces (allText lines)) ∨
      ∃ ps r u, c = .paragraph ps ∧ position.article = some r ∧ BlockChildrenText c u ∧
        noSpaces (allText lines) = articleMark r.first ++ u := by
  have key := Props.C36_list_text params
  unfold simple at h
  split at h
  · cases h
  · split at h
    · obtain ⟨ps, hp, rfl⟩ := map_ok.1 h
      unfold paragraphs at hp
      rw [Res.bind_eq_ok] at hp
      obtain ⟨art, ha, hp⟩ := hp
      rw [Res.bind_eq_ok] at hp
      obtain ⟨ls, hl, hp⟩ := hp
      obtain ⟨r, hr, rfl, h1, h2⟩ := elements_ok hp
      obtain ⟨t, ht, he⟩ := (key ls).1 _ _ hr
      rw [h1, h2] at he
      simp only [Option.getD_none, noSpaces_nil, allText_nil, List.append_nil] at he
      subst he
      rcases trimHeader_text hl with rfl | e
      · exact .inl ht
      · refine .inr ⟨_, art, _, rfl, ?_, ht, e⟩
        cases hq : position.article with
        | none => rw [hq] at ha; cases ha
        | some x => rw [hq] at ha; cases ha; rfl
    · obtain ⟨es, hp, rfl⟩ := map_ok.1 h
      exact .inl (elements_text (fun r => (key lines).2.2.1 _ r) hp)
    · obtain ⟨es, hp, rfl⟩ := map_ok.1 h
      exact .inl (elements_text (fun r => (key lines).2.1 _ r) hp)
    · obtain ⟨es, hp, rfl⟩ := map_ok.1 h
      exact .inl (elements_text (fun r => (key lines).2.2.2.1 _ r) hp)
    · obtain ⟨es, hp, rfl⟩ := map_ok.1 h
      exact .inl (elements_text (fun r => (key lines).2.2.2.2 _ _ r) hp)
    · cases h
    · cases h
    · cases h

theorem simple_numbered {position : Ref} {lines : List Line} {c : BlockAmendmentChildren}
    (h : simple position lines = .ok c) : BlockChildrenNumbered position c := by
  have key := Props.C35_amendment_lists .blockAmendment false false
  unfold simple at h
  split at h
  · cases h
  · split at h
    · rename_i r hp
      obtain ⟨ps, hq, rfl⟩ := map_ok.1 h
      unfold paragraphs at hq
      rw [Res.bind_eq_ok] at hq
      obtain ⟨art, ha, hq⟩ := hq
      rw [Res.bind_eq_ok] at hq
      obtain ⟨ls, hl, hq⟩ := hq
      obtain ⟨x, hr, rfl, -⟩ := elements_ok hq
      exact ⟨r, hp, (key ls).1 _ _ hr⟩
    · rename_i r hp
      obtain ⟨ps, hq, rfl⟩ := map_ok.1 h
      obtain ⟨x, hr, rfl, -⟩ := elements_ok hq
      exact ⟨r, hp, (key lines).2.2.1 _ _ hr⟩
    · rename_i r hp
      obtain ⟨ps, hq, rfl⟩ := map_ok.1 h
      obtain ⟨x, hr, rfl, -⟩ := elements_ok hq
      exact ⟨r, hp, (key lines).2.1 _ _ hr⟩
    · rename_i r hp
      obtain ⟨ps, hq, rfl⟩ := map_ok.1 h
      obtain ⟨x, hr, rfl, -⟩ := elements_ok hq
      exact ⟨r, hp, (key lines).2.2.2.1 _ _ hr⟩
    · rename_i r hp
      obtain ⟨ps, hq, rfl⟩ := map_ok.1 h
      obtain ⟨x, hr, rfl, -⟩ := elements_ok hq
      exact ⟨r, hp, (key lines).2.2.2.2 _ _ _ hr⟩
    · cases h
    · cases h
    · cases h

/-! ### articles -/

theorem tryCreate_first {f : ArticleFactory} {l : Line} {first : ArticleId} {p : ArticleParser} {f' : ArticleFactory}
    (hf : f.context = .blockAmendment) (h : f.tryCreate l (some first) = .ok (p, f')) :
    Knows f' .blockAmendment (some (l, first)) ∧
      ∃ rest, parseArticleHeader l = .ok (some (first, rest)) ∧ p = ⟨first, [rest], .blockAmendment⟩ := by
  unfold ArticleFactory.tryCreate at h
  split at h
  · cases h
  · rw [Res.bind_eq_ok] at h
    obtain ⟨o, ho, h⟩ := h
    cases o with
    | none => cases h
    | some x =>
      obtain ⟨id, rest⟩ := x
      simp only at h
      split at h
      · rename_i hg
        simp only [Res.ok.injEq, Prod.mk.injEq] at h
        obtain ⟨rfl, rfl⟩ := h
        have : first = id := by simpa [ArticleFactory.goodId] using hg
        subst this
        exact ⟨⟨rfl, rfl, hf⟩, rest, ho, by rw [hf]⟩
      · cases h

theorem actChildrenText_append {a b : List (ActChild Empty)} {s t : Str} (ha : ActChildrenText a s)
    (hb : ActChildrenText b t) : ActChildrenText (a ++ b) (s ++ t) := by
  induction a generalizing s with
  | nil => cases ha; exact hb
  | cons c cs ih =>
    obtain ⟨x, y, h1, h2, rfl⟩ := ha
    exact ⟨x, y ++ t, h1, ih h2, by simp⟩

theorem articlesFrom_spec (ls : List Line) : ∀ {f : ArticleFactory} {h rest : Line} {body : List Line} {id : ArticleId}
    {result out : List (ActChild Empty)}, Knows f .blockAmendment (some (h, id)) →
    parseArticleHeader h = .ok (some (id, rest)) →
    articlesFrom f ⟨id, rest :: body, .blockAmendment⟩ result ls = .ok out →
    ∃ cs, out = result ++ cs ∧ ActChildrenText cs (noSpaces (allText (h :: body ++ ls))) ∧ ArticlesNumbered id cs := by
  induction ls with
  | nil =>
    intro f h rest body id result out hk hh hf
    unfold articlesFrom at hf
    rw [Res.bind_eq_ok] at hf
    obtain ⟨a, ha, hf⟩ := hf
    cases hf
    obtain ⟨e, ht⟩ := article_text hh ha
    refine ⟨[.article a], rfl, ⟨_, [], ht, rfl, by simp⟩, ?_, ?_, ?_⟩
    · intro c hc
      rw [List.mem_singleton] at hc
      exact ⟨a, hc, articleOf_numbered (finish_articleOf ha)⟩
    · simp [articleIds, e]
    · simp [articleIds, Consecutive]
  | cons l ls ih =>
    intro f h rest body id result out hk hh hf
    unfold articlesFrom at hf
    split at hf
    · rename_i p' f' hc
      rw [Res.bind_eq_ok] at hf
      obtain ⟨a, ha, hf⟩ := hf
      obtain ⟨e, ht⟩ := article_text hh ha
      obtain ⟨h1, h2, rest', h3, h4⟩ := tryCreate_ok hk hc
      rw [h4] at hf
      obtain ⟨cs, rfl, h5, h6, h7, h8⟩ := ih h2 h3 hf
      refine ⟨.article a :: cs, by simp, ⟨_, _, ht, h5, ?_⟩, ?_, ?_, ?_⟩
      · rw [← noSpaces_append, ← allText_append]
        simp
      · intro c hc
        rcases List.mem_cons.1 hc with rfl | hc
        · exact ⟨a, rfl, articleOf_numbered (finish_articleOf ha)⟩
        · exact h6 c hc
      · simp [articleIds, e]
      · rw [articleIds_cons]
        simp only
        cases hi : articleIds cs with
        | nil => rw [hi] at h7; cases h7
        | cons x xs =>
          rw [hi] at h7 h8
          simp only [List.head?_cons, Option.some.injEq] at h7
          subst h7
          refine ⟨?_, h8⟩
          rw [e]
          exact h1.2.2
    · have := ih (body := body ++ [l]) hk hh hf
      simpa using this
    · cases hf

theorem articles_spec {first : ArticleId} {lines : List Line} {cs : List (ActChild Empty)}
    (h : articles first lines = .ok cs) :
    ActChildrenText cs (noSpaces (allText lines)) ∧ ArticlesNumbered first cs := by
  cases lines with
  | nil => cases h
  | cons l ls =>
    unfold articles at h
    rw [Res.bind_eq_ok] at h
    obtain ⟨⟨p, f⟩, hc, h⟩ := h
    obtain ⟨hk, rest, hr, rfl⟩ := tryCreate_first rfl hc
    obtain ⟨cs', rfl, h1, h2⟩ := articlesFrom_spec ls (body := []) hk hr h
    exact ⟨by simpa using h1, by simpa using h2⟩

/-! ### titles -/

theorem foldl_element (ls : List Line) (e : StructuralElement) :
    (ls.foldl StructuralElement.feedLine e).identifier = e.identifier ∧
      (ls.foldl StructuralElement.feedLine e).elementType = e.elementType ∧
      noSpaces (ls.foldl StructuralElement.feedLine e).title = noSpaces e.title ++ noSpaces (allText ls) := by
  induction ls generalizing e with
  | nil => simp
  | cons l ls ih =>
    obtain ⟨h1, h2, h3⟩ := ih (e.feedLine l)
    refine ⟨h1, h2, ?_⟩
    rw [List.foldl_cons, h3, allText_cons, noSpaces_append]
    simp [StructuralElement.feedLine, noSpaces_appendTo]

theorem foldl_subtitle (ls : List Line) (e : Subtitle) :
    (ls.foldl Subtitle.feedLine e).identifier = e.identifier ∧
      noSpaces (ls.foldl Subtitle.feedLine e).title = noSpaces e.title ++ noSpaces (allText ls) := by
  induction ls generalizing e with
  | nil => simp
  | cons l ls ih =>
    obtain ⟨h1, h3⟩ := ih (e.feedLine l)
    refine ⟨h1, ?_⟩
    rw [List.foldl_cons, h3, allText_cons, noSpaces_append]
    simp [Subtitle.feedLine, noSpaces_appendTo]

theorem titleOnlySe_text {id : NumericId} {t : SEType} {lines : List Line} {c : ActChild Empty}
    (h : titleOnlySe id t lines = .ok c) :
    ActChildText c (noSpaces (allText lines)) ∨
      ∃ e, c = .structuralElement e ∧ noSpaces (allText lines) = noSpaces e.title := by
  cases lines with
  | nil => cases h
  | cons l ls =>
    simp only [titleOnlySe, Res.ok.injEq] at h
    subst h
    unfold titleStart
    cases ht : t.tryCreate l with
    | some e =>
      obtain ⟨h1, h2, h3, -⟩ := (SEType.tryCreate_iff t l e).1 ht
      obtain ⟨g1, g2, g3⟩ := foldl_element ls e
      refine .inl ⟨l.content, by rw [g1, g2, h3]; exact h1, ?_⟩
      rw [g3, h2, allText_cons, noSpaces_append]
      rfl
    | none =>
      obtain ⟨-, -, g3⟩ := foldl_element ls ((StructuralElement.mk id [] t none).feedLine l)
      refine .inr ⟨_, rfl, ?_⟩
      rw [g3, allText_cons, noSpaces_append]
      simp [StructuralElement.feedLine, noSpaces_appendTo]

theorem subtitleOnlySe_text {upper : Char → Bool} {lines : List Line} {c : ActChild Empty}
    (h : subtitleOnlySe upper lines = .ok c) : ActChildText c (noSpaces (allText lines)) := by
  cases lines with
  | nil => cases h
  | cons l ls =>
    unfold subtitleOnlySe at h
    rw [Res.bind_eq_ok] at h
    obtain ⟨s, hs, h⟩ := h
    cases h
    have hs' : subtitleTryCreate upper l true .blockAmendment = some s := by
      cases hq : subtitleTryCreate upper l true .blockAmendment with
      | none => rw [hq] at hs; cases hs
      | some x => rw [hq] at hs; cases hs; rfl
    obtain ⟨⟨-, h1⟩, -⟩ := (subtitleTryCreate_iff _ _ _ _ _).1 hs'
    obtain ⟨g1, g2⟩ := foldl_subtitle ls s
    unfold ActChildText
    simp only [g1]
    cases hi : s.identifier with
    | none =>
      rw [hi] at h1
      obtain ⟨-, -, h2, -⟩ := h1
      simp only
      rw [g2, h2, allText_cons, noSpaces_append]
    | some id =>
      rw [hi] at h1
      obtain ⟨n, h3, h4⟩ := h1
      obtain ⟨-, hsp⟩ := subtitleHeader_nodot h3
      simp only
      refine ⟨n, h4, hsp, ?_⟩
      obtain ⟨e, -⟩ := h3
      rw [g2, allText_cons, e]
      have : noSpaces str!". " = ['.'] := by decide
      simp only [noSpaces_append, noSpaces_of_not_mem hsp, this, List.append_assoc]

theorem structural_text {upper : Char → Bool} {position : StructuralRef} {lines : List Line}
    {cs : List (ActChild Empty)} (h : structural upper position lines = .ok cs) :
    ActChildrenText cs (noSpaces (allText lines)) ∨
      ∃ e, position.titleOnly = true ∧ cs = [.structuralElement e] ∧ noSpaces (allText lines) = noSpaces e.title := by
  unfold structural at h
  split at h
  · exact .inl (articles_spec h).1
  · split at h
    · rename_i ht
      unfold titleOnly at h
      rw [Res.bind_eq_ok] at h
      obtain ⟨c, hc, h⟩ := h
      cases h
      have : ActChildText c (noSpaces (allText lines)) ∨
          ∃ e, c = .structuralElement e ∧ noSpaces (allText lines) = noSpaces e.title := by
        unfold titleOnlyChild at hc
        split at hc <;> first
          | exact titleOnlySe_text hc
          | exact .inl (subtitleOnlySe_text hc)
          | cases hc
      rcases this with h1 | ⟨e, rfl, h1⟩
      · exact .inl ⟨_, [], h1, rfl, by simp⟩
      · exact .inr ⟨e, ht, rfl, h1⟩
    · obtain ⟨⟨pre, cs'⟩, hp, rfl⟩ := map_ok.1 h
      left
      obtain ⟨⟨p, ps, h1, h2, -, h4, -, h3⟩, -⟩ := parseComplexBody_divided hp
      simp only at h2 h4 ⊢
      have hpre : pre = [] := by
        unfold parseComplexBody at hp
        rw [Res.bind_eq_ok] at hp
        obtain ⟨⟨a, b⟩, -, hp⟩ := hp
        simp only at hp
        split at hp
        · cases hp
        · rename_i hn
          split at hp
          · cases hp
          · cases hp
            by_contra hne
            exact hn ⟨by simp, hne⟩
      have : noSpaces (allText p) = [] := by
        rw [← noSpaces_join, ← h4, hpre]
        rfl
      rw [h1, h2, allText_append, noSpaces_append, this]
      exact division_text ps h3

/-! ### crashes -/

theorem trimHeader_ne_panic {header : Str} (hh : header.getLast? = some ' ') {lines : List Line} (hne : lines ≠ [])
    (hn : NoTrailingSpace lines) :
    trimHeader header lines ≠ .panic ∧ ∀ ls, trimHeader header lines = .ok ls → ls ≠ [] ∧ NoTrailingSpace ls := by
  cases lines with
  | nil => exact absurd rfl hne
  | cons l rest =>
    simp only [trimHeader]
    by_cases hs : startsWith l.content header = true
    · rw [if_pos hs]
      obtain ⟨r, hr⟩ := startsWith_iff.1 hs
      have hne : r ≠ [] := by
        rintro rfl
        refine hn l (by simp) ?_
        rw [hr, List.append_nil, hh]
      obtain ⟨-, m, hm, hc, -⟩ := Props.C25_slice_bytes_partial l header r [] (by simpa using hr) (by simpa using hne)
      rw [hm]
      simp only [Res.bind_ok]
      refine ⟨by simp, ?_⟩
      intro ls h
      cases h
      refine ⟨by simp, ?_⟩
      intro x hx
      rcases List.mem_cons.1 hx with rfl | hx
      · have := hn l (by simp)
        rw [hc, List.append_nil]
        rw [hr, List.getLast?_append_of_ne_nil _ hne] at this
        exact this
      · exact hn x (by simp [hx])
    · rw [if_neg hs]
      refine ⟨by simp, ?_⟩
      intro ls h
      cases h
      exact ⟨hne, hn⟩

theorem articleHeader_last (id : ArticleId) : (articleHeader id).getLast? = some ' ' := by
  unfold articleHeader
  rw [List.getLast?_append_of_ne_nil _ (by simp)]
  rfl

theorem simple_ne_panic (position : Ref) (lines : List Line) (hn : NoTrailingSpace lines) :
    simple position lines ≠ .panic := by
  unfold simple
  split
  · simp
  · rename_i hne
    split
    · apply map_ne_panic
      unfold paragraphs
      refine bind_ne_panic (by cases position.article <;> simp [Res.ofOption]) ?_
      intro a _
      obtain ⟨h1, h2⟩ := trimHeader_ne_panic (articleHeader_last a.first) hne hn
      refine bind_ne_panic h1 ?_
      intro ls hl
      obtain ⟨h3, h4⟩ := h2 ls hl
      exact map_ne_panic (paragraphList_ne_panic ls h3 h4 _ _)
    · exact map_ne_panic (map_ne_panic (numericPoints_ne_panic lines hne hn _ _))
    · exact map_ne_panic (map_ne_panic (alphabeticPoints_ne_panic lines hne hn _ _))
    · exact map_ne_panic (map_ne_panic (numericSubpoints_ne_panic lines hne hn _ _))
    · exact map_ne_panic (map_ne_panic (alphabeticSubpoints_ne_panic _ lines hne hn _ _))
    · simp
    · simp
    · simp

theorem tryCreate_ne_panic {f : ArticleFactory} {l : Line} {expected : Option ArticleId}
    (hl : l.content.getLast? ≠ some ' ') : f.tryCreate l expected ≠ .panic := by
  unfold ArticleFactory.tryCreate
  split
  · simp
  · refine bind_ne_panic ?_ ?_
    · intro hp
      obtain ⟨t, ht, -⟩ := (Props.C27_panic_iff l).2.2.2.2.1 hp
      exact hl (headerLine_trailing ht)
    · intro o _
      split
      · simp
      · split <;> simp

theorem tryCreate_parsed {f f' : ArticleFactory} {l : Line} {expected : Option ArticleId} {p : ArticleParser}
    (h : f.tryCreate l expected = .ok (p, f')) :
    ∃ id rest, parseArticleHeader l = .ok (some (id, rest)) ∧ p.lines = [rest] := by
  unfold ArticleFactory.tryCreate at h
  split at h
  · cases h
  · rw [Res.bind_eq_ok] at h
    obtain ⟨o, ho, h⟩ := h
    cases o with
    | none => cases h
    | some x =>
      obtain ⟨id, rest⟩ := x
      simp only at h
      split at h
      · cases h
        exact ⟨id, rest, ho, rfl⟩
      · cases h

theorem articlesFrom_panic (ls : List Line) : ∀ {done : List Line} {f : ArticleFactory} {p : ArticleParser}
    {result : List (ActChild Empty)}, Reading done (.article p) → NoTrailingSpace (done ++ ls) →
    articlesFrom f p result ls = .panic → TitleOnlyArticle (done ++ ls) := by
  induction ls with
  | nil =>
    intro done f p result hr hn h
    by_contra hno
    unfold articlesFrom at h
    refine bind_ne_panic (fun hs => hno (state_finish_panic hr hn ?_)) (by simp) h
    simp only [ParseState.finish]
    rw [hs]
    rfl
  | cons l ls ih =>
    intro done f p result hr hn h
    by_contra hno
    have e : done ++ l :: ls = done ++ [l] ++ ls := by simp
    have hn' := hn
    rw [e] at hn'
    have hno' := hno
    rw [e] at hno'
    unfold articlesFrom at h
    split at h
    · rename_i p' f' hc
      refine bind_ne_panic (fun hs => hno (state_finish_panic hr hn ?_)) ?_ h
      · simp only [ParseState.finish]
        rw [hs]
        rfl
      · intro a _ h
        refine hno' (ih ?_ hn' h)
        rintro q ⟨⟩
        obtain ⟨id, rest, h1, h2⟩ := tryCreate_parsed hc
        exact ⟨done, l, [], id, rest, rfl, (Props.C27_article_header_iff _ _ _).1 h1, h2⟩
    · refine hno' (ih ?_ hn' h)
      rintro q ⟨⟩
      obtain ⟨before, hd, body, id, r, hdone, hh, hp⟩ := hr p rfl
      exact ⟨before, hd, body ++ [l], id, r, by simp [hdone], hh, by simp [ArticleParser.feedLine, hp]⟩
    · rename_i hc
      exact tryCreate_ne_panic (hn l (by simp)) hc

theorem structural_ne_panic {upper : Char → Bool} (position : StructuralRef) (lines : List Line) (hne : lines ≠ [])
    (hn : NoTrailingSpace lines) (ht : ¬ TitleOnlyArticle lines) : structural upper position lines ≠ .panic := by
  cases lines with
  | nil => exact absurd rfl hne
  | cons l ls =>
    unfold structural
    split
    · unfold articles
      refine bind_ne_panic (tryCreate_ne_panic (hn l (by simp))) ?_
      rintro ⟨p, f⟩ hc h
      refine ht (articlesFrom_panic (done := [l]) ls ?_ hn h)
      rintro q ⟨⟩
      obtain ⟨id, rest, h1, h2⟩ := tryCreate_parsed hc
      exact ⟨[], l, [], id, rest, rfl, (Props.C27_article_header_iff _ _ _).1 h1, h2⟩
    · split
      · unfold titleOnly
        refine bind_ne_panic ?_ (by simp)
        have hs : subtitleOnlySe upper (l :: ls) ≠ .panic := by
          unfold subtitleOnlySe
          refine bind_ne_panic ?_ (by simp)
          cases subtitleTryCreate upper l true .blockAmendment <;> simp [Res.ofOption]
        unfold titleOnlyChild
        split <;> first
          | exact hs
          | simp [titleOnlySe]
      · exact map_ne_panic fun h => ht (parseComplexBody_panic hn h)

theorem tryForEach_ne_panic {X : Type} {f : X → X × Res Unit} (l : List X) (hf : ∀ x ∈ l, (f x).2 ≠ .panic) :
    (tryForEach f l).2 ≠ .panic := by
  induction l with
  | nil => simp [tryForEach]
  | cons x l ih =>
    have h1 := hf x (by simp)
    have h2 := ih fun y hy => hf y (by simp [hy])
    unfold tryForEach
    rcases hx : f x with ⟨y, r⟩
    rw [hx] at h1
    cases r with
    | ok u => exact h2
    | err => simp
    | panic => exact absurd rfl h1

theorem paragraph_ne_panic (upper : Char → Bool) (p : Paragraph Amendment)
    (h : ∀ i b w, Awaits p i b w → NoTrailingSpace b.lines ∧
      (IsStructuralAmendment p.semanticInfo.specialPhrase → b.lines ≠ [] ∧ ¬ TitleOnlyArticle b.lines)) :
    (paragraph upper p).2 ≠ .panic := by
  unfold paragraph
  cases hb : p.body with
  | text t => simp
  | children i c w =>
    simp only
    unfold children
    split
    · rename_i b
      unfold block
      split
      · rename_i pos f hs
        have ha : Awaits p i b w := ⟨hb, .inl ⟨pos, f, hs⟩⟩
        split
        · simp
        · simp
        · rename_i hp
          exact absurd hp (simple_ne_panic pos _ (h _ _ _ ha).1)
      · rename_i pos f hs
        have ha : Awaits p i b w := ⟨hb, .inr ⟨pos, f, hs⟩⟩
        split
        · simp
        · simp
        · rename_i hp
          obtain ⟨h1, h2⟩ := h _ _ _ ha
          obtain ⟨h3, h4⟩ := h2 ⟨pos, f, hs⟩
          exact absurd hp (structural_ne_panic pos _ h3 h1 h4)
      · simp
    · simp

end HunLaw.BlockAmend
