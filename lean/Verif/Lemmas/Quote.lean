import Verif.Lemmas.Sae

/-! Lemmas on the parser of quoted blocks. -/

set_option autoImplicit false

namespace HunLaw

open HunLaw.Spec

theorem glyphs_slice_first (l : Line) : glyphs (l.slice 1 none) = (glyphs l).drop 1 := by
  rw [Line.glyphs_slice]
  simp only
  unfold clampIndex window
  have hl := Line.glyphs_length l
  split
  · omega
  · split
    · apply List.take_of_length_le; simp [hl]
    · rename_i h
      have : l.len = 0 := by simp at h; omega
      rw [this] at hl
      rw [List.length_eq_zero_iff.1 hl]; simp

theorem glyphs_slice_last (l : Line) : glyphs (l.slice 0 (some (-1))) = (glyphs l).dropLast := by
  rw [Line.glyphs_slice]
  simp only
  unfold clampIndex window
  have hl := Line.glyphs_length l
  simp [List.dropLast_eq_take, hl]

theorem content_slice_first (l : Line) : (l.slice 1 none).content = l.content.drop 1 := by
  rw [Line.content_eq, Line.content_eq, glyphs_slice_first, List.map_drop]

theorem content_slice_last (l : Line) : (l.slice 0 (some (-1))).content = l.content.dropLast := by
  rw [Line.content_eq, Line.content_eq, glyphs_slice_last, List.map_dropLast]

theorem isEmpty_iff_content (l : Line) : l.isEmpty = true ↔ l.content = [] := by
  unfold Line.isEmpty Line.content
  simp

namespace QuoteParser

theorem startsWithAny_iff {l : Line} {cs : List Char} :
    startsWithAny l cs = true ↔ ∃ c t, c ∈ cs ∧ l.content = c :: t := by
  unfold startsWithAny
  cases l.content with
  | nil => simp
  | cons c t => simp

theorem endsWithAny_iff {l : Line} {cs : List Char} :
    endsWithAny l cs = true ↔ ∃ c, c ∈ cs ∧ l.content.getLast? = some c := by
  unfold endsWithAny
  cases l.content.getLast? with
  | none => simp
  | some c => simp

theorem forall₂_append {α β : Type} {R : α → β → Prop} {a c : List α} {b d : List β}
    (h1 : List.Forall₂ R a b) (h2 : List.Forall₂ R c d) : List.Forall₂ R (a ++ c) (b ++ d) := by
  induction h1 with
  | nil => exact h2
  | cons h _ ih => exact .cons h ih

theorem dropLast_concat {α : Type} {l : List α} {c : α} (h : l.getLast? = some c) : l = l.dropLast ++ [c] := by
  rcases List.eq_nil_or_concat l with rfl | ⟨i, x, rfl⟩
  · simp at h
  · simp at h; subst h; simp

theorem split_first {l : Line} {c : Char} {t : Str} (h : l.content = c :: t) :
    ∃ g, g.char = c ∧ glyphs l = g :: glyphs (l.slice 1 none) := by
  rw [Line.content_eq] at h
  cases hg : glyphs l with
  | nil => rw [hg] at h; simp at h
  | cons g gs =>
    rw [hg] at h
    simp only [List.map_cons, List.cons.injEq] at h
    exact ⟨g, h.1, by rw [glyphs_slice_first, hg]; rfl⟩

theorem split_last {l : Line} {c : Char} (h : l.content.getLast? = some c) :
    ∃ g, g.char = c ∧ glyphs l = glyphs (l.slice 0 (some (-1))) ++ [g] := by
  rw [Line.content_eq, List.getLast?_map] at h
  cases hg : (glyphs l).getLast? with
  | none => rw [hg] at h; simp at h
  | some g =>
    rw [hg] at h
    simp only [Option.map_some, Option.some.injEq] at h
    refine ⟨g, h, ?_⟩
    rw [glyphs_slice_last]
    exact dropLast_concat hg

theorem content_split_last {l : Line} {c : Char} (h : l.content.getLast? = some c) :
    l.content = (l.slice 0 (some (-1))).content ++ [c] := by
  rw [content_slice_last]; exact dropLast_concat h

/-- A text that consists of notes in brackets. -/
def Note (s t : Str) : Prop := ∃ ps, noSpaces s = ps.flatten ∧ Bracketed ps t

/-- A text that consists of notes in brackets, the last one without closing bracket. -/
def OpenNote (s t : Str) : Prop := ∃ ps u o v, noSpaces s = ps.flatten ++ v ∧ Bracketed ps u ∧
  OpeningBracket o ∧ t = u ++ [o] ++ v

theorem note_nil : Note [] [] := ⟨[], rfl, rfl⟩

theorem bracketed_append {ps qs : List Str} {t u : Str} (h1 : Bracketed ps t) (h2 : Bracketed qs u) :
    Bracketed (ps ++ qs) (t ++ u) := by
  induction ps generalizing t with
  | nil => simp only [Bracketed] at h1; subst h1; exact h2
  | cons p ps ih =>
    obtain ⟨o, c, v, ho, hc, hv, rfl⟩ := h1
    exact ⟨o, c, v ++ u, ho, hc, ih hv, by simp⟩

theorem note_close {s t : Str} (h : OpenNote s t) {c : Char} (hc : ClosingBracket c) : Note s (t ++ [c]) := by
  obtain ⟨ps, u, o, v, h1, h2, h3, rfl⟩ := h
  refine ⟨ps ++ [v], by simp [h1], ?_⟩
  have := bracketed_append h2 (show Bracketed [v] ([o] ++ v ++ [c] ++ []) from ⟨o, c, [], h3, hc, rfl, rfl⟩)
  simpa using this

theorem note_open {s t : Str} (h : Note s t) {o : Char} (ho : OpeningBracket o) : OpenNote s (t ++ [o]) := by
  obtain ⟨ps, h1, h2⟩ := h
  exact ⟨ps, t, o, [], by simp [h1], h2, ho, by simp⟩

theorem openNote_append {s t : Str} (h : OpenNote s t) (l : Line) :
    OpenNote (l.appendTo s) (t ++ noSpaces l.content) := by
  obtain ⟨ps, u, o, v, h1, h2, h3, rfl⟩ := h
  exact ⟨ps, u, o, v ++ noSpaces l.content, by rw [noSpaces_appendTo, h1]; simp, h2, h3, by simp⟩

/-- Balanced quotes at the end of a line that ends with a closing quote. -/
def ClosedAt (before : List Line) (l : Line) : Prop :=
  Balanced (allText (before ++ [l])) ∧ l.content.getLast? = some '”'

/-- No line closes the block. -/
def Unclosed (ls : List Line) : Prop := ∀ a l b, ls = a ++ l :: b → ¬ ClosedAt a l

/-- Lines of a block that is not closed yet, and the stored ones. -/
def OpenBlock (ls stored : List Line) : Prop :=
  ∃ a mid a' g, ls = a :: mid ∧ stored = a' :: mid ∧ OpeningQuote g.char ∧ glyphs a = g :: glyphs a' ∧
    Unclosed ls

/-- Lines of a block with the empty lines after it, and the block. -/
structure SegOk (seg : List Line × List Line) (b : QuotedBlock) : Prop where
  unquoted : Unquoted seg.1 b.lines
  gap : ∀ l ∈ seg.2, l.parts = []
  intro : b.intro = none
  wrapUp : b.wrapUp = none
  balanced : Balanced (allText seg.1)
  unclosed : ∃ init last, seg.1 = init ++ [last] ∧ Unclosed init

def segLines (segs : List (List Line × List Line)) : List Line := segs.flatMap fun s => s.1 ++ s.2

/-- The text of lines without spaces. -/
def txt (ls : List Line) : Str := noSpaces (allText ls)

theorem txt_append (a b : List Line) : txt (a ++ b) = txt a ++ txt b := by
  unfold txt; rw [allText_append, noSpaces_append]
theorem txt_single (a : Line) : txt [a] = noSpaces a.content := by simp [txt, allText]

/-- What is known after some lines. -/
def Inv (s : QuoteParser) (done : List Line) : Prop :=
  0 ≤ s.quoteChecker.level ∧ s.quoteChecker.endIsQuoted = decide (s.quoteChecker.level > 0) ∧
  s.quoteChecker.level = opening (allText done) - closing (allText done) ∧
  match s.state with
  | .start | .startExpectIntro =>
    s.quoteChecker.level = 0 ∧ s.blocks = [] ∧ s.quotedLines = [] ∧ s.wrapUp = [] ∧
      s.quotedBlockWrapUp = [] ∧ Note s.quotedBlockIntro (txt done)
  | .quotedBlockIntro =>
    s.blocks = [] ∧ s.quotedLines = [] ∧ s.wrapUp = [] ∧
      s.quotedBlockWrapUp = [] ∧ OpenNote s.quotedBlockIntro (txt done)
  | .insideQuotedBlock =>
    s.wrapUp = [] ∧ s.quotedBlockWrapUp = [] ∧ ∃ pre segs cur, done = pre ++ segLines segs ++ cur ∧
      Note s.quotedBlockIntro (txt pre) ∧ List.Forall₂ SegOk segs s.blocks ∧
      OpenBlock cur s.quotedLines ∧ Balanced (allText (pre ++ segLines segs))
  | .waitingForQuotedBlock =>
    s.quoteChecker.level = 0 ∧ s.quotedLines = [] ∧ s.wrapUp = [] ∧ s.quotedBlockWrapUp = [] ∧
      s.blocks ≠ [] ∧
      ∃ pre segs, done = pre ++ segLines segs ∧
        Note s.quotedBlockIntro (txt pre) ∧ List.Forall₂ SegOk segs s.blocks
  | .waitingForQuotedBlockWrapUp =>
    s.wrapUp = [] ∧ ∃ pre segs post, done = pre ++ segLines segs ++ post ∧
      Note s.quotedBlockIntro (txt pre) ∧ List.Forall₂ SegOk segs s.blocks ∧
      Note s.quotedBlockWrapUp (txt post)
  | .quotedBlockWrapUp =>
    s.wrapUp = [] ∧ ∃ pre segs post, done = pre ++ segLines segs ++ post ∧
      Note s.quotedBlockIntro (txt pre) ∧ List.Forall₂ SegOk segs s.blocks ∧
      OpenNote s.quotedBlockWrapUp (txt post)
  | .wrapUp =>
    ∃ pre segs post w, done = pre ++ segLines segs ++ post ∧
      Note s.quotedBlockIntro (txt pre) ∧ List.Forall₂ SegOk segs s.blocks ∧
      Note s.quotedBlockWrapUp w ∧ txt post = w ++ noSpaces s.wrapUp

/-- What is known of the checker after a line. -/
structure QOk (s : QuoteParser) (done : List Line) : Prop where
  nonneg : 0 ≤ s.quoteChecker.level
  quoted : s.quoteChecker.endIsQuoted = decide (s.quoteChecker.level > 0)
  level : s.quoteChecker.level = opening (allText done) - closing (allText done)

theorem QOk.zero {s : QuoteParser} {done : List Line} (h : QOk s done) (he : s.quoteChecker.endIsQuoted = false) :
    s.quoteChecker.level = 0 := by
  have := h.quoted; rw [he] at this
  have := h.nonneg
  simp at *; omega

theorem stateWrapUp_inv {s : QuoteParser} {done : List Line} {l : Line} (hq : QOk s (done ++ [l]))
    (hs : s.state = .wrapUp)
    (h : ∃ pre segs post w, done = pre ++ segLines segs ++ post ∧
      Note s.quotedBlockIntro (txt pre) ∧ List.Forall₂ SegOk segs s.blocks ∧
      Note s.quotedBlockWrapUp w ∧ txt post = w ++ noSpaces s.wrapUp) :
    Inv (s.stateWrapUp l) (done ++ [l]) := by
  obtain ⟨pre, segs, post, w, rfl, h1, h2, h3, h4⟩ := h
  refine ⟨hq.nonneg, hq.quoted, hq.level, ?_⟩
  simp only [stateWrapUp, hs]
  exact ⟨pre, segs, post ++ [l], w, by simp, h1, h2, h3, by
    rw [txt_append, h4, txt_single, noSpaces_appendTo]; simp⟩

theorem segLines_append (a b : List (List Line × List Line)) : segLines (a ++ b) = segLines a ++ segLines b := by
  simp [segLines]

/-- The end of a block. -/
theorem closeBlock {cur stored : List Line} (h : OpenBlock cur stored) {l : Line}
    (hl : l.content.getLast? = some '”') : Unquoted (cur ++ [l]) (stored ++ [l.slice 0 (some (-1))]) := by
  obtain ⟨a, mid, a', g, rfl, rfl, hg, ha, -⟩ := h
  obtain ⟨h, hh, he⟩ := split_last hl
  exact .more a a' l _ mid g h hg hh ha he

theorem balanced_diff {a b : List Line} (h1 : Balanced (allText a)) (h2 : Balanced (allText (a ++ b))) :
    Balanced (allText b) := by
  unfold Balanced at *
  rw [allText_append, Props.opening_append, Props.closing_append] at h2
  omega

theorem balanced_append {a b : List Line} (h1 : Balanced (allText a)) (h2 : Balanced (allText b)) :
    Balanced (allText (a ++ b)) := by
  unfold Balanced at *
  rw [allText_append, Props.opening_append, Props.closing_append]
  omega

theorem QOk.balanced {s : QuoteParser} {done : List Line} (h : QOk s done) (h0 : s.quoteChecker.level = 0) :
    Balanced (allText done) := by
  have := h.level; unfold Balanced; omega

/-- A line inside of a block. -/
theorem stateInside_inv {s : QuoteParser} {done : List Line} {l : Line} (hq : QOk s (done ++ [l]))
    (hs : s.state = .insideQuotedBlock) (hw : s.wrapUp = []) (hbw : s.quotedBlockWrapUp = [])
    {pre cur : List Line} {segs : List (List Line × List Line)}
    (hd : done = pre ++ segLines segs ++ cur) (hn : Note s.quotedBlockIntro (txt pre))
    (hf : List.Forall₂ SegOk segs s.blocks) (ho : OpenBlock cur s.quotedLines)
    (hb : Balanced (allText (pre ++ segLines segs))) :
    Inv (s.stateInside l) (done ++ [l]) := by
  subst hd
  · unfold stateInside
    split
    · rename_i hc
      refine ⟨hq.nonneg, hq.quoted, hq.level, ?_⟩
      simp only [Bool.and_eq_true, Bool.not_eq_true', endsWithAny_iff, List.mem_singleton] at hc
      obtain ⟨⟨hne, heq⟩, c, rfl, hl⟩ := hc
      have h0 := hq.zero heq
      simp only
      refine ⟨h0, trivial, hw, hbw, by simp, pre, segs ++ [(cur ++ [l], [])], ?_, hn, ?_⟩
      · rw [segLines_append]; simp [segLines]
      · refine forall₂_append hf (.cons ⟨closeBlock ho hl, by simp, rfl, rfl, ?_, ⟨cur, l, rfl, ?_⟩⟩ .nil)
        · exact balanced_diff hb (by simpa using hq.balanced h0)
        · obtain ⟨_, _, _, _, _, _, _, _, hu⟩ := ho
          exact hu
    · rename_i hc
      refine ⟨hq.nonneg, hq.quoted, hq.level, ?_⟩
      simp only [hs]
      refine ⟨hw, hbw, pre, segs, cur ++ [l], by simp, hn, hf, ?_, hb⟩
      obtain ⟨a, mid, a', g, h1, h2, h3, h4, h5⟩ := ho
      refine ⟨a, mid ++ [l], a', g, by simp [h1], by simp [h2], h3, h4, ?_⟩
      intro x y z hxyz hcl
      rcases List.eq_nil_or_concat z with rfl | ⟨z', w, rfl⟩
      · have := List.append_inj' (show cur ++ [l] = x ++ [y] by simpa using hxyz) rfl
        obtain ⟨rfl, hy⟩ := this
        simp only [List.cons.injEq, and_true] at hy
        subst hy
        apply hc
        simp only [Bool.and_eq_true, Bool.not_eq_true', endsWithAny_iff, List.mem_singleton]
        have hb2 := balanced_append hb hcl.1
        have hl := hq.level
        unfold Balanced at hb2
        rw [← List.append_assoc] at hb2
        refine ⟨⟨?_, ?_⟩, '”', rfl, hcl.2⟩
        · cases he : l.isEmpty
          · rfl
          · have := hcl.2; rw [content_of_isEmpty he] at this; simp at this
        · rw [hq.quoted]; simp; omega
      · have : cur ++ [l] = (x ++ y :: z') ++ [w] := by simpa using hxyz
        have := List.append_inj' this rfl
        exact h5 x y z' this.1 hcl

/-- The first line of a block. -/
theorem stateInside_first {s : QuoteParser} {done : List Line} {l : Line} (hq : QOk s (done ++ [l]))
    (hs : s.state = .insideQuotedBlock) (hw : s.wrapUp = []) (hbw : s.quotedBlockWrapUp = [])
    (hql : s.quotedLines = [])
    {pre : List Line} {segs : List (List Line × List Line)}
    (hd : done = pre ++ segLines segs) (hn : Note s.quotedBlockIntro (txt pre))
    (hf : List.Forall₂ SegOk segs s.blocks)
    (hb : Balanced (allText done)) {c : Char} {t : Str} (hc : OpeningQuote c) (hl : l.content = c :: t) :
    Inv (s.stateInside (l.slice 1 none)) (done ++ [l]) := by
  subst hd
  obtain ⟨g, hg, hgl⟩ := split_first hl
  have hcne : c ≠ '”' := by rcases hc with rfl | rfl <;> decide
  have hlast : l.content.getLast? = some '”' → (l.slice 1 none).content.getLast? = some '”' := by
    rw [content_slice_first, hl]
    cases t with
    | nil => simp [hcne]
    | cons x xs => simp
  · unfold stateInside
    split
    · rename_i hc'
      refine ⟨hq.nonneg, hq.quoted, hq.level, ?_⟩
      simp only [Bool.and_eq_true, Bool.not_eq_true', endsWithAny_iff, List.mem_singleton] at hc'
      obtain ⟨⟨hne, heq⟩, _, rfl, hl'⟩ := hc'
      have h0 := hq.zero heq
      simp only
      refine ⟨h0, trivial, hw, hbw, by simp, pre, segs ++ [([l], [])], ?_, hn, ?_⟩
      · rw [segLines_append]; simp [segLines]
      · obtain ⟨h, hh, hhl⟩ := split_last hl'
        refine forall₂_append hf (.cons ⟨?_, by simp, rfl, rfl, ?_, ⟨[], l, rfl, ?_⟩⟩ .nil)
        · rw [hql]
          exact .one l _ g h (hg ▸ hc) hh (by rw [hgl, hhl]; simp)
        · exact balanced_diff hb (by simpa using hq.balanced h0)
        · intro a x b h; simp at h
    · rename_i hc'
      refine ⟨hq.nonneg, hq.quoted, hq.level, ?_⟩
      simp only [hs]
      refine ⟨hw, hbw, pre, segs, [l], by simp, hn, hf, ?_, hb⟩
      refine ⟨l, [], _, g, rfl, by simp [hql], hg ▸ hc, hgl, ?_⟩
      intro x y z hxyz hcl
      have hx : x = [] ∧ y = l := by
        cases x with
        | nil => simp at hxyz; exact ⟨rfl, hxyz.1.symm⟩
        | cons x xs => simp at hxyz
      obtain ⟨rfl, rfl⟩ := hx
      apply hc'
      simp only [Bool.and_eq_true, Bool.not_eq_true', endsWithAny_iff, List.mem_singleton]
      have hb2 := balanced_append hb hcl.1
      have hl2 := hq.level
      unfold Balanced at hb2
      have hl3 := hlast hcl.2
      simp only [List.nil_append] at hb2
      refine ⟨⟨?_, ?_⟩, '”', rfl, hl3⟩
      · cases he : (y.slice 1 none).isEmpty
        · rfl
        · rw [content_of_isEmpty he] at hl3; simp at hl3
      · rw [hq.quoted]; simp; omega

theorem txt_empty {ls : List Line} {l : Line} (h : l.isEmpty = true) : txt (ls ++ [l]) = txt ls := by
  rw [txt_append, txt_single, content_of_isEmpty h]; simp

theorem stateBlockWrapUp_inv {s : QuoteParser} {done : List Line} {l l' : Line} (hq : QOk s (done ++ [l]))
    (hs : s.state = .quotedBlockWrapUp) (hw : s.wrapUp = [])
    {pre post : List Line} {t : Str} {segs : List (List Line × List Line)}
    (hd : done = pre ++ segLines segs ++ post) (hn : Note s.quotedBlockIntro (txt pre))
    (hf : List.Forall₂ SegOk segs s.blocks) (ho : OpenNote s.quotedBlockWrapUp t)
    (ht : t ++ noSpaces l'.content = txt (post ++ [l])) :
    Inv (s.stateBlockWrapUp l') (done ++ [l]) := by
  subst hd
  · unfold stateBlockWrapUp
    split
    · rename_i hc
      refine ⟨hq.nonneg, hq.quoted, hq.level, ?_⟩
      simp only [Bool.and_eq_true, Bool.not_eq_true', endsWithAny_iff] at hc
      obtain ⟨_, c, hc, hl⟩ := hc
      simp only
      refine ⟨hw, pre, segs, post ++ [l], by simp, hn, hf, ?_⟩
      have := note_close (openNote_append ho (l'.slice 0 (some (-1)))) (c := c) (by simpa [ClosingBracket] using hc)
      have hsp : noSpaces [c] = [c] := by
        simp only [List.mem_cons, List.not_mem_nil, or_false] at hc
        rcases hc with rfl | rfl <;> decide
      rw [← ht, content_split_last hl, noSpaces_append, hsp, ← List.append_assoc]
      exact this
    · refine ⟨hq.nonneg, hq.quoted, hq.level, ?_⟩
      simp only [hs]
      refine ⟨hw, pre, segs, post ++ [l], by simp, hn, hf, ?_⟩
      rw [← ht]
      exact openNote_append ho l'

theorem stateIntro_inv {s : QuoteParser} {done : List Line} {l l' : Line} (hq : QOk s (done ++ [l]))
    (hs : s.state = .quotedBlockIntro) (hb : s.blocks = []) (hql : s.quotedLines = []) (hw : s.wrapUp = [])
    (hbw : s.quotedBlockWrapUp = []) {t : Str} (ho : OpenNote s.quotedBlockIntro t)
    (ht : t ++ noSpaces l'.content = txt (done ++ [l])) :
    Inv (s.stateIntro l') (done ++ [l]) := by
  · unfold stateIntro
    split
    · rename_i hc
      refine ⟨hq.nonneg, hq.quoted, hq.level, ?_⟩
      simp only [Bool.and_eq_true, Bool.not_eq_true', endsWithAny_iff] at hc
      obtain ⟨⟨_, heq⟩, c, hc, hl⟩ := hc
      simp only
      refine ⟨hq.zero heq, hb, hql, hw, hbw, ?_⟩
      have := note_close (openNote_append ho (l'.slice 0 (some (-1)))) (c := c) (by simpa [ClosingBracket] using hc)
      have hsp : noSpaces [c] = [c] := by
        simp only [List.mem_cons, List.not_mem_nil, or_false] at hc
        rcases hc with rfl | rfl <;> decide
      rw [← ht, content_split_last hl, noSpaces_append, hsp, ← List.append_assoc]
      exact this
    · refine ⟨hq.nonneg, hq.quoted, hq.level, ?_⟩
      simp only [hs]
      refine ⟨hb, hql, hw, hbw, ?_⟩
      rw [← ht]
      exact openNote_append ho l'

theorem opening_cases {l : Line} (h : startsWithAny l ['„', '“'] = true) :
    ∃ c t, OpeningQuote c ∧ l.content = c :: t := by
  obtain ⟨c, t, hc, h⟩ := startsWithAny_iff.1 h
  exact ⟨c, t, by simpa [OpeningQuote] using hc, h⟩

theorem bracket_cases {l : Line} (h : startsWithAny l ['(', '['] = true) :
    ∃ c t, OpeningBracket c ∧ l.content = c :: t ∧ noSpaces l.content = [c] ++ noSpaces (l.slice 1 none).content := by
  obtain ⟨c, t, hc, h⟩ := startsWithAny_iff.1 h
  refine ⟨c, t, by simpa [OpeningBracket] using hc, h, ?_⟩
  rw [content_slice_first, h]
  simp only [List.mem_cons, List.not_mem_nil, or_false] at hc
  rcases hc with rfl | rfl <;> rfl

theorem stateStart_inv {s : QuoteParser} {done : List Line} {l : Line} (hq : QOk s (done ++ [l]))
    (hs : s.state = .start) (hbal : Balanced (allText done)) (hb : s.blocks = []) (hql : s.quotedLines = [])
    (hw : s.wrapUp = []) (hbw : s.quotedBlockWrapUp = []) (hn : Note s.quotedBlockIntro (txt done)) :
    Inv (s.stateStart l) (done ++ [l]) := by
  unfold stateStart
  split
  · rename_i he
    refine ⟨hq.nonneg, hq.quoted, hq.level, ?_⟩
    simp only [hs]
    refine ⟨?_, hb, hql, hw, hbw, by rwa [txt_empty he]⟩
    have := hq.level
    rw [allText_append, allText_cons, content_of_isEmpty he] at this
    unfold Balanced at hbal
    simp at this; omega
  · split
    · rename_i h
      obtain ⟨c, t, hc, hl⟩ := opening_cases h
      refine stateInside_first (pre := done) (segs := []) ?_ rfl hw hbw hql (by simp [segLines]) hn
        (by simp [hb]) hbal hc hl
      exact ⟨hq.nonneg, hq.quoted, hq.level⟩
    · refine stateWrapUp_inv ⟨hq.nonneg, hq.quoted, hq.level⟩ rfl ?_
      exact ⟨done, [], [], [], by simp [segLines], hn, by simp [hb], by simpa [hbw] using note_nil,
        by simp [hw, txt]⟩

theorem stateWaitingWrapUp_inv {s : QuoteParser} {done : List Line} {l : Line} (hq : QOk s (done ++ [l]))
    (hs : s.state = .waitingForQuotedBlockWrapUp) (hw : s.wrapUp = [])
    {pre post : List Line} {segs : List (List Line × List Line)}
    (hd : done = pre ++ segLines segs ++ post) (hn : Note s.quotedBlockIntro (txt pre))
    (hf : List.Forall₂ SegOk segs s.blocks) (ho : Note s.quotedBlockWrapUp (txt post)) :
    Inv (s.stateWaitingWrapUp l) (done ++ [l]) := by
  unfold stateWaitingWrapUp
  split
  · rename_i he
    refine ⟨hq.nonneg, hq.quoted, hq.level, ?_⟩
    simp only [hs]
    exact ⟨hw, pre, segs, post ++ [l], by simp [hd], hn, hf, by rwa [txt_empty he]⟩
  · split
    · rename_i h
      obtain ⟨c, t, hc, hl, hsp⟩ := bracket_cases h
      exact stateBlockWrapUp_inv ⟨hq.nonneg, hq.quoted, hq.level⟩ rfl hw hd hn hf (note_open ho hc)
        (by rw [txt_append, txt_single, hsp]; simp)
    · refine stateWrapUp_inv ⟨hq.nonneg, hq.quoted, hq.level⟩ rfl ?_
      exact ⟨pre, segs, post, _, hd, hn, hf, ho, by simp [hw]⟩

theorem segs_gap {segs : List (List Line × List Line)} {bs : List QuotedBlock} (hf : List.Forall₂ SegOk segs bs)
    (hne : bs ≠ []) {l : Line} (he : l.isEmpty = true) :
    ∃ segs', List.Forall₂ SegOk segs' bs ∧ segLines segs' = segLines segs ++ [l] := by
  induction hf with
  | nil => exact absurd rfl hne
  | @cons x b xs bs h hs ih =>
    cases hs with
    | nil =>
      refine ⟨[(x.1, x.2 ++ [l])], .cons ⟨h.unquoted, ?_, h.intro, h.wrapUp, h.balanced, h.unclosed⟩ .nil, ?_⟩
      · intro m hm
        rcases List.mem_append.1 hm with hm | hm
        · exact h.gap m hm
        · rw [List.mem_singleton.1 hm]
          simpa [Line.isEmpty] using he
      · simp [segLines]
    | cons h1 h2 =>
      obtain ⟨s', h3, h4⟩ := ih (by simp)
      exact ⟨x :: s', .cons h h3, by simp only [segLines, List.flatMap_cons] at h4 ⊢; rw [h4]; simp⟩

theorem stateWaiting_inv {s : QuoteParser} {done : List Line} {l : Line} (hq : QOk s (done ++ [l]))
    (hs : s.state = .waitingForQuotedBlock) (hbal : Balanced (allText done)) (hql : s.quotedLines = [])
    (hw : s.wrapUp = []) (hbw : s.quotedBlockWrapUp = []) (hne : s.blocks ≠ [])
    {pre : List Line} {segs : List (List Line × List Line)}
    (hd : done = pre ++ segLines segs) (hn : Note s.quotedBlockIntro (txt pre))
    (hf : List.Forall₂ SegOk segs s.blocks) :
    Inv (s.stateWaiting l) (done ++ [l]) := by
  unfold stateWaiting
  split
  · rename_i he
    refine ⟨hq.nonneg, hq.quoted, hq.level, ?_⟩
    simp only [hs]
    refine ⟨?_, hql, hw, hbw, hne, ?_⟩
    · have := hq.level
      rw [allText_append, allText_cons, content_of_isEmpty he] at this
      unfold Balanced at hbal
      simp at this; omega
    · obtain ⟨segs', h1, h2⟩ := segs_gap hf hne he
      exact ⟨pre, segs', by rw [h2, hd, List.append_assoc], hn, h1⟩
  · split
    · rename_i h
      obtain ⟨c, t, hc, hl⟩ := opening_cases h
      exact stateInside_first ⟨hq.nonneg, hq.quoted, hq.level⟩ rfl hw hbw hql hd hn hf hbal hc hl
    · refine stateWaitingWrapUp_inv (pre := pre) (segs := segs) (post := []) ⟨hq.nonneg, hq.quoted, hq.level⟩
        rfl hw (by simpa using hd) hn hf ?_
      show Note s.quotedBlockWrapUp []
      rw [hbw]; exact note_nil

theorem stateStartExpectIntro_inv {s : QuoteParser} {done : List Line} {l : Line} (hq : QOk s (done ++ [l]))
    (hs : s.state = .startExpectIntro) (hbal : Balanced (allText done)) (hb : s.blocks = [])
    (hql : s.quotedLines = [])
    (hw : s.wrapUp = []) (hbw : s.quotedBlockWrapUp = []) (hn : Note s.quotedBlockIntro (txt done)) :
    Inv (s.stateStartExpectIntro l) (done ++ [l]) := by
  unfold stateStartExpectIntro
  split
  · rename_i he
    refine ⟨hq.nonneg, hq.quoted, hq.level, ?_⟩
    simp only [hs]
    refine ⟨?_, hb, hql, hw, hbw, by rwa [txt_empty he]⟩
    have := hq.level
    rw [allText_append, allText_cons, content_of_isEmpty he] at this
    unfold Balanced at hbal
    simp at this; omega
  · split
    · rename_i h
      obtain ⟨c, t, hc, hl, hsp⟩ := bracket_cases h
      exact stateIntro_inv ⟨hq.nonneg, hq.quoted, hq.level⟩ rfl hb hql hw hbw (note_open hn hc)
        (by rw [txt_append, txt_single, hsp]; simp)
    · exact stateStart_inv ⟨hq.nonneg, hq.quoted, hq.level⟩ rfl hbal hb hql hw hbw hn

theorem parseLine_inv {s s' : QuoteParser} {done : List Line} {l : Line} (h : Inv s done)
    (hl : s.parseLine l = .ok s') : Inv s' (done ++ [l]) := by
  unfold parseLine at hl
  rw [Res.bind_eq_ok] at hl
  obtain ⟨q, hq, hl⟩ := hl
  simp only [Res.ok.injEq] at hl
  subst hl
  obtain ⟨h0, h1, h2, h⟩ := h
  have hq' : 0 ≤ q.level ∧ q.endIsQuoted = decide (q.level > 0) ∧
      q.level = opening (allText (done ++ [l])) - closing (allText (done ++ [l])) := by
    rw [Props.update_eq] at hq
    split at hq
    · rename_i hge
      simp only [Res.ok.injEq] at hq
      subst hq
      refine ⟨hge, rfl, ?_⟩
      simp only [allText_append, allText_cons, Props.opening_append, Props.closing_append, h2]
      simp only [allText_nil, show opening [] = 0 from rfl, show closing [] = 0 from rfl]
      omega
    · simp at hq
  have hbal : s.quoteChecker.level = 0 → Balanced (allText done) := by
    intro hz; unfold Balanced; omega
  have hok : ∀ st : QuoteParser, st.quoteChecker = q → QOk st (done ++ [l]) := by
    intro st hst; exact ⟨hst ▸ hq'.1, hst ▸ hq'.2.1, hst ▸ hq'.2.2⟩
  unfold step
  cases hs : s.state with
  | start =>
    simp only [hs] at h ⊢
    exact stateStart_inv (hok _ rfl) rfl (hbal h.1) h.2.1 h.2.2.1 h.2.2.2.1 h.2.2.2.2.1 h.2.2.2.2.2
  | startExpectIntro =>
    simp only [hs] at h ⊢
    exact stateStartExpectIntro_inv (hok _ rfl) rfl (hbal h.1) h.2.1 h.2.2.1 h.2.2.2.1 h.2.2.2.2.1 h.2.2.2.2.2
  | quotedBlockIntro =>
    simp only [hs] at h ⊢
    exact stateIntro_inv (hok _ rfl) rfl h.1 h.2.1 h.2.2.1 h.2.2.2.1 h.2.2.2.2
      (by rw [txt_append, txt_single])
  | quotedBlockWrapUp =>
    simp only [hs] at h ⊢
    obtain ⟨hw, pre, segs, post, hd, hn, hf, ho⟩ := h
    exact stateBlockWrapUp_inv (hok _ rfl) rfl hw hd hn hf ho (by rw [txt_append, txt_single])
  | waitingForQuotedBlock =>
    simp only [hs] at h ⊢
    obtain ⟨hz, hql, hw, hbw, hne, pre, segs, hd, hn, hf⟩ := h
    exact stateWaiting_inv (hok _ rfl) rfl (hbal hz) hql hw hbw hne hd hn hf
  | waitingForQuotedBlockWrapUp =>
    simp only [hs] at h ⊢
    obtain ⟨hw, pre, segs, post, hd, hn, hf, ho⟩ := h
    exact stateWaitingWrapUp_inv (hok _ rfl) rfl hw hd hn hf ho
  | insideQuotedBlock =>
    simp only [hs] at h ⊢
    obtain ⟨hw, hbw, pre, segs, cur, hd, hn, hf, ho, hb⟩ := h
    exact stateInside_inv (hok _ rfl) rfl hw hbw hd hn hf ho hb
  | wrapUp =>
    simp only [hs] at h ⊢
    exact stateWrapUp_inv (hok _ rfl) rfl h

theorem parseLines_inv {ls : List Line} : ∀ {s s' : QuoteParser} {done : List Line}, Inv s done →
    s.parseLines ls = .ok s' → Inv s' (done ++ ls) := by
  induction ls with
  | nil => intro s s' done h hl; simp only [parseLines, Res.ok.injEq] at hl; subst hl; simpa using h
  | cons l ls ih =>
    intro s s' done h hl
    unfold parseLines at hl
    rw [Res.bind_eq_ok] at hl
    obtain ⟨s1, h1, hl⟩ := hl
    have := ih (parseLine_inv h h1) hl
    simpa using this

theorem new_inv (e : Bool) : Inv (new e) [] := by
  cases e <;> exact ⟨by decide, rfl, by decide, rfl, rfl, rfl, rfl, rfl, note_nil⟩

/-- The lines of a successful extraction: notes, blocks, notes and wrap-up. -/
theorem extract_segments {prev : Option Line} {ls : List Line} {r : Extracted (List QuotedBlock)}
    (h : extractMultiple prev ls = .ok r) :
    ∃ pre segs post w intro wrapUp blocks,
      ls = pre ++ segLines segs ++ post ∧ List.Forall₂ SegOk segs blocks ∧ blocks ≠ [] ∧
      Note intro (txt pre) ∧ Note wrapUp w ∧ txt post = w ++ noSpaces (r.parentWrapUp.getD []) ∧
      r.elements = setWrapUp wrapUp (setIntro intro blocks) ∧ r.restOfWrapUp = [] := by
  cases ls with
  | nil => simp [extractMultiple] at h
  | cons first others =>
    unfold extractMultiple at h
    simp only at h
    split at h
    · simp at h
    · rw [Res.bind_eq_ok] at h
      obtain ⟨s, hs, h⟩ := h
      have hi := parseLines_inv (new_inv _) hs
      rw [List.nil_append] at hi
      split at h
      · rename_i hst
        split at h
        · simp at h
        · rename_i hb
          simp only [Res.ok.injEq] at h
          subst h
          have hne : ∀ x : Str, (nonEmpty x).getD [] = x := by
            intro x; unfold nonEmpty; split <;> simp_all
          obtain ⟨-, -, -, hi⟩ := hi
          rcases hst with hst | hst | hst
          · simp only [hst] at hi
            obtain ⟨hz, hql, hw, hbw, -, pre, segs, hd, hn, hf⟩ := hi
            refine ⟨pre, segs, [], [], _, _, s.blocks, by simpa using hd, hf, hb, hn, ?_, ?_, rfl, rfl⟩
            · simpa [hbw] using note_nil
            · simp [hne, hw, txt]
          · simp only [hst] at hi
            obtain ⟨pre, segs, post, w, hd, hn, hf, ho, hw⟩ := hi
            exact ⟨pre, segs, post, w, _, _, s.blocks, hd, hf, hb, hn, ho, by rw [hne]; exact hw, rfl, rfl⟩
          · simp only [hst] at hi
            obtain ⟨hw, pre, segs, post, hd, hn, hf, ho⟩ := hi
            exact ⟨pre, segs, post, _, _, _, s.blocks, hd, hf, hb, hn, ho, by simp [hne, hw], rfl, rfl⟩
      · simp at h

theorem unquoted_text {a b : List Line} (h : Unquoted a b) :
    ∃ q, OpeningQuote q ∧ txt a = [q] ++ txt b ++ ['”'] ∧ allText a = [q] ++ allText b ++ ['”'] := by
  have hns : ∀ q, OpeningQuote q → noSpaces [q] = [q] := by
    rintro q (rfl | rfl) <;> rfl
  suffices h' : ∃ q, OpeningQuote q ∧ allText a = [q] ++ allText b ++ ['”'] by
    obtain ⟨q, hq, h⟩ := h'
    refine ⟨q, hq, ?_, h⟩
    unfold txt
    rw [h, noSpaces_append, noSpaces_append, hns q hq]; rfl
  cases h with
  | one l m g h hg hh he =>
    refine ⟨g.char, hg, ?_⟩
    simp [allText, Line.content_eq, he, hh]
  | more a a' z z' mid g h hg hh h1 h2 =>
    refine ⟨g.char, hg, ?_⟩
    simp [allText, Line.content_eq, h1, h2, hh]

theorem setIntro_ne {i : Str} {bs : List QuotedBlock} (h : bs ≠ []) : setIntro i bs ≠ [] := by
  cases bs with
  | nil => exact absurd rfl h
  | cons b bs => simp [setIntro]

theorem noteText_of_note {s t : Str} (h : Note s t) : NoteText (nonEmpty s) t := by
  obtain ⟨ps, h1, h2⟩ := h
  refine ⟨ps, ?_, h2⟩
  rw [← h1]; unfold nonEmpty
  split
  · rename_i hs; simp [hs]
  · rfl

theorem noteText_none : NoteText none [] := ⟨[], rfl, rfl⟩

theorem seg_text {x : List Line × List Line} {b : QuotedBlock} (h : SegOk x b) :
    ∃ q, OpeningQuote q ∧ txt (x.1 ++ x.2) = [q] ++ noSpaces (allText b.lines) ++ ['”'] := by
  obtain ⟨q, hq, ht, -⟩ := unquoted_text h.unquoted
  refine ⟨q, hq, ?_⟩
  have hgap : txt x.2 = [] := by
    unfold txt
    have : allText x.2 = [] := by
      unfold allText
      rw [List.flatMap_eq_nil_iff]
      intro l hl; unfold Line.content; rw [h.gap l hl]; rfl
    rw [this]; rfl
  rw [txt_append, hgap, ht]; simp [txt]

theorem setWrapUp_text {w wt : Str} (hw : Note w wt) {segs : List (List Line × List Line)}
    {bs : List QuotedBlock} (hf : List.Forall₂ SegOk segs bs) (hne : bs ≠ []) :
    QuotedText (setWrapUp w bs) (txt (segLines segs) ++ wt) := by
  induction hf with
  | nil => exact absurd rfl hne
  | @cons x b xs bs h hs ih =>
    obtain ⟨q, hq, ht⟩ := seg_text h
    cases hs with
    | nil =>
      refine ⟨[], q, wt, [], ?_, hq, noteText_of_note hw, rfl, ?_⟩
      · rw [h.intro]; exact noteText_none
      · simp [segLines, ht]
    | cons h1 h2 =>
      refine ⟨[], q, [], _, ?_, hq, ?_, ih (by simp), ?_⟩
      · rw [h.intro]; exact noteText_none
      · rw [h.wrapUp]; exact noteText_none
      · rw [show ∀ a as, segLines (a :: as) = (a.1 ++ a.2) ++ segLines as from fun _ _ => rfl, txt_append, ht]
        simp

theorem blocks_text {i it w wt : Str} (hi : Note i it) (hw : Note w wt)
    {segs : List (List Line × List Line)} {bs : List QuotedBlock} (hf : List.Forall₂ SegOk segs bs)
    (hne : bs ≠ []) :
    QuotedText (setWrapUp w (setIntro i bs)) (it ++ txt (segLines segs) ++ wt) := by
  cases hf with
  | nil => exact absurd rfl hne
  | @cons x b xs bs h hs =>
    obtain ⟨q, hq, ht⟩ := seg_text h
    cases hs with
    | nil =>
      refine ⟨it, q, wt, [], noteText_of_note hi, hq, noteText_of_note hw, rfl, ?_⟩
      simp [segLines, ht]
    | cons h1 h2 =>
      refine ⟨it, q, [], _, noteText_of_note hi, hq, ?_, setWrapUp_text hw (.cons h1 h2) (by simp), ?_⟩
      · show NoteText b.wrapUp []
        rw [h.wrapUp]; exact noteText_none
      · rw [show ∀ a as, segLines (a :: as) = (a.1 ++ a.2) ++ segLines as from fun _ _ => rfl, txt_append, ht]
        simp

/-- The text of a successful extraction. -/
theorem extract_text {prev : Option Line} {ls : List Line} {r : Extracted (List QuotedBlock)}
    (h : extractMultiple prev ls = .ok r) :
    ∃ t, QuotedText r.elements t ∧ noSpaces (allText ls) = t ++ noSpaces (r.parentWrapUp.getD []) ++
      noSpaces (allText r.restOfWrapUp) := by
  obtain ⟨pre, segs, post, w, intro, wrapUp, blocks, hls, hf, hne, hi, hw, hp, he, hr⟩ := extract_segments h
  refine ⟨txt pre ++ txt (segLines segs) ++ w, ?_, ?_⟩
  · rw [he]; exact blocks_text hi hw hf hne
  · show txt ls = _
    rw [hls, txt_append, txt_append, hp, hr]
    simp

end QuoteParser
end HunLaw

namespace HunLaw
open HunLaw.Spec SAEParser

theorem header_mark {op cl' : Str} {IdText Closing : Str → Prop} {excluded : List Str} {s t r : Str}
    (h : HeaderLine op IdText Closing excluded s t r) (hop : ' ' ∉ op) (hid : ∀ t, IdText t → ' ' ∉ t)
    (hcl : ∀ c, Closing c → noSpaces c = cl') :
    noSpaces s = op ++ t ++ cl' ++ noSpaces r ∧ IdText t ∧ ∃ before, s = before ++ r := by
  obtain ⟨cl, sp, rfl, h1, h2, h3, -, -, -⟩ := h
  refine ⟨?_, h1, _, rfl⟩
  have hsp : noSpaces sp = [] := by
    unfold noSpaces
    rw [List.filter_eq_nil_iff]
    intro c hc; simp [h3.2 c hc]
  simp only [noSpaces_append, hcl _ h2, hsp, noSpaces_of_not_mem hop, noSpaces_of_not_mem (hid t h1)]
  simp

theorem digits_no_space {d : Str} (h : Digits d) : ' ' ∉ d := digits_not_mem h (by decide)

theorem lower_no_space {c : Char} (h : LowerLetter c) : ' ' ≠ c := lower_ne h (by decide)
theorem upper_no_space {c : Char} (h : UpperLetter c) : ' ' ≠ c := upper_ne h (by decide)

theorem paragraphId_no_space (t : Str) (h : ParagraphIdText t) : ' ' ∉ t := by
  obtain ⟨d, hd, rfl | ⟨c, hc, rfl⟩⟩ := h
  · exact digits_no_space hd
  · simp [digits_no_space hd, lower_no_space hc]

theorem numericId_no_space (t : Str) (h : NumericIdText t) : ' ' ∉ t := by
  obtain ⟨d, hd, rfl | ⟨c, hc, rfl | rfl⟩⟩ := h
  · exact digits_no_space hd
  · simp [digits_no_space hd, lower_no_space hc]
  · simp [digits_no_space hd, lower_no_space hc]

theorem alphabeticId_no_space (t : Str) (h : AlphabeticIdText t) : ' ' ∉ t := by
  have : ∀ t ∈ alphabet, ' ' ∉ t := by decide +kernel
  exact this t h

theorem prefixedId_no_space (t : Str) (h : PrefixedIdText t) : ' ' ∉ t := by
  obtain ⟨c, hc, rfl | ⟨b, hb, rfl⟩⟩ := h
  · simp [lower_no_space hc]
  · simp [lower_no_space hc, lower_no_space hb]

theorem articleId_no_space (t : Str) (h : ArticleIdText t) : ' ' ∉ t := by
  obtain ⟨book, d, hb, hd, h⟩ := h
  have hb' : ' ' ∉ book := by
    rcases hb with rfl | ⟨b, hb, rfl⟩
    · simp
    · simp [digits_no_space hb]
  rcases h with rfl | ⟨c, hc, rfl⟩
  · simp [hb', digits_no_space hd]
  · simp [hb', digits_no_space hd, upper_no_space hc]

theorem alphabeticSubpoint_keeps (pfx : Option HunChar) :
    KeepsText (alphabeticSubpointParser pfx) PrefixedMark NoChildrenText where
  header l id rest h := by
    obtain ⟨t, r, h1, h2, h3, _, h4⟩ := (Props.C27_prefixed_header_iff pfx l id rest).1 h
    obtain ⟨ha, hb, hc⟩ := header_mark (cl' := str!")") h1 (by simp) prefixedId_no_space (by rintro c rfl; rfl)
    exact ⟨_, ⟨t, hb, h3, rfl⟩, by rw [ha, (Props.C27_rest l rest r hc h2 h4).1]; rfl⟩
  children id prev ls params ex h := by simp [alphabeticSubpointParser] at h

theorem numeric_header_mark {l rest : Line} {id : NumericId} (h : parseNumericHeader l = .ok (some (id, rest))) :
    ∃ h, NumericMark id h ∧ noSpaces l.content = h ++ noSpaces rest.content := by
  obtain ⟨t, r, h1, h2, h3, h4⟩ := (Props.C27_numeric_header_iff l id rest).1 h
  obtain ⟨ha, hb, hc⟩ := header_mark (cl' := str!".") h1 (by simp) numericId_no_space (by rintro c rfl; rfl)
  exact ⟨_, ⟨t, hb, h3, rfl⟩, by rw [ha, (Props.C27_rest l rest r hc h2 h4).1]; rfl⟩

theorem numericSubpoint_keeps : KeepsText numericSubpointParser NumericMark NoChildrenText where
  header l id rest h := numeric_header_mark h
  children id prev ls params ex h := by simp [numericSubpointParser] at h

theorem map_ok {α β : Type} {f : α → β} {x : Res α} {b : β} : Res.map f x = .ok b ↔ ∃ a, x = .ok a ∧ f a = b := by
  cases x <;> simp [Res.map]

theorem orElse_ok {α : Type} {x : Res α} {f : Unit → Res α} {a : α} :
    x.orElse f = .ok a ↔ x = .ok a ∨ (x = .err ∧ f () = .ok a) := by
  cases x <;> simp [Res.orElse]

theorem alphabeticPoint_keeps : KeepsText alphabeticPointParser AlphabeticMark AlphabeticChildrenText where
  header l id rest h := by
    obtain ⟨t, r, h1, h2, h3, h4⟩ := (Props.C27_alphabetic_header_iff l id rest).1 h
    obtain ⟨ha, hb, hc⟩ := header_mark (cl' := str!")") h1 (by simp) alphabeticId_no_space (by rintro c rfl; rfl)
    exact ⟨_, ⟨t, hb, h3, rfl⟩, by rw [ha, (Props.C27_rest l rest r hc h2 h4).1]; rfl⟩
  children id prev ls params ex h := by
    unfold alphabeticPointParser at h
    simp only at h
    rw [orElse_ok] at h
    rcases h with h | ⟨_, h⟩
    · obtain ⟨a, ha, rfl⟩ := map_ok.1 h
      exact extractMultiple_text numericSubpoint_keeps ha
    · obtain ⟨a, ha, rfl⟩ := map_ok.1 h
      exact extractMultiple_text (alphabeticSubpoint_keeps _) ha

theorem numericPoint_keeps : KeepsText numericPointParser NumericMark NumericChildrenText where
  header l id rest h := numeric_header_mark h
  children id prev ls params ex h := by
    obtain ⟨a, ha, rfl⟩ := map_ok.1 h
    exact extractMultiple_text (alphabeticSubpoint_keeps _) ha

theorem paragraph_keeps : KeepsText paragraphParser ParagraphMark ParagraphChildrenText where
  header l id rest h := by
    obtain ⟨t, r, h1, h2, h3, h4⟩ := (Props.C27_paragraph_header_iff l id rest).1 h
    obtain ⟨ha, hb, hc⟩ := header_mark (cl' := str!")") h1 (by simp) paragraphId_no_space (by rintro c rfl; rfl)
    exact ⟨_, ⟨t, hb, h3, rfl⟩, by rw [ha, (Props.C27_rest l rest r hc h2 h4).1]⟩
  children id prev ls params ex h := by
    unfold paragraphParser at h
    simp only at h
    rw [orElse_ok, orElse_ok] at h
    rcases h with (h | ⟨_, h⟩) | ⟨_, h⟩
    · obtain ⟨a, ha, rfl⟩ := map_ok.1 h
      exact QuoteParser.extract_text ha
    · obtain ⟨a, ha, rfl⟩ := map_ok.1 h
      exact extractMultiple_text numericPoint_keeps ha
    · obtain ⟨a, ha, rfl⟩ := map_ok.1 h
      exact extractMultiple_text alphabeticPoint_keeps ha

end HunLaw
