import Verif.Lemmas.Levels

/-! The parser of acts divides the lines. -/

set_option autoImplicit false

namespace HunLaw

open HunLaw.Spec SAEParser

variable {upper : Char → Bool} {context : ParsingContext}

/-- The last article of some pieces. -/
def lastOf (last : Option (Line × ArticleId)) : List Piece → Option (Line × ArticleId)
  | [] => last
  | p :: ps => lastOf (lastArticle last p.head p.child) ps

theorem division_append (ps qs : List Piece) (before : List Line) (last : Option (Line × ArticleId)) :
    Division upper context before last (ps ++ qs) ↔ Division upper context before last ps ∧
      Division upper context (before ++ pieceLines ps) (lastOf last ps) qs := by
  induction ps generalizing before last with
  | nil => simp [Division, pieceLines, lastOf]
  | cons p ps ih =>
    simp only [List.cons_append, Division, ih, lastOf, pieceLines, List.flatMap_cons, List.append_assoc,
      and_assoc]

theorem pieceLines_append (ps qs : List Piece) : pieceLines (ps ++ qs) = pieceLines ps ++ pieceLines qs := by
  simp [pieceLines]

theorem lastOf_append (last : Option (Line × ArticleId)) (ps qs : List Piece) :
    lastOf last (ps ++ qs) = lastOf (lastOf last ps) qs := by
  induction ps generalizing last with
  | nil => rfl
  | cons p ps ih => simp only [List.cons_append, lastOf, ih]

/-- What is known of an unfinished child. -/
def OpenOf (upper : Char → Bool) (context : ParsingContext) (last : Option (Line × ArticleId))
    (prevEmpty : Bool) (h : Line) (body : List Line) : ParseState → Prop
  | .preamble => False
  | .article p => ¬ IsStructuralHeader h ∧ ¬ IsSubtitleStart upper context prevEmpty h ∧
      ArticleStart context last h p.identifier ∧
      ∃ rest, parseArticleHeader h = .ok (some (p.identifier, rest)) ∧ p = ⟨p.identifier, rest :: body, context⟩
  | .subtitle s => ¬ IsStructuralHeader h ∧ ∃ title, SubtitleStart upper context prevEmpty h s.identifier title ∧
      title ≠ [] ∧ s.title = body.foldl (fun s l => l.appendTo s) title ∧ s.lastChange = none
  | .structuralElement e => StructuralHeader e.elementType e.identifier h.content ∧ e.title = Line.join body ∧
      e.lastChange = none

/-- The last article, with the unfinished child. -/
def lastIn (last : Option (Line × ArticleId)) (h : Line) : ParseState → Option (Line × ArticleId)
  | .article p => some (h, p.identifier)
  | _ => last

theorem subtitleStart_nonempty {prevEmpty : Bool} {l : Line} {id : Option NumericId} {title : Str}
    (h : SubtitleStart upper context prevEmpty l id title) : title ≠ [] := by
  obtain ⟨_, h⟩ := h
  cases id with
  | none => obtain ⟨_, _, rfl, c, t, h, _⟩ := h; simp [h]
  | some id => obtain ⟨n, ⟨_, _, c, t, rfl, _⟩, _⟩ := h; simp

theorem finish_open {last : Option (Line × ArticleId)} {prevEmpty : Bool} {h : Line} {body : List Line}
    {st : ParseState} {c : Option (ActChild Empty)}
    (ho : OpenOf upper context last prevEmpty h body st) (hf : st.finish = .ok c) :
    ∃ c', c = some c' ∧ ChildOf upper context last prevEmpty h body c' ∧
      lastArticle last h c' = lastIn last h st := by
  cases st with
  | preamble => exact ho.elim
  | article p =>
    obtain ⟨h1, h2, h3, rest, h4, h5⟩ := ho
    unfold ParseState.finish at hf
    obtain ⟨a, ha, rfl⟩ := map_ok.1 hf
    rw [h5] at ha
    obtain ⟨e, ht⟩ := article_text h4 ha
    exact ⟨_, rfl, ⟨h1, h2, by rw [e]; exact h3, ht, rest, by rw [e]; exact (Props.C27_article_header_iff _ _ _).1 h4,
      finish_articleOf ha⟩, by simp [lastArticle, lastIn, e]⟩
  | subtitle s =>
    obtain ⟨h1, title, h2, h3, h4, h5⟩ := ho
    simp only [ParseState.finish, Res.ok.injEq] at hf
    subst hf
    obtain ⟨u, hu, hj⟩ := Props.join_aux body title title h3 h3 rfl
    exact ⟨_, rfl, ⟨h1, title, h2, by rw [h4, hu]; exact hj, h5⟩, rfl⟩
  | structuralElement e =>
    obtain ⟨h1, h2, h5⟩ := ho
    simp only [ParseState.finish, Res.ok.injEq] at hf
    subst hf
    exact ⟨_, rfl, ⟨h1, by rw [h2]; exact Props.C26_join body, h5⟩, rfl⟩

theorem feed_open {last : Option (Line × ArticleId)} {prevEmpty : Bool} {h : Line} {body : List Line}
    {st : ParseState} (l : Line) (pre : Str) (ho : OpenOf upper context last prevEmpty h body st) :
    OpenOf upper context last prevEmpty h (body ++ [l]) (st.feedLine l pre).1 ∧
      (st.feedLine l pre).2 = pre ∧ lastIn last h (st.feedLine l pre).1 = lastIn last h st := by
  cases st with
  | preamble => exact ho.elim
  | article p =>
    obtain ⟨h1, h2, h3, rest, h4, h5⟩ := ho
    refine ⟨⟨h1, h2, h3, rest, h4, ?_⟩, rfl, rfl⟩
    rw [h5]; simp [ArticleParser.feedLine]
  | subtitle s =>
    obtain ⟨h1, title, h2, h3, h4, h5⟩ := ho
    exact ⟨⟨h1, title, h2, h3, by simp [Subtitle.feedLine, h4], h5⟩, rfl, rfl⟩
  | structuralElement e =>
    obtain ⟨h1, h2, h5⟩ := ho
    exact ⟨⟨h1, by simp [StructuralElement.feedLine, h2, Line.join], h5⟩, rfl, rfl⟩

theorem newState_some {f f' : ArticleFactory} {last : Option (Line × ArticleId)} (hk : Knows f context last)
    {l : Line} {prevEmpty : Bool} {st : ParseState}
    (h : newState upper f l prevEmpty context = .ok (some (st, f'))) :
    OpenOf upper context last prevEmpty l [] st ∧ Knows f' context (lastIn last l st) := by
  unfold newState at h
  split at h
  · rename_i e he
    simp only [Res.ok.injEq, Option.some.injEq, Prod.mk.injEq] at h
    obtain ⟨rfl, rfl⟩ := h
    obtain ⟨h1, h2, h3⟩ := findSE_some he
    exact ⟨⟨h1, by simp [h2, Line.join], h3⟩, hk⟩
  · rename_i he
    have hs := findSE_none.1 he
    split at h
    · rename_i s hsub
      simp only [Res.ok.injEq, Option.some.injEq, Prod.mk.injEq] at h
      obtain ⟨rfl, rfl⟩ := h
      obtain ⟨this, hch⟩ := (subtitleTryCreate_iff _ _ _ _ _).1 hsub
      exact ⟨⟨hs, s.title, this, subtitleStart_nonempty this, rfl, hch⟩, hk⟩
    · rename_i hsub
      have hsub' := subtitleTryCreate_none.1 hsub
      split at h
      · rename_i p f1 hc
        simp only [Res.ok.injEq, Option.some.injEq, Prod.mk.injEq] at h
        obtain ⟨rfl, rfl⟩ := h
        obtain ⟨h1, h2, rest, h3, h4⟩ := tryCreate_ok hk hc
        exact ⟨⟨hs, hsub', h1, rest, h3, h4⟩, h2⟩
      · simp at h
      · simp at h

theorem newState_none {f : ArticleFactory} {last : Option (Line × ArticleId)} (hk : Knows f context last)
    {l : Line} {prevEmpty : Bool} (h : newState upper f l prevEmpty context = .ok none) :
    ¬ IsStructuralHeader l ∧ ¬ IsSubtitleStart upper context prevEmpty l ∧
      ∀ id, ¬ ArticleStart context last l id := by
  unfold newState at h
  split at h
  · simp at h
  · rename_i he
    refine ⟨findSE_none.1 he, ?_⟩
    split at h
    · simp at h
    · rename_i hsub
      refine ⟨subtitleTryCreate_none.1 hsub, ?_⟩
      split at h
      · simp at h
      · rename_i hc; exact tryCreate_err hk hc
      · simp at h

theorem noStarts_nil (last : Option (Line × ArticleId)) (before : List Line) :
    NoStarts upper context last before [] := by
  intro x l y h; simp at h

theorem noStarts_snoc {last : Option (Line × ArticleId)} {before ls : List Line} {l : Line}
    (h : NoStarts upper context last before ls)
    (hl : opening (allText (before ++ ls)) = closing (allText (before ++ ls)) →
      ¬ IsStructuralHeader l ∧ ¬ IsSubtitleStart upper context (lastEmpty (before ++ ls)) l ∧
      ∀ id, ¬ ArticleStart context last l id) :
    NoStarts upper context last before (ls ++ [l]) := by
  intro x m y e hb
  rcases List.eq_nil_or_concat y with rfl | ⟨y', z, rfl⟩
  · obtain ⟨rfl, h2⟩ := List.append_inj' e rfl
    simp only [List.cons.injEq, and_true] at h2
    subst h2
    exact hl hb
  · have e' : ls ++ [l] = (x ++ m :: y') ++ [z] := by rw [e]; simp
    obtain ⟨rfl, _⟩ := List.append_inj' e' rfl
    exact h x m y' rfl hb

/-- What is known between two lines, when the children read have the property `P`. -/
structure ActInv (P : Piece → Prop) (upper : Char → Bool) (context : ParsingContext) (done : List Line) (q : QuoteCheck)
    (f : ArticleFactory) (prevEmpty : Bool) (state : ParseState) (preamble : Str)
    (children : List (ActChild Empty)) : Prop where
  level : q.level = (opening (allText done) : Int) - closing (allText done)
  nonneg : 0 ≤ q.level
  prev : prevEmpty = lastEmpty done
  state : (state = .preamble ∧ children = [] ∧ preamble = Line.join done ∧ Knows f context none ∧
      NoStarts upper context none [] done) ∨
    ∃ p ps h body, done = p ++ pieceLines ps ++ h :: body ∧ children = ps.map Piece.child ∧
      preamble = Line.join p ∧ NoStarts upper context none [] p ∧ Division upper context p none ps ∧
      opening (allText (p ++ pieceLines ps)) = closing (allText (p ++ pieceLines ps)) ∧
      OpenOf upper context (lastOf none ps) (lastEmpty (p ++ pieceLines ps)) h body state ∧
      Knows f context (lastIn (lastOf none ps) h state) ∧
      NoStarts upper context (lastIn (lastOf none ps) h state) (p ++ pieceLines ps ++ [h]) body ∧ ∀ x ∈ ps, P x

/-- The lines are divided, and the children have the property `P`. -/
def DividedWith (P : Piece → Prop) (upper : Char → Bool) (context : ParsingContext) (ls : List Line) (preamble : Str)
    (children : List (ActChild Empty)) : Prop :=
  ∃ p ps, ls = p ++ pieceLines ps ∧ children = ps.map Piece.child ∧ ps ≠ [] ∧ preamble = Line.join p ∧
    NoStarts upper context none [] p ∧ Division upper context p none ps ∧ ∀ x ∈ ps, P x

/-- What is read has the property `P`. -/
def Ensures (P : Piece → Prop) (upper : Char → Bool) (context : ParsingContext) : Prop :=
  ∀ last prevEmpty h body st c, OpenOf upper context last prevEmpty h body st → st.finish = .ok (some c) →
    P ⟨h, body, c⟩

theorem lastEmpty_snoc (ls : List Line) (l : Line) : lastEmpty (ls ++ [l]) = l.isEmpty := by
  simp [lastEmpty]

theorem complexFrom_dividedWith {P : Piece → Prop} (hP : Ensures P upper context) (ls : List Line) : ∀ {done : List Line} {q : QuoteCheck} {f : ArticleFactory}
    {prevEmpty : Bool} {state : ParseState} {preamble : Str} {children : List (ActChild Empty)}
    {r : Str × List (ActChild Empty)},
    ActInv P upper context done q f prevEmpty state preamble children →
    complexFrom upper context q f prevEmpty state preamble children ls = .ok r →
    DividedWith P upper context (done ++ ls) r.1 r.2 ∧
      opening (allText (done ++ ls)) = closing (allText (done ++ ls)) := by
  induction ls with
  | nil =>
    intro done q f prevEmpty state preamble children r hi h
    unfold complexFrom at h
    rw [Res.bind_eq_ok] at h
    obtain ⟨u, hu, h⟩ := h
    rw [Res.bind_eq_ok] at h
    obtain ⟨c, hc, h⟩ := h
    have hend : opening (allText done) = closing (allText done) := by
      have := hi.level
      unfold QuoteCheck.checkEnd at hu
      split at hu
      · omega
      · simp at hu
    rw [List.append_nil]
    refine ⟨?_, hend⟩
    rcases hi.state with ⟨rfl, _⟩ | ⟨p, ps, hd, body, rfl, rfl, rfl, hp, hdv, hbal, ho, hk, hns, hall⟩
    · simp only [ParseState.finish, Res.ok.injEq] at hc
      subst hc; simp at h
    · obtain ⟨c', rfl, hco, hl⟩ := finish_open ho hc
      have hpc := hP _ _ _ _ _ _ ho hc
      simp only [Res.ok.injEq] at h
      subst h
      refine ⟨p, ps ++ [⟨hd, body, c'⟩], ?_, by simp, by simp, rfl, hp, ?_, ?_⟩
      · simp [pieceLines]
      · rw [division_append]
        refine ⟨hdv, hbal, hco, ?_, trivial⟩
        rw [hl]; exact hns
      · simpa [or_imp, forall_and] using ⟨hall, hpc⟩
  | cons l ls ih =>
    intro done q f prevEmpty state preamble children r hi h
    unfold complexFrom at h
    rw [Res.bind_eq_ok] at h
    obtain ⟨q', hq, h⟩ := h
    rw [Res.bind_eq_ok] at h
    obtain ⟨o, ho', h⟩ := h
    have hup := hq
    rw [Props.update_eq] at hup
    split at hup
    case isFalse => simp at hup
    rename_i hge
    simp only [Res.ok.injEq] at hup
    have hlev : q'.level = (opening (allText (done ++ [l])) : Int) - closing (allText (done ++ [l])) := by
      rw [← hup, hi.level, allText_append, Props.opening_append, Props.closing_append]
      simp [allText_cons]; omega
    have hnn : 0 ≤ q'.level := by rw [← hup]; exact hge
    have hquoted : q'.beginningIsQuoted = decide (q.level > 0) := by rw [← hup]
    have hbal : q'.beginningIsQuoted = false ↔ opening (allText done) = closing (allText done) := by
      rw [hquoted]
      have := hi.level
      have := hi.nonneg
      simp; omega
    have e : done ++ l :: ls = (done ++ [l]) ++ ls := by simp
    rw [e]
    unfold newStateIn at ho'
    cases o with
    | some x =>
      obtain ⟨st', f'⟩ := x
      split at ho'
      · simp at ho'
      · rename_i hnq
        have hb := hbal.1 (by simpa using hnq)
        simp only at h
        rw [Res.bind_eq_ok] at h
        obtain ⟨c, hc, h⟩ := h
        refine ih ?_ h
        refine ⟨hlev, hnn, (lastEmpty_snoc _ _).symm, .inr ?_⟩
        rcases hi.state with ⟨rfl, rfl, rfl, hk, hns⟩ | ⟨p, ps, hd, body, rfl, rfl, rfl, hp, hdv, hbal2, ho, hk, hns, hall⟩
        · obtain ⟨hop, hk'⟩ := newState_some hk ho'
          simp only [ParseState.finish, Res.ok.injEq] at hc
          subst hc
          rw [hi.prev] at hop
          refine ⟨done, [], l, [], by simp [pieceLines], rfl, rfl, hns, trivial, ?_, ?_, hk', noStarts_nil _ _, by simp⟩
          · simpa [pieceLines] using hb
          · simpa [pieceLines, lastOf] using hop
        · obtain ⟨hop, hk'⟩ := newState_some hk ho'
          obtain ⟨c', rfl, hco, hl⟩ := finish_open ho hc
          have hpc := hP _ _ _ _ _ _ ho hc
          rw [hi.prev] at hop
          have e2 : p ++ pieceLines (ps ++ [⟨hd, body, c'⟩]) = p ++ pieceLines ps ++ hd :: body := by
            simp [pieceLines]
          have e3 : lastOf none (ps ++ [⟨hd, body, c'⟩]) = lastIn (lastOf none ps) hd state := by
            rw [lastOf_append]; exact hl
          refine ⟨p, ps ++ [⟨hd, body, c'⟩], l, [], by rw [e2], by simp [pushChild], rfl, hp, ?_, by rw [e2]; exact hb,
            by rw [e2, e3]; exact hop, by rw [e3]; exact hk', noStarts_nil _ _,
            by simpa [or_imp, forall_and] using ⟨hall, hpc⟩⟩
          rw [division_append]
          refine ⟨hdv, hbal2, hco, ?_, trivial⟩
          rw [hl]; exact hns
    | none =>
      simp only at h
      have hno : ∀ last, Knows f context last → opening (allText done) = closing (allText done) →
          ¬ IsStructuralHeader l ∧ ¬ IsSubtitleStart upper context (lastEmpty done) l ∧
            ∀ id, ¬ ArticleStart context last l id := by
        intro last hk hb
        rw [hbal.2 hb] at ho'
        rw [← hi.prev]
        exact newState_none hk (by simpa using ho')
      refine ih ?_ h
      refine ⟨hlev, hnn, (lastEmpty_snoc _ _).symm, ?_⟩
      rcases hi.state with ⟨rfl, rfl, rfl, hk, hns⟩ | ⟨p, ps, hd, body, rfl, rfl, rfl, hp, hdv, hbal2, ho, hk, hns, hall⟩
      · refine .inl ⟨rfl, rfl, by simp [ParseState.feedLine, Line.join], hk, ?_⟩
        exact noStarts_snoc hns (by simpa using hno _ hk)
      · obtain ⟨h1, h2, h3⟩ := feed_open l (Line.join p) ho
        refine .inr ⟨p, ps, hd, body ++ [l], by simp, rfl, h2, hp, hdv, hbal2, h1, by rw [h3]; exact hk, ?_, hall⟩
        rw [h3]
        apply noStarts_snoc hns
        have e4 : p ++ pieceLines ps ++ [hd] ++ body = p ++ pieceLines ps ++ hd :: body := by simp
        rw [e4]
        exact hno _ hk

theorem parseComplexBody_dividedWith {P : Piece → Prop} (hP : Ensures P upper context) {ls : List Line}
    {r : Str × List (ActChild Empty)} (h : parseComplexBody upper ls context = .ok r) :
    DividedWith P upper context ls r.1 r.2 ∧ opening (allText ls) = closing (allText ls) ∧
      (context ≠ .fullAct → r.1 = []) ∧ ∀ c ∈ r.2, tooLong c = false := by
  unfold parseComplexBody at h
  rw [Res.bind_eq_ok] at h
  obtain ⟨⟨p, cs⟩, h1, h⟩ := h
  simp only at h
  split at h
  · simp at h
  · rename_i h2
    split at h
    · simp at h
    · rename_i h3
      simp only [Res.ok.injEq] at h
      subst h
      have hi : ActInv P upper context [] .new (.new context) true .preamble [] [] :=
        ⟨by rfl, by decide, rfl, .inl ⟨rfl, rfl, rfl, ⟨rfl, rfl, rfl⟩, noStarts_nil _ _⟩⟩
      have := complexFrom_dividedWith hP ls hi h1
      refine ⟨by simpa using this.1, by simpa using this.2, ?_, ?_⟩
      · intro hc
        exact Classical.byContradiction fun hp => h2 ⟨hc, hp⟩
      · simpa using h3

theorem parseComplexBody_divided {ls : List Line} {r : Str × List (ActChild Empty)}
    (h : parseComplexBody upper ls context = .ok r) :
    Divided upper context ls r.1 r.2 ∧ opening (allText ls) = closing (allText ls) := by
  obtain ⟨⟨p, ps, h1, h2, h3, h4, h5, h6, _⟩, h7, _⟩ :=
    parseComplexBody_dividedWith (P := fun _ => True) (fun _ _ _ _ _ _ _ _ => trivial) h
  exact ⟨⟨p, ps, h1, h2, h3, h4, h5, h6⟩, h7⟩

end HunLaw
