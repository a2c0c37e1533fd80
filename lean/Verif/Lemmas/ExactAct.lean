import Verif.Lemmas.ExactLevels

/-! What the parsers of articles and of acts accept. -/

set_option autoImplicit false

namespace HunLaw

open HunLaw.Spec SAEParser

variable {upper : Char → Bool} {context : ParsingContext}

/-! ### articles -/


theorem paragraphs_sound {ls : List Line} {ps : List (Paragraph Empty)} (hne : ls ≠ [])
    (h : ArticleParser.paragraphs context ls = .ok ps) : ParagraphsAre context ls ps := by
  unfold ArticleParser.paragraphs at h
  split at h
  · rename_i ex hex
    have hl := extractMultiple_listIs paragraph_level hex
    split at h
    · simp at h
    · simp only [Res.ok.injEq] at h
      subst h
      obtain ⟨h1, h2⟩ := extractMultiple_noWrapUp rfl hex
      rw [h1, h2] at hl
      exact .inl hl
  · simp at h
  · rename_i herr
    rw [Res.bind_eq_ok] at h
    obtain ⟨r, hr, h⟩ := h
    simp only [Res.ok.injEq] at h
    subst h
    refine .inr ⟨?_, r.element, rfl, ?_⟩
    · intro ps' hl
      rcases extractMultiple_complete paragraph_level hl with h1 | h1 <;> rw [herr] at h1 <;> cases h1
    · have := paragraph_level.sound _ _ _ _ hr
      rw [parse_keepIt hr] at this
      exact this

theorem paragraphs_complete {ls : List Line} {ps : List (Paragraph Empty)} (hne : ls ≠ []) (hn : NoTrailingSpace ls)
    (h : ParagraphsAre context ls ps) : ArticleParser.paragraphs context ls = .ok ps := by
  have hnp := paragraphList_ne_panic ls hne hn ⟨false, true, context⟩ none
  have hnp2 := paragraphs_ne_panic (context := context) ls hne hn
  rcases h with h | ⟨hno, p, rfl, h⟩
  · rcases extractMultiple_complete paragraph_level h with h1 | h1
    · unfold ArticleParser.paragraphs
      rw [h1]; rfl
    · exact absurd h1 hnp
  · have herr : paragraphParser.extractMultiple ls ⟨false, true, context⟩ none = .err := by
      cases hx : paragraphParser.extractMultiple ls ⟨false, true, context⟩ none with
      | ok ex =>
        have hl := extractMultiple_listIs paragraph_level hx
        obtain ⟨h1, h2⟩ := extractMultiple_noWrapUp rfl hx
        rw [h1, h2] at hl
        exact absurd hl (hno _)
      | err => rfl
      | panic => exact absurd hx hnp
    unfold ArticleParser.paragraphs at hnp2 ⊢
    rw [herr] at hnp2 ⊢
    simp only at hnp2 ⊢
    rcases paragraph_level.complete _ _ _ _ _ h with h1 | h1
    · erw [h1]; rfl
    · erw [h1] at hnp2; exact absurd rfl hnp2

theorem dropEmpty_sound {ls ls' : List Line} (h : ArticleParser.dropEmpty ls = .ok ls') :
    ∃ gap, ls = gap ++ ls' ∧ ((∃ l, gap = [l] ∧ l.parts = []) ∨ gap = [] ∧ ∀ l, ls'.head? = some l → l.parts ≠ []) := by
  unfold ArticleParser.dropEmpty at h
  split at h
  · simp at h
  · rename_i l ls0
    simp only [Res.ok.injEq] at h
    subst h
    split
    · rename_i he; exact ⟨[l], rfl, .inl ⟨l, rfl, isEmpty_iff.1 he⟩⟩
    · rename_i he
      refine ⟨[], rfl, .inr ⟨rfl, ?_⟩⟩
      intro m hm
      simp only [List.head?_cons, Option.some.injEq] at hm
      subst hm
      exact fun hp => he (isEmpty_iff.2 hp)

theorem dropEmpty_complete {gap ls : List Line} (hne : ls ≠ [])
    (h : (∃ l, gap = [l] ∧ l.parts = []) ∨ gap = [] ∧ ∀ l, ls.head? = some l → l.parts ≠ []) :
    ArticleParser.dropEmpty (gap ++ ls) = .ok ls := by
  rcases h with ⟨l, rfl, hl⟩ | ⟨rfl, h⟩
  · simp [ArticleParser.dropEmpty, isEmpty_iff.2 hl]
  · cases ls with
    | nil => exact absurd rfl hne
    | cons l ls =>
      have : ¬ l.isEmpty = true := fun he => h l rfl (isEmpty_iff.1 he)
      simp [ArticleParser.dropEmpty, this]

theorem paragraphs_nil : ∀ ps, ArticleParser.paragraphs context [] ≠ .ok ps := by
  intro ps h
  simp [ArticleParser.paragraphs, extractMultiple] at h

theorem finish_sound {p : ArticleParser} {a : Article Empty} (h : p.finish = .ok a) :
    a.identifier = p.identifier ∧ ArticleIs p.context p.lines a := by
  unfold ArticleParser.finish at h
  rw [Res.bind_eq_ok] at h
  obtain ⟨⟨title, ls⟩, h1, h⟩ := h
  simp only at h
  rw [Res.bind_eq_ok] at h
  obtain ⟨ls', h2, h⟩ := h
  rw [Res.bind_eq_ok] at h
  obtain ⟨cs, h3, h⟩ := h
  simp only [Res.ok.injEq] at h
  subst h
  refine ⟨rfl, ?_⟩
  obtain ⟨gap, hg1, hg2⟩ := dropEmpty_sound h2
  have hne : ls' ≠ [] := by rintro rfl; exact paragraphs_nil _ h3
  have h4 := paragraphs_sound hne h3
  cases hp : p.lines with
  | nil => rw [hp] at h1; simp [ArticleParser.extractTitle] at h1
  | cons l rest =>
    rw [hp] at h1
    simp only [ArticleParser.extractTitle] at h1
    split at h1
    · rename_i t ht
      split at h1
      · rename_i hl
        simp only [Res.ok.injEq, Prod.mk.injEq] at h1
        obtain ⟨rfl, rfl⟩ := h1
        obtain ⟨own, o1, o2, o3⟩ := titleLoop_spec rest t
        refine ⟨rfl, l :: own, gap, ls', ?_, ?_, hg2, hne, h4⟩
        · rw [o1, hg1]; simp
        · refine ⟨l, own, t, rfl, ht, ?_, ?_⟩
          · rw [← dropLast_of_getLast hl, o2]
            exact joined_fold t own
          · intro a b hab hb s hs
            rw [joined_unique hs (joined_fold t a)]
            exact o3 a b hab hb
      · simp at h1
    · rename_i hno
      simp only [Res.ok.injEq, Prod.mk.injEq] at h1
      obtain ⟨rfl, rfl⟩ := h1
      refine ⟨rfl, [], gap, ls', by simpa using hg1, ⟨rfl, ?_⟩, hg2, hne, h4⟩
      intro l' t hl' ht
      simp only [List.head?_cons, Option.some.injEq] at hl'
      subst hl'
      exact hno t ht

theorem titleLoop_complete (own more : List Line) : ∀ (t : Str),
    (own.foldl (fun s l => l.appendTo s) t).getLast? = some ']' →
    (∀ a b, a ++ b = own → b ≠ [] → (a.foldl (fun s l => l.appendTo s) t).getLast? ≠ some ']') →
    ArticleParser.titleLoop t (own ++ more) = (own.foldl (fun s l => l.appendTo s) t, more) := by
  induction own with
  | nil =>
    intro t h1 _
    simp only [List.foldl_nil] at h1
    cases more with
    | nil => rfl
    | cons l ls => simp [ArticleParser.titleLoop, h1]
  | cons l own ih =>
    intro t h1 h2
    have h0 := h2 [] (l :: own) rfl (by simp)
    simp only [List.foldl_nil] at h0
    rw [List.cons_append]
    unfold ArticleParser.titleLoop
    rw [if_neg h0]
    exact ih _ h1 fun a b hab hb => h2 (l :: a) b (by rw [← hab]; rfl) hb

theorem finish_complete {p : ArticleParser} {a : Article Empty} (hn : NoTrailingSpace p.lines)
    (hid : a.identifier = p.identifier) (h : ArticleIs p.context p.lines a) : p.finish = .ok a := by
  obtain ⟨hch, titleLines, gap, rest, hl, ht, hg, hne, hps⟩ := h
  have hn' : NoTrailingSpace rest := fun l hm => hn l (by rw [hl]; simp [hm])
  have h3 := paragraphs_complete hne hn' hps
  have h2 := dropEmpty_complete hne hg
  have h1 : ArticleParser.extractTitle p.lines = .ok (a.title, gap ++ rest) := by
    rw [hl]
    cases hti : a.title with
    | none =>
      rw [hti] at ht
      obtain ⟨rfl, ht⟩ := ht
      rw [hl] at ht
      simp only [List.nil_append] at ht ⊢
      cases hr : gap ++ rest with
      | nil => simp at hr; exact absurd hr.2 hne
      | cons l ls =>
        rw [hr] at ht
        simp only [ArticleParser.extractTitle]
        split
        · rename_i t htt; exact absurd htt (ht l t rfl)
        · rfl
    | some title =>
      rw [hti] at ht
      obtain ⟨first, others, t, rfl, hf, hj, hmin⟩ := ht
      have e : others.foldl (fun s l => l.appendTo s) t = title ++ [']'] :=
        joined_unique (joined_fold t others) hj
      have hloop := titleLoop_complete others (gap ++ rest) t (by rw [e]; simp)
        (fun a b hab hb => hmin a b hab hb _ (joined_fold t a))
      simp only [List.cons_append, List.append_assoc, ArticleParser.extractTitle, hf, hloop, e]
      simp
  unfold ArticleParser.finish
  rw [h1]
  simp only [Res.bind_ok]
  rw [h2]
  simp only [Res.bind_ok]
  rw [h3]
  simp only [Res.bind_ok, ← hid, ← hch]

/-! ### structural elements -/

theorem structuralHeader_last {t : SEType} {id : NumericId} {s : Str} (h : StructuralHeader t id s) :
    ∃ c, s.getLast? = some c ∧ match t with
      | .book => c = 'V'
      | .part _ => c = 'Z'
      | .title => c = 'M'
      | .chapter => upAscii c = 'T' := by
  obtain ⟨num, _, _, h⟩ := h
  cases t with
  | book => simp only at h; exact ⟨_, by rw [h]; simp, rfl⟩
  | part b => simp only at h; exact ⟨_, by rw [h]; simp, rfl⟩
  | title => simp only at h; exact ⟨_, by rw [h]; simp, rfl⟩
  | chapter =>
    obtain ⟨w, hw, rfl⟩ := h
    rcases List.eq_nil_or_concat w with rfl | ⟨a, x, rfl⟩
    · simp at hw
    · refine ⟨x, by rw [List.concat_eq_append, ← List.append_assoc, List.getLast?_append]; rfl, ?_⟩
      have := congrArg List.getLast? hw
      simpa using this

theorem structuralHeader_unique {t t' : SEType} {id id' : NumericId} {s : Str} (h : StructuralHeader t id s)
    (h' : StructuralHeader t' id' s) : t = t' ∧ id = id' := by
  obtain ⟨c, hc, hk⟩ := structuralHeader_last h
  obtain ⟨c', hc', hk'⟩ := structuralHeader_last h'
  rw [hc] at hc'
  cases hc'
  obtain ⟨num, hi, _, hs⟩ := h
  obtain ⟨num', hi', _, hs'⟩ := h'
  have e1 : hunNumeric str!"ÁLTALÁNOS" = none := by decide +kernel
  have e2 : hunNumeric str!"KÜLÖNÖS" = none := by decide +kernel
  have e3 : hunNumeric str!"ZÁRÓ" = none := by decide +kernel
  have ex : ∀ n i j, hunNumeric n = some i → specialPart n = some j → False := by
    intro n i j h1 h2
    unfold specialPart at h2
    split at h2
    · rename_i h; rw [h, e1] at h1; cases h1
    · split at h2
      · rename_i h; rw [h, e2] at h1; cases h1
      · split at h2
        · rename_i h; rw [h, e3] at h1; cases h1
        · cases h2
  have same : num = num' → t = t' → id = id' := by
    rintro rfl rfl
    rw [hi] at hi'
    exact Option.some.inj hi'
  cases t <;> cases t' <;> simp only at hk hk' hs hs' <;>
    first
    | (exfalso; subst hk; revert hk'; decide)
    | (exfalso; subst hk'; revert hk; decide)
    | skip
  · rw [hs] at hs'
    exact ⟨rfl, same (List.append_cancel_right hs') rfl⟩
  · rename_i b b'
    rw [hs] at hs'
    obtain rfl := List.append_cancel_right hs'
    cases b <;> cases b'
    · exact ⟨rfl, same rfl rfl⟩
    · exact (ex _ _ _ hi hi').elim
    · exact (ex _ _ _ hi' hi).elim
    · exact ⟨rfl, same rfl rfl⟩
  · rw [hs] at hs'
    exact ⟨rfl, same (List.append_cancel_right hs') rfl⟩
  · obtain ⟨w, hw, rfl⟩ := hs
    obtain ⟨w', hw', hs'⟩ := hs'
    have hlen : w.length = w'.length := by
      have h1 := congrArg List.length hw
      have h2 := congrArg List.length hw'
      simp only [List.length_map] at h1 h2
      rw [h1, h2]
    obtain ⟨h1, _⟩ := List.append_inj' hs' hlen
    exact ⟨rfl, same (List.append_cancel_right h1) rfl⟩

theorem subtitleStart_unique {prevEmpty : Bool} {l : Line} {id id' : Option NumericId} {title title' : Str}
    (h : SubtitleStart upper context prevEmpty l id title) (h' : SubtitleStart upper context prevEmpty l id' title') :
    id = id' ∧ title = title' := by
  have h1 := (subtitleTryCreate_iff upper l prevEmpty context ⟨id, title, none⟩).2 ⟨h, rfl⟩
  have h2 := (subtitleTryCreate_iff upper l prevEmpty context ⟨id', title', none⟩).2 ⟨h', rfl⟩
  rw [h1] at h2
  simpa using h2

/-! ### acts -/

theorem open_child {last : Option (Line × ArticleId)} {prevEmpty : Bool} {h : Line} {x body : List Line}
    {st : ParseState} {c : ActChild Empty} (ho : OpenOf upper context last prevEmpty h x st)
    (hc : ChildOf upper context last prevEmpty h body c) : lastIn last h st = lastArticle last h c := by
  cases st with
  | preamble => exact ho.elim
  | article p =>
    obtain ⟨h1, h2, h3, rest, h4, h5⟩ := ho
    cases c with
    | article a =>
      obtain ⟨_, _, _, _, rest', hr, _⟩ := hc
      have := (Props.C27_article_header_iff _ _ _).2 hr
      rw [h4] at this
      simp only [Res.ok.injEq, Option.some.injEq, Prod.mk.injEq] at this
      simp [lastIn, lastArticle, this.1]
    | subtitle s => exact absurd ⟨_, _, hc.2.choose_spec.1⟩ h2
    | structuralElement e => exact absurd ⟨_, _, hc.1⟩ h1
  | subtitle s =>
    cases c with
    | article a =>
      obtain ⟨_, title, h2, _⟩ := ho
      exact absurd ⟨_, _, h2⟩ hc.2.1
    | subtitle s => rfl
    | structuralElement e => rfl
  | structuralElement e =>
    cases c with
    | article a => exact absurd ⟨_, _, ho.1⟩ hc.1
    | subtitle s => rfl
    | structuralElement e => rfl

theorem finish_child {last : Option (Line × ArticleId)} {prevEmpty : Bool} {h : Line} {body : List Line}
    {st : ParseState} {c : ActChild Empty} (ho : OpenOf upper context last prevEmpty h body st)
    (hc : ChildOf upper context last prevEmpty h body c) (hp : PieceIs context ⟨h, body, c⟩)
    (hn : NoTrailingSpace (h :: body)) : st.finish = .ok (some c) := by
  cases st with
  | preamble => exact ho.elim
  | article p =>
    obtain ⟨h1, h2, h3, rest, h4, h5⟩ := ho
    cases c with
    | article a =>
      obtain ⟨rest', hr, ha⟩ := hp a rfl
      have := (Props.C27_article_header_iff _ _ _).2 hr
      rw [h4] at this
      simp only [Res.ok.injEq, Option.some.injEq, Prod.mk.injEq] at this
      obtain ⟨e1, rfl⟩ := this
      have hlines : p.lines = rest :: body := by rw [h5]
      have hctx : p.context = context := by rw [h5]
      have hf : p.finish = .ok a := by
        apply finish_complete
        · rw [hlines]
          intro l hl
          simp only [List.mem_cons] at hl
          rcases hl with rfl | hl
          · exact (articleHead_rest hr).2 (hn h (by simp))
          · exact hn l (by simp [hl])
        · exact e1.symm
        · rw [hlines, hctx]; exact ha
      show Res.map _ p.finish = _
      rw [hf]; rfl
    | subtitle s => exact absurd ⟨_, _, hc.2.choose_spec.1⟩ h2
    | structuralElement e => exact absurd ⟨_, _, hc.1⟩ h1
  | subtitle s =>
    obtain ⟨h1, title, h2, h3, h4, hch⟩ := ho
    cases c with
    | article a => exact absurd ⟨_, _, h2⟩ hc.2.1
    | structuralElement e => exact absurd ⟨_, _, hc.1⟩ h1
    | subtitle s' =>
      obtain ⟨_, title', h2', hj, hch'⟩ := hc
      obtain ⟨e1, rfl⟩ := subtitleStart_unique h2 h2'
      obtain ⟨u, hu, hj'⟩ := Props.join_aux body title title h3 h3 rfl
      have e2 : s.title = s'.title := by rw [h4, hu]; exact joined_unique hj' hj
      have : s = s' := by
        cases s; cases s'
        simp only at e1 e2 hch hch'
        rw [e1, e2, hch, hch']
      simp [ParseState.finish, this]
  | structuralElement e =>
    obtain ⟨h1, h2, hch⟩ := ho
    cases c with
    | article a => exact absurd ⟨_, _, h1⟩ hc.1
    | subtitle s' => exact absurd ⟨_, _, h1⟩ hc.1
    | structuralElement e' =>
      obtain ⟨h1', hj, hch'⟩ := hc
      obtain ⟨e1, e2⟩ := structuralHeader_unique h1 h1'
      have e3 : e.title = e'.title := by rw [h2]; exact joined_unique (Props.C26_join body) hj
      have : e = e' := by
        cases e; cases e'
        simp only at e1 e2 e3 hch hch'
        rw [e1, e2, e3, hch, hch']
      simp [ParseState.finish, this]

theorem newState_ne_err {f : ArticleFactory} {l : Line} {prevEmpty : Bool} :
    newState upper f l prevEmpty context ≠ .err := by
  unfold newState
  split
  · simp
  · split
    · simp
    · split <;> simp

theorem newState_nothing {f : ArticleFactory} {last : Option (Line × ArticleId)} (hk : Knows f context last)
    {l : Line} {prevEmpty : Bool} (hl : l.content.getLast? ≠ some ' ')
    (h : ¬ IsStructuralHeader l ∧ ¬ IsSubtitleStart upper context prevEmpty l ∧ ∀ id, ¬ ArticleStart context last l id) :
    newState upper f l prevEmpty context = .ok none := by
  cases hx : newState upper f l prevEmpty context with
  | err => exact absurd hx newState_ne_err
  | panic => exact absurd hx (newState_ne_panic hl)
  | ok o =>
    cases o with
    | none => rfl
    | some y =>
      obtain ⟨st, f'⟩ := y
      obtain ⟨ho, _⟩ := newState_some hk hx
      cases st with
      | preamble => exact ho.elim
      | article p => exact absurd ho.2.2.1 (h.2.2 _)
      | subtitle s => obtain ⟨_, title, h2, _⟩ := ho; exact absurd ⟨_, _, h2⟩ h.2.1
      | structuralElement e => exact absurd ⟨_, _, ho.1⟩ h.1

theorem newState_child {f : ArticleFactory} {last : Option (Line × ArticleId)} (hk : Knows f context last)
    {l : Line} {prevEmpty : Bool} {body : List Line} {c : ActChild Empty} (hl : l.content.getLast? ≠ some ' ')
    (hc : ChildOf upper context last prevEmpty l body c) :
    ∃ st f', newState upper f l prevEmpty context = .ok (some (st, f')) ∧ OpenOf upper context last prevEmpty l [] st ∧
      Knows f' context (lastArticle last l c) := by
  cases hx : newState upper f l prevEmpty context with
  | err => exact absurd hx newState_ne_err
  | panic => exact absurd hx (newState_ne_panic hl)
  | ok o =>
    cases o with
    | none =>
      obtain ⟨h1, h2, h3⟩ := newState_none hk hx
      cases c with
      | article a => exact absurd hc.2.2.1 (h3 _)
      | subtitle s => exact absurd ⟨_, _, hc.2.choose_spec.1⟩ h2
      | structuralElement e => exact absurd ⟨_, _, hc.1⟩ h1
    | some y =>
      obtain ⟨st, f'⟩ := y
      obtain ⟨ho, hk'⟩ := newState_some hk hx
      exact ⟨st, f', rfl, ho, by rw [← open_child ho hc]; exact hk'⟩

theorem complexFrom_cons {q : QuoteCheck} {f : ArticleFactory} {prevEmpty : Bool} {state : ParseState}
    {preamble : Str} {children : List (ActChild Empty)} {l : Line} {ls : List Line} :
    complexFrom upper context q f prevEmpty state preamble children (l :: ls) = (do
      let q ← q.update l
      match ← newStateIn upper q f l prevEmpty context with
      | some (state', f) => do
        let c ← state.finish
        complexFrom upper context q f l.isEmpty state' preamble (pushChild children c) ls
      | none =>
        complexFrom upper context q f l.isEmpty (state.feedLine l preamble).1 (state.feedLine l preamble).2
          children ls) := rfl

/-- A line that begins nothing. -/
theorem complexFrom_fed {q : QuoteCheck} {f : ArticleFactory} {state : ParseState} {preamble : Str}
    {children : List (ActChild Empty)} {done ls : List Line} {l : Line} {last : Option (Line × ArticleId)}
    (hk : Knows f context last) (hq : QuoteInv q done) (hnest : NestedLines (done ++ l :: ls))
    (hl : l.content.getLast? ≠ some ' ')
    (hno : opening (allText done) = closing (allText done) →
      ¬ IsStructuralHeader l ∧ ¬ IsSubtitleStart upper context (lastEmpty done) l ∧ ∀ id, ¬ ArticleStart context last l id) :
    ∃ q', QuoteInv q' (done ++ [l]) ∧
      complexFrom upper context q f (lastEmpty done) state preamble children (l :: ls) =
      complexFrom upper context q' f (lastEmpty (done ++ [l])) (state.feedLine l preamble).1
        (state.feedLine l preamble).2 children ls := by
  have e : done ++ l :: ls = (done ++ [l]) ++ ls := by simp
  rw [e] at hnest
  obtain ⟨q', hq'⟩ := nested_step hq (nested_le hnest)
  obtain ⟨hi', hb⟩ := quoteInv_step hq hq'
  refine ⟨q', hi', ?_⟩
  rw [complexFrom_cons, hq', lastEmpty_snoc]
  have hns : newStateIn upper q' f l (lastEmpty done) context = .ok none := by
    unfold newStateIn
    split
    · rfl
    · rename_i hnq
      exact newState_nothing hk hl (hno (hb.1 (by simpa using hnq)))
  simp only [Res.bind_ok, hns]

/-- A line that begins a child. -/
theorem complexFrom_begun {q : QuoteCheck} {f : ArticleFactory} {state : ParseState} {preamble : Str}
    {children : List (ActChild Empty)} {done ls body : List Line} {l : Line} {last : Option (Line × ArticleId)}
    {c : ActChild Empty} {o : Option (ActChild Empty)}
    (hk : Knows f context last) (hq : QuoteInv q done) (hnest : NestedLines (done ++ l :: ls))
    (hl : l.content.getLast? ≠ some ' ') (hb : opening (allText done) = closing (allText done))
    (hc : ChildOf upper context last (lastEmpty done) l body c) (hf : state.finish = .ok o) :
    ∃ q' f' st, QuoteInv q' (done ++ [l]) ∧ Knows f' context (lastArticle last l c) ∧
      OpenOf upper context last (lastEmpty done) l [] st ∧
      complexFrom upper context q f (lastEmpty done) state preamble children (l :: ls) =
      complexFrom upper context q' f' (lastEmpty (done ++ [l])) st preamble (pushChild children o) ls := by
  have e : done ++ l :: ls = (done ++ [l]) ++ ls := by simp
  rw [e] at hnest
  obtain ⟨q', hq'⟩ := nested_step hq (nested_le hnest)
  obtain ⟨hi', hbq⟩ := quoteInv_step hq hq'
  obtain ⟨st, f', hn, ho, hk'⟩ := newState_child hk hl hc
  refine ⟨q', f', st, hi', hk', ho, ?_⟩
  rw [complexFrom_cons, hq', lastEmpty_snoc]
  have hns : newStateIn upper q' f l (lastEmpty done) context = .ok (some (st, f')) := by
    unfold newStateIn
    rw [hbq.2 hb]
    simpa using hn
  simp only [Res.bind_ok, hns, hf]

theorem complexFrom_body {f : ArticleFactory} {preamble : Str} {children : List (ActChild Empty)} {done : List Line}
    {h : Line} {last : Option (Line × ArticleId)} {prevEmpty : Bool} (more : List Line) (y : List Line) :
    ∀ {x : List Line} {q : QuoteCheck} {st : ParseState}, OpenOf upper context last prevEmpty h x st →
    Knows f context (lastIn last h st) → QuoteInv q (done ++ h :: x) → NestedLines (done ++ h :: x ++ y ++ more) →
    NoTrailingSpace y → NoStarts upper context (lastIn last h st) (done ++ h :: x) y →
    ∃ q' st', OpenOf upper context last prevEmpty h (x ++ y) st' ∧ lastIn last h st' = lastIn last h st ∧
      QuoteInv q' (done ++ h :: (x ++ y)) ∧
      complexFrom upper context q f (lastEmpty (done ++ h :: x)) st preamble children (y ++ more) =
      complexFrom upper context q' f (lastEmpty (done ++ h :: (x ++ y))) st' preamble children more := by
  induction y with
  | nil =>
    intro x q st ho _ hq _ _ _
    exact ⟨q, st, by simpa using ho, rfl, by simpa using hq, by simp⟩
  | cons l y ih =>
    intro x q st ho hk hq hnest hn hns
    obtain ⟨h1, h2, h3⟩ := feed_open l preamble ho
    have e : done ++ h :: x ++ [l] = done ++ h :: (x ++ [l]) := by simp
    obtain ⟨q', hq', heq⟩ := complexFrom_fed (upper := upper) (state := st) (preamble := preamble)
      (children := children) (ls := y ++ more) hk hq (by simpa using hnest) (hn l (by simp))
      (fun hb => by simpa using hns [] l y rfl (by simpa using hb))
    rw [e] at hq' heq
    obtain ⟨q'', st', g1, g2, g3, g4⟩ := ih h1 (by rw [h3]; exact hk) hq' (by simpa using hnest)
      (fun m hm => hn m (by simp [hm])) (by
        rw [h3]
        intro a m b hab hb
        have := hns (l :: a) m b (by rw [hab]; rfl)
        simpa using this (by simpa using hb))
    refine ⟨q'', st', by simpa using g1, by rw [g2, h3], by simpa using g3, ?_⟩
    rw [List.cons_append, heq, h2, g4]
    simp

theorem complexFrom_preamble {f : ArticleFactory} (hk : Knows f context none) (more : List Line) (y : List Line) :
    ∀ {x : List Line} {q : QuoteCheck}, QuoteInv q x → NestedLines (x ++ y ++ more) →
    NoTrailingSpace y → NoStarts upper context none x y →
    ∃ q', QuoteInv q' (x ++ y) ∧
      complexFrom upper context q f (lastEmpty x) .preamble (Line.join x) [] (y ++ more) =
      complexFrom upper context q' f (lastEmpty (x ++ y)) .preamble (Line.join (x ++ y)) [] more := by
  induction y with
  | nil =>
    intro x q hq _ _ _
    exact ⟨q, by simpa using hq, by simp⟩
  | cons l y ih =>
    intro x q hq hnest hn hns
    obtain ⟨q', hq', heq⟩ := complexFrom_fed (upper := upper) (state := .preamble) (preamble := Line.join x)
      (children := []) (ls := y ++ more) hk hq (by simpa using hnest) (hn l (by simp))
      (fun hb => by simpa using hns [] l y rfl (by simpa using hb))
    obtain ⟨q'', g3, g4⟩ := ih hq' (by simpa using hnest)
      (fun m hm => hn m (by simp [hm])) (by
        intro a m b hab hb
        have := hns (l :: a) m b (by rw [hab]; rfl)
        simpa using this (by simpa using hb))
    refine ⟨q'', by simpa using g3, ?_⟩
    have e : (ParseState.preamble.feedLine l (Line.join x)) = (.preamble, Line.join (x ++ [l])) := by
      simp [ParseState.feedLine, Line.join]
    rw [List.cons_append, heq, e, g4]
    simp

theorem complexFrom_complete {preamble : Str} (ps : List Piece) : ∀ {f : ArticleFactory}
    {children : List (ActChild Empty)} {done : List Line} {h : Line} {body : List Line} {c : ActChild Empty}
    {last : Option (Line × ArticleId)} {q : QuoteCheck} {st : ParseState},
    OpenOf upper context last (lastEmpty done) h [] st → Knows f context (lastArticle last h c) →
    QuoteInv q (done ++ [h]) → NestedLines (done ++ h :: body ++ pieceLines ps) →
    BalancedLines (done ++ h :: body ++ pieceLines ps) → NoTrailingSpace (h :: body ++ pieceLines ps) →
    ChildOf upper context last (lastEmpty done) h body c →
    NoStarts upper context (lastArticle last h c) (done ++ [h]) body →
    Division upper context (done ++ h :: body) (lastArticle last h c) ps →
    PieceIs context ⟨h, body, c⟩ → (∀ x ∈ ps, PieceIs context x) →
    complexFrom upper context q f (lastEmpty (done ++ [h])) st preamble children (body ++ pieceLines ps) =
      .ok (preamble, children ++ c :: ps.map Piece.child) := by
  induction ps with
  | nil =>
    intro f children done h body c last q st ho hk hq hnest hbal hn hc hns _ hp _
    have e := open_child ho hc
    obtain ⟨q', st', g1, g2, g3, g4⟩ := complexFrom_body (upper := upper) (preamble := preamble) (children := children)
      (pieceLines []) body ho (by rw [e]; exact hk) hq (by simpa using hnest) (fun m hm => hn m (by simp [hm])) (by rw [e]; exact hns)
    rw [g4]
    have hf := finish_child (by simpa using g1) hc hp (fun m hm => hn m (by simpa [pieceLines] using hm))
    have hb := balanced_end g3 (by simpa [pieceLines] using hbal)
    simp only [pieceLines, List.flatMap_nil, complexFrom, hb, Res.bind_ok, hf, List.map_nil]
  | cons p ps ih =>
    intro f children done h body c last q st ho hk hq hnest hbal hn hc hns hd hp hall
    have e := open_child ho hc
    obtain ⟨q', st', g1, g2, g3, g4⟩ := complexFrom_body (upper := upper) (preamble := preamble) (children := children)
      (pieceLines (p :: ps)) body ho (by rw [e]; exact hk) hq (by simpa using hnest) (fun m hm => hn m (by simp [hm]))
      (by rw [e]; exact hns)
    rw [g4]
    have hf := finish_child (by simpa using g1) hc hp
      (fun m hm => hn m (by simp only [List.mem_cons, List.mem_append] at hm ⊢; tauto))
    have el : pieceLines (p :: ps) = p.head :: (p.body ++ pieceLines ps) := by simp [pieceLines]
    obtain ⟨hd1, hd2, hd3, hd4⟩ := hd
    simp only [List.nil_append] at g3 ⊢
    rw [el] at hnest hbal hn ⊢
    obtain ⟨q2, f2, st2, k1, k2, k3, k4⟩ := complexFrom_begun (upper := upper) (preamble := preamble)
      (children := children) (ls := p.body ++ pieceLines ps) hk g3 (by simpa using hnest) (hn _ (by simp)) hd1 hd2 hf
    rw [k4]
    have := ih (children := pushChild children (some c)) k3 k2 k1 (by simpa using hnest) (by simpa using hbal)
      (fun m hm => hn m (by simp only [List.mem_cons, List.mem_append, List.cons_append] at hm ⊢; tauto)) hd2 hd3 hd4
      (hall p (by simp)) (fun x hx => hall x (by simp [hx]))
    rw [this]
    simp [pushChild]

theorem complexFrom_nested (ls : List Line) : ∀ {done : List Line} {q : QuoteCheck} {f : ArticleFactory}
    {prevEmpty : Bool} {state : ParseState} {preamble : Str} {children : List (ActChild Empty)}
    {r : Str × List (ActChild Empty)}, QuoteInv q done → NestedLines done →
    complexFrom upper context q f prevEmpty state preamble children ls = .ok r → NestedLines (done ++ ls) := by
  induction ls with
  | nil => intro done q f prevEmpty state preamble children r _ hn _; simpa using hn
  | cons l ls ih =>
    intro done q f prevEmpty state preamble children r hq hn h
    rw [complexFrom_cons, Res.bind_eq_ok] at h
    obtain ⟨q', hq', h⟩ := h
    obtain ⟨hi', _⟩ := quoteInv_step hq hq'
    have hn' := nested_snoc hn (quoteInv_le hi')
    rw [Res.bind_eq_ok] at h
    obtain ⟨o, _, h⟩ := h
    have e : done ++ l :: ls = (done ++ [l]) ++ ls := by simp
    rw [e]
    cases o with
    | none => exact ih hi' hn' h
    | some x =>
      simp only at h
      rw [Res.bind_eq_ok] at h
      obtain ⟨c, _, h⟩ := h
      exact ih hi' hn' h

theorem ensures_pieceIs : Ensures (PieceIs context) upper context := by
  intro last prevEmpty h body st c ho hf a ha
  simp only at ha
  subst ha
  cases st with
  | preamble => exact ho.elim
  | article p =>
    obtain ⟨h1, h2, h3, rest, h4, h5⟩ := ho
    unfold ParseState.finish at hf
    obtain ⟨a', hfa, e⟩ := map_ok.1 hf
    simp only [Option.some.injEq, ActChild.article.injEq] at e
    subst e
    obtain ⟨e1, e2⟩ := finish_sound hfa
    refine ⟨rest, ?_, ?_⟩
    · rw [e1]; exact (Props.C27_article_header_iff _ _ _).1 h4
    · have hlines : p.lines = rest :: body := by rw [h5]
      have hctx : p.context = context := by rw [h5]
      rw [hlines, hctx] at e2
      exact e2
  | subtitle s => simp [ParseState.finish] at hf
  | structuralElement e => simp [ParseState.finish] at hf

theorem parseComplexBody_sound {ls : List Line} {r : Str × List (ActChild Empty)}
    (h : parseComplexBody upper ls context = .ok r) : BodyIs context upper ls r.1 r.2 := by
  obtain ⟨hd, hb, hpre, hlong⟩ := parseComplexBody_dividedWith ensures_pieceIs h
  refine ⟨?_, hb, hpre, ?_, hd⟩
  · unfold parseComplexBody at h
    rw [Res.bind_eq_ok] at h
    obtain ⟨⟨p, cs⟩, h1, _⟩ := h
    simpa using complexFrom_nested ls quoteInv_new nested_nil h1
  · intro s hs
    have := hlong _ hs
    simpa [tooLong] using this

theorem parseComplexBody_complete {ls : List Line} {preamble : Str} {children : List (ActChild Empty)}
    (hn : NoTrailingSpace ls) (h : BodyIs context upper ls preamble children) :
    parseComplexBody upper ls context = .ok (preamble, children) := by
  obtain ⟨hnest, hbal, hpre, hlong, p, ps, rfl, rfl, hne, rfl, hns, hd, hall⟩ := h
  have hk : Knows (ArticleFactory.new context) context none := ⟨rfl, rfl, rfl⟩
  obtain ⟨q', hq', heq⟩ := complexFrom_preamble (upper := upper) hk (pieceLines ps) p (x := []) quoteInv_new
    (by simpa using hnest) (fun m hm => hn m (by simp [hm])) hns
  simp only [List.nil_append] at heq hq'
  have hmain : complexFrom upper context .new (.new context) true .preamble [] [] (p ++ pieceLines ps) =
      .ok (Line.join p, ps.map Piece.child) := by
    refine heq.trans ?_
    cases ps with
    | nil => exact absurd rfl hne
    | cons x ps =>
      have el : pieceLines (x :: ps) = x.head :: (x.body ++ pieceLines ps) := by simp [pieceLines]
      obtain ⟨hd1, hd2, hd3, hd4⟩ := hd
      rw [el] at hnest hbal hn ⊢
      obtain ⟨q2, f2, st2, k1, k2, k3, k4⟩ := complexFrom_begun (upper := upper) (preamble := Line.join p)
        (children := []) (state := .preamble) (o := none) (ls := x.body ++ pieceLines ps) hk hq' (by simpa using hnest)
        (hn _ (by simp)) hd1 hd2 rfl
      rw [k4]
      have := complexFrom_complete (preamble := Line.join p) (children := pushChild [] none) ps k3 k2 k1
        (by simpa using hnest) (by simpa using hbal)
        (fun m hm => hn m (by simp only [List.mem_cons, List.mem_append, List.cons_append] at hm ⊢; tauto)) hd2 hd3 hd4
        (hall x (by simp)) (fun y hy => hall y (by simp [hy]))
      rw [this]
      simp [pushChild]
  unfold parseComplexBody
  rw [hmain]
  simp only [Res.bind_ok]
  rw [if_neg (fun hc => hc.2 (hpre hc.1)), if_neg]
  simp only [List.any_eq_true, not_exists, not_and, Bool.not_eq_true]
  intro c hc
  cases c with
  | subtitle s =>
    have := hlong s hc
    simp [tooLong]; omega
  | article a => rfl
  | structuralElement e => rfl

end HunLaw
