import Verif.Lemmas.Grammar

/-! The parsers of each level follow the grammar. -/

set_option autoImplicit false

namespace HunLaw

open HunLaw.Spec SAEParser

/-! ### quotes in headers -/

theorem headerLine_quotes {op : Str} {IdText Closing : Str → Prop} {excluded : List Str} {s t r : Str}
    (h : HeaderLine op IdText Closing excluded s t r) (hop : ∀ c ∈ str!"„“”", c ∉ op)
    (hid : ∀ t, IdText t → ∀ c ∈ str!"„“”", c ∉ t) (hcl : ∀ x, Closing x → ∀ c ∈ str!"„“”", c ∉ x) :
    opening s = opening r ∧ closing s = closing r := by
  obtain ⟨cl, sp, rfl, h1, h2, h3, -, -, -⟩ := h
  have hsp : ∀ c ∈ str!"„“”", c ∉ sp := by
    intro c hc hm
    have := h3.2 c hm
    subst this
    revert hc; decide
  have z : ∀ x : Str, (∀ c ∈ str!"„“”", c ∉ x) → opening x = 0 ∧ closing x = 0 := by
    intro x hx
    unfold opening closing
    rw [List.count_eq_zero_of_not_mem (hx '„' (by decide)), List.count_eq_zero_of_not_mem (hx '“' (by decide)),
      List.count_eq_zero_of_not_mem (hx '”' (by decide))]
    exact ⟨rfl, rfl⟩
  simp only [Props.opening_append, Props.closing_append, (z _ hop).1, (z _ hop).2, (z _ (hid t h1)).1,
    (z _ (hid t h1)).2, (z _ (hcl _ h2)).1, (z _ (hcl _ h2)).2, (z _ hsp).1, (z _ hsp).2]
  omega

theorem digits_no_quote {d : Str} (h : Digits d) : ∀ c ∈ str!"„“”", c ∉ d := by
  intro c hc
  refine digits_not_mem h ?_
  revert hc; revert c; decide
theorem lower_no_quote {c : Char} (h : LowerLetter c) : ∀ x ∈ str!"„“”", x ≠ c := by
  intro x hx
  refine lower_ne h ?_
  revert hx; revert x; decide
theorem upper_no_quote {c : Char} (h : UpperLetter c) : ∀ x ∈ str!"„“”", x ≠ c := by
  intro x hx
  refine upper_ne h ?_
  revert hx; revert x; decide

theorem slash_no_quote : ∀ x ∈ str!"„“”", x ≠ '/' := by decide

theorem paragraphId_no_quote (t : Str) (h : ParagraphIdText t) : ∀ x ∈ str!"„“”", x ∉ t := by
  intro x hx
  obtain ⟨d, hd, rfl | ⟨c, hc, rfl⟩⟩ := h
  · exact digits_no_quote hd x hx
  · simp [digits_no_quote hd x hx, lower_no_quote hc x hx]

theorem numericId_no_quote (t : Str) (h : NumericIdText t) : ∀ x ∈ str!"„“”", x ∉ t := by
  intro x hx
  obtain ⟨d, hd, rfl | ⟨c, hc, rfl | rfl⟩⟩ := h
  · exact digits_no_quote hd x hx
  · simp [digits_no_quote hd x hx, lower_no_quote hc x hx]
  · simp [digits_no_quote hd x hx, lower_no_quote hc x hx, slash_no_quote x hx]

theorem alphabeticId_no_quote (t : Str) (h : AlphabeticIdText t) : ∀ x ∈ str!"„“”", x ∉ t := by
  have : ∀ t ∈ alphabet, ∀ x ∈ str!"„“”", x ∉ t := by decide +kernel
  exact this t h

theorem prefixedId_no_quote (t : Str) (h : PrefixedIdText t) : ∀ x ∈ str!"„“”", x ∉ t := by
  intro x hx
  obtain ⟨c, hc, rfl | ⟨b, hb, rfl⟩⟩ := h
  · simp [lower_no_quote hc x hx]
  · simp [lower_no_quote hc x hx, lower_no_quote hb x hx]

theorem headOf_quotes {I : Type} {Header : Str → Str → Str → Prop} {parse : Str → Option I}
    (hq : ∀ s t r, Header s t r → opening s = opening r ∧ closing s = closing r ∧ ∃ before, s = before ++ r)
    (l : Line) (id : I) (rest : Line) (h : HeadOf Header parse l id rest) :
    opening l.content = opening rest.content ∧ closing l.content = closing rest.content := by
  obtain ⟨t, r, h1, h2, h3, h4⟩ := h
  obtain ⟨h5, h6, h7⟩ := hq _ _ _ h1
  rw [(Props.C27_rest l rest r h7 h2 h4).1]
  exact ⟨h5, h6⟩

theorem headerLine_suffix {op : Str} {IdText Closing : Str → Prop} {excluded : List Str} {s t r : Str}
    (h : HeaderLine op IdText Closing excluded s t r) : ∃ before, s = before ++ r := by
  obtain ⟨cl, sp, rfl, _⟩ := h
  exact ⟨_, rfl⟩

theorem paragraphHead_quotes (l : Line) (id : ParagraphId) (rest : Line) (h : ParagraphHead l id rest) :
    opening l.content = opening rest.content ∧ closing l.content = closing rest.content :=
  headOf_quotes (fun s t r h => by
    obtain ⟨a, b⟩ := headerLine_quotes h (by decide) paragraphId_no_quote (by rintro _ rfl; decide)
    exact ⟨a, b, headerLine_suffix h⟩) l id rest h

theorem numericHead_quotes (l : Line) (id : NumericId) (rest : Line) (h : NumericHead l id rest) :
    opening l.content = opening rest.content ∧ closing l.content = closing rest.content :=
  headOf_quotes (fun s t r h => by
    obtain ⟨a, b⟩ := headerLine_quotes h (by decide) numericId_no_quote (by rintro _ rfl; decide)
    exact ⟨a, b, headerLine_suffix h⟩) l id rest h

theorem alphabeticHead_quotes (l : Line) (id : HunChar) (rest : Line) (h : AlphabeticHead l id rest) :
    opening l.content = opening rest.content ∧ closing l.content = closing rest.content :=
  headOf_quotes (fun s t r h => by
    obtain ⟨a, b⟩ := headerLine_quotes h (by decide) alphabeticId_no_quote (by rintro _ rfl; decide)
    exact ⟨a, b, headerLine_suffix h⟩) l id rest h

theorem prefixedHead_quotes (pfx : Option HunChar) (l : Line) (id : PrefixedId) (rest : Line)
    (h : PrefixedHead pfx l id rest) :
    opening l.content = opening rest.content ∧ closing l.content = closing rest.content :=
  headOf_quotes (fun s t r h => by
    obtain ⟨a, b⟩ := headerLine_quotes h (by decide) prefixedId_no_quote (by rintro _ rfl; decide)
    exact ⟨a, b, headerLine_suffix h⟩) l id rest h.1

/-! ### levels -/

variable {context : ParsingContext}

theorem prefixedHead_iff (pfx : Option HunChar) (l : Line) (id : PrefixedId) (rest : Line) :
    parsePrefixedHeader pfx l = .ok (some (id, rest)) ↔ PrefixedHead pfx l id rest := by
  rw [Props.C27_prefixed_header_iff]
  unfold PrefixedHead HeadOf PrefixedId.prefixIs
  simp only [beq_iff_eq]
  constructor
  · rintro ⟨t, r, h1, h2, h3, h4, h5⟩; exact ⟨⟨t, r, h1, h2, h3, h5⟩, h4⟩
  · rintro ⟨⟨t, r, h1, h2, h3, h5⟩, h4⟩; exact ⟨t, r, h1, h2, h3, h4, h5⟩

theorem goodFirst_none {I : Type} [DecidableEq I] [IdentifierCommon I] :
    (fun id : I => goodFirst none id = true) = (fun id : I => isFirst id = true) := rfl

/-- What must be the first identifier. -/
def FirstIs {I : Type} [IdentifierCommon I] (expected : Option I) (id : I) : Prop :=
  match expected with
  | some e => id = e
  | none => isFirst id = true

theorem goodFirst_eq {I : Type} [DecidableEq I] [IdentifierCommon I] (expected : Option I) :
    (fun id : I => goodFirst expected id = true) = FirstIs expected := by
  funext id
  cases expected <;> simp [goodFirst, FirstIs]

theorem alphabeticSubpoint_of (pfx : Option HunChar) (mode : WrapUpMode) (id : PrefixedId) (ls : List Line)
    (r : ParseResult PrefixedId NoChildren) (h : (alphabeticSubpointParser pfx).parse id ls context mode = .ok r) :
    SubpointOf context mode id ls r.element r.restOfWrapUp :=
  parse_elementOf (fun _ _ _ _ h => by simp [alphabeticSubpointParser] at h) mode id ls r h

theorem numericSubpoint_of (mode : WrapUpMode) (id : NumericId) (ls : List Line)
    (r : ParseResult NumericId NoChildren) (h : numericSubpointParser.parse id ls context mode = .ok r) :
    SubpointOf context mode id ls r.element r.restOfWrapUp :=
  parse_elementOf (fun _ _ _ _ h => by simp [numericSubpointParser] at h) mode id ls r h

theorem alphabeticSubpoints_of {pfx : Option HunChar} {wrapUps count : Bool} {ls : List Line}
    {expected : Option PrefixedId} {r : Extracted (List (SAE PrefixedId NoChildren))}
    (h : (alphabeticSubpointParser pfx).extractMultiple ls ⟨wrapUps, count, context⟩ expected = .ok r) :
    ListOf (PrefixedHead pfx) (FirstIs expected) (SubpointOf context) context wrapUps (if count then 2 else 1) ls
      r.elements r.parentWrapUp r.restOfWrapUp := by
  rw [← goodFirst_eq]
  exact extractMultiple_of (params := ⟨wrapUps, count, context⟩) (prefixedHead_iff pfx) (prefixedHead_quotes pfx)
    (alphabeticSubpoint_of pfx) (by intro h; simp only at h; simp [h]) (by intro h; simp only at h; simp [h]) h

theorem numericSubpoints_of {wrapUps count : Bool} {ls : List Line}
    {expected : Option NumericId} {r : Extracted (List (SAE NumericId NoChildren))}
    (h : numericSubpointParser.extractMultiple ls ⟨wrapUps, count, context⟩ expected = .ok r) :
    ListOf NumericHead (FirstIs expected) (SubpointOf context) context wrapUps (if count then 2 else 1) ls
      r.elements r.parentWrapUp r.restOfWrapUp := by
  rw [← goodFirst_eq]
  exact extractMultiple_of (params := ⟨wrapUps, count, context⟩) Props.C27_numeric_header_iff numericHead_quotes
    numericSubpoint_of (by intro h; simp only at h; simp [h]) (by intro h; simp only at h; simp [h]) h

theorem alphabeticPoint_of (mode : WrapUpMode) (id : HunChar) (ls : List Line)
    (r : ParseResult HunChar AlphabeticPointChildren) (h : alphabeticPointParser.parse id ls context mode = .ok r) :
    AlphabeticPointOf context mode id ls r.element r.restOfWrapUp := by
  refine parse_elementOf (fun id prev ls ex h => ?_) mode id ls r h
  unfold alphabeticPointParser at h
  simp only at h
  rcases orElse_ok.1 h with h | ⟨-, h⟩
  · obtain ⟨a, ha, rfl⟩ := map_ok.1 h
    exact numericSubpoints_of ha
  · obtain ⟨a, ha, rfl⟩ := map_ok.1 h
    exact alphabeticSubpoints_of ha

theorem numericPoint_of (mode : WrapUpMode) (id : NumericId) (ls : List Line)
    (r : ParseResult NumericId NumericPointChildren) (h : numericPointParser.parse id ls context mode = .ok r) :
    NumericPointOf context mode id ls r.element r.restOfWrapUp := by
  refine parse_elementOf (fun id prev ls ex h => ?_) mode id ls r h
  obtain ⟨a, ha, rfl⟩ := map_ok.1 h
  exact alphabeticSubpoints_of ha

theorem alphabeticPoints_of {wrapUps count : Bool} {ls : List Line}
    {expected : Option HunChar} {r : Extracted (List (SAE HunChar AlphabeticPointChildren))}
    (h : alphabeticPointParser.extractMultiple ls ⟨wrapUps, count, context⟩ expected = .ok r) :
    ListOf AlphabeticHead (FirstIs expected) (AlphabeticPointOf context) context wrapUps (if count then 2 else 1) ls
      r.elements r.parentWrapUp r.restOfWrapUp := by
  rw [← goodFirst_eq]
  exact extractMultiple_of (params := ⟨wrapUps, count, context⟩) Props.C27_alphabetic_header_iff
    alphabeticHead_quotes alphabeticPoint_of (by intro h; simp only at h; simp [h])
    (by intro h; simp only at h; simp [h]) h

theorem numericPoints_of {wrapUps count : Bool} {ls : List Line}
    {expected : Option NumericId} {r : Extracted (List (SAE NumericId NumericPointChildren))}
    (h : numericPointParser.extractMultiple ls ⟨wrapUps, count, context⟩ expected = .ok r) :
    ListOf NumericHead (FirstIs expected) (NumericPointOf context) context wrapUps (if count then 2 else 1) ls
      r.elements r.parentWrapUp r.restOfWrapUp := by
  rw [← goodFirst_eq]
  exact extractMultiple_of (params := ⟨wrapUps, count, context⟩) Props.C27_numeric_header_iff
    numericHead_quotes numericPoint_of (by intro h; simp only at h; simp [h])
    (by intro h; simp only at h; simp [h]) h

/-! ### quoted blocks -/

open QuoteParser in
theorem setWrapUp_map {α : Type} (f : QuotedBlock → α) (hf : ∀ b w, f { b with wrapUp := w } = f b) (w : Str)
    (bs : List QuotedBlock) : (setWrapUp w bs).map f = bs.map f := by
  fun_induction setWrapUp w bs with
  | case1 => rfl
  | case2 b => simp [hf]
  | case3 b bs h ih => simp [ih]

open QuoteParser in
theorem setWrapUp_last {w : Str} {bs : List QuotedBlock} (h : bs ≠ []) :
    (setWrapUp w bs).getLast?.bind QuotedBlock.wrapUp = nonEmpty w ∧
      (setWrapUp w bs).dropLast = bs.dropLast ∧ setWrapUp w bs ≠ [] := by
  fun_induction setWrapUp w bs with
  | case1 => exact absurd rfl h
  | case2 b => simp
  | case3 b bs hb ih =>
    have hne : bs ≠ [] := by rintro rfl; exact hb rfl
    obtain ⟨i1, i2, i3⟩ := ih hne
    refine ⟨?_, ?_, by simp⟩
    · rw [List.getLast?_cons_of_ne_nil i3]; exact i1
    · rw [List.dropLast_cons_of_ne_nil i3, List.dropLast_cons_of_ne_nil hne, i2]

theorem forall₂_of_map {α β : Type} {R : α → β → Prop} {as : List α} {bs cs : List β}
    (h : List.Forall₂ R as bs) {γ : Type} (f : β → γ) (hR : ∀ a b c, R a b → f b = f c → R a c)
    (hm : bs.map f = cs.map f) : List.Forall₂ R as cs := by
  induction h generalizing cs with
  | nil => cases cs with
    | nil => exact .nil
    | cons c cs => simp at hm
  | cons hab _ ih => cases cs with
    | nil => simp at hm
    | cons c cs =>
      simp only [List.map_cons, List.cons.injEq] at hm
      exact .cons (hR _ _ _ hab hm.1) (ih hm.2)

theorem forall₂_right {α β : Type} {R : α → β → Prop} {as : List α} {bs : List β}
    (h : List.Forall₂ R as bs) : ∀ b ∈ bs, ∃ a, R a b := by
  induction h with
  | nil => simp
  | cons hab _ ih =>
    intro b hb
    rcases List.mem_cons.1 hb with rfl | hb
    · exact ⟨_, hab⟩
    · exact ih b hb

open QuoteParser in
theorem quoted_of {prev : Option Line} {ls : List Line} {r : Extracted (List QuotedBlock)}
    (h : QuoteParser.extractMultiple prev ls = .ok r) :
    QuotedOf ls r.elements r.parentWrapUp ∧ r.restOfWrapUp = [] ∧
      ∃ first others c t, ls = first :: others ∧ first.content = c :: t ∧ (OpeningQuote c ∨
        (OpeningBracket c ∧ ∃ p, prev = some p ∧ p.content.getLast? = some ':')) := by
  refine ⟨?_, ?_, ?_⟩
  · obtain ⟨pre, segs, post, w, intro, wrapUp, blocks, hls, hf, hne, hi, hw, hp, he, hr⟩ := extract_segments h
    have hn : ∀ x t, Note x t → NoteText (nonEmpty x) t := by
      intro x t hx
      unfold NoteText
      have : (nonEmpty x).getD [] = x := by unfold nonEmpty; split <;> simp_all
      rw [this]; exact hx
    have hsegs : segs ≠ [] := by
      rintro rfl
      cases hf
      exact hne rfl
    cases blocks with
    | nil => exact absurd rfl hne
    | cons b bs =>
      have hl : (setIntro intro (b :: bs)) = { b with intro := nonEmpty intro } :: bs := rfl
      have hne2 : setIntro intro (b :: bs) ≠ [] := by simp [hl]
      obtain ⟨w1, w2, w3⟩ := setWrapUp_last (w := wrapUp) hne2
      have hint := setWrapUp_map QuotedBlock.intro (fun _ _ => rfl) wrapUp (setIntro intro (b :: bs))
      have hlin := setWrapUp_map QuotedBlock.lines (fun _ _ => rfl) wrapUp (setIntro intro (b :: bs))
      have hbi : ∀ x ∈ b :: bs, x.intro = none ∧ x.wrapUp = none := by
        intro x hx
        obtain ⟨y, hy⟩ := forall₂_right hf x hx
        exact ⟨hy.intro, hy.wrapUp⟩
      refine ⟨pre, post, w, segs, hls, hsegs, ?_, ?_, ?_, ?_, ?_, hp⟩
      · rw [he]
        refine forall₂_of_map (bs := b :: bs) ?_ QuotedBlock.lines ?_ ?_
        · refine hf.imp ?_
          intro s x hs
          exact ⟨⟨hs.unquoted, hs.balanced, hs.unclosed⟩, hs.gap⟩
        · rintro a x y ⟨⟨h1, h2, h3⟩, h4⟩ hxy
          exact ⟨⟨by rw [← hxy]; exact h1, h2, h3⟩, h4⟩
        · rw [hlin, hl]; rfl
      · rw [he]
        have : (setWrapUp wrapUp (setIntro intro (b :: bs))).head?.bind QuotedBlock.intro = nonEmpty intro := by
          rw [hl] at hint ⊢
          cases hs : setWrapUp wrapUp ({ b with intro := nonEmpty intro } :: bs) with
          | nil => rw [hs] at hint; simp at hint
          | cons y ys =>
            rw [hs] at hint
            simp only [List.map_cons, List.cons.injEq] at hint
            simp [hint.1]
        rw [this]
        exact hn _ _ hi
      · rw [he]
        intro x hx
        have h1 : ((setWrapUp wrapUp (setIntro intro (b :: bs))).tail).map QuotedBlock.intro =
            bs.map QuotedBlock.intro := by
          rw [List.map_tail, hint, hl]; rfl
        have h2 : x.intro ∈ bs.map QuotedBlock.intro := by rw [← h1]; exact List.mem_map_of_mem hx
        obtain ⟨y, hy, e⟩ := List.mem_map.1 h2
        rw [← e]
        exact (hbi y (by simp [hy])).1
      · rw [he, w1]; exact hn _ _ hw
      · rw [he, w2, hl]
        intro x hx
        have hx2 := List.mem_of_mem_dropLast hx
        rcases List.mem_cons.1 hx2 with rfl | hx2
        · exact (hbi b (by simp)).2
        · exact (hbi x (by simp [hx2])).2
  · obtain ⟨pre, segs, post, w, intro, wrapUp, blocks, hls, hf, hne, hi, hw, hp, he, hr⟩ := extract_segments h
    exact hr
  · cases ls with
    | nil => simp [QuoteParser.extractMultiple] at h
    | cons first others =>
      unfold QuoteParser.extractMultiple at h
      simp only at h
      split at h
      · simp at h
      · rename_i hs
        simp only [Bool.not_eq_true', Bool.not_eq_false] at hs
        unfold startsWithAny at hs
        split at hs
        · rename_i c t hc
          refine ⟨first, others, c, t, rfl, hc, ?_⟩
          unfold startTokens at hs
          split at hs
          · rename_i hx
            simp only [List.contains_eq_mem, List.mem_cons, List.not_mem_nil, or_false,
              decide_eq_true_eq] at hs
            rcases hs with rfl | rfl | rfl | rfl
            · refine .inr ⟨.inl rfl, ?_⟩
              unfold expectIntro at hx
              split at hx
              · rename_i p
                unfold endsWithAny at hx
                split at hx
                · rename_i c hc; exact ⟨p, rfl, by rw [hc]; simpa using hx⟩
                · simp at hx
              · simp at hx
            · refine .inr ⟨.inr rfl, ?_⟩
              unfold expectIntro at hx
              split at hx
              · rename_i p
                unfold endsWithAny at hx
                split at hx
                · rename_i c hc; exact ⟨p, rfl, by rw [hc]; simpa using hx⟩
                · simp at hx
              · simp at hx
            · exact .inl (.inl rfl)
            · exact .inl (.inr rfl)
          · simp only [List.contains_eq_mem, List.mem_cons, List.not_mem_nil, or_false,
              decide_eq_true_eq] at hs
            exact .inl hs
        · simp at hs

/-! ### paragraphs and articles -/

theorem paragraph_of (mode : WrapUpMode) (id : ParagraphId) (ls : List Line)
    (r : ParseResult ParagraphId (ParagraphChildren Empty)) (h : paragraphParser.parse id ls context mode = .ok r) :
    ParagraphOf context mode id ls r.element r.restOfWrapUp := by
  refine parse_elementOf (fun id prev ls ex h => ?_) mode id ls r h
  unfold paragraphParser at h
  simp only at h
  rcases orElse_ok.1 h with h | ⟨-, h⟩
  · rcases orElse_ok.1 h with h | ⟨-, h⟩
    · obtain ⟨a, ha, rfl⟩ := map_ok.1 h
      exact quoted_of ha
    · obtain ⟨a, ha, rfl⟩ := map_ok.1 h
      exact numericPoints_of ha
  · obtain ⟨a, ha, rfl⟩ := map_ok.1 h
    exact alphabeticPoints_of ha

theorem paragraphList_of {wrapUps count : Bool} {ls : List Line}
    {expected : Option ParagraphId} {r : Extracted (List (Paragraph Empty))}
    (h : paragraphParser.extractMultiple ls ⟨wrapUps, count, context⟩ expected = .ok r) :
    ListOf ParagraphHead (FirstIs expected) (ParagraphOf context) context wrapUps (if count then 2 else 1) ls
      r.elements r.parentWrapUp r.restOfWrapUp := by
  rw [← goodFirst_eq]
  exact extractMultiple_of (params := ⟨wrapUps, count, context⟩) Props.C27_paragraph_header_iff
    paragraphHead_quotes paragraph_of (by intro h; simp only at h; simp [h])
    (by intro h; simp only at h; simp [h]) h

theorem paragraphs_of {ls : List Line} {ps : List (Paragraph Empty)}
    (h : ArticleParser.paragraphs context ls = .ok ps) : ParagraphsOf context ls ps := by
  unfold ArticleParser.paragraphs at h
  split at h
  · rename_i ex hex
    split at h
    · simp at h
    · simp only [Res.ok.injEq] at h
      subst h
      have := paragraphList_of hex
      obtain ⟨h1, h2⟩ := extractMultiple_noWrapUp rfl hex
      rw [h1, h2] at this
      exact .inl this
  · simp at h
  · rw [Res.bind_eq_ok] at h
    obtain ⟨r, hr, h⟩ := h
    simp only [Res.ok.injEq] at h
    subst h
    have := paragraph_of _ _ _ _ hr
    rw [parse_keepIt hr] at this
    exact .inr ⟨_, rfl, this⟩

theorem joined_unique {ps : List Str} {s t : Str} (h : Joined ps s) (h' : Joined ps t) : s = t := by
  induction ps generalizing s t with
  | nil => simp only [Joined] at h h'; rw [h, h']
  | cons a ps ih =>
    cases ps with
    | nil => simp only [Joined] at h h'; rw [h, h']
    | cons b ps =>
      obtain ⟨u, hu, rfl⟩ := h
      obtain ⟨v, hv, rfl⟩ := h'
      rw [ih hu hv]

theorem joined_fold (t : Str) (ls : List Line) :
    Joined ((t :: ls.map Line.content).filter (· ≠ [])) (ls.foldl (fun s l => l.appendTo s) t) := by
  by_cases ht : t = []
  · subst ht
    have := Props.C26_join ls
    simpa [Line.join] using this
  · obtain ⟨u, hu, hj⟩ := Props.join_aux ls t t ht ht rfl
    rw [hu, List.filter_cons_of_pos (by simpa using ht)]
    exact hj

theorem titleLoop_spec (ls : List Line) (t : Str) : ∃ own, ls = own ++ (ArticleParser.titleLoop t ls).2 ∧
    (ArticleParser.titleLoop t ls).1 = own.foldl (fun s l => l.appendTo s) t ∧
    ∀ a b, a ++ b = own → b ≠ [] → (a.foldl (fun s l => l.appendTo s) t).getLast? ≠ some ']' := by
  induction ls generalizing t with
  | nil => exact ⟨[], by simp [ArticleParser.titleLoop], by simp [ArticleParser.titleLoop], by
      intro a b h hb; simp at h; exact absurd h.2 hb⟩
  | cons l ls ih =>
    unfold ArticleParser.titleLoop
    split
    · exact ⟨[], by simp, by simp, by intro a b h hb; simp at h; exact absurd h.2 hb⟩
    · rename_i hl
      obtain ⟨own, h1, h2, h3⟩ := ih (l.appendTo t)
      refine ⟨l :: own, by rw [List.cons_append, ← h1], h2, ?_⟩
      intro a b hab hb
      cases a with
      | nil => exact hl
      | cons x a =>
        simp only [List.cons_append, List.cons.injEq] at hab
        obtain ⟨rfl, hab⟩ := hab
        exact h3 a b hab hb

theorem finish_articleOf {p : ArticleParser} {a : Article Empty} (h : p.finish = .ok a) :
    ArticleOf p.context p.lines a := by
  unfold ArticleParser.finish at h
  rw [Res.bind_eq_ok] at h
  obtain ⟨⟨title, ls⟩, h1, h⟩ := h
  simp only at h
  rw [Res.bind_eq_ok] at h
  obtain ⟨ls', h2, h⟩ := h
  rw [Res.bind_eq_ok] at h
  obtain ⟨cs, h3, h⟩ := h
  simp only [Res.ok.injEq] at h
  subst h
  obtain ⟨gap, hg1, hg2⟩ : ∃ gap, ls = gap ++ ls' ∧ (gap = [] ∨ ∃ l, gap = [l] ∧ l.parts = []) := by
    unfold ArticleParser.dropEmpty at h2
    split at h2
    · simp at h2
    · rename_i l ls0
      simp only [Res.ok.injEq] at h2
      subst h2
      split
      · rename_i he; exact ⟨[l], rfl, .inr ⟨l, rfl, isEmpty_iff.1 he⟩⟩
      · exact ⟨[], rfl, .inl rfl⟩
  cases hp : p.lines with
  | nil => rw [hp] at h1; simp [ArticleParser.extractTitle] at h1
  | cons l rest =>
    rw [hp] at h1
    simp only [ArticleParser.extractTitle] at h1
    split at h1
    · rename_i t ht
      split at h1
      · rename_i hl
        simp only [Res.ok.injEq, Prod.mk.injEq] at h1
        obtain ⟨rfl, rfl⟩ := h1
        obtain ⟨own, o1, o2, o3⟩ := titleLoop_spec rest t
        refine ⟨l :: own, gap, ls', ?_, ?_, hg2, paragraphs_of h3⟩
        · rw [o1, hg1]; simp
        · refine ⟨l, own, t, rfl, ht, ?_, ?_⟩
          · rw [← dropLast_of_getLast hl, o2]
            exact joined_fold t own
          · intro a b hab hb s hs
            rw [joined_unique hs (joined_fold t a)]
            exact o3 a b hab hb
      · simp at h1
    · rename_i hno
      simp only [Res.ok.injEq, Prod.mk.injEq] at h1
      obtain ⟨rfl, rfl⟩ := h1
      refine ⟨[], gap, ls', by simpa using hg1, ⟨rfl, ?_⟩, hg2, paragraphs_of h3⟩
      intro l' t hl' ht
      simp only [List.head?_cons, Option.some.injEq] at hl'
      subst hl'
      exact hno t ht

end HunLaw
