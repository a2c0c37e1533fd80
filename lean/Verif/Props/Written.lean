import Verif.Props.Announced
import Verif.Spec.Reference
import Verif.Lemmas.WrittenValue
import Verif.Lemmas.WrittenText

/-! Property C102: references written in the usual form are recognised in ordinary text. -/

set_option autoImplicit false

namespace HunLaw.Props

open HunLaw Spec Semantic Grammar P

/-! ### the other kinds of sentences -/

/-- A special sentence has the words of some kind of phrase. -/
theorem words_announce {x : Root} {s : Str} (h : RootWords x s) : (∃ l, x = .simple l) ∨ ∃ p, Announces p s := by
  cases x with
  | simple l => exact .inl ⟨l, rfl⟩
  | blockAmendment x =>
    refine .inr ⟨.blockAmendment .empty x.amended.isNone, h.1, ?_⟩
    exact h.2
  | blockAmendmentStructural x =>
    exact .inr ⟨.structuralBlockAmendment ⟨none, none, none, .subtitleUnknown, false⟩ x.isInsertion, h.1, h.2⟩
  | blockAmendmentWithSubtitle x =>
    exact .inr ⟨.structuralBlockAmendment ⟨none, none, none, .subtitleUnknown, false⟩ x.isInsertion, h.1, h.2⟩
  | enforcementDate x =>
    refine .inr ⟨.enforcementDate ⟨[], [], false, (.daysAfterPublication ⟨0, by decide⟩), x.inlineRepeal.map fun _ => ⟨2000, 1, 1⟩⟩, h.1, h.2.1, ?_⟩
    simpa using h.2.2
  | repeal x => exact .inr ⟨.repeal [], h.1, h.2.1⟩
  | textAmendment x => exact .inr ⟨.textAmendment [], h.2.1.1.1, h.2.1.1.2, .inl ⟨h.1, h.2.1.2, h.2.2⟩⟩

/-- The text introduces these abbreviations beside those known, if any. -/
def Gained (known : List Str) (text : Str) (s : St) : Prop := ∃ l, s.known = known ++ l ∧ ∀ a ∈ l, Introduces text a

/-- An alternative which cannot fit is left with no other trace than abbreviations introduced in the text. -/
theorem alt_skip {α : Type} {p q : PS α} {text : Str} {known : List Str} {good : α × Inp → Prop} {n : Nat} (hg : p.Grows)
    (hno : ∀ s x j t, p.run ⟨n, text⟩ s ≠ (some (x, j), t))
    (hq : ∀ s : St, Gained known text s → ∃ r t, good r ∧ q.run ⟨n, text⟩ s = (some r, t)) :
    ∀ s : St, Gained known text s → ∃ r t, good r ∧ (p <|> q).run ⟨n, text⟩ s = (some r, t) := by
  rintro s ⟨l, hs, hl⟩
  rw [ps_alt_run]
  rcases hp : p.run ⟨n, text⟩ s with ⟨_ | ⟨x, j⟩, t⟩
  · obtain ⟨new, h1, h2⟩ := hg ⟨n, text⟩ s
    rw [hp] at h1
    refine hq t ⟨l ++ new, by rw [h1, hs, List.append_assoc], fun a ha => ?_⟩
    exact (List.mem_append.1 ha).elim (hl a) (h2 a)
  · exact absurd hp (hno s x j t)

/-- Skipping whitespace a second time changes nothing. -/
theorem call_many1 {α : Type} (p : PS α) (i : Inp) (s : St) :
    (PS.call (PS.many1 (PS.call p))).run i s = (PS.many1 (PS.call p)).run i s := by
  have h1 : ∀ (q : PS α) i s, (PS.call q).run i s = q.run (i.drop (i.rest.takeWhile P.isWs).length) s := fun _ _ _ => rfl
  have h2 : (PS.call p).run (i.drop (i.rest.takeWhile P.isWs).length) s = (PS.call p).run i s := by
    rw [h1, h1]
    have : (i.drop (i.rest.takeWhile P.isWs).length).rest.takeWhile P.isWs = [] := by
      obtain ⟨-, h⟩ := run_ws (i := i) (j := i.drop (i.rest.takeWhile P.isWs).length) (a := ()) rfl
      cases hr : (i.drop (i.rest.takeWhile P.isWs).length).rest with
      | nil => rfl
      | cons c l => rw [List.takeWhile_cons, if_neg (by simp [h c (by rw [hr]; rfl)])]
    rw [this]
    simp [Inp.drop, byteLen]
  show (PS.many1 (PS.call p)).run (i.drop (i.rest.takeWhile P.isWs).length) s = _
  unfold PS.many1
  rw [ps_bind_run, ps_bind_run, h2]

/-- Simple expressions up to the end of the text. -/
theorem entire_found {known : List Str} {s : Str} {out : List CompoundReference} (h : Found known 0 s out)
    (hs : ∃ c ∈ s, P.isWs c = false) : ∃ l, l.filterMap compoundOf = out ∧
    ∃ j, ∀ st : St, st.known = known → ∃ t, (entire simpleExpressions .simple).run ⟨0, s⟩ st = (some (.simple l, j), t) := by
  obtain ⟨t, u, l, rfl, hu, hread, hout⟩ := h
  have ht : t ≠ [] := by
    rintro rfl
    obtain ⟨c, hc, hw⟩ := hs
    rw [hu c hc] at hw
    cases hw
  refine ⟨l, hout, ⟨0 + byteLen (t ++ u), []⟩, fun st hst => ?_⟩
  obtain ⟨st', h⟩ := hread st hst
  refine ⟨st', ?_⟩
  have h1 : simpleExpressions.run ⟨0, t ++ u⟩ st = (some (l, ⟨0 + byteLen t, u⟩), st') := by
    show (PS.many1 _).run _ _ = _
    unfold PS.many1
    rw [ps_bind_run]
    simp only [PS.many, Prod.mk.injEq, Option.some.injEq] at h
    rw [PS.manyRun] at h
    rcases hp : (PS.call simpleExpression).run ⟨0, t ++ u⟩ st with ⟨_ | ⟨x, j⟩, st'⟩ <;> rw [hp] at h
    · have := congrArg Prod.snd h.1
      simp at this
      exact absurd this.2 ht
    · simp only at h ⊢
      split at h
      · rename_i hl
        rw [psManyRun_more _ _ _ _ hl] at h
        rw [ps_bind_run]
        rcases hm : PS.manyRun (PS.call simpleExpression) (j.rest.length + 1) j st' with ⟨⟨l', k⟩, st''⟩
        rw [hm] at h
        simp only [PS.many, hm]
        simp only [Prod.mk.injEq] at h
        obtain ⟨⟨rfl, rfl⟩, rfl⟩ := h
        rfl
      · have := congrArg Prod.snd h.1
        simp at this
        exact absurd this.2 ht
  unfold entire
  rw [ps_bind_run]
  have h2 : (PS.call simpleExpressions).run ⟨0, t ++ u⟩ st = (some (l, ⟨0 + byteLen t, u⟩), st') := by
    rw [show PS.call simpleExpressions = PS.call (PS.many1 (PS.call simpleExpression)) from rfl, call_many1]
    exact h1
  rw [h2]
  simp only
  rw [ps_bind_run]
  have h3 : Reads (P.call eoi) (0 + byteLen t) u [] () := by
    have : Reads (P.call eoi) (0 + byteLen t) (u ++ []) [] () :=
      Reads.call_ws hu (fun c hc => by simp at hc) (by simp [Reads, eoi, byteLen])
    rwa [List.append_nil] at this
  have h4 := h3
  unfold Reads at h4
  rw [List.append_nil] at h4
  simp only [PS.lift, h4]
  simp [byteLen_append']
  rfl

/-! ### abbreviations in the text -/

theorem hunLower_mem {c : Char} (h : isHunLower c = true) : c ∈ lowerLetters := by
  unfold isHunLower at h
  rcases Bool.or_eq_true_iff.1 h with h | h
  · have hall : ∀ k ∈ List.range 123, 97 ≤ k → Char.ofNat k ∈ lowerLetters := by decide +kernel
    unfold lowerAz at h
    rw [Bool.and_eq_true, decide_eq_true_eq, decide_eq_true_eq] at h
    have := hall c.toNat (List.mem_range.2 (by omega)) h.1
    rwa [Char.ofNat_toNat] at this
  · have : ∀ d ∈ str!"éáőúöüóíű", d ∈ lowerLetters := by decide
    exact this c (List.contains_iff_mem.1 h)

theorem no_abbreviation {known : List Str} {s : Str} (h : ∀ b ∈ known, ¬ b <+: s) : parseAbbreviation known s = none := by
  unfold parseAbbreviation
  rw [List.find?_eq_none]
  intro b hb
  rw [List.isPrefixOf_iff_prefix]
  exact h b hb

theorem one_abbreviation {known : List Str} {s a : Str} (ha : a ∈ known) (hp : a <+: s) (h : ∀ b ∈ known, b <+: s → b = a) :
    parseAbbreviation known s = some a := by
  unfold parseAbbreviation
  cases hf : known.find? fun b => b.isPrefixOf s with
  | none =>
    rw [List.find?_eq_none] at hf
    exact absurd (List.isPrefixOf_iff_prefix.2 hp) (hf a ha)
  | some b =>
    rw [h b (List.mem_of_find?_eq_some hf) (List.isPrefixOf_iff_prefix.1 (by simpa using List.find?_some hf))]

theorem resolve_mem {c : Cache} {s : Str} {a : ActId} (h : c.resolve s = some a) : s ∈ c.allAbbreviations := by
  unfold Cache.resolve mapGet at h
  unfold Cache.allAbbreviations
  revert h
  induction c.cache with
  | nil => intro h; cases h
  | cons e l ih =>
    intro h
    rw [List.lookup_cons] at h
    split at h
    · rename_i hk; simp [beq_iff_eq.1 hk]
    · exact List.mem_cons_of_mem _ (ih h)

/-! ### the property -/

theorem itemPieces_text (before first : Str) (l : List (Str × Str)) :
    (itemPieces before first l).1.flatMap Prod.fst ++ (itemPieces before first l).2 =
      before ++ first ++ l.flatMap fun x => x.1 ++ x.2 := by
  induction l generalizing before first with
  | nil => simp [itemPieces]
  | cons x l ih =>
    have := ih [] x.2
    simp only [itemPieces, List.flatMap_cons, List.append_assoc]
    rw [this]
    simp

theorem wordPieces_text (before : Str) (l : List Words) :
    (wordPieces before l).flatMap Prod.fst = before ++ List.intercalate str!" " (l.map Words.text) := by
  induction l generalizing before with
  | nil => simp [wordPieces, List.intercalate]
  | cons w l ih =>
    have h1 := itemPieces_text before w.first w.others
    rw [wordPieces, List.flatMap_append, ih, ← List.append_assoc, ← List.append_assoc, ← List.append_assoc, h1]
    cases l with
    | nil => simp [Words.text, List.intercalate]
    | cons v l => simp [Words.text, List.intercalate]

/-- The pieces of a group are its text. -/
theorem pieces_text (g : PhraseGroup) : g.pieces.flatMap Prod.fst = g.text := by
  have : ∀ l : List (Str × Phrase), (l.flatMap fun x => (x.1, false) :: wordPieces [] x.2.words).flatMap Prod.fst =
      l.flatMap fun x => x.1 ++ x.2.text := by
    intro l
    induction l with
    | nil => rfl
    | cons x l ih =>
      rw [List.flatMap_cons, List.flatMap_append, ih, List.flatMap_cons, wordPieces_text]
      simp [Phrase.text]
  rw [PhraseGroup.pieces, List.flatMap_append, this, PhraseGroup.text]
  cases g.act <;> simp

/-- Text which announces no special phrase is read as simple expressions. -/
theorem plain_root {known : List Str} {text : Str} {out : List CompoundReference}
    (hf : ∀ l, (∀ a ∈ l, Introduces text a) → Found (known ++ l) 0 text out)
    (hs : ∃ c ∈ text, P.isWs c = false) (hplain : ∀ p, ¬ Announces p text) :
    ∃ l, l.filterMap compoundOf = out ∧ parse text known = some (.simple l) := by
  have hrun : ∀ s : St, Gained known text s → ∃ r t, (∃ l, l.filterMap compoundOf = out ∧ r.1 = Root.simple l) ∧
      (entire simpleExpressions .simple).run ⟨0, text⟩ s = (some r, t) := by
    rintro s ⟨l, hs', hl⟩
    obtain ⟨l', h1, j, h2⟩ := entire_found (hf l hl) hs
    obtain ⟨t, h2⟩ := h2 s hs'
    exact ⟨_, t, ⟨l', h1, rfl⟩, h2⟩
  have hskip : ∀ {x}, RootWords x text → ∃ l, x = .simple l := fun h =>
    (words_announce h).resolve_right fun ⟨p, hp⟩ => hplain p hp
  have hroot : ∀ s : St, Gained known text s → ∃ r t, (∃ l, l.filterMap compoundOf = out ∧ r.1 = Root.simple l) ∧
      root.run ⟨0, text⟩ s = (some r, t) := by
    refine alt_skip (grows_entire grows_blockAmendment _) (fun s x j t h => ?_) <|
      alt_skip (grows_entire grows_blockAmendmentWithSubtitle _) (fun s x j t h => ?_) <|
      alt_skip (grows_entire grows_blockAmendmentStructural _) (fun s x j t h => ?_) <|
      alt_skip (grows_entire grows_textAmendment _) (fun s x j t h => ?_) <|
      alt_skip (grows_entire (PS.grows_lift _) _) (fun s x j t h => ?_) <|
      alt_skip (grows_entire grows_repeal _) (fun s x j t h => ?_) hrun
    · obtain ⟨a, b, t, c, rfl, -⟩ := entire_takes takesS_blockAmendment h
      obtain ⟨l, e⟩ := hskip (entire_words (f := .blockAmendment) takesS_blockAmendment (fun _ _ h => h) h)
      cases e
    · obtain ⟨a, b, t, c, rfl, -⟩ := entire_takes takesS_blockAmendmentWithSubtitle h
      obtain ⟨l, e⟩ := hskip (entire_words (f := .blockAmendmentWithSubtitle) takesS_blockAmendmentWithSubtitle (fun _ _ h => h) h)
      cases e
    · obtain ⟨a, b, t, c, rfl, -⟩ := entire_takes takesS_blockAmendmentStructural h
      obtain ⟨l, e⟩ := hskip (entire_words (f := .blockAmendmentStructural) takesS_blockAmendmentStructural (fun _ _ h => h) h)
      cases e
    · obtain ⟨a, b, t, c, rfl, -⟩ := entire_takes takesS_textAmendment h
      obtain ⟨l, e⟩ := hskip (entire_words (f := .textAmendment) takesS_textAmendment (fun _ _ h => h) h)
      cases e
    · obtain ⟨a, b, t, c, rfl, -⟩ := entire_takes (TakesS.lift takes_enforcementDate) h
      obtain ⟨l, e⟩ := hskip (entire_words (f := .enforcementDate) (TakesS.lift takes_enforcementDate) (fun _ _ h => h) h)
      cases e
    · obtain ⟨a, b, t, c, rfl, -⟩ := entire_takes takesS_repeal h
      obtain ⟨l, e⟩ := hskip (entire_words (f := .repeal) takesS_repeal (fun _ _ h => h) h)
      cases e
  obtain ⟨⟨x, j⟩, t, ⟨l, hl, rfl⟩, h⟩ := hroot ⟨known, []⟩ ⟨[], by simp, by simp⟩
  exact ⟨l, hl, by unfold parse; rw [h]⟩

theorem not_introduces {text : Str} (h : ¬ str!"továbbiakban" <:+: text) (a : Str) : ¬ Introduces text a := by
  rintro ⟨x, sep, y, e, -⟩
  exact h ⟨x, sep ++ a ++ ')' :: y, by rw [e]; simp⟩

/-- If no abbreviation is introduced by the text, only the known ones matter. -/
theorem found_nothing_new {known : List Str} {text : Str} {out : List CompoundReference} (hf : Found known 0 text out)
    (hnew : ¬ str!"továbbiakban" <:+: text) : ∀ l, (∀ a ∈ l, Introduces text a) → Found (known ++ l) 0 text out := by
  intro l hl
  cases l with
  | nil => rwa [List.append_nil]
  | cons a l => exact absurd (hl a (List.mem_cons_self ..)) (not_introduces hnew a)

/-- Only the references among the expressions give references. -/
theorem expressions_refs (c : Cache) (l : List SimpleExpression) :
    l.flatMap (expressionRefs c) = (l.filterMap compoundOf).flatMap fun x => (compoundRefs c x).getD [] := by
  induction l with
  | nil => rfl
  | cons x l ih =>
    rw [List.flatMap_cons, ih]
    cases x <;> simp [expressionRefs, compoundOf, List.filterMap_cons]

/-- C102: a group of references in the usual form, in ordinary text, is recognised: the references found are those which
are meant, each at its place. Nothing else is found. If some of them are not well formed, nothing is found.

The known abbreviations are only in the text where they name the act of the group, no abbreviation is introduced by the
text, and no special phrase is announced by it.

Missing: digraphs in the numbers of articles and in subpoints, see `C102_violated`. -/
theorem C102_recognised_partial (c : Cache) (pre post : Str) (g : PhraseGroup) (hg : g.Usual) (haround : Around pre post)
    (hact : ∀ s a, g.act = some (.short s a) → c.resolve s = some a)
    (habbr : ∀ b ∈ c.allAbbreviations, ∀ x y, pre ++ g.text ++ post = x ++ b ++ y →
      x = pre ∧ ∃ a, g.act = some (.short b a))
    (hnew : ¬ str!"továbbiakban" <:+: pre ++ g.text ++ post)
    (hplain : ∀ p, ¬ Announces p (pre ++ g.text ++ post)) :
    ∃ r refs, parse (pre ++ g.text ++ post) c.allAbbreviations = some r ∧ outgoingRefs c r = some refs ∧
      ((∀ x ∈ g.meant, WellFormed x) →
        refs.map (·.reference) = g.meant ∧ ranges refs = markedRanges (byteLen pre) g.pieces) ∧
      (¬ (∀ x ∈ g.meant, WellFormed x) → refs = []) := by
  generalize htext : pre ++ g.text ++ post = text at *
  obtain ⟨ch, r, eg, hch, -, hmark⟩ := group_head hg
  have hpost : Tailing post := tailing_ordinary haround.after fun ch h => by
    have := haround.ended ch h
    cases hl : isHunLower ch
    · exact hl
    · exact absurd (hunLower_mem hl) this
  have hnil : parseAbbreviation c.allAbbreviations [] = none := no_abbreviation fun b hb hp => by
    have hb0 : b = [] := List.prefix_nil.1 hp
    subst hb0
    have h1 := (habbr [] hb [] text (by simp)).1
    have h2 := (habbr [] hb text [] (by simp)).1
    rw [← h1] at h2
    rw [h2, eg] at htext
    simp at htext
  have hfp : Found c.allAbbreviations (byteLen pre + byteLen g.text) post [] := by
    have := found_words (known := c.allAbbreviations) (R := []) (N := byteLen pre + byteLen g.text + byteLen post) (out := [])
      Head.nil (fun w m hw _ => by rw [List.append_nil]; exact found_nil hw m hnil) post.length post
      (byteLen pre + byteLen g.text) (by omega) rfl haround.after (.inl rfl) fun p q e hq => no_abbreviation fun b hb hp => by
        obtain ⟨y, hy⟩ := hp
        rw [List.append_nil] at hy
        have := (habbr b hb (pre ++ g.text ++ p) y (by rw [← htext, e, ← hy]; simp)).1
        rw [eg] at this
        simp at this
    rwa [List.append_nil] at this
  have hfg := found_group hg hpost (known := c.allAbbreviations) (N := byteLen pre)
    (fun a ha => by
      cases a with
      | number a e => trivial
      | short s a =>
        refine one_abbreviation (resolve_mem (hact s a ha)) (List.prefix_append _ _) fun b hb hp => ?_
        obtain ⟨y, hy⟩ := hp
        obtain ⟨-, a', ha'⟩ := habbr b hb pre y (by
          rw [← htext, List.append_assoc, List.append_assoc, hy, PhraseGroup.text, ha]; simp [ActName.text, refsText])
        rw [ha] at ha'
        cases ha'
        rfl)
    (fun ha => no_abbreviation fun b hb hp => by
        obtain ⟨y, hy⟩ := hp
        obtain ⟨-, a', ha'⟩ := habbr b hb pre y (by
          rw [← htext, List.append_assoc, List.append_assoc, hy, PhraseGroup.text, ha]; simp [refsText])
        rw [ha] at ha'
        cases ha') hfp
  have hf : Found c.allAbbreviations 0 text [groupAt g (byteLen pre)] := by
    have := found_words (known := c.allAbbreviations) (R := g.text ++ post) (N := byteLen pre)
      (by
        rw [skipWs_noWs (by rw [eg]; exact noWs_cons hch), eg]
        exact .cons hmark) hfg pre.length pre 0 (by omega) (by simp) haround.before
      (.inr haround.space) fun p q e hq => no_abbreviation fun b hb hp => by
        obtain ⟨y, hy⟩ := hp
        have := (habbr b hb p y (by rw [← htext, e, List.append_assoc, List.append_assoc, List.append_assoc, hy])).1
        rw [e] at this
        exact hq (by simpa using this)
    rwa [← List.append_assoc, htext] at this
  obtain ⟨l, hl, hparse⟩ := plain_root (found_nothing_new hf hnew) ⟨ch, by rw [← htext, eg]; simp, hch⟩ hplain
  refine ⟨.simple l, (compoundRefs c (groupAt g (byteLen pre))).getD [], ?_, ?_, ?_, ?_⟩
  · exact hparse
  · show some (l.flatMap (expressionRefs c)) = _
    rw [expressions_refs, hl]; simp
  · intro hw
    have h1 := groupAt_refs hg hact (byteLen pre)
    rw [if_pos fun x hx => Ref.tryFrom_eq_some.2 ⟨rfl, hw x hx⟩] at h1
    cases hc : compoundRefs c (groupAt g (byteLen pre)) with
    | none => rw [hc] at h1; cases h1
    | some refs =>
      rw [hc] at h1
      exact ⟨by simpa using h1, groupAt_ranges hg hc⟩
  · intro hw
    have h1 := groupAt_refs hg hact (byteLen pre)
    rw [if_neg fun h => hw fun x hx => (Ref.tryFrom_eq_some.1 (h x hx)).2] at h1
    cases hc : compoundRefs c (groupAt g (byteLen pre)) with
    | none => rfl
    | some refs => rw [hc] at h1; cases h1

/-- C102 for the simplest references: one article. -/
def C102_statement : Prop :=
  ∀ a : ArticleId, ∃ r refs, parse (str!"A " ++ a.display ++ str!". § szerint") [] = some r ∧
    outgoingRefs ⟨[], false⟩ r = some refs ∧ refs.map (·.reference) = [⟨none, some ⟨a, a⟩, none, none, none⟩]

/-- The article 3/CS is not recognised. -/
theorem C102_violated : ¬ C102_statement := by
  intro h
  obtain ⟨r, refs, h1, h2, h3⟩ := h ⟨none, ⟨⟨3, by decide⟩, some .cs⟩⟩
  have h4 : ((parse (str!"A " ++ (⟨none, ⟨⟨3, by decide⟩, some .cs⟩⟩ : ArticleId).display ++ str!". § szerint") []).bind
      fun r => outgoingRefs ⟨[], false⟩ r).map (·.map (·.reference)) = some [] := by decide +kernel
  rw [h1, Option.bind_some, h2, Option.map_some, h3] at h4
  cases h4

/-! ### an example -/

theorem spaced_last {l : List Str} {w s : Str} {c : Char} (h : Spaced (l ++ [w ++ [c]]) s) : ∃ r, s = r ++ [c] := by
  induction l generalizing s with
  | nil =>
    obtain ⟨a, r, -, rfl, h2⟩ := h
    cases h2
    exact ⟨a ++ w, by simp⟩
  | cons x l ih =>
    obtain ⟨a, r, -, rfl, h2⟩ := h
    obtain ⟨r', rfl⟩ := ih h2
    exact ⟨a ++ x ++ r', by simp⟩

/-- A special phrase ends with a mark. -/
theorem announces_last {p : SpecialPhrase} {s : Str} (h : Announces p s) :
    ∃ c, s.getLast? = some c ∧ c ∈ str!".: \t\n\r\x0c" := by
  have key : ∀ l : List (List Str), (∀ e ∈ l, ∃ l w, ∃ c ∈ ['.', ':'], e = l ++ [w ++ [c]]) → EndsWith l s →
      ∃ c, s.getLast? = some c ∧ c ∈ str!".: \t\n\r\x0c" := by
    rintro l hl ⟨e, he, b, t, r, h1, h2, rfl⟩
    obtain ⟨l', w, c, hc, rfl⟩ := hl e he
    obtain ⟨t', rfl⟩ := spaced_last h1
    rcases List.eq_nil_or_concat r with rfl | ⟨z, d, rfl⟩
    · refine ⟨c, by simp, ?_⟩
      exact (by decide : ∀ c ∈ ['.', ':'], c ∈ str!".: \t\n\r\x0c") c hc
    · rw [List.concat_eq_append] at h2 ⊢
      refine ⟨d, by rw [← List.append_assoc, List.getLast?_append]; simp, ?_⟩
      exact (by decide : ∀ c ∈ [' ', '\t', '\n', '\r', '\x0c'], c ∈ str!".: \t\n\r\x0c") d (h2 d (by simp))
  have colons : ∀ l : List (List Str), ∀ e ∈ colon l, ∃ l w, ∃ c ∈ ['.', ':'], e = l ++ [w ++ [c]] := by
    intro l e he
    obtain ⟨x, -, rfl⟩ := List.mem_map.1 he
    exact ⟨x, [], ':', by simp, rfl⟩
  have block : ∀ l i, AnnouncesBlock l i s → ∃ c, s.getLast? = some c ∧ c ∈ str!".: \t\n\r\x0c" := by
    intro l i h
    have := h.2
    split at this
    · exact key _ (colons _) this
    · exact key _ (colons _) this.2
  cases p with
  | blockAmendment _ i => exact block _ _ h
  | structuralBlockAmendment _ i => exact block _ _ h
  | enforcementDate d =>
    have := h.2.2
    split at this
    · exact key _ (fun e he => ⟨[str!"lép hatályba"], [], '.', by simp, by simpa using he⟩) this
    · exact key _ (fun e he => ⟨[str!"hatályát veszti"], [], '.', by simp, by simpa using he⟩) this
  | repeal _ => exact key _ (fun e he => ⟨[], [], '.', by simp, by simpa using he⟩) h.2
  | textAmendment _ =>
    rcases h.2.2 with h | h
    · refine key _ (fun e he => ?_) h.2.2
      simp only [List.mem_cons, List.not_mem_nil, or_false] at he
      rcases he with rfl | rfl
      · exact ⟨[str!"lép"], [], '.', by simp, rfl⟩
      · exact ⟨[str!"lép", str!"hatályba"], [], '.', by simp, rfl⟩
    · exact key _ (fun e he => ⟨[], [], '.', by simp, by simpa using he⟩) h.2

/-- "Btk. 3. § (1), (3)–(5) és (7) bekezdés a) pontja és 5/A. §-a" -/
def writtenGroup : PhraseGroup where
  act := some (.short str!"Btk." ⟨⟨2012, by decide⟩, ⟨100, by decide⟩⟩)
  references :=
    [(str!" ", {
        article := some ⟨.one ⟨none, .ofNum 3⟩, [], []⟩
        paragraph := some ⟨.one (.ofNum 1), [(str!", ", .upTo '–' (.ofNum 3) (.ofNum 5)), (str!" és ", .one (.ofNum 7))], []⟩
        alphabeticPoint := some ⟨.one (.latin 0), [], str!"ja"⟩ }),
      (str!" és ", { article := some ⟨.one ⟨none, ⟨⟨5, by decide⟩, some (.latin 0)⟩⟩, [], str!"-a"⟩ })]

example : writtenGroup.text = str!"Btk. 3. § (1), (3)–(5) és (7) bekezdés a) pontja és 5/A. §-a" := by decide +kernel

theorem writtenGroup_usual : writtenGroup.Usual where
  act a h := by cases h; exact ⟨by unfold Ordinary; decide, 'B', rfl, by decide⟩
  references x hx := by
    simp only [writtenGroup, List.mem_cons, List.not_mem_nil, or_false] at hx
    rcases hx with rfl | rfl
    · constructor
      · intro l h; cases h; exact ⟨⟨by simp [ArticleUsual, NumericId.ofNum], by simp⟩, .inl rfl⟩
      · intro l h; cases h; exact ⟨⟨trivial, by simp [Span.Fits]; decide⟩, by simp [Ending]⟩
      · intro l h; cases h
      · intro l h; cases h; exact ⟨⟨trivial, by simp⟩, by unfold Ending; decide⟩
      · intro l h; cases h
      · intro l h; cases h
      · exact .inl rfl
      · exact .inl rfl
      · intro h; simp at h
      · decide
    · constructor
      · intro l h; cases h
        refine ⟨⟨fun c hc => ?_, by simp⟩, .inr ⟨str!"a", rfl, by decide, by unfold Ending; decide⟩⟩
        cases hc; exact ⟨_, rfl⟩
      · intro l h; cases h
      · intro l h; cases h
      · intro l h; cases h
      · intro l h; cases h
      · intro l h; cases h
      · exact .inl rfl
      · exact .inl rfl
      · intro h; simp at h
      · decide
  first x hx := by simp [writtenGroup] at hx; subst hx; simp [writtenGroup]
  others x hx := by simp [writtenGroup] at hx; subst hx; decide +kernel
  named := .inl (by simp [writtenGroup])

/-- The known abbreviation is that of the act. -/
def writtenCache : Cache := ⟨[(str!"Btk.", ⟨⟨2012, by decide⟩, ⟨100, by decide⟩⟩)], false⟩

/-- All conditions of the theorem are met by the example, and the references are well formed. -/
example : Around str!"a " str!" szerinti eljárás;" ∧
    (∀ s a, writtenGroup.act = some (.short s a) → writtenCache.resolve s = some a) ∧
    (∀ b ∈ writtenCache.allAbbreviations, ∀ x y, str!"a " ++ writtenGroup.text ++ str!" szerinti eljárás;" = x ++ b ++ y →
      x = str!"a " ∧ ∃ a, writtenGroup.act = some (.short b a)) ∧
    ¬ str!"továbbiakban" <:+: str!"a " ++ writtenGroup.text ++ str!" szerinti eljárás;" ∧
    (∀ p, ¬ Announces p (str!"a " ++ writtenGroup.text ++ str!" szerinti eljárás;")) ∧
    (∀ x ∈ writtenGroup.meant, Ref.tryFrom x = some x) := by
  refine ⟨⟨by unfold Ordinary; decide, .inr ⟨str!"a", rfl⟩, by unfold Ordinary; decide, ?_⟩, ?_, ?_, ?_, ?_, ?_⟩
  · intro c h; cases h; decide
  · intro s a h; cases h; decide
  · intro b hb x y e
    obtain rfl : b = str!"Btk." := by simpa [writtenCache, Cache.allAbbreviations] using hb
    have hall : ∀ k ∈ List.range 100, (str!"Btk.").isPrefixOf
        ((str!"a " ++ writtenGroup.text ++ str!" szerinti eljárás;").drop k) = true → k = 2 := by decide +kernel
    have hx : x.length = 2 := by
      refine hall x.length ?_ ?_
      · have h1 := congrArg List.length e
        have h2 : (str!"a " ++ writtenGroup.text ++ str!" szerinti eljárás;").length < 100 := by decide +kernel
        rw [h1] at h2
        simp only [List.length_append] at h2
        exact List.mem_range.2 (by omega)
      · rw [e, List.append_assoc, List.drop_left, List.isPrefixOf_iff_prefix]
        exact List.prefix_append ..
    refine ⟨?_, _, rfl⟩
    have h2 := congrArg (List.take 2) e
    rw [List.append_assoc x, List.take_left' hx] at h2
    rw [← h2]
    decide +kernel
  · decide +kernel
  · intro p h
    obtain ⟨c, h1, h2⟩ := announces_last h
    rw [show (str!"a " ++ writtenGroup.text ++ str!" szerinti eljárás;").getLast? = some ';' from by decide +kernel] at h1
    cases h1
    exact absurd h2 (by decide)
  · decide +kernel

end HunLaw.Props
