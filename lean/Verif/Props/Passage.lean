import Verif.Props.Written
import Verif.Props.Semantic
import Verif.Lemmas.PassageText

/-! Property C112: running text with many references, mentions of attachments and quotations. -/

set_option autoImplicit false

namespace HunLaw.Props

open HunLaw Spec Semantic Grammar P

theorem item_pieces_len {i : PassageItem} : piecesLen i.pieces = byteLen i.text := by
  cases i with
  | group g =>
    rw [PassageItem.pieces]
    split
    · show byteLen _ = byteLen _
      rw [pieces_text]; rfl
    · simp [piecesLen, PassageItem.text]
  | introducing a word colon name references =>
    rw [PassageItem.pieces]
    split
    · have := pieces_text ⟨none, references⟩
      simp only [PhraseGroup.pieces, PhraseGroup.text, Option.toList_none, List.map_nil, List.nil_append, Option.map_none, Option.getD_none] at this
      simp only [piecesLen, List.flatMap_cons, this, PassageItem.text, List.append_assoc]
    · simp [piecesLen]
  | attachment a => simp [PassageItem.pieces, piecesLen, PassageItem.text]
  | quoted s => simp [PassageItem.pieces, piecesLen, PassageItem.text]
  | number k ending => simp [PassageItem.pieces, piecesLen, PassageItem.text]
  | aside words last => simp [PassageItem.pieces, piecesLen, PassageItem.text]
  | opening => simp [PassageItem.pieces, piecesLen, PassageItem.text]
  | closing last => simp [PassageItem.pieces, piecesLen, PassageItem.text]

/-- The references of a group which introduces an abbreviation are those of the group without the introduction. -/
theorem introGroupAt_refs {c : Cache} {a : ActId} {colon : Bool} {word name : Str} {references : List (Str × Phrase)}
    (hg : PhraseGroup.Usual ⟨some (.number a word), references⟩) (n : Nat) :
    (compoundRefs c (introGroupAt a word colon name references n)).map (·.map (·.reference)) =
      if ∀ r ∈ (PhraseGroup.mk (some (.number a word)) references).meant, Ref.tryFrom r = some r
        then some (PhraseGroup.mk (some (.number a word)) references).meant else none := by
  have h1 := groupAt_meaning (c := c) hg.act hg.references (by simp) (n + byteLen (introducedAs colon name))
  have h2 := groupAt_proper hg.references (n + byteLen (introducedAs colon name))
  have e1 : compoundMentions (groupAt ⟨some (.number a word), references⟩ (n + byteLen (introducedAs colon name))) =
      .act (actAt (n + byteLen (introducedAs colon name)) (.number a word)) :: (introGroupAt a word colon name references n).references.map .reference := by
    simp only [compoundMentions, groupAt, introGroupAt, Option.map_some, Option.toList_some, List.map_cons, List.map_nil, List.singleton_append, actPart,
      Option.getD_some, byteLen_append', Nat.add_assoc, Nat.add_comm (byteLen (ActName.number a word).text)]
  have e2 : compoundMentions (introGroupAt a word colon name references n) =
      .act (introAct n (.number a word) (some name)) :: (introGroupAt a word colon name references n).references.map .reference := rfl
  rw [e1] at h1 h2
  rw [compoundRefs_mentions, mentions_meaning c, e2, ← h1]
  · have hl : Mention.levels c (.act (introAct n (.number a word) (some name))) =
        Mention.levels c (.act (actAt (n + byteLen (introducedAs colon name)) (.number a word))) := by
      have h3 : ∀ m, convertActReference c (actAt m (.number a word)) = some a := fun m =>
        actAt_act (a := .number a word) (hg.act _ rfl) (fun _ _ h => by cases h) m
      simp only [Mention.levels, actLevels]
      rw [h3, show convertActReference c (introAct n (.number a word) (some name)) = some a from h3 n]
    rw [meaning, meaning, List.mapM_cons, List.mapM_cons, hl]
  · rw [e2]
    intro m hm
    rcases List.mem_cons.1 hm with rfl | hm
    · trivial
    · exact h2 m (List.mem_cons_of_mem _ hm)

theorem introGroupAt_ranges {c : Cache} {a : ActId} {colon : Bool} {word name : Str} {references : List (Str × Phrase)}
    (hg : PhraseGroup.Usual ⟨some (.number a word), references⟩) {n : Nat} {refs : List OutgoingRef}
    (h : compoundRefs c (introGroupAt a word colon name references n) = some refs) :
    ranges refs = markedRanges n (((ActName.number a word).text, true) :: (introducedAs colon name, false) ::
          references.flatMap fun x => (x.1, false) :: wordPieces [] x.2.words) := by
  obtain ⟨b1, h1, h⟩ := bind_some_split h
  obtain ⟨b2, h2, h⟩ := bind_some_split h
  cases h
  have h3 : b1.start = none ∧ ranges b1.result = [(n, n + byteLen (ActName.number a word).text)] := by
    simp only [introGroupAt, Builder.feedOpt] at h1
    obtain ⟨x, -, h1⟩ := bind_some_split h1
    obtain ⟨s, hs, hs2, hr⟩ := recordOne_range h1
    cases hs
    exact ⟨hs2, hr⟩
  have := feedRefs_at references _ _ _ hg.references h2 h3.1
  rw [this, h3.2]
  simp [markedRanges, byteLen_append', Nat.add_assoc]

theorem passage_refs (c : Cache) {l : List (Str × PassageItem)} (hu : ∀ x ∈ l, x.2.Usual)
    (hact : ∀ x ∈ l, ∀ g s a, x.2 = .group g → g.act = some (.short s a) → c.resolve s = some a) (n : Nat) :
    (((compoundsAt n l).flatMap fun x => (compoundRefs c x).getD []).map (·.reference)) = l.flatMap (fun x => x.2.meant) ∧
    ranges ((compoundsAt n l).flatMap fun x => (compoundRefs c x).getD []) = markedRanges n (l.flatMap fun x => (x.1, false) :: x.2.pieces) := by
  induction l generalizing n with
  | nil => exact ⟨rfl, rfl⟩
  | cons x l ih =>
    obtain ⟨o, i⟩ := x
    have ih := ih (fun x hx => hu x (List.mem_cons_of_mem _ hx)) (fun x hx => hact x (List.mem_cons_of_mem _ hx)) (n + byteLen o + byteLen i.text)
    have hsplit : ∀ b, markedRanges n ((o, false) :: i.pieces ++ b) =
        markedRanges (n + byteLen o) i.pieces ++ markedRanges (n + byteLen o + byteLen i.text) b := by
      intro b
      rw [List.cons_append, markedRanges, markedRanges_append, item_pieces_len]
    rw [List.flatMap_cons, List.flatMap_cons, hsplit]
    cases i with
    | group g =>
      have hg : g.Usual := hu _ (List.mem_cons_self ..)
      have h1 := groupAt_refs hg (hact _ (List.mem_cons_self ..) g · · rfl) (n + byteLen o)
      rw [compoundsAt, List.flatMap_cons]
      by_cases hw : ∀ x ∈ g.meant, WellFormed x
      · have hm : (PassageItem.group g).meant = g.meant := by rw [PassageItem.meant, if_pos hw]
        have hp : (PassageItem.group g).pieces = g.pieces := by rw [PassageItem.pieces, if_pos hw]
        rw [if_pos fun x hx => Ref.tryFrom_eq_some.2 ⟨rfl, hw x hx⟩] at h1
        cases hc : compoundRefs c (groupAt g (n + byteLen o)) with
        | none => rw [hc] at h1; cases h1
        | some refs =>
          rw [hc] at h1
          rw [hm, hp]
          refine ⟨?_, ?_⟩
          · rw [List.map_append]
            exact congr (congrArg _ (by simpa using h1)) ih.1
          · unfold ranges
            rw [List.map_append]
            exact congr (congrArg _ (groupAt_ranges hg hc)) ih.2
      · have hm : (PassageItem.group g).meant = [] := by rw [PassageItem.meant, if_neg hw]
        have hp : (PassageItem.group g).pieces = [(g.text, false)] := by rw [PassageItem.pieces, if_neg hw]
        rw [if_neg fun h => hw fun x hx => (Ref.tryFrom_eq_some.1 (h x hx)).2] at h1
        cases hc : compoundRefs c (groupAt g (n + byteLen o)) with
        | some refs => rw [hc] at h1; cases h1
        | none =>
          rw [hm, hp]
          exact ⟨ih.1, ih.2⟩
    | introducing a word colon name references =>
      have hg : PhraseGroup.Usual ⟨some (.number a word), references⟩ := (hu _ (List.mem_cons_self ..)).1
      have h1 := introGroupAt_refs (c := c) (colon := colon) (name := name) hg (n + byteLen o)
      rw [compoundsAt, List.flatMap_cons]
      by_cases hw : ∀ x ∈ (PhraseGroup.mk (some (.number a word)) references).meant, WellFormed x
      · have hm : (PassageItem.introducing a word colon name references).meant = (PhraseGroup.mk (some (.number a word)) references).meant := by
          rw [PassageItem.meant]; exact if_pos hw
        have hp : (PassageItem.introducing a word colon name references).pieces = ((ActName.number a word).text, true) :: (introducedAs colon name, false) ::
            references.flatMap fun x => (x.1, false) :: wordPieces [] x.2.words := by
          rw [PassageItem.pieces]; exact if_pos hw
        rw [if_pos fun x hx => Ref.tryFrom_eq_some.2 ⟨rfl, hw x hx⟩] at h1
        cases hc : compoundRefs c (introGroupAt a word colon name references (n + byteLen o)) with
        | none => rw [hc] at h1; cases h1
        | some refs =>
          rw [hc] at h1
          rw [hm, hp]
          refine ⟨?_, ?_⟩
          · rw [List.map_append]
            exact congr (congrArg _ (by simpa using h1)) ih.1
          · unfold ranges
            rw [List.map_append]
            exact congr (congrArg _ (introGroupAt_ranges hg hc)) ih.2
      · have hm : (PassageItem.introducing a word colon name references).meant = [] := by rw [PassageItem.meant]; exact if_neg hw
        have hp : (PassageItem.introducing a word colon name references).pieces = [((PassageItem.introducing a word colon name references).text, false)] := by
          rw [PassageItem.pieces]; exact if_neg hw
        rw [if_neg fun h => hw fun x hx => (Ref.tryFrom_eq_some.1 (h x hx)).2] at h1
        cases hc : compoundRefs c (introGroupAt a word colon name references (n + byteLen o)) with
        | some refs => rw [hc] at h1; cases h1
        | none =>
          rw [hm, hp]
          exact ⟨ih.1, ih.2⟩
    | attachment a => exact ⟨ih.1, ih.2⟩
    | quoted s => exact ⟨ih.1, ih.2⟩
    | number k ending => exact ⟨ih.1, ih.2⟩
    | aside words last => exact ⟨ih.1, ih.2⟩
    | opening => exact ⟨ih.1, ih.2⟩
    | closing last => exact ⟨ih.1, ih.2⟩

theorem passage_items {i : PassageItem} {l : List (Str × PassageItem)} {after : Str} (h : passageUsual i l after) : ∀ x ∈ l, x.2.Usual := by
  induction l generalizing i with
  | nil => simp
  | cons x l ih =>
    obtain ⟨o, j⟩ := x
    intro y hy
    rcases List.mem_cons.1 hy with rfl | hy
    · exact h.1
    · exact ih h.2.2 y hy

/-- The abbreviations which are introduced by what is found. -/
theorem passage_new {l : List (Str × PassageItem)} (hu : ∀ x ∈ l, x.2.Usual) (n : Nat) :
    (((compoundsAt n l).flatMap fun x => x.actReference.toList).filterMap newAbbreviation).mapM convertAbbreviation =
      some (l.flatMap fun x => x.2.new) := by
  induction l generalizing n with
  | nil => rfl
  | cons x l ih =>
    obtain ⟨o, i⟩ := x
    have ih := ih (fun x hx => hu x (List.mem_cons_of_mem _ hx)) (n + byteLen o + byteLen i.text)
    rw [List.flatMap_cons]
    cases i with
    | group g =>
      rw [compoundsAt, List.flatMap_cons, List.filterMap_append]
      have : (groupAt g (n + byteLen o)).actReference.toList.filterMap newAbbreviation = [] := by
        rw [groupAt]
        cases g.act with
        | none => rfl
        | some a => cases a <;> rfl
      rw [this]
      exact ih
    | introducing a word colon name references =>
      rw [compoundsAt, List.flatMap_cons, List.filterMap_append]
      have h1 : convertActId (actIdAt a word (n + byteLen o)) = some a :=
        actAt_act (c := ⟨[], false⟩) (a := .number a word) ((hu _ (List.mem_cons_self ..)).1.act _ rfl) (fun _ _ h => by cases h) (n + byteLen o)
      have : (introGroupAt a word colon name references (n + byteLen o)).actReference.toList.filterMap newAbbreviation = [(name, actIdAt a word (n + byteLen o))] := rfl
      rw [this, List.singleton_append, List.mapM_cons, ih]
      simp [convertAbbreviation, h1, PassageItem.new]
    | attachment a => exact ih
    | quoted s => exact ih
    | number k ending => exact ih
    | aside words last => exact ih
    | opening => exact ih
    | closing last => exact ih

/-- Only the references among the expressions name acts. -/
theorem expressions_acts (l : List SimpleExpression) :
    rootActs (.simple l) = (l.filterMap compoundOf).flatMap fun x => x.actReference.toList := by
  show l.flatMap expressionActs = _
  induction l with
  | nil => rfl
  | cons x l ih =>
    rw [List.flatMap_cons, ih]
    cases x <;> simp [expressionActs, compoundOf, List.filterMap_cons]

/-- How running text is read, with the abbreviations which are introduced in it. -/
theorem passage_read (c : Cache) (p : Passage) (hp : p.Usual)
    (habbr : clear (c.allAbbreviations ++ p.new.map Prod.fst) p.items p.after) (hname : nameable c.allAbbreviations p.items)
    (hact : ∀ x ∈ p.items, ∀ g s a, x.2 = .group g → g.act = some (.short s a) → (lastDefined s p.new).or (c.resolve s) = some a)
    (hsome : ∃ ch ∈ p.text, ch ≠ ' ') (hnew : ∀ a, Introduces p.text a → a ∈ p.new.map Prod.fst) (hplain : ∀ q, ¬ Announces q p.text) :
    ∃ r refs, parse p.text c.allAbbreviations = some r ∧ getNewAbbreviations r = some p.new ∧
      outgoingRefs (c.addMultiple p.new) r = some refs ∧ (∀ c', extractSpecialPhrase c' r = some none) ∧
      refs.map (·.reference) = p.meant ∧ ranges refs = markedRanges 0 p.pieces := by
  have hf : ∀ l, (∀ a ∈ l, Introduces p.text a) → Found (c.allAbbreviations ++ l) 0 p.text (compoundsAt 0 p.items) := fun l hl =>
    found_passage hp (fun e he => List.mem_append_right _ (List.mem_map_of_mem he))
      (fun b hb => (List.mem_append.1 hb).elim (List.mem_append_left _) fun hb => List.mem_append_right _ (hnew b (hl b hb))) habbr
      (nameable_mono (fun b hb => List.mem_append_left _ hb) hname)
  have hs : ∃ ch ∈ p.text, isWs ch = false := by
    obtain ⟨l, after⟩ := p
    cases l with
    | nil =>
      obtain ⟨ch, h1, h2⟩ := hsome
      refine ⟨ch, h1, ?_⟩
      have : ∀ c ∈ lowerLetters ++ upperLetters ++ str!" .,;!?", c ≠ ' ' → isWs c = false := by decide +kernel
      refine this ch ?_ h2
      rcases hp ch h1 with h | h | h <;> simp [h]
    | cons x l =>
      obtain ⟨o, i⟩ := x
      obtain ⟨ch, r, e, h, -⟩ := item_head hp.2.2.1 (hp.2.2.2.1 _)
      exact ⟨ch, by simp [Passage.text, passageText, e], h⟩
  obtain ⟨l, hl, hparse⟩ := plain_root hf hs hplain
  have husual : ∀ x ∈ p.items, x.2.Usual := by
    obtain ⟨l, after⟩ := p
    cases l with
    | nil => simp
    | cons x l =>
      intro y hy
      rcases List.mem_cons.1 hy with rfl | hy
      · exact hp.2.2.1
      · exact passage_items hp.2.2.2.2 y hy
  obtain ⟨h1, h2⟩ := passage_refs (c.addMultiple p.new) husual (fun x hx g s a e1 e2 => by rw [C44_latest]; exact hact x hx g s a e1 e2) 0
  refine ⟨.simple l, _, hparse, ?_, by show some (l.flatMap (expressionRefs _)) = _; rw [expressions_refs, hl], fun _ => rfl, h1, ?_⟩
  · rw [getNewAbbreviations, expressions_acts, hl]
    exact passage_new husual 0
  · rw [h2, Passage.pieces, markedRanges_append]
    simp [markedRanges]

theorem item_text_infix {l : List (Str × PassageItem)} {x : Str × PassageItem} (h : x ∈ l) (after : Str) : x.2.text <:+: passageText l after := by
  induction l with
  | nil => cases h
  | cons y l ih =>
    rw [passageText]
    rcases List.mem_cons.1 h with rfl | h
    · exact ⟨x.1, passageText l after, by simp⟩
    · exact (ih h).trans ⟨y.1 ++ y.2.text, [], by simp⟩

theorem nothing_new {p : Passage} (h : ¬ str!"továbbiakban" <:+: p.text) : p.new = [] := by
  rw [Passage.new, List.flatMap_eq_nil_iff]
  rintro ⟨o, i⟩ hx
  cases i with
  | introducing a word colon name references =>
    refine absurd ((List.IsInfix.trans ?_ (item_text_infix hx p.after))) h
    refine ⟨(ActName.number a word).text ++ str!" (a ", (if colon then str!":" else []) ++ str!" " ++ name ++ str!")" ++ references.flatMap fun x => x.1 ++ x.2.text, ?_⟩
    simp [PassageItem.text, introducedAs]
  | _ => rfl

theorem nameable_of {l : List (Str × PassageItem)} : ∀ {known : List Str}, (∀ x ∈ l, ∀ g s a, x.2 = .group g → g.act = some (.short s a) → s ∈ known) →
    nameable known l := by
  induction l with
  | nil => intro _ _; trivial
  | cons x l ih =>
    intro known h
    exact ⟨h x (List.mem_cons_self ..), ih fun y hy g s a e1 e2 => List.mem_append_left _ (h y (List.mem_cons_of_mem _ hy) g s a e1 e2)⟩

/-- C112: in running text with any number of groups of references, mentions of attachments, quotations, numbers and words in
brackets, all in the usual form, exactly the references meant are found, in the order of the text, each at its place. Nothing is found
in the mentions of attachments, in quotations, in numbers and dates, nor elsewhere; a group with a reference which is not well formed
gives nothing, and it does not affect the others. All of these can be in brackets too.

The known abbreviations are only in the text where they name the act of a group, no abbreviation is introduced by the
text, and no special phrase is announced by it.

Missing: attachments with letters in their numbers, see `C112_violated`. (Two groups with only a comma or a
conjunction between them are one group, unless the second one names its act.) -/
theorem C112_passages_partial (c : Cache) (p : Passage) (hp : p.Usual) (habbr : clear c.allAbbreviations p.items p.after)
    (hact : ∀ x ∈ p.items, ∀ g s a, x.2 = .group g → g.act = some (.short s a) → c.resolve s = some a)
    (hsome : ∃ ch ∈ p.text, ch ≠ ' ') (hnew : ¬ str!"továbbiakban" <:+: p.text) (hplain : ∀ q, ¬ Announces q p.text) :
    ∃ r refs, parse p.text c.allAbbreviations = some r ∧ outgoingRefs c r = some refs ∧
      refs.map (·.reference) = p.meant ∧ ranges refs = markedRanges 0 p.pieces := by
  have e := nothing_new hnew
  obtain ⟨r, refs, h1, -, h2, -, h3⟩ := passage_read c p hp (by rw [e]; simpa using habbr)
    (nameable_of fun x hx g s a h1 h2 => resolve_mem (hact x hx g s a h1 h2)) (by rw [e]; exact hact) hsome
    (fun a ha => absurd ha (not_introduces hnew a)) hplain
  rw [e] at h2
  exact ⟨r, refs, h1, h2, h3⟩

/-- C112 for one attachment whose number has a letter, and a point of it. -/
def C112_statement : Prop :=
  ∀ (n : Nat) (letter : Char), letter ∈ upperLetters → ∃ r,
    parse (str!"az " ++ dec n ++ '/' :: letter :: str!". melléklet 2. pontja szerint") [] = some r ∧
      outgoingRefs ⟨[], false⟩ r = some []

/-- "az 1/A. melléklet 2. pontja szerint" is taken for a reference to the point 2 of the provision it is in. -/
theorem C112_violated : ¬ C112_statement := by
  intro h
  obtain ⟨r, h1, h2⟩ := h 1 'A' (by decide)
  have h4 : ((parse (str!"az " ++ dec 1 ++ '/' :: 'A' :: str!". melléklet 2. pontja szerint") []).bind
      fun r => outgoingRefs ⟨[], false⟩ r).map (·.map (·.reference)) =
        some [⟨none, none, none, some (.numeric ⟨.ofNum 2, .ofNum 2⟩), none⟩] := by decide +kernel
  rw [h1, Option.bind_some, h2, Option.map_some] at h4
  cases h4

/-! ### an example -/

theorem clear_words {b before rest : Str} (h : ∀ k ∈ List.range before.length, b.isPrefixOf ((before ++ rest).drop k) = false) :
    ∀ x y, before = x ++ y → y ≠ [] → ¬ b <+: y ++ rest := by
  rintro x y rfl hy hp
  have := List.length_pos_iff.2 hy
  have h1 := h x.length (List.mem_range.2 (by rw [List.length_append]; omega))
  rw [List.append_assoc, List.drop_left] at h1
  rw [List.isPrefixOf_iff_prefix.2 hp] at h1
  cases h1

/-- "1. és 2. melléklet 2. és 3. pontja" -/
def writtenAttachments : Attachment :=
  ⟨⟨.one (.ofNum 1), [(str!" és ", .one (.ofNum 2))], []⟩, false, [(str!" ", .part str!"2." [(str!" és ", str!"3.")] str!"pont" str!"ja")]⟩

/-- "3. számú melléklete" -/
def writtenAttachment : Attachment := ⟨⟨.one (.ofNum 3), [], str!"e"⟩, true, []⟩

/-- "4. §-a" -/
def writtenArticle : PhraseGroup := ⟨none, [([], { article := some ⟨.one ⟨none, .ofNum 4⟩, [], str!"-a"⟩ })]⟩

def writtenPassage : Passage where
  items := [(str!"A ", .group writtenGroup), (str!" ", .aside str!"kivételes " str!"esetben"), (str!" az ", .attachment writtenAttachments),
    (str!" szerinti esetben a ", .group writtenArticle), (str!" és a ", .attachment writtenAttachment),
    (str!" szerinti új ", .quoted str!"3. § szerint"), (str!" szöveg ", .number 2024 []), (str!". január ", .number 1 str!"-jén"),
    (str!" ", .number 30 [])]
  after := str!" napra lép hatályba;"

example : writtenPassage.text = str!"A Btk. 3. § (1), (3)–(5) és (7) bekezdés a) pontja és 5/A. §-a (kivételes esetben) az 1. és 2. melléklet 2. és 3. pontja szerinti esetben a 4. §-a és a 3. számú melléklete szerinti új „3. § szerint” szöveg 2024. január 1-jén 30 napra lép hatályba;" := by
  decide +kernel

theorem writtenAttachments_usual : writtenAttachments.Usual where
  numbers := ⟨rfl, by simp [writtenAttachments, Span.Fits, NumericId.ofNum]; decide +kernel⟩
  ending := by simp [Ending, writtenAttachments]
  places x hx := by
    simp only [writtenAttachments, List.mem_singleton] at hx
    subst hx
    refine ⟨⟨by decide, ⟨str!"2", '.', rfl, by decide⟩, by decide⟩, fun x hx => ?_, by decide, by unfold Ending; decide⟩
    simp only [List.mem_singleton] at hx
    subst hx
    exact ⟨by decide +kernel, by decide, ⟨str!"3", '.', rfl, by decide⟩, by decide⟩
  first x hx := by cases hx; rfl
  others x hx := by cases hx

theorem writtenAttachment_usual : writtenAttachment.Usual where
  numbers := ⟨rfl, by simp [writtenAttachment]⟩
  ending := by unfold Ending; decide
  places x hx := by cases hx
  first x hx := by cases hx
  others x hx := by cases hx

theorem writtenArticle_usual : writtenArticle.Usual where
  act a h := by cases h
  references x hx := by
    simp only [writtenArticle, List.mem_singleton] at hx
    subst hx
    constructor
    · intro l h; cases h
      exact ⟨⟨by simp [ArticleUsual, NumericId.ofNum], by simp⟩, .inr ⟨str!"a", rfl, by decide, by unfold Ending; decide⟩⟩
    · intro l h; cases h
    · intro l h; cases h
    · intro l h; cases h
    · intro l h; cases h
    · intro l h; cases h
    · exact .inl rfl
    · exact .inl rfl
    · intro h; simp at h
    · decide
  first x hx := by simp [writtenArticle] at hx; subst hx; simp [writtenArticle]
  others x hx := by simp [writtenArticle] at hx
  named := .inr (by simp [writtenArticle])

theorem writtenPassage_usual : writtenPassage.Usual := by
  refine ⟨by unfold Ordinary; decide, .inr ⟨str!"A", rfl⟩, writtenGroup_usual, nofun,
    ⟨by unfold Ordinary; decide, .inr ⟨str!"kivételes", rfl⟩, by decide, by decide, by decide +kernel⟩,
    ⟨by unfold Ordinary; decide, .inr (fun c h => by cases h; decide), .inl ⟨⟨[], rfl⟩, by simp⟩, .inl rfl⟩, writtenAttachments_usual,
    ⟨by unfold Ordinary; decide, .inr (fun c h => by cases h; decide), .inl ⟨⟨str!" az", rfl⟩, by simp⟩, trivial⟩,
    writtenArticle_usual, ⟨by unfold Ordinary; decide, .inr (fun c h => by cases h; decide), .inl ⟨⟨str!" szerinti esetben a", rfl⟩, by simp⟩, ?_⟩,
    writtenAttachment_usual, ⟨by unfold Ordinary; decide, .inr (fun c h => by cases h; decide), .inl ⟨⟨str!" és a", rfl⟩, by simp⟩, .inl (by decide +kernel)⟩,
    ⟨by decide, fun c h => by cases h; decide, fun c h => by cases h; decide⟩,
    ⟨by unfold Ordinary; decide, .inr (fun c h => by cases h; decide), .inl ⟨⟨str!" szerinti új", rfl⟩, by simp⟩, ?_⟩,
    .inl rfl, ⟨by unfold Ordinary; decide, .inr (fun c h => by cases h; decide), .inl ⟨⟨str!" szöveg", rfl⟩, by simp⟩, trivial⟩,
    .inr ⟨str!"jén", rfl, by unfold Ending; decide, by decide⟩,
    ⟨by unfold Ordinary; decide, .inr (fun c h => by cases h; decide), .inl ⟨⟨str!". január", rfl⟩, by simp⟩, .dot _ _ (.inl (by decide)) (.inr (by decide +kernel))⟩,
    .inl rfl, ⟨by unfold Ordinary; decide, .inr (fun c h => by cases h; decide), .inl ⟨⟨[], rfl⟩, by simp⟩, .space _ _ (.inr (.inr (by decide)))⟩,
    by unfold Ordinary; decide, .inr (fun c h => by cases h; decide), .space _ _ (.inl (by decide))⟩
  · refine .word str!" " str!"szerinti" _ (.inr rfl) (by decide) (by decide) (by decide) (by decide) (by decide) (by decide)
      (.inr ⟨_, rfl, fun c h => by cases h; decide, by decide +kernel⟩)
  · refine .word str!" " str!"szerinti" _ (.inr rfl) (by decide) (by decide) (by decide) (by decide) (by decide) (by decide)
      (.inr ⟨_, rfl, fun c h => by cases h; decide, by decide +kernel⟩)

/-- All conditions of the theorem are met by the example, and the references are well formed. -/
example : clear writtenCache.allAbbreviations writtenPassage.items writtenPassage.after ∧
    (∀ x ∈ writtenPassage.items, ∀ g s a, x.2 = .group g → g.act = some (.short s a) → writtenCache.resolve s = some a) ∧
    (∃ ch ∈ writtenPassage.text, ch ≠ ' ') ∧ ¬ str!"továbbiakban" <:+: writtenPassage.text ∧
    (∀ p, ¬ Announces p writtenPassage.text) ∧ (∀ x ∈ writtenGroup.meant ++ writtenArticle.meant, Ref.tryFrom x = some x) := by
  have hb : ∀ b ∈ writtenCache.allAbbreviations, b = str!"Btk." := by decide
  refine ⟨⟨fun x y e hy b h => ?_, fun b h _ => ?_, ⟨fun x y e hy b h => ?_, fun b h hp => ?_, ⟨fun x y e hy b h => ?_, fun b h hp => ?_, ⟨fun x y e hy b h => ?_, fun b h hp => ?_, ⟨fun x y e hy b h => ?_, fun b h hp => ?_, ⟨fun x y e hy b h => ?_, fun b h hp => ?_, ⟨fun x y e hy b h => ?_, fun b h hp => ?_, ⟨fun x y e hy b h => ?_, fun b h hp => ?_, ⟨fun x y e hy b h => ?_, fun b h hp => ?_, fun x y e b h hp => ?_, fun x y e hy b h => ?_⟩, fun x y e hy b h => ?_⟩, fun x y e hy b h => ?_⟩, fun x y e hy b h => ?_⟩, fun x y e hy b h => ?_⟩, fun x y e hy b h => ?_⟩, fun x y e hy b h => ?_⟩, fun x y e hy b h => ?_⟩, fun x y e hy b h => ?_⟩, ?_, ?_, ?_, ?_, ?_⟩
  · rw [hb b h]; exact clear_words (by decide +kernel) x y e hy
  · rw [hb b h]; exact ⟨_, _, rfl, rfl⟩
  · rw [hb b h]; exact clear_words (by decide +kernel) x y e hy
  · rw [hb b h, ← List.isPrefixOf_iff_prefix] at hp; exact absurd hp (by decide +kernel)
  · rw [hb b h]; exact clear_words (by decide +kernel) x y e hy
  · rw [hb b h, ← List.isPrefixOf_iff_prefix] at hp; exact absurd hp (by decide +kernel)
  · rw [hb b h]; exact clear_words (by decide +kernel) x y e hy
  · rw [hb b h, ← List.isPrefixOf_iff_prefix] at hp; exact absurd hp (by decide +kernel)
  · rw [hb b h]; exact clear_words (by decide +kernel) x y e hy
  · rw [hb b h, ← List.isPrefixOf_iff_prefix] at hp; exact absurd hp (by decide +kernel)
  · rw [hb b h]; exact clear_words (by decide +kernel) x y e hy
  · rw [hb b h, ← List.isPrefixOf_iff_prefix] at hp; exact absurd hp (by decide +kernel)
  · rw [hb b h]; exact clear_words (by decide +kernel) x y e hy
  · rw [hb b h, ← List.isPrefixOf_iff_prefix] at hp; exact absurd hp (by decide +kernel)
  · rw [hb b h]; exact clear_words (by decide +kernel) x y e hy
  · rw [hb b h, ← List.isPrefixOf_iff_prefix] at hp; exact absurd hp (by decide +kernel)
  · rw [hb b h]; exact clear_words (by decide +kernel) x y e hy
  · rw [hb b h, ← List.isPrefixOf_iff_prefix] at hp; exact absurd hp (by decide +kernel)
  · rw [hb b h] at hp
    have : 'B' ∈ writtenPassage.after := by rw [e]; exact List.mem_append_right _ (hp.subset (by simp))
    revert this; decide
  · rw [hb b h]; exact clear_words (by decide +kernel) x y e hy
  · rw [hb b h]; exact clear_words (by decide +kernel) x y e hy
  · rw [hb b h]; exact clear_words (by decide +kernel) x y e hy
  · rw [hb b h]; exact clear_words (by decide +kernel) x y e hy
  · rw [hb b h]; exact clear_words (by decide +kernel) x y e hy
  · rw [hb b h]; exact clear_words (by decide +kernel) x y e hy
  · rw [hb b h]; exact clear_words (by decide +kernel) x y e hy
  · rw [hb b h]; exact clear_words (by decide +kernel) x y e hy
  · rw [hb b h]; exact clear_words (by decide +kernel) x y e hy
  · intro x hx g s a h1 h2
    simp only [writtenPassage, List.mem_cons, List.not_mem_nil, or_false] at hx
    rcases hx with rfl | rfl | rfl | rfl | rfl | rfl | rfl | rfl | rfl <;> cases h1
    · cases h2; decide
    · cases h2
  · exact ⟨'A', by decide +kernel, by decide⟩
  · decide +kernel
  · intro p h
    obtain ⟨c, h1, h2⟩ := announces_last h
    rw [show writtenPassage.text.getLast? = some ';' from by decide +kernel] at h1
    cases h1
    exact absurd h2 (by decide)
  · decide +kernel

/-! ### two acts in a list -/

/-- "2015. évi CXLIII. törvény 4. §-a" -/
def articleOfAct : PhraseGroup :=
  ⟨some (.number ⟨⟨2015, by decide⟩, ⟨143, by decide⟩⟩ str!"törvény"), [(str!" ", { article := some ⟨.one ⟨none, .ofNum 4⟩, [], str!"-a"⟩ })]⟩

/-- "a 4. §-a és a 2015. évi CXLIII. törvény 4. §-a, valamint a Btk. 3. § …" -/
def actsPassage : Passage where
  items := [(str!"a ", .group writtenArticle), (str!" és a ", .group articleOfAct), (str!", valamint a ", .group writtenGroup)]
  after := str!" szerint;"

example : actsPassage.text = str!"a 4. §-a és a 2015. évi CXLIII. törvény 4. §-a, valamint a Btk. 3. § (1), (3)–(5) és (7) bekezdés a) pontja és 5/A. §-a szerint;" := by
  decide +kernel

theorem articleOfAct_usual : articleOfAct.Usual where
  act a h := by cases h; exact ⟨by decide, by decide, by decide, .inl ⟨str!"y", rfl, by unfold Ending; decide, by decide⟩⟩
  references x hx := by
    simp only [articleOfAct, List.mem_singleton] at hx
    subst hx
    exact writtenArticle_usual.references ([], _) (by simp only [writtenArticle, List.mem_singleton])
  first x hx := by simp [articleOfAct] at hx; subst hx; simp [articleOfAct]
  others x hx := by simp [articleOfAct] at hx
  named := .inl (by simp [articleOfAct])

example : actsPassage.Usual := by
  refine ⟨by unfold Ordinary; decide, .inr ⟨str!"a", rfl⟩, writtenArticle_usual, nofun, articleOfAct_usual,
    ⟨by unfold Ordinary; decide, .inr (fun c h => by cases h; decide), .inl ⟨⟨str!" és a", rfl⟩, by simp⟩, .inl ⟨by decide +kernel, _, rfl, fun s x h => by cases h⟩⟩,
    writtenGroup_usual, ⟨by unfold Ordinary; decide, .inr (fun c h => by cases h; decide), .inl ⟨⟨str!", valamint a", rfl⟩, by simp⟩,
      .inl ⟨by decide +kernel, _, rfl, fun s x h => by cases h; exact ⟨'B', rfl, by decide⟩⟩⟩,
    by unfold Ordinary; decide, .inr (fun c h => by cases h; decide), trivial⟩

/-! ### references and numbers in brackets -/

/-- Brackets with words and a group, a number and a word, a group and a word. -/
def bracketPassage : Passage where
  items := [(str!"a ", .group articleOfAct), (str!" ", .opening), (str!"kivéve a ", .group writtenArticle), ([], .closing []),
    (str!" és ", .opening), ([], .number 30 []), (str!" ", .closing str!"nap"), (str!" és ", .opening), ([], .group writtenArticle),
    (str!" ", .closing str!"szerint")]
  after := str!" szabad;"

example : bracketPassage.text =
    str!"a 2015. évi CXLIII. törvény 4. §-a (kivéve a 4. §-a) és (30 nap) és (4. §-a szerint) szabad;" := by
  decide +kernel

theorem not_short {s : Str} (h : s.head? ≠ some 'a') :
    ¬ ∃ w r, s = 'a' :: (w ++ (str!"továbbiakban" ++ r)) ∧ ∀ c ∈ w, c ∈ str!" \t\n\r\x0c" := by
  rintro ⟨w, r, rfl, -⟩
  exact h rfl

theorem bracketPassage_usual : bracketPassage.Usual := by
  refine ⟨by unfold Ordinary; decide, .inr ⟨str!"a", rfl⟩, articleOfAct_usual, nofun,
    trivial, ⟨by unfold Ordinary; decide, .inr (fun c h => by cases h; decide), .inl ⟨⟨[], rfl⟩, by simp⟩, .inl rfl⟩,
    writtenArticle_usual, ⟨by unfold Ordinary; decide, .inl rfl, .inl ⟨⟨str!"kivéve a", rfl⟩, by simp⟩,
      .inl fun c h => by cases h; decide, not_short (by decide +kernel)⟩,
    .inl rfl, ⟨by unfold Ordinary; decide, .inr nofun, .inr ⟨rfl, rfl⟩, .inl rfl⟩,
    trivial, ⟨by unfold Ordinary; decide, .inr (fun c h => by cases h; decide), .inl ⟨⟨str!" és", rfl⟩, by simp⟩, trivial⟩,
    .inl rfl, ⟨by unfold Ordinary; decide, .inl rfl, .inr ⟨rfl, trivial⟩,
      .inr ⟨30, ' ', _, rfl, .inr ⟨rfl, fun d h => by cases h; exact .inl (by decide)⟩⟩, not_short (by decide +kernel)⟩,
    .inr ⟨by decide, by decide⟩, ⟨by unfold Ordinary; decide, .inr (fun c h => by cases h; decide), .inl ⟨⟨[], rfl⟩, by simp⟩,
      .space _ _ (.inl (by decide))⟩,
    trivial, ⟨by unfold Ordinary; decide, .inr (fun c h => by cases h; decide), .inl ⟨⟨str!" és", rfl⟩, by simp⟩, trivial⟩,
    writtenArticle_usual, ⟨by unfold Ordinary; decide, .inl rfl, .inr ⟨rfl, trivial⟩,
      .inr ⟨4, '.', _, rfl, .inl (by decide)⟩, not_short (by decide +kernel)⟩,
    .inr ⟨by decide, by decide⟩, ⟨by unfold Ordinary; decide, .inr (fun c h => by cases h; decide), .inl ⟨⟨[], rfl⟩, by simp⟩,
      .inr (.inl ⟨rfl, by decide⟩)⟩,
    by unfold Ordinary; decide, .inr (fun c h => by cases h; decide), trivial⟩

theorem clear_none (l : List (Str × PassageItem)) (after : Str) : clear [] l after := by
  induction l with
  | nil => exact fun _ _ _ b hb => by cases hb
  | cons x l ih => exact ⟨fun _ _ _ _ b hb => (by cases hb), fun b hb => (by cases hb), ih, fun _ _ _ _ b hb => (by cases hb)⟩

/-- Three references are found in it. -/
example : ∃ r refs, parse bracketPassage.text [] = some r ∧ outgoingRefs ⟨[], false⟩ r = some refs ∧
    refs.map (·.reference) = articleOfAct.meant ++ writtenArticle.meant ++ writtenArticle.meant := by
  obtain ⟨r, refs, h1, h2, h3, -⟩ := C112_passages_partial ⟨[], false⟩ bracketPassage bracketPassage_usual (clear_none _ _)
    (by
      intro x hx g s a h1 h2
      simp only [bracketPassage, List.mem_cons, List.not_mem_nil, or_false] at hx
      rcases hx with rfl | rfl | rfl | rfl | rfl | rfl | rfl | rfl | rfl | rfl <;> cases h1 <;> cases h2)
    ⟨'a', by decide +kernel, by decide⟩ (by decide +kernel)
    (fun p h => by
      obtain ⟨c, h1, h2⟩ := announces_last h
      rw [show bracketPassage.text.getLast? = some ';' from by decide +kernel] at h1
      cases h1
      exact absurd h2 (by decide))
  refine ⟨r, refs, h1, h2, h3.trans ?_⟩
  have w1 : ∀ x ∈ articleOfAct.meant, WellFormed x :=
    fun x hx => (Ref.tryFrom_eq_some.1 ((by decide +kernel : ∀ x ∈ articleOfAct.meant, Ref.tryFrom x = some x) x hx)).2
  have w2 : ∀ x ∈ writtenArticle.meant, WellFormed x :=
    fun x hx => (Ref.tryFrom_eq_some.1 ((by decide +kernel : ∀ x ∈ writtenArticle.meant, Ref.tryFrom x = some x) x hx)).2
  simp [Passage.meant, bracketPassage, PassageItem.meant, if_pos w1, if_pos w2]

end HunLaw.Props
