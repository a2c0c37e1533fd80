import Verif.Props.TextAmendments

/-! Property C119: a sentence which is about something is not recorded as an instruction about nothing. -/

set_option autoImplicit false

namespace HunLaw.Props

open HunLaw Spec Semantic Grammar P

/-- An instruction which is about nothing: no part of an act, nor the whole of one, is given for it. -/
def AboutNothing : SpecialPhrase → Prop
  | .enforcementDate e => e.positions = [] ∧ e.structuralPositions = [] ∧ e.isDefault = false
  | .textAmendment l => l = []
  | .repeal l => l = []
  | _ => False

/-- What is recorded of the text is about something, if anything is recorded. -/
def AboutSomething (c : Cache) (text : Str) (new : List (Str × ActId)) : Prop :=
  ∀ x phrase, parse text c.allAbbreviations = some x → extractSpecialPhrase (c.addMultiple new) x = some (some phrase) → ¬ AboutNothing phrase

/-- The full statement: sentences in the usual form about coming into force, about changes of words and about repeals are
about something. -/
def C119_statement : Prop :=
  (∀ (c : Cache) (x : EnforcementSentence) (e : EnforcementDateType) (ss : List StructuralRef), x.Usual → x.time.Means e → x.Structure ss →
    AboutSomething c x.text []) ∧
  (∀ (c : Cache) (s : TextSentence) (phrase : SpecialPhrase), s.Usual → s.intro.Usual c.allAbbreviations s.rest →
    (∀ b a, s.intro.act = .short b a → c.resolve b = some a) → s.Means phrase → AboutSomething c s.text s.intro.new) ∧
  (∀ (c : Cache) (s : RepealSentence) (phrase : SpecialPhrase), s.Usual → s.intro.Usual c.allAbbreviations s.rest →
    (∀ b a, s.intro.act = .short b a → c.resolve b = some a) → s.Means phrase → AboutSomething c s.text s.intro.new)

/-! ### coming into force -/

theorem chain_nil {l : List (List (List AnyReferencePart))} : ∀ {r : Ref}, chain r l = [] ↔ l = [] := by
  cases l with
  | nil => intro r; exact ⟨fun _ => rfl, fun _ => rfl⟩
  | cons a l => intro r; simp [chain, alternatives_ne]

theorem forcePart_nothing {x : ForcePart} {m : List StructuralRef} (h : x.Means m) : (x.levels = [] ∧ m = []) ↔ ∃ a, x = .attachments a := by
  cases h with
  | provisions h => simp [ForcePart.levels]
  | place h => simp
  | @subtitles l es h hsep hmore he =>
    have : es ≠ [] := by
      rintro rfl
      cases h
    simp [this]
  | attachments h => simp [ForcePart.levels]

/-- C119: an instruction recorded from a sentence about coming into force is about nothing if and only if the sentence is
about attachments only.

Missing: sentences which are about attachments only, see `C119_violated`. -/
theorem C119_enforcement_partial (c : Cache) (x : EnforcementSentence) (e : EnforcementDateType) (ss : List StructuralRef)
    (hx : x.Usual) (ht : x.time.Means e) (hss : x.Structure ss) (hw : ∀ y ∈ x.parts, WellFormed y) :
    ∃ r phrase, parse x.text c.allAbbreviations = some r ∧ extractSpecialPhrase c r = some (some phrase) ∧
      (AboutNothing phrase ↔ x.references ≠ [] ∧ ∀ y ∈ x.references, ∃ a, y.2 = .attachments a) := by
  obtain ⟨r, h1, h2, -⟩ := C104_enforcement_partial c x e ss hx ht hss
  refine ⟨r, _, h1, (h2 hw).1, ?_⟩
  obtain ⟨ms, hms, rfl⟩ := hss
  simp only [AboutNothing, EnforcementSentence.parts, chain_nil]
  generalize x.references = l at *
  have key : (l.flatMap (fun r => r.2.levels) = [] ∧ ms.flatten = []) ↔ ∀ y ∈ l, ∃ a, y.2 = .attachments a := by
    clear h1 h2 hw
    induction hms with
    | nil => simp
    | @cons y m l ms hy _ ih =>
      rw [List.flatMap_cons, List.flatten_cons, List.append_eq_nil_iff, List.append_eq_nil_iff, List.forall_mem_cons, ← ih, ← forcePart_nothing hy]
      tauto
  rw [← key]
  cases l <;> simp

/-! ### changes of words and repeals -/

theorem places_nothing {act : ActId} {base : Ref} {l : List Target} {m : List TextAmendmentRef} (h : Places act base l m) :
    m = [] ↔ ∀ t ∈ l, ∃ a, t = .attachments a := by
  induction h with
  | nil => simp
  | provisions hw hl ih => simp [alternatives_ne]
  | heading hw hl ih => simp
  | place hp hl ih => simp
  | placeIn hq hp hl ih => simp
  | @subtitles base k es l m hk hl ih =>
    have : es ≠ [] := by
      rintro rfl
      cases hk
    simp [this]
  | beside hw hn hl ih => simp
  | besideIn hq hw hn hl ih => simp
  | attachments hl ih => simp [ih]

theorem bookless_nothing (p : SpecialPhrase) : AboutNothing (booklessPhrase p) ↔ AboutNothing p := by
  cases p <;> simp [booklessPhrase, AboutNothing]

/-- C119: an instruction recorded from a sentence which changes words is about nothing if and only if the sentence is about
attachments only.

Missing: sentences which are about attachments only, see `C119_violated`, and those about the
subtitle after a range of articles. -/
theorem C119_textAmendment_partial (c : Cache) (s : TextSentence) (phrase : SpecialPhrase) (hs : s.Usual)
    (hi : s.intro.Usual c.allAbbreviations s.rest) (hc : ∀ b a, s.intro.act = .short b a → c.resolve b = some a)
    (hm : s.Means phrase) (hafter : AfterOne s.targets) :
    ∃ x, parse s.text c.allAbbreviations = some x ∧ extractSpecialPhrase (c.addMultiple s.intro.new) x = some (some (booklessPhrase phrase)) ∧
      (AboutNothing (booklessPhrase phrase) ↔ ∀ t ∈ s.targets, ∃ a, t = .attachments a) := by
  obtain ⟨x, refs, h1, -, h2, -⟩ := C107_recorded c s phrase hs hi hc hm hafter
  refine ⟨x, h1, h2, ?_⟩
  rw [bookless_nothing]
  obtain ⟨places, hp, rfl⟩ := hm
  rw [← places_nothing hp]
  cases places <;> simp [AboutNothing, TextSentence.allChanges]

/-- C119: an instruction recorded from a repeal is about nothing if and only if the sentence is about attachments only.

Missing: sentences which are about attachments only, see `C119_violated`, and those about the
subtitle after a range of articles. -/
theorem C119_repeal_partial (c : Cache) (s : RepealSentence) (phrase : SpecialPhrase) (hs : s.Usual)
    (hi : s.intro.Usual c.allAbbreviations s.rest) (hc : ∀ b a, s.intro.act = .short b a → c.resolve b = some a)
    (hm : s.Means phrase) (hafter : AfterOne (s.targets.map Prod.snd)) :
    ∃ x, parse s.text c.allAbbreviations = some x ∧ extractSpecialPhrase (c.addMultiple s.intro.new) x = some (some (booklessPhrase phrase)) ∧
      (AboutNothing (booklessPhrase phrase) ↔ s.targets ≠ [] ∧ ∀ t ∈ s.targets, ∃ a, t.2 = .attachments a) := by
  obtain ⟨x, refs, h1, -, h2, -⟩ := C108_recorded c s phrase hs hi hc hm hafter
  refine ⟨x, h1, h2, ?_⟩
  rw [bookless_nothing]
  cases hm with
  | act ht hx => simp [AboutNothing, ht]
  | @places places refs ht hx hp hr =>
    have := places_nothing hp
    simp only [List.mem_map, forall_exists_index, and_imp, forall_apply_eq_imp_iff₂] at this
    rw [← this]
    cases hr <;> simp [AboutNothing, ht]
  | @texts places ht hx hp =>
    have := places_nothing hp
    simp only [List.mem_map, forall_exists_index, and_imp, forall_apply_eq_imp_iff₂] at this
    rw [← this]
    cases places <;> simp [AboutNothing, ht, hx]

/-! ### examples -/

example : ∃ x phrase, parse partsSentence.text (Cache.mk [] false).allAbbreviations = some x ∧
    extractSpecialPhrase ⟨[], false⟩ x = some (some phrase) ∧ ¬ AboutNothing phrase := by
  obtain ⟨x, phrase, h1, h2, h3⟩ := C119_enforcement_partial ⟨[], false⟩ partsSentence (.dayInMonthAfterPublication none 1) partsStructure
    partsSentence_usual (.dayInNext (by decide) (show (_, _) ∈ ordinalWords by decide)) partsSentence_structure
    (fun y hy => (Ref.tryFrom_eq_some.1 ((by decide +kernel : ∀ y ∈ partsSentence.parts, Ref.tryFrom y = some y) y hy)).2)
  exact ⟨x, phrase, h1, h2, fun h => by simpa [partsSentence] using (h3.1 h).2⟩

example : ∃ x phrase, parse listSentence.text (Cache.mk [] false).allAbbreviations = some x ∧
    extractSpecialPhrase ⟨[], false⟩ x = some (some phrase) ∧ ¬ AboutNothing phrase := by
  obtain ⟨x, h1, h2, h3⟩ := C119_textAmendment_partial ⟨[], false⟩ listSentence _ listSentence_usual (procurementAct_usual _) (fun _ _ h => by cases h)
    ⟨_, .subtitles someSubtitles_mean (.attachments (.provisions (refs_wellFormed (by decide +kernel)) .nil)), rfl⟩
    (clear_of rfl).afterOne
  exact ⟨x, _, h1, h2, fun h => by simpa [listSentence, TextSentence.targets, someSubtitles] using h3.1 h⟩

example : ∃ x phrase, parse (placeRepeal thirdChapter).text (Cache.mk [] false).allAbbreviations = some x ∧
    extractSpecialPhrase ⟨[], false⟩ x = some (some phrase) ∧ ¬ AboutNothing phrase := by
  obtain ⟨x, h1, h2, h3⟩ := C119_repeal_partial ⟨[], false⟩ (placeRepeal thirdChapter) _ (placeRepeal_usual thirdChapter_means)
    (theProcurementAct_usual _) (fun _ _ h => by cases h) (placeRepeal_means thirdChapter_means) (clear_of rfl).afterOne
  exact ⟨x, _, h1, h2, fun h => by simpa [placeRepeal, repealSentence] using (h3.1 h).2⟩

/-- "Az 1. melléklet 2024. január 1-jén lép hatályba." -/
def attachmentSentence : EnforcementSentence :=
  ⟨str!"Az", none, [([], .attachments ⟨⟨.one (.ofNum 1), [], []⟩, false, []⟩)], [], .day ⟨2024, str!"január", 1, str!"-jén"⟩, none⟩

example : attachmentSentence.text = str!"Az 1. melléklet 2024. január 1-jén lép hatályba." := by decide +kernel

theorem attachmentSentence_usual : attachmentSentence.Usual :=
  ⟨.inr ⟨by decide, by decide, rfl⟩, by simp [attachmentSentence], by decide, by decide, by decide, by simp [attachmentSentence],
    fun _ => by decide +kernel, fun _ => ⟨by decide +kernel, by decide +kernel⟩, .singleton _,
    fun _ _ _ _ => ⟨_, rfl⟩⟩

/-- C119: "Az 1. melléklet 2024. január 1-jén lép hatályba." is recorded as an instruction which is about nothing, and it is
not about the whole act either: the attachment is forgotten. -/
theorem C119_violated : ¬ C119_statement := by
  intro h
  have h1 : attachmentSentence.Structure [] := ⟨[[]], .cons (.attachments ⟨⟨by simp [Span.Fits, NumericId.ofNum], by simp⟩, by simp [Ending], by simp, by simp, by simp⟩) .nil, rfl⟩
  have h2 : (attachmentSentence.time).Means (.date ⟨2024, 1, 1⟩) :=
    .day (d := ⟨2024, str!"január", 1, str!"-jén"⟩) ⟨by decide, by decide, by decide, by decide⟩
  obtain ⟨x, phrase, h3, h4, h5⟩ := C119_enforcement_partial ⟨[], false⟩ attachmentSentence _ [] attachmentSentence_usual h2 h1 (by intro y hy; cases hy)
  exact h.1 ⟨[], false⟩ attachmentSentence _ [] attachmentSentence_usual h2 h1 x phrase h3 h4 (h5.2 (by simp [attachmentSentence]))

/-- The same with a change of words and with a repeal. -/
example : ((parse str!"A közbeszerzésekről szóló 2015. évi CXLIII. törvény 1. melléklete az „üzlet” szövegrész helyébe a „bolt” szöveg lép." []).bind
    fun r => extractSpecialPhrase ⟨[], false⟩ r) = some (some (.textAmendment [])) := by decide +kernel

example : ((parse str!"Hatályát veszti a közbeszerzésekről szóló 2015. évi CXLIII. törvény 1. melléklete." []).bind
    fun r => extractSpecialPhrase ⟨[], false⟩ r) = some (some (.repeal [])) := by decide +kernel

end HunLaw.Props
