import Verif.Props.Provisions
import Verif.Props.Enforcement
import Verif.Lemmas.RepealSentence

/-! Properties C107 and C108: sentences which change words of an act, and repeals are read as they are written. -/

set_option autoImplicit false

namespace HunLaw.Props

open HunLaw Spec Semantic Grammar P

/-- The text is read as the phrase, with the references. -/
def TextReadAs (c : Cache) (text : Str) (new : List (Str × ActId)) (phrase : SpecialPhrase) (meant : List Ref) : Prop :=
  ∃ x refs, parse text c.allAbbreviations = some x ∧ getNewAbbreviations x = some new ∧
    extractSpecialPhrase (c.addMultiple new) x = some (some phrase) ∧ outgoingRefs (c.addMultiple new) x = some refs ∧ refs.map (·.reference) = meant

/-- The full statement for changes of words: every sentence in the usual form is read as it is written. -/
def C107_statement : Prop :=
  ∀ (c : Cache) (s : TextSentence) (phrase : SpecialPhrase), s.Usual → s.intro.Usual c.allAbbreviations s.rest →
    (∀ b a, s.intro.act = .short b a → c.resolve b = some a) → s.Means phrase → TextReadAs c s.text s.intro.new phrase s.meant

/-- The full statement for repeals: every sentence in the usual form is read as it is written. -/
def C108_statement : Prop :=
  ∀ (c : Cache) (s : RepealSentence) (phrase : SpecialPhrase), s.Usual → s.intro.Usual c.allAbbreviations s.rest →
    (∀ b a, s.intro.act = .short b a → c.resolve b = some a) → s.Means phrase → TextReadAs c s.text s.intro.new phrase s.meant

/-! ### what the targets mean -/

/-- No containing part is in a book, and no subtitle is named as that after a range of articles. -/
def Clear (l : List Target) : Prop := ∀ t ∈ l, (∀ q, t.container = some q → q.book = none) ∧ ∀ b, t.besideOf = some b → b.Plain

/-- No subtitle is named as that after a range of articles. -/
def AfterOne (l : List Target) : Prop := ∀ t ∈ l, ∀ b, t.besideOf = some b → b.Plain

theorem Clear.afterOne {l : List Target} (h : Clear l) : AfterOne l := fun t ht => (h t ht).2

/-- It is clear. -/
def Target.clear (t : Target) : Bool :=
  (t.container.bind Place.book).isNone && t.besideOf.all fun b => b.before || match b.article.span with | .one _ => true | .upTo .. => false

theorem clear_of {l : List Target} (h : l.all Target.clear = true) : Clear l := by
  intro t ht
  have h1 := List.all_eq_true.1 h t ht
  rw [Target.clear, Bool.and_eq_true] at h1
  refine ⟨fun q hq => ?_, fun b hb hf => ?_⟩
  · simpa [hq] using h1.1
  · have h2 := h1.2
    rw [hb, Option.all_some, hf, Bool.false_or] at h2
    cases hs : b.article.span with
    | one i => exact ⟨i, hs⟩
    | upTo d i j => simp [hs] at h2

theorem proper_of_wellFormed {base : Ref} {m : List (List AnyReferencePart)} (h : ∀ r ∈ alternatives base m, WellFormed r) :
    properAlternatives base m = some (alternatives base m) := by
  rw [properAlternatives, if_pos fun r hr => Ref.tryFrom_eq_some.2 ⟨rfl, h r hr⟩]

theorem single_value {a : Span ArticleId} (ha : ArticleUsual a) (k : Nat) (q : Pos) :
    singleLevels ⟨articleAt a k, q⟩ = some [[.article a.range]] := by
  simp [singleLevels, readArticle, convertArticle_at ha]

theorem alternatives_single (base : Ref) (p : AnyReferencePart) : alternatives base [[p]] = [put base p] := rfl

theorem articleIs_value {a : NamedArticle} (ha : a.Usual) {x : SingleArticle} (h : ArticleIs a x) :
    convertSingleArticle x = some a.span.range.start ∧ singleLevels x = some [[.article a.span.range]] := by
  obtain ⟨k, q, rfl⟩ := h
  refine ⟨?_, single_value ha.span k q⟩
  simp only [convertSingleArticle, convertArticle_at ha.span, Option.bind_eq_bind, Option.bind_some]
  rfl

theorem besideIs_value {b : Beside} (hb : b.Usual) {x : ArticleRelative} (h : BesideIs b x) (c : Cache) :
    (b.Plain → convertArticleRelative x = some b.meant) ∧ Mention.levels c (relativeMention x) = some [[.article b.article.span.range]] := by
  obtain ⟨y, hy, rfl⟩ := h
  obtain ⟨h1, h2⟩ := articleIs_value hb.article hy
  refine ⟨fun hp => ?_, ?_⟩
  · cases hbf : b.before with
    | true => simp [convertArticleRelative, h1, Beside.meant, hbf]
    | false =>
      obtain ⟨i, hi⟩ := hp hbf
      simp [convertArticleRelative, h1, Beside.meant, hbf, hi, Span.range]
  · cases hbf : b.before <;> simp [relativeMention, Mention.levels, h2]

theorem alternatives_article {base base' : Ref} (h : base.act = base'.act) {w : Phrase} (hw : w.article ≠ none) :
    alternatives base w.levels = alternatives base' w.levels := by
  cases ha : w.article with
  | none => exact absurd ha hw
  | some a =>
    have hput : ∀ r, put base (.article r) = put base' (.article r) := fun r => by simp [put, h]
    have hmap : ∀ l : List (Span ArticleId), l.map (fun s => put base (.article s.range)) = l.map (fun s => put base' (.article s.range)) :=
      fun l => List.map_congr_left fun s _ => hput _
    simp only [Phrase.levels, ha, listed, Option.map_some, Option.getD_some]
    conv_lhs => rw [alternatives]
    conv_rhs => rw [alternatives]
    cases hl : ((Listing.spans a).map fun s => AnyReferencePart.article s.range).getLast? with
    | none => simp [Listing.spans] at hl
    | some x =>
      obtain ⟨s, hs, rfl⟩ := List.mem_map.1 (List.mem_of_getLast? hl)
      have h1 : ((a.spans.map fun s => AnyReferencePart.article s.range).dropLast).map (put base) =
          ((a.spans.map fun s => AnyReferencePart.article s.range).dropLast).map (put base') := by
        rw [← List.map_dropLast, List.map_map, List.map_map]
        exact hmap _
      simp only [h1, hput]

theorem getLastD_of_ne {α : Type} {l : List α} (h : l ≠ []) (a b : α) : l.getLastD a = l.getLastD b := by
  cases l with
  | nil => exact absurd rfl h
  | cons x l => rw [List.getLastD_cons, List.getLastD_cons]

/-- A provision with its own article does not depend on what was before. -/
theorem chain_nextArticle {base base' : Ref} (h : base.act = base'.act) {l : List Target} (hl : NextArticle l) :
    chain base (l.filterMap Target.levels) = chain base' (l.filterMap Target.levels) := by
  induction l with
  | nil => rfl
  | cons t l ih =>
    have skip : t.levels = none → chain base ((t :: l).filterMap Target.levels) = chain base' ((t :: l).filterMap Target.levels) := fun e => by
      rw [List.filterMap_cons, e]
      exact ih fun t' ht' => hl t' (by rw [List.find?_cons, e]; exact ht')
    have first : ∀ m, t.levels = some m → alternatives base m = alternatives base' m →
        chain base ((t :: l).filterMap Target.levels) = chain base' ((t :: l).filterMap Target.levels) := fun m e h1 => by
      rw [List.filterMap_cons, e]
      simp only [chain, h1]
      rw [getLastD_of_ne (alternatives_ne m base') base base']
    cases t with
    | provisions w p => exact first _ rfl (alternatives_article h (hl (.provisions w p) (by simp [Target.levels])))
    | heading a sign w => exact first _ rfl (by simp [alternatives_single, put, h])
    | beside q b name => exact first _ rfl (by simp [alternatives_single, put, h])
    | place p => exact skip rfl
    | placeIn q p => exact skip rfl
    | subtitles k => exact skip rfl
    | attachments a => exact skip rfl

/-- The places found are those meant. -/
theorem textPlaces_value {act : ActId} {base : Ref} {targets : List Target} {m : List TextAmendmentRef} (h : Places act base targets m)
    (hu : ∀ t ∈ targets, t.Usual) (hb : AfterOne targets) : ∀ {xs : List TextReference}, List.Forall₂ TargetAt targets xs →
    textPlaces act base xs = some (m.map booklessPlace) := by
  induction h with
  | nil => intro xs hx; cases hx; rfl
  | @provisions base w p l m hw hl ih =>
    intro xs hx
    rcases hx with _ | ⟨hx, hxs⟩
    obtain ⟨k, rfl⟩ := hx
    have := ih (fun t ht => hu t (by simp [ht])) (fun t h => hb t (by simp [h])) hxs
    simp only [textPlaces, phraseAt_levels (hu _ (List.mem_cons_self ..)).1, proper_of_wellFormed hw, Option.bind_eq_bind, Option.bind_some, this]
    have ep : amendedText (p.map fun y => if y.opening then .intro else .wrapUp) = (p.map PartWord.meant).getD .all := by
      cases p with
      | none => rfl
      | some y =>
        obtain ⟨o, e⟩ := y
        cases o <;> rfl
    rw [ep, List.map_append, List.map_map]
    rfl
  | @heading base a sign w l m hw hl ih =>
    intro xs hx
    rcases hx with _ | ⟨hx, hxs⟩
    obtain ⟨k, q, rfl⟩ := hx
    have := ih (fun t ht => hu t (by simp [ht])) (fun t h => hb t (by simp [h])) hxs
    simp only [textPlaces, single_value (hu _ (List.mem_cons_self ..)).1, Option.bind_eq_bind, Option.bind_some]
    rw [proper_of_wellFormed (by simpa [alternatives_single] using hw)]
    simp only [alternatives_single, Option.bind_some, List.getLastD_cons, List.getLastD_nil, this, List.map_cons, List.map_nil,
      List.singleton_append]
    rfl
  | @place base p b e o l m hp hl ih =>
    intro xs hx
    rcases hx with _ | ⟨hx, hxs⟩
    cases hx
    have := ih (fun t ht => hu t (by simp [ht])) (fun t h => hb t (by simp [h])) hxs
    simp only [textPlaces, convertTextStructural, convertParent?, convertStructuralChild, place_value hp, Option.bind_eq_bind, Option.bind_some, this]
    rfl
  | @placeIn base q p b d e o l m hq hp hl ih =>
    intro xs hx
    rcases hx with _ | ⟨hx, hxs⟩
    cases hx
    have := ih (fun t ht => hu t (by simp [ht])) (fun t h => hb t (by simp [h])) hxs
    simp only [textPlaces, convertTextStructural, convertParent?, convertStructuralChild, parent_value hq, place_value hp, Option.bind_eq_bind,
      Option.bind_some, this]
    rfl
  | @subtitles base k es l m hk hl ih =>
    intro xs hx
    rcases hx with _ | ⟨hx, hxs⟩
    cases hx
    have := ih (fun t ht => hu t (by simp [ht])) (fun t h => hb t (by simp [h])) hxs
    simp only [textPlaces, subtitles_value (some act) hk, Option.bind_eq_bind, Option.bind_some, this, List.map_map, List.map_append]
    rfl
  | @beside base b name l m hw hn hl ih =>
    intro xs hx
    rcases hx with _ | ⟨hx, hxs⟩
    obtain ⟨y, hy, rfl⟩ := hx
    have := ih (fun t ht => hu t (by simp [ht])) (fun t h => hb t (by simp [h])) hxs
    have hv := (besideIs_value (hu _ (List.mem_cons_self ..)).2.1 hy ⟨[], false⟩).1 (hb _ (List.mem_cons_self ..) _ rfl)
    simp only [textPlaces, convertTextStructural, Option.map_none, convertParent?, convertStructuralChild, hv, Option.bind_eq_bind, Option.bind_some, this]
    rfl
  | @besideIn base q b name k d l m hq hw hn hl ih =>
    intro xs hx
    rcases hx with _ | ⟨hx, hxs⟩
    obtain ⟨y, hy, rfl⟩ := hx
    have := ih (fun t ht => hu t (by simp [ht])) (fun t h => hb t (by simp [h])) hxs
    have hv := (besideIs_value (hu _ (List.mem_cons_self ..)).2.1 hy ⟨[], false⟩).1 (hb _ (List.mem_cons_self ..) _ rfl)
    simp only [textPlaces, convertTextStructural, Option.map_some, convertParent?, convertStructuralChild, parent_value hq, hv, Option.bind_eq_bind,
      Option.bind_some, this]
    rfl
  | @attachments base a l m hl ih =>
    intro xs hx
    rcases hx with _ | ⟨hx, hxs⟩
    cases hx
    have := ih (fun t ht => hu t (by simp [ht])) (fun t h => hb t (by simp [h])) hxs
    simp only [textPlaces, this]

/-- Without books in the containing parts nothing is lost. -/
theorem places_bookless {act : ActId} {base : Ref} {targets : List Target} {m : List TextAmendmentRef} (h : Places act base targets m)
    (hb : Clear targets) : m.map booklessPlace = m := by
  induction h with
  | nil => rfl
  | provisions hw hl ih =>
    rw [List.map_append, ih fun t h => hb t (by simp [h]), List.map_map]
    rfl
  | heading hw hl ih => rw [List.map_cons, ih fun t h => hb t (by simp [h])]; rfl
  | place hp hl ih => rw [List.map_cons, ih fun t h => hb t (by simp [h])]; rfl
  | @placeIn base q p b d e o l m hq hp hl ih =>
    rw [List.map_cons, ih fun t h => hb t (by simp [h]), hq.noBook ((hb _ (List.mem_cons_self ..)).1 q rfl)]
    rfl
  | subtitles hk hl ih =>
    rw [List.map_append, ih fun t h => hb t (by simp [h]), List.map_map]
    rfl
  | beside hw hn hl ih => rw [List.map_cons, ih fun t h => hb t (by simp [h])]; rfl
  | @besideIn base q b name k d l m hq hw hn hl ih =>
    rw [List.map_cons, ih fun t h => hb t (by simp [h]), hq.noBook ((hb _ (List.mem_cons_self ..)).1 q rfl)]
    rfl
  | attachments hl ih => exact ih fun t h => hb t (by simp [h])

/-- The references meant are well formed. -/
theorem places_wellFormed {act : ActId} {base : Ref} {targets : List Target} {m : List TextAmendmentRef} (h : Places act base targets m) :
    ∀ r ∈ chain base (targets.filterMap Target.levels), WellFormed r := by
  induction h with
  | nil => intro r hr; cases hr
  | provisions hw hl ih =>
    intro r hr
    simp only [List.filterMap_cons, Target.levels, chain] at hr
    rcases List.mem_append.1 hr with hr | hr
    exacts [hw r hr, ih r hr]
  | heading hw hl ih =>
    intro r hr
    simp only [List.filterMap_cons, Target.levels, chain, alternatives_single, List.getLastD_cons, List.getLastD_nil] at hr
    rcases List.mem_append.1 hr with hr | hr
    · rw [List.mem_singleton.1 hr]; exact hw
    · exact ih r hr
  | place hp hl ih => exact ih
  | placeIn hq hp hl ih => exact ih
  | subtitles hk hl ih => exact ih
  | @beside base b name l m hw hn hl ih =>
    intro r hr
    simp only [List.filterMap_cons, Target.levels, chain, alternatives_single, List.getLastD_cons, List.getLastD_nil] at hr
    rcases List.mem_append.1 hr with hr | hr
    · rw [List.mem_singleton.1 hr]; exact hw
    · rw [chain_nextArticle (base := put base (.article b.article.span.range)) (base' := base) rfl hn] at hr
      exact ih r hr
  | @besideIn base q b name k d l m hq hw hn hl ih =>
    intro r hr
    simp only [List.filterMap_cons, Target.levels, chain, alternatives_single, List.getLastD_cons, List.getLastD_nil] at hr
    rcases List.mem_append.1 hr with hr | hr
    · rw [List.mem_singleton.1 hr]; exact hw
    · rw [chain_nextArticle (base := put base (.article b.article.span.range)) (base' := base) rfl hn] at hr
      exact ih r hr
  | attachments hl ih => exact ih

/-- The levels of the references. -/
theorem targets_levels (c : Cache) {targets : List Target} {xs : List TextReference} (hu : ∀ t ∈ targets, t.Usual)
    (hx : List.Forall₂ TargetAt targets xs) : (xs.flatMap textMentions).mapM (Mention.levels c) = some (targets.filterMap Target.levels) := by
  induction hx with
  | nil => rfl
  | @cons t x ts xs ht hts ih =>
    have := ih fun t ht => hu t (by simp [ht])
    have h1 := hu t (by simp)
    cases t with
    | provisions w p =>
      obtain ⟨k, rfl⟩ := ht
      simp [textMentions, Mention.levels, phraseAt_levels h1.1, this, Target.levels]
    | heading a sign w =>
      obtain ⟨k, q, rfl⟩ := ht
      simp [textMentions, Mention.levels, single_value h1.1, this, Target.levels]
    | place p =>
      rw [show x = _ from ht, show (Target.place p :: ts).filterMap Target.levels = ts.filterMap Target.levels from rfl]
      simp [textMentions, this]
    | placeIn q p =>
      rw [show x = _ from ht, show (Target.placeIn q p :: ts).filterMap Target.levels = ts.filterMap Target.levels from rfl]
      simp [textMentions, this]
    | subtitles l =>
      rw [show x = _ from ht, show (Target.subtitles l :: ts).filterMap Target.levels = ts.filterMap Target.levels from rfl]
      simp [textMentions, this]
    | beside q b name =>
      obtain ⟨y, hy, rfl⟩ := ht
      simp [textMentions, (besideIs_value h1.2.1 hy c).2, this, Target.levels]
    | attachments a =>
      rw [show x = _ from ht, show (Target.attachments a :: ts).filterMap Target.levels = ts.filterMap Target.levels from rfl]
      simp [textMentions, this]

theorem chain_act (act : ActId) (l : List (List (List AnyReferencePart))) :
    chain Ref.empty ([[.act act]] :: l) = wholeActRef act :: chain (wholeActRef act) l := rfl

theorem whole_wellFormed (act : ActId) : WellFormed (wholeActRef act) := (Ref.tryFrom_eq_some.1 (rfl : Ref.tryFrom (wholeActRef act) = some _)).2

/-- The meaning of an act and targets. -/
theorem mentions_value {c : Cache} {a : ActReference} {act : ActId} (ha : convertActReference c a = some act) {targets : List Target}
    {xs : List TextReference} (hu : ∀ t ∈ targets, t.Usual) (hx : List.Forall₂ TargetAt targets xs)
    (hw : ∀ r ∈ chain (wholeActRef act) (targets.filterMap Target.levels), WellFormed r) :
    meaning c (.act a :: xs.flatMap textMentions) = some (chain Ref.empty ([[.act act]] :: targets.filterMap Target.levels)) := by
  have hl : (Mention.act a :: xs.flatMap textMentions).mapM (Mention.levels c) = some ([[.act act]] :: targets.filterMap Target.levels) := by
    rw [List.mapM_cons, targets_levels c hu hx]
    simp [Mention.levels, actLevels, ha]
  rw [meaning, hl]
  show (if _ then _ else _) = _
  rw [if_pos]
  intro r hr
  rw [chain_act] at hr
  refine Ref.tryFrom_eq_some.2 ⟨rfl, ?_⟩
  rcases List.mem_cons.1 hr with rfl | hr
  exacts [whole_wellFormed act, hw r hr]

/-! ### what comes after the act -/

theorem phrase_digit {w : Phrase} (ha : w.article ≠ none) (r : Str) : Head (isDigit · = true) (w.text ++ r) := by
  cases h : w.article with
  | none => exact absurd h ha
  | some a =>
    have : ∃ y, w.text = (a.words articleSpan str!" §").text ++ y := by
      simp only [Phrase.text, Phrase.words, h, Option.toList_some, List.map_cons, List.map_nil, List.cons_append, List.nil_append]
      generalize List.map Words.text _ = l
      cases l with
      | nil => exact ⟨[], by simp⟩
      | cons b l => exact ⟨_, by rw [List.intercalate_cons_cons, List.append_assoc]⟩
    obtain ⟨y, hy⟩ := this
    rw [hy, List.append_assoc]
    exact levelText_digit a _

theorem digit_continues {s : Str} (h : Head (isDigit · = true) s) : Continues (' ' :: s) := by
  refine ⟨s, rfl, h.mono fun c hc => digit_noWs hc, h.mono fun c hc => ?_⟩
  refine ⟨?_, ?_, ?_, ?_⟩ <;> (rintro rfl; revert hc; decide)

theorem target_continues {t : Target} (ht : t.Usual) (ha : t.OfAct) (R : Str) : Continues (' ' :: t.text ++ R) := by
  cases t with
  | provisions w p =>
    rw [Target.text, List.cons_append, List.append_assoc]
    exact digit_continues (phrase_digit ha _)
  | heading a sign w =>
    have : Head (isDigit · = true) ((Phrase.text { article := some ⟨a, [], sign⟩ }) ++ (' ' :: w.text ++ R)) := phrase_digit (by simp) _
    rw [show ' ' :: Target.text (.heading a sign w) ++ R = ' ' :: ((Phrase.text { article := some ⟨a, [], sign⟩ }) ++ (' ' :: w.text ++ R)) by
      simp [Target.text, Phrase.text, Phrase.words, Listing.words, Words.text]]
    exact digit_continues this
  | place p =>
    obtain ⟨b, e, o, hp⟩ := ht
    exact place_continues hp R
  | placeIn q p =>
    obtain ⟨⟨b, d, hq⟩, -⟩ := ht
    rw [show ' ' :: Target.text (.placeIn q p) ++ R = ' ' :: q.text ++ (' ' :: p.text ++ R) by simp [Target.text]]
    exact place_continues hq _
  | subtitles l =>
    refine digit_continues ?_
    show Head _ (((l.words slashedSpan str!" alcím").text) ++ R)
    rw [words_text, List.append_assoc, List.append_assoc]
    exact slashed_digit _ _
  | beside q b name =>
    obtain ⟨hq, hb, hthe, -⟩ := ht
    cases q with
    | none =>
      have e : ' ' :: Target.text (.beside none b name) ++ R = ' ' :: (b.article.text ++ (' ' :: b.word ++ (' ' :: name.text ++ R))) := by
        simp [Target.text, Beside.text, hthe rfl]
      rw [e]
      exact digit_continues (one_digit _ _)
    | some q =>
      obtain ⟨k, d, hq⟩ := hq q rfl
      rw [show ' ' :: Target.text (.beside (some q) b name) ++ R = ' ' :: q.text ++ (' ' :: b.text ++ (' ' :: name.text ++ R)) by simp [Target.text]]
      exact place_continues hq _
  | attachments a =>
    refine digit_continues ?_
    obtain ⟨c, t, e, hc⟩ := attachment_head a R
    show Head _ (a.text ++ R)
    rw [e]; exact .cons hc

/-! ### changes of words -/

theorem dot_noBlock {text y : Str} (hlast : text = y ++ str!".") :
    (∀ u x j t, (entire blockAmendment .blockAmendment).run ⟨0, text⟩ u ≠ (some (x, j), t)) ∧
    (∀ u x j t, (entire blockAmendmentWithSubtitle .blockAmendmentWithSubtitle).run ⟨0, text⟩ u ≠ (some (x, j), t)) ∧
    (∀ u x j t, (entire blockAmendmentStructural .blockAmendmentStructural).run ⟨0, text⟩ u ≠ (some (x, j), t)) := by
  refine ⟨fun u x j t h => ?_, fun u x j t h => ?_, fun u x j t h => ?_⟩
  · obtain ⟨a, b, t, c, rfl, -⟩ := entire_takes takesS_blockAmendment h
    have := (entire_words (f := .blockAmendment) takesS_blockAmendment (fun _ _ h => h) h).2
    exact not_block (hlast ▸ this)
  · obtain ⟨a, b, t, c, rfl, -⟩ := entire_takes takesS_blockAmendmentWithSubtitle h
    have := (entire_words (f := .blockAmendmentWithSubtitle) takesS_blockAmendmentWithSubtitle (fun _ _ h => h) h).2
    exact not_block (hlast ▸ this)
  · obtain ⟨a, b, t, c, rfl, -⟩ := entire_takes takesS_blockAmendmentStructural h
    have := (entire_words (f := .blockAmendmentStructural) takesS_blockAmendmentStructural (fun _ _ h => h) h).2
    exact not_block (hlast ▸ this)

/-- C107, what is read in every case but that of the subtitle after a range: a sentence which changes words of an act is
read as it is written: every change is made in every one of the places, which are provisions, their opening or closing
words, headings of articles, parts of the structure, and subtitles next to articles; the attachments named give no place.
For a part of the structure in another part the book is not kept. The references are those of the act and of the
provisions. An abbreviation of the act which the sentence introduces is the one new abbreviation. -/
theorem C107_recorded (c : Cache) (s : TextSentence) (phrase : SpecialPhrase) (hs : s.Usual)
    (hi : s.intro.Usual c.allAbbreviations s.rest) (hc : ∀ b a, s.intro.act = .short b a → c.resolve b = some a)
    (hm : s.Means phrase) (hafter : AfterOne s.targets) :
    TextReadAs c s.text s.intro.new (booklessPhrase phrase) s.meant := by
  have hu : ∀ t ∈ s.targets, t.Usual := by
    intro t ht
    rcases List.mem_cons.1 ht with rfl | ht
    · exact hs.first.1
    · obtain ⟨x, hx, rfl⟩ := List.mem_map.1 ht
      exact (hs.others x hx).2
  have hcont : Continues s.rest := by
    simp only [TextSentence.rest, List.append_assoc]
    exact target_continues hs.first.1 hs.first.2 _
  obtain ⟨hA, m, hm'⟩ := reads_intro hi hcont
  have etext : s.intro.article ++ str!" " ++ (s.intro.title ++ (s.intro.act.text ++ introduction s.intro.introduces) ++ s.rest) = s.text := by
    simp [TextSentence.text, ActIntro.text]
  obtain ⟨h1, h2, h3⟩ := dot_noBlock (text := s.text) (y := s.intro.text ++ (str!" " ++ s.first.text ++ listText Target.text s.others ++ str!" " ++ s.article ++ str!" " ++ s.change.text ++
    listText TextChange.text s.changes ++ (if s.comma then str!"," else []) ++ str!" lép" ++ (if s.inForce then str!" hatályba" else [])))
    (by simp only [TextSentence.text, TextSentence.rest, List.append_assoc])
  obtain ⟨xs, hxs, hparse⟩ := parse_textSentence hs (remembers_start ..) hA hm' (by rw [etext]; exact h1) (by rw [etext]; exact h2) (by rw [etext]; exact h3)
  rw [etext] at hparse
  have hc' := intro_resolves hi hc
  clear hc
  unfold TextReadAs
  generalize c.addMultiple s.intro.new = c' at *
  have hact := introAct_act hi hc' (byteLen (s.intro.article ++ str!" ") + byteLen s.intro.title)
  obtain ⟨places, hp, rfl⟩ := hm
  have hout := C48_meaning _ _ _ c' (intro_known hi) hparse (by simp)
  rw [show rootMentions _ = Mention.act _ :: xs.flatMap textMentions from rfl, mentions_value hact hu hxs (places_wellFormed hp)] at hout
  obtain ⟨refs, hrefs, hrefs2⟩ := Option.map_eq_some_iff.1 hout
  refine ⟨_, refs, hparse, intro_new hi rfl, ?_, hrefs, hrefs2⟩
  have hconv := C50_product _ _ _ c' (intro_known hi) hparse
  rw [hact, Option.bind_eq_bind, Option.bind_some, show (⟨some s.intro.act.act, none, none, none, none⟩ : Ref) = wholeActRef s.intro.act.act from rfl,
    textPlaces_value hp hu hafter hxs] at hconv
  show (convertTextAmendment _ _ >>= fun p => some (some (SpecialPhrase.textAmendment p))) = _
  rw [hconv]
  simp [booklessPhrase, List.map_flatMap, List.flatMap_map, List.map_map, Function.comp_def]

/-- C107: a sentence which changes words of an act is read as it is written, as in `C107_recorded`.

Missing: sentences about a part of the structure in another part which is in a book, where the book is lost, and about the
subtitle after a range of articles, where the last article is lost; see `C107_violated` and `C107_range`. -/
theorem C107_textAmendment_partial (c : Cache) (s : TextSentence) (phrase : SpecialPhrase) (hs : s.Usual)
    (hi : s.intro.Usual c.allAbbreviations s.rest) (hc : ∀ b a, s.intro.act = .short b a → c.resolve b = some a)
    (hm : s.Means phrase) (hclear : Clear s.targets) : TextReadAs c s.text s.intro.new phrase s.meant := by
  have h := C107_recorded c s phrase hs hi hc hm hclear.afterOne
  obtain ⟨places, hp, rfl⟩ := hm
  have e : booklessPhrase (.textAmendment (places.flatMap fun place => s.allChanges.map fun x => ⟨place, x.old, x.new⟩)) =
      .textAmendment (places.flatMap fun place => s.allChanges.map fun x => ⟨place, x.old, x.new⟩) := by
    conv_rhs => rw [← places_bookless hp hclear]
    simp [booklessPhrase, List.map_flatMap, List.flatMap_map, Function.comp_def]
  rwa [e] at h

theorem repealed_whole {places : List TextAmendmentRef} {refs : List RepealRef} (h : List.Forall₂ Repealed places refs) :
    (places.map booklessPlace).mapM wholePlace = some (refs.map booklessRepeal) := by
  induction h with
  | nil => rfl
  | cons h1 h2 ih => cases h1 <;> simp_all [wholePlace, booklessPlace, booklessRepeal, bookless]

/-- What is repealed has no book if the place has none. -/
theorem repealed_bookless {places : List TextAmendmentRef} {refs : List RepealRef} (h : List.Forall₂ Repealed places refs)
    (hp : places.map booklessPlace = places) : refs.map booklessRepeal = refs := by
  have h1 := repealed_whole h
  rw [hp] at h1
  have h2 : places.mapM wholePlace = some refs := by
    clear h1 hp
    induction h with
    | nil => rfl
    | cons h1 h2 ih => cases h1 <;> simp [wholePlace, ih]
  rw [h1] at h2
  exact Option.some.inj h2

/-- C108, what is read in every case but that of the subtitle after a range: a sentence which repeals an act, parts of it,
or words of those is read as it is written; the attachments named give no place. For a part of the structure in another
part the book is not kept. The references are those of the act and of the provisions. An abbreviation of the act which the
sentence introduces is the one new abbreviation. -/
theorem C108_recorded (c : Cache) (s : RepealSentence) (phrase : SpecialPhrase) (hs : s.Usual)
    (hi : s.intro.Usual c.allAbbreviations s.rest) (hc : ∀ b a, s.intro.act = .short b a → c.resolve b = some a)
    (hm : s.Means phrase) (hafter : AfterOne (s.targets.map Prod.snd)) :
    TextReadAs c s.text s.intro.new (booklessPhrase phrase) s.meant := by
  have hu : ∀ t ∈ s.targets.map Prod.snd, t.Usual := by
    intro t ht
    obtain ⟨x, hx, rfl⟩ := List.mem_map.1 ht
    exact hs.targets x hx
  have hact0 : AfterAct s.rest ∧ NotTitle s.rest := by
    cases ht : s.targets with
    | nil =>
      have hx : s.texts = [] := Classical.byContradiction fun h => hs.placed h ht
      rw [RepealSentence.rest, ht, hx]
      exact ⟨⟨.cons (by decide), .inl (.cons (by decide))⟩, by unfold NotTitle; decide⟩
    | cons x l =>
      have h1 := hs.first x (by rw [ht]; rfl)
      have h2 := hs.targets x (by rw [ht]; simp)
      have : s.rest = ' ' :: x.2.text ++ (listText Target.text l ++ (listText RepealedText.text s.texts ++ str!".")) := by
        rw [RepealSentence.rest, ht, listText, List.flatMap_cons, h1.1]
        simp [listText]
      rw [this]
      exact (target_continues h2 h1.2 _).act
  obtain ⟨m, hm'⟩ := reads_introAt hi hact0.1 hact0.2 (byteLen (s.verb ++ (str!" " ++ (s.intro.article ++ str!" "))))
  obtain ⟨xs, hxs, hparse⟩ := parse_repeal hs (remembers_start ..) rfl hm'
  have etext : s.verb ++ (str!" " ++ (s.intro.article ++ str!" ") ++ (s.intro.title ++ (s.intro.act.text ++ introduction s.intro.introduces) ++ s.rest)) = s.text := by
    simp [RepealSentence.text, ActIntro.text]
  rw [etext] at hparse
  have hc' := intro_resolves hi hc
  clear hc
  unfold TextReadAs
  generalize c.addMultiple s.intro.new = c' at *
  have hact := introAct_act hi hc' (byteLen (s.verb ++ (str!" " ++ (s.intro.article ++ str!" "))) + byteLen s.intro.title)
  have hmeant : s.meant = chain Ref.empty ([[.act s.intro.act.act]] :: (s.targets.map Prod.snd).filterMap Target.levels) := by
    simp [RepealSentence.meant, List.filterMap_map, Function.comp_def]
  have hw : ∀ r ∈ chain (wholeActRef s.intro.act.act) ((s.targets.map Prod.snd).filterMap Target.levels), WellFormed r := by
    cases hm with
    | act ht hx => rw [ht]; intro r hr; cases hr
    | places ht hx hp hr => exact places_wellFormed hp
    | texts ht hx hp => exact places_wellFormed hp
  have hout := C48_meaning _ _ _ c' (intro_known hi) hparse (by simp)
  rw [show rootMentions _ = Mention.act _ :: xs.flatMap textMentions from rfl, mentions_value hact hu hxs hw, ← hmeant] at hout
  obtain ⟨refs, hrefs, hrefs2⟩ := Option.map_eq_some_iff.1 hout
  refine ⟨_, refs, hparse, intro_new hi rfl, ?_, hrefs, hrefs2⟩
  show (convertRepeal _ _ >>= fun p => some (some p)) = _
  clear hm' hact0
  generalize byteLen (s.verb ++ (str!" " ++ (s.intro.article ++ str!" "))) + byteLen s.intro.title = k at *
  have e0 : (⟨some s.intro.act.act, none, none, none, none⟩ : Ref) = wholeActRef s.intro.act.act := rfl
  cases hm with
  | act ht hx =>
    rw [C67_repeal _ _ _ c' (intro_known hi) hparse (by simp [hx])]
    rw [ht] at hxs
    cases hxs
    simp [hact, textPlaces, e0, booklessPhrase, booklessRepeal]
  | @places places refs ht hx hp hr =>
    rw [C67_repeal _ _ _ c' (intro_known hi) hparse (by simp [hx])]
    have : xs ≠ [] := by
      rintro rfl
      cases hl : s.targets with
      | nil => exact ht hl
      | cons a l => rw [hl] at hxs; cases hxs
    simp [hact, e0, textPlaces_value hp hu hafter hxs, repealed_whole hr, this, booklessPhrase]
  | @texts places ht hx hp =>
    rw [C50_repeal _ _ _ c' (intro_known hi) hparse (by simpa using hx)]
    simp [hact, e0, textPlaces_value hp hu hafter hxs, booklessPhrase, List.map_flatMap, List.flatMap_map, Function.comp_def]

/-- C108: a sentence which repeals an act, parts of it, or words of those is read as it is written, as in `C108_recorded`.

Missing: sentences about a part of the structure in another part which is in a book, where the book is lost, and about the
subtitle after a range of articles, where the last article is lost; see `C108_violated` and `C107_range`. -/
theorem C108_repeal_partial (c : Cache) (s : RepealSentence) (phrase : SpecialPhrase) (hs : s.Usual)
    (hi : s.intro.Usual c.allAbbreviations s.rest) (hc : ∀ b a, s.intro.act = .short b a → c.resolve b = some a)
    (hm : s.Means phrase) (hclear : Clear (s.targets.map Prod.snd)) : TextReadAs c s.text s.intro.new phrase s.meant := by
  have h := C108_recorded c s phrase hs hi hc hm hclear.afterOne
  have e : booklessPhrase phrase = phrase := by
    cases hm with
    | act ht hx => rfl
    | places ht hx hp hr => rw [booklessPhrase, repealed_bookless hr (places_bookless hp hclear)]
    | @texts places ht hx hp =>
      conv_rhs => rw [← places_bookless hp hclear]
      simp [booklessPhrase, List.map_flatMap, List.flatMap_map, Function.comp_def]
  rwa [e] at h

/-! ### examples -/

/-- "3. § (2) és (3) bekezdésében" -/
def inTwoParagraphs : Phrase :=
  { article := some ⟨.one ⟨none, .ofNum 3⟩, [], []⟩, paragraph := some ⟨.one (.ofNum 2), [(str!" és ", .one (.ofNum 3))], str!"ében"⟩ }

theorem inTwoParagraphs_usual : inTwoParagraphs.Usual where
  article l h := by cases h; exact ⟨⟨by simp [ArticleUsual, NumericId.ofNum], by simp⟩, .inl rfl⟩
  paragraph l h := by cases h; exact ⟨⟨trivial, by simp [Span.Fits]; decide⟩, by unfold Ending; decide⟩
  numericPoint l h := by cases h
  alphabeticPoint l h := by cases h
  numericSubpoint l h := by cases h
  alphabeticSubpoint l h := by cases h
  onePoint := .inl rfl
  oneSubpoint := .inl rfl
  inPoint h := by simp [inTwoParagraphs] at h
  named := by decide

/-- "üzlet" is changed to "bolt". -/
def shopChange : TextChange := ⟨str!"üzlet", str!"rész", str!"helyébe", str!"a ", str!"bolt", some []⟩

theorem shopChange_usual : shopChange.Usual where
  old := ⟨by decide, fun c hc => by cases hc; decide, fun c hc => by cases hc; decide⟩
  oldEnding := by unfold Ending; decide
  how := by decide
  article := by decide
  new := ⟨by decide, fun c hc => by cases hc; decide, fun c hc => by cases hc; decide⟩
  newEnding e h := by cases h; unfold Ending; decide

/-- A word is changed in two places. -/
def shopSentence : TextSentence :=
  ⟨procurementAct, .provisions inTwoParagraphs none, [(str!" és ", .heading (.one ⟨none, .ofNum 5⟩) [] ⟨str!"cím", str!"ében"⟩)], str!"az", shopChange, [],
    false, false⟩

example : shopSentence.text =
    str!"A közbeszerzésekről szóló 2015. évi CXLIII. törvény 3. § (2) és (3) bekezdésében és 5. § címében az „üzlet” szövegrész helyébe a „bolt” szöveg lép." := by
  decide +kernel

theorem shopSentence_usual : shopSentence.Usual where
  first := ⟨⟨inTwoParagraphs_usual, fun _ h => by cases h⟩, by simp [shopSentence, Target.OfAct, inTwoParagraphs]⟩
  others x hx := by
    simp only [shopSentence, List.mem_singleton] at hx
    subst hx
    exact ⟨by decide, by simp [ArticleUsual, NumericId.ofNum], .inl rfl, ⟨by decide, by unfold Ending; decide⟩, by decide⟩
  article := by decide
  change := shopChange_usual
  changes x hx := by cases hx
  last x hx := by cases hx; decide
  attachments := by simp [TargetChain, shopSentence]

theorem refs_wellFormed {l : List Ref} (h : ∀ y ∈ l, Ref.tryFrom y = some y) : ∀ r ∈ l, WellFormed r :=
  fun r hr => (Ref.tryFrom_eq_some.1 (h r hr)).2

/-- The procurement act. -/
def procurementId : ActId := ⟨⟨2015, by decide⟩, ⟨143, by decide⟩⟩

theorem shopSentence_means : shopSentence.Means (.textAmendment [
    ⟨.sae ⟨some procurementId, some ⟨⟨none, .ofNum 3⟩, ⟨none, .ofNum 3⟩⟩, some ⟨.ofNum 2, .ofNum 2⟩, none, none⟩ .all, str!"üzlet", str!"bolt"⟩,
    ⟨.sae ⟨some procurementId, some ⟨⟨none, .ofNum 3⟩, ⟨none, .ofNum 3⟩⟩, some ⟨.ofNum 3, .ofNum 3⟩, none, none⟩ .all, str!"üzlet", str!"bolt"⟩,
    ⟨.articleTitle ⟨some procurementId, some ⟨⟨none, .ofNum 5⟩, ⟨none, .ofNum 5⟩⟩, none, none, none⟩, str!"üzlet", str!"bolt"⟩]) := by
  refine ⟨_, .provisions (refs_wellFormed (by decide +kernel)) (.heading ?_ .nil), rfl⟩
  exact (Ref.tryFrom_eq_some.1 rfl).2

example : TextReadAs ⟨[], false⟩ shopSentence.text [] (.textAmendment [
    ⟨.sae ⟨some procurementId, some ⟨⟨none, .ofNum 3⟩, ⟨none, .ofNum 3⟩⟩, some ⟨.ofNum 2, .ofNum 2⟩, none, none⟩ .all, str!"üzlet", str!"bolt"⟩,
    ⟨.sae ⟨some procurementId, some ⟨⟨none, .ofNum 3⟩, ⟨none, .ofNum 3⟩⟩, some ⟨.ofNum 3, .ofNum 3⟩, none, none⟩ .all, str!"üzlet", str!"bolt"⟩,
    ⟨.articleTitle ⟨some procurementId, some ⟨⟨none, .ofNum 5⟩, ⟨none, .ofNum 5⟩⟩, none, none, none⟩, str!"üzlet", str!"bolt"⟩]) shopSentence.meant :=
  C107_textAmendment_partial _ _ _ shopSentence_usual (procurementAct_usual _) (fun _ _ h => by cases h) shopSentence_means
    (clear_of rfl)

/-- A word is changed in a part of the structure which is in another part. -/
def placeSentence (q : Place) : TextSentence := ⟨procurementAct, .placeIn q subtitle12A, [], str!"az", shopChange, [], false, false⟩

theorem placeSentence_usual {q : Place} {b : Option NumericId} {d : StructuralRefParent} (hq : q.Means b d false) : (placeSentence q).Usual where
  first := ⟨⟨⟨b, d, hq⟩, _, _, subtitle12A_means⟩, trivial⟩
  others x hx := by cases hx
  article := (by decide : str!"az" ∈ [str!"a", str!"az"])
  change := shopChange_usual
  changes x hx := by cases hx
  last x hx := by cases hx; exact (by decide : shopChange.newEnding ≠ none)
  attachments := .singleton _

theorem placeSentence_means {q : Place} {b : Option NumericId} {d : StructuralRefParent} (hq : q.Means b d false) :
    (placeSentence q).Means (.textAmendment [⟨.structural ⟨some procurementId, b, some d, .subtitleId ⟨12, some (.latin 0)⟩, false⟩,
      str!"üzlet", str!"bolt"⟩]) :=
  ⟨_, .placeIn hq subtitle12A_means .nil, rfl⟩

/-- "… III. Fejezet 12/A. alcíme az „üzlet” szövegrész helyébe a „bolt” szöveg lép." -/
example : TextReadAs ⟨[], false⟩ (placeSentence thirdChapter).text [] (.textAmendment [⟨.structural ⟨some procurementId, none, some (.chapter ⟨3, none⟩),
    .subtitleId ⟨12, some (.latin 0)⟩, false⟩, str!"üzlet", str!"bolt"⟩]) (placeSentence thirdChapter).meant :=
  C107_textAmendment_partial _ _ _ (placeSentence_usual thirdChapter_means) (procurementAct_usual _) (fun _ _ h => by cases h)
    (placeSentence_means thirdChapter_means) (clear_of rfl)

/-- "12. és 14–16. alcíme" -/
def someSubtitles : Target := .subtitles ⟨.one (.ofNum 12), [(str!" és ", .upTo '–' (.ofNum 14) (.ofNum 16))], str!"e"⟩

theorem someSubtitles_mean : List.Forall₂ SubtitlesMean [.one (.ofNum 12), .upTo '–' (.ofNum 14) (.ofNum 16)]
    [.subtitleId (.ofNum 12), .subtitleRange ⟨.ofNum 14, .ofNum 16⟩] :=
  .cons (.one (by simp [NumericId.ofNum])) (.cons (.upTo (by decide) (by simp [NumericId.ofNum]) (by simp [NumericId.ofNum])) .nil)

theorem someSubtitles_usual : someSubtitles.Usual :=
  ⟨⟨_, someSubtitles_mean⟩, by decide, by decide, by unfold Ending; decide⟩

/-- "1. és 3. melléklete" -/
def someAttachments : Target := .attachments ⟨⟨.one (.ofNum 1), [(str!" és ", .one (.ofNum 3))], str!"e"⟩, false, []⟩

theorem someAttachments_usual : someAttachments.Usual :=
  ⟨⟨by simp [Span.Fits, NumericId.ofNum], by simp [Span.Fits, NumericId.ofNum, separators, joints]⟩, by unfold Ending; decide, by simp, by simp,
    by simp⟩

/-- A word is changed in subtitles, in attachments and in an article. -/
def listSentence : TextSentence :=
  ⟨procurementAct, someSubtitles, [(str!", ", someAttachments), (str!", valamint ", .provisions thirdArticle none)], str!"az", shopChange, [], false, false⟩

example : listSentence.text =
    str!"A közbeszerzésekről szóló 2015. évi CXLIII. törvény 12. és 14–16. alcíme, 1. és 3. melléklete, valamint 3. §-a az „üzlet” szövegrész helyébe a „bolt” szöveg lép." := by
  decide +kernel

theorem listSentence_usual : listSentence.Usual where
  first := ⟨someSubtitles_usual, trivial⟩
  others x hx := by
    simp only [listSentence, List.mem_cons, List.not_mem_nil, or_false] at hx
    rcases hx with rfl | rfl
    · exact ⟨by decide, someAttachments_usual⟩
    · exact ⟨by decide, thirdArticle_usual, fun _ h => by cases h⟩
  article := (by decide : str!"az" ∈ [str!"a", str!"az"])
  change := shopChange_usual
  changes x hx := by cases hx
  last x hx := by cases hx; exact (by decide : shopChange.newEnding ≠ none)
  attachments := by simp [TargetChain, listSentence, someSubtitles, someAttachments, Closing]

example : TextReadAs ⟨[], false⟩ listSentence.text [] (.textAmendment [
    ⟨.structural ⟨some procurementId, none, none, .subtitleId (.ofNum 12), false⟩, str!"üzlet", str!"bolt"⟩,
    ⟨.structural ⟨some procurementId, none, none, .subtitleRange ⟨.ofNum 14, .ofNum 16⟩, false⟩, str!"üzlet", str!"bolt"⟩,
    ⟨.sae ⟨some procurementId, some ⟨⟨none, .ofNum 3⟩, ⟨none, .ofNum 3⟩⟩, none, none, none⟩ .all, str!"üzlet", str!"bolt"⟩])
    [wholeActRef procurementId, ⟨some procurementId, some ⟨⟨none, .ofNum 3⟩, ⟨none, .ofNum 3⟩⟩, none, none, none⟩] :=
  C107_textAmendment_partial _ _ _ listSentence_usual (procurementAct_usual _) (fun _ _ h => by cases h)
    ⟨_, .subtitles someSubtitles_mean (.attachments (.provisions (refs_wellFormed (by decide +kernel)) .nil)), rfl⟩
    (clear_of rfl)

/-- "12. §-t megelőző alcím címében" -/
def beforeTwelve : Target := .beside none ⟨[], ⟨.one ⟨none, .ofNum 12⟩, str!"-t"⟩, true, str!"megelőző"⟩ (.word none false [] (some str!"ében"))

theorem beforeTwelve_usual : beforeTwelve.Usual :=
  ⟨fun _ h => (by cases h), ⟨by decide, ⟨by simp [ArticleUsual, NumericId.ofNum], .inr ⟨_, rfl, by decide, by unfold Ending; decide⟩⟩, by decide⟩, fun _ => rfl,
    fun _ h => (by cases h), (by unfold Ending; decide), fun _ h => (by cases h; unfold Ending; decide)⟩

/-- "III. Fejezet a 20. §-át követő 5. alcímében" -/
def afterTwenty : Target := .beside (some thirdChapter) ⟨str!"a ", ⟨.one ⟨none, .ofNum 20⟩, str!"-át"⟩, false, str!"követő"⟩
  (.word (some (.one (.ofNum 5))) false str!"ében" none)

theorem afterTwenty_usual : afterTwenty.Usual :=
  ⟨fun _ h => (by cases h; exact ⟨_, _, thirdChapter_means⟩),
    ⟨by decide, ⟨by simp [ArticleUsual, NumericId.ofNum], .inr ⟨_, rfl, by decide, by unfold Ending; decide⟩⟩, by decide⟩, fun h => (by cases h),
    fun _ h => (by cases h; exact ⟨_, .one (by simp [NumericId.ofNum])⟩), (by unfold Ending; decide), fun _ h => (by cases h)⟩

/-- A word is changed in subtitles next to articles and in an article. -/
def besideSentence : TextSentence :=
  ⟨procurementAct, beforeTwelve, [(str!", ", afterTwenty), (str!", valamint ", .provisions thirdArticle none)], str!"az", shopChange, [], false, false⟩

example : besideSentence.text =
    str!"A közbeszerzésekről szóló 2015. évi CXLIII. törvény 12. §-t megelőző alcím címében, III. Fejezet a 20. §-át követő 5. alcímében, valamint 3. §-a az „üzlet” szövegrész helyébe a „bolt” szöveg lép." := by
  decide +kernel

theorem besideSentence_usual : besideSentence.Usual where
  first := ⟨beforeTwelve_usual, trivial⟩
  others x hx := by
    simp only [besideSentence, List.mem_cons, List.not_mem_nil, or_false] at hx
    rcases hx with rfl | rfl
    · exact ⟨by decide, afterTwenty_usual⟩
    · exact ⟨by decide, thirdArticle_usual, fun _ h => by cases h⟩
  article := (by decide : str!"az" ∈ [str!"a", str!"az"])
  change := shopChange_usual
  changes x hx := by cases hx
  last x hx := by cases hx; exact (by decide : shopChange.newEnding ≠ none)
  attachments := by simp [TargetChain, besideSentence, beforeTwelve, afterTwenty]

example : TextReadAs ⟨[], false⟩ besideSentence.text [] (.textAmendment [
    ⟨.structural ⟨some procurementId, none, none, .subtitleBeforeArticle ⟨none, .ofNum 12⟩, false⟩, str!"üzlet", str!"bolt"⟩,
    ⟨.structural ⟨some procurementId, none, some (.chapter ⟨3, none⟩), .subtitleAfterArticle ⟨none, .ofNum 20⟩, false⟩, str!"üzlet", str!"bolt"⟩,
    ⟨.sae ⟨some procurementId, some ⟨⟨none, .ofNum 3⟩, ⟨none, .ofNum 3⟩⟩, none, none, none⟩ .all, str!"üzlet", str!"bolt"⟩])
    [wholeActRef procurementId, ⟨some procurementId, some ⟨⟨none, .ofNum 12⟩, ⟨none, .ofNum 12⟩⟩, none, none, none⟩,
      ⟨some procurementId, some ⟨⟨none, .ofNum 20⟩, ⟨none, .ofNum 20⟩⟩, none, none, none⟩,
      ⟨some procurementId, some ⟨⟨none, .ofNum 3⟩, ⟨none, .ofNum 3⟩⟩, none, none, none⟩] :=
  C107_textAmendment_partial _ _ _ besideSentence_usual (procurementAct_usual _) (fun _ _ h => by cases h)
    ⟨_, .beside (Ref.tryFrom_eq_some.1 rfl).2 (fun t h => by cases h; trivial)
      (.besideIn thirdChapter_means (Ref.tryFrom_eq_some.1 rfl).2 (fun t h => by cases h; simp [Target.OfAct, thirdArticle])
        (.provisions (refs_wellFormed (by decide +kernel)) .nil)), rfl⟩
    (clear_of rfl)

/-- "300–302. §-t megelőző alcímében", "300–302. §-t követő alcímében" -/
def besideArticles (before : Bool) : Target := .beside none
  ⟨[], ⟨.upTo '–' ⟨none, .ofNum 300⟩ ⟨none, .ofNum 302⟩, str!"-t"⟩, before, if before then str!"megelőző" else str!"követő"⟩ (.word none false str!"ében" none)

theorem besideArticles_usual (before : Bool) : (besideArticles before).Usual :=
  ⟨fun _ h => (by cases h), ⟨(by decide : [] ∈ [[], str!"a ", str!"az "]), ⟨⟨(by decide), rfl, fun _ h => (by cases h), fun _ h => (by cases h)⟩,
    .inr ⟨_, rfl, by decide, by unfold Ending; decide⟩⟩, (by cases before <;> decide)⟩, fun _ => rfl,
    fun _ h => (by cases h), (by unfold Ending; decide), fun _ h => (by cases h)⟩

/-- A word is changed in the subtitle before or after some articles. -/
def rangeSentence (before : Bool) : TextSentence := ⟨procurementAct, besideArticles before, [], str!"az", shopChange, [], false, false⟩

theorem rangeSentence_usual (before : Bool) : (rangeSentence before).Usual where
  first := ⟨besideArticles_usual before, trivial⟩
  others x hx := by cases hx
  article := (by decide : str!"az" ∈ [str!"a", str!"az"])
  change := shopChange_usual
  changes x hx := by cases hx
  last x hx := by cases hx; exact (by decide : shopChange.newEnding ≠ none)
  attachments := by simp [TargetChain, rangeSentence, besideArticles]

theorem articles_wellFormed : WellFormed (put ⟨some procurementId, none, none, none, none⟩ (.article ⟨⟨none, .ofNum 300⟩, ⟨none, .ofNum 302⟩⟩)) :=
  (Ref.tryFrom_eq_some.1 rfl).2

/-- "… 300–302. §-t megelőző alcímében az „üzlet” szövegrész helyébe a „bolt” szöveg lép." -/
example : TextReadAs ⟨[], false⟩ (rangeSentence true).text [] (.textAmendment [
    ⟨.structural ⟨some procurementId, none, none, .subtitleBeforeArticle ⟨none, .ofNum 300⟩, false⟩, str!"üzlet", str!"bolt"⟩])
    [wholeActRef procurementId, ⟨some procurementId, some ⟨⟨none, .ofNum 300⟩, ⟨none, .ofNum 302⟩⟩, none, none, none⟩] :=
  C107_textAmendment_partial _ _ _ (rangeSentence_usual true) (procurementAct_usual _) (fun _ _ h => by cases h)
    ⟨_, .beside articles_wellFormed (fun t h => by cases h) .nil, rfl⟩ (clear_of rfl)

/-- C107 without books as well: a change of words in "300–302. §-t követő alcím" is made in the subtitle after article 300,
not in that after article 302. -/
theorem C107_range : ¬ ∀ (c : Cache) (s : TextSentence) (phrase : SpecialPhrase), s.Usual → s.intro.Usual c.allAbbreviations s.rest →
    (∀ b a, s.intro.act = .short b a → c.resolve b = some a) → s.Means phrase → (∀ t ∈ s.targets, t.container = none) →
    TextReadAs c s.text s.intro.new phrase s.meant := by
  intro h
  obtain ⟨x, refs, h2, -, h3, -⟩ := h ⟨[], false⟩ (rangeSentence false) _ (rangeSentence_usual false) (procurementAct_usual _)
    (fun _ _ h => by cases h) ⟨_, .beside articles_wellFormed (fun t h => by cases h) .nil, rfl⟩
    (by simp [TextSentence.targets, rangeSentence, besideArticles, Target.container])
  replace h3 : extractSpecialPhrase ⟨[], false⟩ x = _ := h3
  have h4 : ((parse str!"A közbeszerzésekről szóló 2015. évi CXLIII. törvény 300–302. §-t követő alcímében az „üzlet” szövegrész helyébe a „bolt” szöveg lép." []).bind
      fun r => extractSpecialPhrase ⟨[], false⟩ r) = some (some (.textAmendment [⟨.structural ⟨some procurementId, none, none,
        .subtitleAfterArticle ⟨none, .ofNum 300⟩, false⟩, str!"üzlet", str!"bolt"⟩])) := by decide +kernel
  have e : (rangeSentence false).text =
    str!"A közbeszerzésekről szóló 2015. évi CXLIII. törvény 300–302. §-t követő alcímében az „üzlet” szövegrész helyébe a „bolt” szöveg lép." := by decide +kernel
  rw [e] at h2
  rw [show (Cache.mk [] false).allAbbreviations = [] from rfl] at h2
  rw [h2, Option.bind_some, h3] at h4
  cases h4

/-- In a book: what is read is without it. -/
example : TextReadAs ⟨[], false⟩ (placeSentence thirdChapterOfBook).text [] (.textAmendment [⟨.structural ⟨some procurementId, none, some (.chapter ⟨3, none⟩),
    .subtitleId ⟨12, some (.latin 0)⟩, false⟩, str!"üzlet", str!"bolt"⟩]) (placeSentence thirdChapterOfBook).meant := by
  have h := C107_recorded ⟨[], false⟩ _ _ (placeSentence_usual thirdChapterOfBook_means) (procurementAct_usual _) (fun _ _ h => by cases h)
      (placeSentence_means thirdChapterOfBook_means) (fun t ht b hb => by
        simp only [TextSentence.targets, placeSentence, List.map_nil, List.mem_singleton] at ht
        subst ht
        cases hb)
  exact h

/-- C107: a change of words in "Második Könyv III. Fejezet 12/A. alcíme" is made in the subtitle of the third chapter of
the act: the book is lost. -/
theorem C107_violated : ¬ C107_statement := by
  intro h
  obtain ⟨x, refs, h2, -, h3, -⟩ := h ⟨[], false⟩ (placeSentence thirdChapterOfBook) _ (placeSentence_usual thirdChapterOfBook_means)
    (procurementAct_usual _) (fun _ _ h => by cases h) (placeSentence_means thirdChapterOfBook_means)
  replace h3 : extractSpecialPhrase ⟨[], false⟩ x = _ := h3
  have h4 : ((parse (placeSentence thirdChapterOfBook).text []).bind fun r => extractSpecialPhrase ⟨[], false⟩ r) =
      some (some (.textAmendment [⟨.structural ⟨some procurementId, none, some (.chapter ⟨3, none⟩), .subtitleId ⟨12, some (.latin 0)⟩, false⟩,
        str!"üzlet", str!"bolt"⟩])) := by decide +kernel
  rw [show (Cache.mk [] false).allAbbreviations = [] from rfl] at h2
  rw [h2, Option.bind_some, h3] at h4
  cases h4

/-- The procurement act in a repeal. -/
def theProcurementAct : ActIntro := { procurementAct with article := str!"a" }

theorem theProcurementAct_usual (rest : Str) : theProcurementAct.Usual [] rest :=
  ⟨by decide, (procurementAct_usual rest).words, (procurementAct_usual rest).spaced, (procurementAct_usual rest).start, (procurementAct_usual rest).act,
    (procurementAct_usual rest).abbreviations, (procurementAct_usual rest).known, (procurementAct_usual rest).introduces⟩

/-- A part of the structure and an article are repealed. -/
def repealSentence (t : List (Str × Target)) (x : List (Str × RepealedText)) : RepealSentence := ⟨str!"Hatályát veszti", theProcurementAct, t, x⟩

example : (repealSentence [(str!" ", .place thirdChapter), (str!" és ", .provisions thirdArticle none)] []).text =
    str!"Hatályát veszti a közbeszerzésekről szóló 2015. évi CXLIII. törvény III. Fejezet és 3. §-a." := by decide +kernel

theorem thirdArticle_only : ∀ r ∈ alternatives (wholeActRef procurementId) thirdArticle.levels, WellFormed r :=
  refs_wellFormed (by decide +kernel)

example : TextReadAs ⟨[], false⟩ (repealSentence [(str!" ", .place thirdChapter), (str!" és ", .provisions thirdArticle none)] []).text []
    (.repeal [.structural ⟨some procurementId, none, none, .chapter ⟨3, none⟩, false⟩,
      .reference ⟨some procurementId, some ⟨⟨none, .ofNum 3⟩, ⟨none, .ofNum 3⟩⟩, none, none, none⟩])
    [wholeActRef procurementId, ⟨some procurementId, some ⟨⟨none, .ofNum 3⟩, ⟨none, .ofNum 3⟩⟩, none, none, none⟩] := by
  refine C108_repeal_partial _ _ _ ⟨by decide, by decide, ?_, ?_, ?_, ?_, ?_, ?_, ?_, ?_⟩ (theProcurementAct_usual _) (fun _ _ h => by cases h)
    (.places (by simp [repealSentence]) rfl (.place thirdChapter_means (.provisions thirdArticle_only .nil)) (.cons .structural (.cons .provision .nil))) ?_
  · intro x hx; cases hx; exact ⟨rfl, trivial⟩
  · intro x hx
    simp only [repealSentence, List.tail_cons, List.mem_singleton] at hx
    subst hx; decide
  · intro x hx
    simp only [repealSentence, List.mem_cons, List.not_mem_nil, or_false] at hx
    rcases hx with rfl | rfl
    · exact ⟨_, _, _, thirdChapter_means⟩
    · exact ⟨thirdArticle_usual, fun _ h => by cases h⟩
  · intro x hx; cases hx
  · intro x hx; cases hx
  · intro x hx; cases hx
  · intro h; exact absurd rfl h
  · simp [TargetChain, repealSentence]
  · exact clear_of rfl

/-- "Hatályát veszti a … 12. és 14–16. alcíme, valamint az 1. és 3. melléklete." -/
example : TextReadAs ⟨[], false⟩ (repealSentence [(str!" ", someSubtitles), (str!", valamint az ", someAttachments)] []).text []
    (.repeal [.structural ⟨some procurementId, none, none, .subtitleId (.ofNum 12), false⟩,
      .structural ⟨some procurementId, none, none, .subtitleRange ⟨.ofNum 14, .ofNum 16⟩, false⟩])
    [wholeActRef procurementId] := by
  refine C108_repeal_partial _ _ _ ⟨by decide, by decide, ?_, ?_, ?_, ?_, ?_, ?_, ?_, ?_⟩ (theProcurementAct_usual _) (fun _ _ h => by cases h)
    (.places (by simp [repealSentence]) rfl (.subtitles someSubtitles_mean (.attachments .nil)) (.cons .structural (.cons .structural .nil))) ?_
  · intro x hx; cases hx; exact ⟨rfl, trivial⟩
  · intro x hx
    simp only [repealSentence, List.tail_cons, List.mem_singleton] at hx
    subst hx; decide
  · intro x hx
    simp only [repealSentence, List.mem_cons, List.not_mem_nil, or_false] at hx
    rcases hx with rfl | rfl
    · exact someSubtitles_usual
    · exact someAttachments_usual
  · intro x hx; cases hx
  · intro x hx; cases hx
  · intro x hx; cases hx
  · intro h; exact absurd rfl h
  · simp [TargetChain, repealSentence, someSubtitles]
  · exact clear_of rfl

/-- Words are repealed in subtitles and in attachments. -/
def wordsRepeal : RepealSentence :=
  repealSentence [(str!" ", someSubtitles), (str!", valamint az ", someAttachments)]
    [(str!" az ", ⟨str!"üzlet", none⟩), (str!" és a ", ⟨str!"bolt", some str!"rész"⟩)]

example : wordsRepeal.text = str!"Hatályát veszti a közbeszerzésekről szóló 2015. évi CXLIII. törvény 12. és 14–16. alcíme, valamint az 1. és 3. melléklete az „üzlet” és a „bolt” szövegrész." := by
  decide +kernel

example : TextReadAs ⟨[], false⟩ wordsRepeal.text []
    (.textAmendment [⟨.structural ⟨some procurementId, none, none, .subtitleId (.ofNum 12), false⟩, str!"üzlet", []⟩,
      ⟨.structural ⟨some procurementId, none, none, .subtitleId (.ofNum 12), false⟩, str!"bolt", []⟩,
      ⟨.structural ⟨some procurementId, none, none, .subtitleRange ⟨.ofNum 14, .ofNum 16⟩, false⟩, str!"üzlet", []⟩,
      ⟨.structural ⟨some procurementId, none, none, .subtitleRange ⟨.ofNum 14, .ofNum 16⟩, false⟩, str!"bolt", []⟩])
    [wholeActRef procurementId] := by
  refine C108_repeal_partial _ _ _ ⟨(by decide : str!"Hatályát veszti" ∈ repealVerbs), (by decide : str!"a" ∈ [str!"a", str!"az"]), ?_, ?_, ?_, ?_, ?_, ?_, ?_, ?_⟩
    (theProcurementAct_usual _) (fun _ _ h => by cases h)
    (.texts (s := wordsRepeal) (by simp [wordsRepeal, repealSentence]) (by simp [wordsRepeal, repealSentence]) (.subtitles someSubtitles_mean (.attachments .nil))) (clear_of rfl)
  · intro x hx; cases hx; exact ⟨rfl, trivial⟩
  · intro x hx
    simp only [wordsRepeal, repealSentence, List.tail_cons, List.mem_singleton] at hx
    subst hx; decide
  · intro x hx
    simp only [wordsRepeal, repealSentence, List.mem_cons, List.not_mem_nil, or_false] at hx
    rcases hx with rfl | rfl
    · exact someSubtitles_usual
    · exact someAttachments_usual
  · intro x hx; cases hx; decide
  · intro x hx
    simp only [wordsRepeal, repealSentence, List.tail_cons, List.mem_singleton] at hx
    subst hx; decide
  · intro x hx
    simp only [wordsRepeal, repealSentence, List.mem_cons, List.not_mem_nil, or_false] at hx
    rcases hx with rfl | rfl
    · exact ⟨⟨by decide, fun c hc => by cases hc; decide, fun c hc => by cases hc; decide⟩, fun e h => by cases h⟩
    · exact ⟨⟨by decide, fun c hc => by cases hc; decide, fun c hc => by cases hc; decide⟩, fun e h => by cases h; unfold Ending; decide⟩
  · intro _; simp [wordsRepeal, repealSentence]
  · simp [TargetChain, wordsRepeal, repealSentence, someSubtitles]

/-- "Hatályát veszti a … 12. §-t megelőző alcím címében." -/
example : TextReadAs ⟨[], false⟩ (repealSentence [(str!" ", beforeTwelve)] []).text []
    (.repeal [.structural ⟨some procurementId, none, none, .subtitleBeforeArticle ⟨none, .ofNum 12⟩, false⟩])
    [wholeActRef procurementId, ⟨some procurementId, some ⟨⟨none, .ofNum 12⟩, ⟨none, .ofNum 12⟩⟩, none, none, none⟩] := by
  refine C108_repeal_partial _ _ _ ⟨by decide, by decide, ?_, ?_, ?_, ?_, ?_, ?_, ?_, ?_⟩ (theProcurementAct_usual _) (fun _ _ h => by cases h)
    (.places (by simp [repealSentence]) rfl (.beside (Ref.tryFrom_eq_some.1 rfl).2 (fun t h => by cases h) .nil) (.cons .structural .nil)) (clear_of rfl)
  · intro x hx; cases hx; exact ⟨rfl, trivial⟩
  · intro x hx; cases hx
  · intro x hx
    simp only [repealSentence, List.mem_cons, List.not_mem_nil, or_false] at hx
    subst hx; exact beforeTwelve_usual
  · intro x hx; cases hx
  · intro x hx; cases hx
  · intro x hx; cases hx
  · intro h; exact absurd rfl h
  · exact .singleton _

/-- Words are repealed in a part of the structure. -/
def placeRepeal (q : Place) : RepealSentence := repealSentence [(str!" ", .placeIn q subtitle12A)] [(str!" az ", ⟨str!"üzlet", some str!"rész"⟩)]

theorem placeRepeal_usual {q : Place} {b : Option NumericId} {d : StructuralRefParent} (hq : q.Means b d false) : (placeRepeal q).Usual where
  verb := (by decide : str!"Hatályát veszti" ∈ repealVerbs)
  article := (by decide : str!"a" ∈ [str!"a", str!"az"])
  first x hx := by cases hx; exact ⟨rfl, trivial⟩
  others x hx := by cases hx
  targets x hx := by
    simp only [placeRepeal, repealSentence, List.mem_singleton] at hx
    subst hx; exact ⟨⟨b, d, hq⟩, _, _, subtitle12A_means⟩
  firstText x hx := by cases hx; decide
  otherTexts x hx := by cases hx
  texts x hx := by
    simp only [placeRepeal, repealSentence, List.mem_singleton] at hx
    subst hx
    exact ⟨⟨by decide, fun c hc => by cases hc; decide, fun c hc => by cases hc; decide⟩, fun e h => by cases h; unfold Ending; decide⟩
  placed _ := by simp [placeRepeal, repealSentence]
  attachments := .singleton _

theorem placeRepeal_means {q : Place} {b : Option NumericId} {d : StructuralRefParent} (hq : q.Means b d false) :
    (placeRepeal q).Means (.textAmendment [⟨.structural ⟨some procurementId, b, some d, .subtitleId ⟨12, some (.latin 0)⟩, false⟩, str!"üzlet", []⟩]) :=
  .texts (s := placeRepeal q) (by simp [placeRepeal, repealSentence]) (by simp [placeRepeal, repealSentence]) (.placeIn hq subtitle12A_means .nil)

/-- "Hatályát veszti a … III. Fejezet 12/A. alcíme az „üzlet” szövegrész." -/
example : TextReadAs ⟨[], false⟩ (placeRepeal thirdChapter).text [] (.textAmendment [⟨.structural ⟨some procurementId, none, some (.chapter ⟨3, none⟩),
    .subtitleId ⟨12, some (.latin 0)⟩, false⟩, str!"üzlet", []⟩]) (placeRepeal thirdChapter).meant :=
  C108_repeal_partial _ _ _ (placeRepeal_usual thirdChapter_means) (theProcurementAct_usual _) (fun _ _ h => by cases h)
    (placeRepeal_means thirdChapter_means) (clear_of rfl)

/-- In a book: what is read is without it. -/
example : TextReadAs ⟨[], false⟩ (placeRepeal thirdChapterOfBook).text [] (.textAmendment [⟨.structural ⟨some procurementId, none, some (.chapter ⟨3, none⟩),
    .subtitleId ⟨12, some (.latin 0)⟩, false⟩, str!"üzlet", []⟩]) (placeRepeal thirdChapterOfBook).meant := by
  have h := C108_recorded ⟨[], false⟩ _ _ (placeRepeal_usual thirdChapterOfBook_means) (theProcurementAct_usual _) (fun _ _ h => by cases h)
      (placeRepeal_means thirdChapterOfBook_means) (fun t ht b hb => by
        simp only [placeRepeal, repealSentence, List.map_cons, List.map_nil, List.mem_singleton] at ht
        subst ht
        cases hb)
  exact h

/-- C108: a repeal in "Második Könyv III. Fejezet 12/A. alcíme" is made in the subtitle of the third chapter of the act:
the book is lost. -/
theorem C108_violated : ¬ C108_statement := by
  intro h
  obtain ⟨x, refs, h2, -, h3, -⟩ := h ⟨[], false⟩ (placeRepeal thirdChapterOfBook) _ (placeRepeal_usual thirdChapterOfBook_means)
    (theProcurementAct_usual _) (fun _ _ h => by cases h) (placeRepeal_means thirdChapterOfBook_means)
  replace h3 : extractSpecialPhrase ⟨[], false⟩ x = _ := h3
  have h4 : ((parse (placeRepeal thirdChapterOfBook).text []).bind fun r => extractSpecialPhrase ⟨[], false⟩ r) =
      some (some (.textAmendment [⟨.structural ⟨some procurementId, none, some (.chapter ⟨3, none⟩), .subtitleId ⟨12, some (.latin 0)⟩, false⟩,
        str!"üzlet", []⟩])) := by decide +kernel
  rw [show (Cache.mk [] false).allAbbreviations = [] from rfl] at h2
  rw [h2, Option.bind_some, h3] at h4
  cases h4

/-- Words repealed in the act as a whole are out of the statement of C108: the sentence is recognised, but nothing is
changed by it. -/
example : ((parse str!"Hatályát veszti a közbeszerzésekről szóló 2015. évi CXLIII. törvény az „üzlet” szövegrésze." []).bind
    fun r => extractSpecialPhrase ⟨[], false⟩ r) = some (some (.textAmendment [])) := by decide +kernel

end HunLaw.Props
