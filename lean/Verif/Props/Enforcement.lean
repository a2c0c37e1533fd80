import Verif.Props.StructuralSentence
import Verif.Lemmas.ForceParts

/-! Property C104: sentences about coming into force are read as they are written. -/

set_option autoImplicit false

namespace HunLaw.Props

open HunLaw Spec Semantic Grammar P

/-! ### the values -/

theorem month_value : ∀ m ∈ monthWords, monthFromHungarian m = some (monthWords.idxOf m + 1) := by decide +kernel

theorem month_number : ∀ m ∈ monthWords, 1 ≤ monthWords.idxOf m + 1 ∧ monthWords.idxOf m + 1 ≤ 12 := by decide +kernel

theorem monthLength_daysIn {y m : Nat} (h : 1 ≤ m ∧ m ≤ 12) : Date.daysIn y m = monthLength y m := by
  unfold Date.daysIn monthLength Date.isLeap
  by_cases h2 : m = 2
  · rw [if_pos h2, if_pos h2]
    by_cases hl : y % 4 = 0 ∧ (y % 100 ≠ 0 ∨ y % 400 = 0)
    · rw [if_pos hl, if_pos]
      simp only [Bool.or_eq_true, Bool.and_eq_true, beq_iff_eq, bne_iff_ne]; omega
    · rw [if_neg hl, if_neg]
      simp only [Bool.or_eq_true, Bool.and_eq_true, beq_iff_eq, bne_iff_ne]; omega
  · rw [if_neg h2, if_neg h2]
    simp only [List.mem_cons, List.not_mem_nil, or_false, h, and_self, if_true]

theorem convert_day {d : DayText} (hd : d.Usual) : convertDate (dayAt d) = some d.meant := by
  have h1 : parseI32 (dec d.year) = some ⟨d.year, by have := hd.year; omega⟩ := by
    have := parseI32_decInt ⟨(d.year : Int), by have := hd.year; omega⟩
    rwa [decInt_nonneg (by simp)] at this
  have h3 : d.day ≤ 31 := by
    refine hd.day.2.trans ?_
    unfold monthLength
    split <;> (try split) <;> omega
  unfold convertDate dayAt
  simp only [h1, month_value d.month hd.month, parseUnsigned_dec (show d.day ≤ 4294967295 by omega), Option.bind_eq_bind, Option.bind_some]
  rw [calendarDate, if_pos (by have := hd.year; omega), Date.ofYmd, if_pos]
  · rfl
  · rw [monthLength_daysIn (month_number d.month hd.month)]; exact hd.day

theorem ordinal_value : ∀ e ∈ ordinalWords, fromHungarian e.1 = some e.2 := by decide +kernel

theorem hunFin_value {n : Nat} {w : Str} {k : Fin n} (h : (w, k.val) ∈ ordinalWords) : hunFin n w = some k := by
  unfold hunFin
  rw [ordinal_value _ h]
  simp

theorem convert_ordinal {o : OrdinalText} {k : U16} (h : o.Means k.val) : convertOrdinal (ordinalAt o) = some k := by
  cases o with
  | word w => exact hunFin_value h
  | digits m =>
    have : k = m := Fin.ext h
    subst this
    exact parseFin_dec _

theorem convert_time {t : WhenText} {e : EnforcementDateType} (h : t.Means e) : convertWhen (timeAt t) = some e := by
  cases h with
  | day hd => simp [timeAt, convertWhen, convert_day hd]
  | nextDay h => rfl
  | days h hn => simp [timeAt, convertWhen, convert_ordinal hn]
  | dayInNext h hn => simp [timeAt, convertWhen, convertMonth, convert_ordinal hn]
  | dayInMonth h hm hn => simp [timeAt, convertWhen, convertMonth, convert_ordinal hn, hunFin_value hm]

theorem convert_repeal {x : EnforcementSentence} (hx : x.Usual) :
    convertDate? (x.repeal.map fun r => dayAt r.2) = some (x.repeal.map fun r => r.2.meant) := by
  cases hr : x.repeal with
  | none => rfl
  | some r => simp [convertDate?, convert_day (hx.repeal r hr).2]

/-- The references to provisions of the parts, with the text before each. -/
def forceRefs : Str → List (Str × ForcePart) → List (Str × Phrase)
  | _, [] => []
  | acc, (sep, .provisions w) :: l => (acc ++ sep, w) :: forceRefs [] l
  | acc, (sep, x) :: l => forceRefs (acc ++ sep ++ x.text) l

theorem feed_parts (l : List (Str × ForcePart)) : ∀ (acc : Str) (n : Nat) (b : Builder),
    Builder.feedAll Builder.feedEnforcement (partsAt (n + byteLen acc) l) b =
      Builder.feedAll Builder.feedReference (refsAt n (forceRefs acc l)) b := by
  induction l with
  | nil => intro acc n b; rfl
  | cons x l ih =>
    intro acc n b
    obtain ⟨sep, x⟩ := x
    cases x with
    | provisions w =>
      have h1 : ∀ b, Builder.feedAll Builder.feedEnforcement (partsAt (n + byteLen acc + byteLen sep + byteLen w.text) l) b =
          Builder.feedAll Builder.feedReference (refsAt (n + (byteLen acc + byteLen sep) + byteLen w.text) (forceRefs [] l)) b := fun b => by
        rw [← ih []]; simp [byteLen, Nat.add_assoc]
      simp only [Nat.add_assoc] at h1
      simp only [partsAt, forceAt, forceRefs, refsAt, Builder.feedAll, Builder.feedEnforcement, ForcePart.text, byteLen_append', Nat.add_assoc, h1]
    | place p =>
      rw [forceRefs, ← ih]
      simp only [partsAt, forceAt, Builder.feedAll, Builder.feedEnforcement, byteLen_append', Nat.add_assoc, Option.bind_eq_bind, Option.bind_some]
      simp
    | subtitles k =>
      rw [forceRefs, ← ih]
      simp only [partsAt, forceAt, Builder.feedAll, Builder.feedEnforcement, byteLen_append', Nat.add_assoc, Option.bind_eq_bind, Option.bind_some]
      simp
    | attachments a =>
      rw [forceRefs, ← ih]
      simp only [partsAt, forceAt, Builder.feedAll, Builder.feedEnforcement, byteLen_append', Nat.add_assoc, Option.bind_eq_bind, Option.bind_some]
      simp

theorem forceRefs_levels (l : List (Str × ForcePart)) : ∀ acc, (forceRefs acc l).map (fun x => x.2.levels) = l.flatMap fun r => r.2.levels := by
  induction l with
  | nil => intro acc; rfl
  | cons x l ih =>
    intro acc
    obtain ⟨sep, x⟩ := x
    cases x <;> simp [forceRefs, ih, ForcePart.levels]

theorem forceRefs_usual {l : List (Str × ForcePart)} {ms : List (List StructuralRef)} (h : List.Forall₂ (fun r m => r.2.Means m) l ms) :
    ∀ acc, ∀ x ∈ forceRefs acc l, x.2.Usual := by
  induction h with
  | nil => intro acc x hx; simp [forceRefs] at hx
  | @cons x m l ms hx _ ih =>
    intro acc y hy
    obtain ⟨sep, x⟩ := x
    cases hx with
    | provisions hw =>
      rcases List.mem_cons.1 hy with rfl | hy
      · exact hw
      · exact ih _ y hy
    | place _ => exact ih _ y hy
    | subtitles _ _ _ _ => exact ih _ y hy
    | attachments _ => exact ih _ y hy

theorem forceRefs_ranges (l : List (Str × ForcePart)) : ∀ (acc : Str) (n : Nat),
    markedRanges n ((forceRefs acc l).flatMap fun x => (x.1, false) :: wordPieces [] x.2.words) =
      markedRanges (n + byteLen acc) (l.flatMap fun r => (r.1, false) :: r.2.pieces) := by
  induction l with
  | nil => intro acc n; rfl
  | cons x l ih =>
    intro acc n
    obtain ⟨sep, x⟩ := x
    cases x with
    | provisions w =>
      simp only [forceRefs, List.flatMap_cons, List.cons_append, markedRanges, markedRanges_append, byteLen_append',
        Nat.add_assoc]
      rw [ih [] (n + (byteLen acc + (byteLen sep + piecesLen (wordPieces [] w.words))))]
      rfl
    | place p => simp [forceRefs, ih, markedRanges, ForcePart.pieces, byteLen_append', Nat.add_assoc]
    | subtitles k => simp [forceRefs, ih, markedRanges, ForcePart.pieces, byteLen_append', Nat.add_assoc]
    | attachments a => simp [forceRefs, ih, markedRanges, ForcePart.pieces, byteLen_append', Nat.add_assoc]

theorem subtitles_value (act : Option ActId) {l : List (Span NumericId)} {es : List StructuralRefParent} (h : List.Forall₂ SubtitlesMean l es) :
    (l.map (idPart NumericId.displaySlash)).mapM (subtitleRef act) = some (es.map fun e => ⟨act, none, none, e.toElement, false⟩) := by
  induction h with
  | nil => rfl
  | @cons x e l es hx _ ih =>
    have : subtitleRef act (idPart NumericId.displaySlash x) = some ⟨act, none, none, e.toElement, false⟩ := by
      have h1 : convertSubtitlePart (idPart NumericId.displaySlash x) = some e := by
        have h2 : (PlaceText.subtitles x ⟨str!"alcím", []⟩).Means e := by
          have hw : Inflected.Of [str!"alcím"] ⟨str!"alcím", []⟩ := ⟨by simp, by simp [Ending]⟩
          cases hx with
          | one hi => exact .subtitle hi hw
          | upTo hd hi hj => exact .subtitleRange hd hi hj hw
        exact placeId_value h2
      simp [subtitleRef, h1]
    simp only [List.map_cons, List.mapM_cons, this, ih]
    rfl

theorem structural_parts {l : List (Str × ForcePart)} {ms : List (List StructuralRef)} (h : List.Forall₂ (fun r m => r.2.Means m) l ms) :
    ∀ n, (partsAt n l).mapM enforcementStructural = some ms := by
  induction h with
  | nil => intro n; rfl
  | @cons x m l ms hx _ ih =>
    intro n
    obtain ⟨sep, x⟩ := x
    have : ∀ n, enforcementStructural (forceAt x n) = some m := by
      intro n
      cases hx with
      | provisions _ => rfl
      | place hp => simp [forceAt, enforcementStructural, place_value hp]
      | subtitles h _ _ _ => simp only [forceAt, enforcementStructural, subtitles_value none h]
      | attachments _ => rfl
    simp only [partsAt, List.mapM_cons, this, ih]
    rfl

/-! ### the root -/

theorem alt_next {α : Type} {p q : PS α} {i : Inp} {r : α × Inp} (hno : ∀ s x j t, p.run i s ≠ (some (x, j), t))
    (hq : ∀ s : St, ∃ t, q.run i s = (some r, t)) : ∀ s : St, ∃ t, (p <|> q).run i s = (some r, t) := by
  intro s
  rw [ps_alt_run]
  rcases hp : p.run i s with ⟨_ | ⟨x, j⟩, t⟩
  · exact hq t
  · exact absurd hp (hno s x j t)

/-- Expressions which end with a colon are not at the end of a sentence. -/
theorem not_colon {l : List (List Str)} {s : Str} (h : EndsWith (colon l) (s ++ str!".")) : False := by
  obtain ⟨e, he, b, t, r, h1, h2, h3⟩ := h
  obtain ⟨x, -, rfl⟩ := List.mem_map.1 he
  obtain ⟨t', rfl⟩ := spaced_last (w := []) (c := ':') h1
  rcases List.eq_nil_or_concat r with rfl | ⟨z, d, rfl⟩
  · rw [List.append_nil, ← List.append_assoc] at h3
    have := List.append_inj_right' h3 rfl
    simp at this
  · rw [List.concat_eq_append, ← List.append_assoc] at h3
    have := List.append_inj_right' h3 rfl
    simp at this
    have := h2 d (by simp)
    subst_vars
    revert this; decide

theorem not_block {l : List (List Str)} {ins : Bool} {s : Str} (h : BlockEnd l ins (s ++ str!".")) : False := by
  unfold BlockEnd at h
  split at h
  · exact not_colon h
  · exact not_colon h.2

theorem not_quoted {s : Str} (hq : QuoteFree s) (h : Quoted s) : False := by
  obtain ⟨⟨e, he, b, t, r, h1, h2⟩, -⟩ := h
  simp at he
  subst he
  obtain ⟨a, r', -, rfl, -⟩ := h1
  exact hq (by rw [h2]; simp)

theorem not_replaced {s : Str} (h1 : ¬ str!"helyébe" <:+: s) (h2 : ¬ str!"helyett" <:+: s) (h : Replaced s) : False := by
  obtain ⟨-, e, he, b, t, r, h3, h4⟩ := h
  simp only [List.mem_cons, List.not_mem_nil, or_false] at he
  rcases he with rfl | rfl <;> obtain ⟨a, r', -, rfl, -⟩ := h3
  · exact h1 ⟨b ++ a, r' ++ r, by rw [h4]; simp⟩
  · exact h2 ⟨b ++ a, r' ++ r, by rw [h4]; simp⟩

theorem parse_enforcement {text y : Str} {known : List Str} {x : GEnforcementDate} (hr : Reads enforcementDate 0 text [] x)
    (hws : NoWs text) (hlast : text = y ++ str!".")
    (hq : QuoteFree text ∨ ¬ str!"helyébe" <:+: text ∧ ¬ str!"helyett" <:+: text) : parse text known = some (.enforcementDate x) := by
  have hrun : ∀ s : St, ∃ t, (entire (PS.lift enforcementDate) .enforcementDate).run ⟨0, text⟩ s =
      (some (.enforcementDate x, ⟨0 + byteLen text, []⟩), t) := by
    intro s
    refine ⟨s, ?_⟩
    have h1 : ReadsS s.known (entire (PS.lift enforcementDate) .enforcementDate) 0 (text ++ []) [] (.enforcementDate x) := by
      refine ReadsS.bind (ReadsS.call ?_ (ReadsS.lift hr)) (ReadsS.map (g := fun _ => Root.enforcementDate x) (a := ())
        (ReadsS.lift (Reads.call (by intro c hc; cases hc) (by simp [Reads, eoi, byteLen]))))
      simpa using hws
    have := h1 s rfl
    simpa using this
  have hroot : ∀ s : St, ∃ t, root.run ⟨0, text⟩ s = (some (.enforcementDate x, ⟨0 + byteLen text, []⟩), t) := by
    refine alt_next (fun s x j t h => ?_) <| alt_next (fun s x j t h => ?_) <| alt_next (fun s x j t h => ?_) <|
      alt_next (fun s x j t h => ?_) fun s => ?_
    · obtain ⟨a, b, t, c, rfl, -⟩ := entire_takes takesS_blockAmendment h
      have := (entire_words (f := .blockAmendment) takesS_blockAmendment (fun _ _ h => h) h).2
      exact not_block (hlast ▸ this)
    · obtain ⟨a, b, t, c, rfl, -⟩ := entire_takes takesS_blockAmendmentWithSubtitle h
      have := (entire_words (f := .blockAmendmentWithSubtitle) takesS_blockAmendmentWithSubtitle (fun _ _ h => h) h).2
      exact not_block (hlast ▸ this)
    · obtain ⟨a, b, t, c, rfl, -⟩ := entire_takes takesS_blockAmendmentStructural h
      have := (entire_words (f := .blockAmendmentStructural) takesS_blockAmendmentStructural (fun _ _ h => h) h).2
      exact not_block (hlast ▸ this)
    · obtain ⟨a, b, t, c, rfl, -⟩ := entire_takes takesS_textAmendment h
      have := (entire_words (f := .textAmendment) takesS_textAmendment (fun _ _ h => h) h).2
      exact hq.elim (fun hq => not_quoted hq this.1.1) fun hq => not_replaced hq.1 hq.2 this.1
    · rw [ps_alt_run]
      obtain ⟨t, ht⟩ := hrun s
      exact ⟨t, by rw [ht]⟩
  obtain ⟨t, ht⟩ := hroot ⟨known, []⟩
  unfold parse
  rw [ht]

/-! ### the text of the sentence -/

theorem inflected_quoteFree {w : Inflected} {l : List Str} (h : w.Of l) (hl : ∀ s ∈ l, QuoteFree s) : QuoteFree w.text :=
  (hl _ h.1).append (quoteFree_ending h.2)

theorem capitals_quoteFree : ∀ e ∈ capitalNumbers, QuoteFree e.1 := by decide +kernel

theorem roman_quoteFree {i : NumericId} (h : RomanUsual i) : QuoteFree (romanText i) := by
  obtain ⟨r, -, hr, e⟩ := romanText_eq h
  rw [e]
  refine QuoteFree.append (fun hm => absurd (hr _ hm) (by decide)) ?_
  cases i.suffix with
  | none => simp [slashed, QuoteFree]
  | some c => exact QuoteFree.cons (by decide) (quoteFree_displayUpper c)

theorem slashedSpan_quoteFree (x : Span NumericId) (h : match x with | .one _ => True | .upTo d _ _ => d ∈ dashes) : QuoteFree (slashedSpan x) := by
  cases x with
  | one i => exact (quoteFree_slash i).append (by decide)
  | upTo d i j =>
    refine QuoteFree.append (.append (quoteFree_slash i) (.cons ?_ (quoteFree_slash j))) (by decide)
    exact quoteFree_dash h

theorem place_quoteFree {p : Place} {b : Option NumericId} {e : StructuralRefParent} {o : Bool} (h : p.Means b e o)
    (hn : ¬ (ForcePart.place p).Titled) : QuoteFree p.text := by
  refine QuoteFree.append (.append ?_ ?_) ?_
  · cases hb : p.book with
    | none => simp [QuoteFree]
    | some k =>
      obtain ⟨i, -, h1⟩ := h.book k hb
      exact (((capitals_quoteFree _ h1.2.1).append (by decide)).append (inflected_quoteFree h1.2.2 (by decide))).append (by decide)
  · have hp := h.part
    have hn' : ∀ t called w, p.part ≠ .named t called w := fun t called w e => hn ⟨p.book, t, called, w, p.title, by rw [← e]⟩
    revert hp hn'
    generalize p.part = q
    intro hp hn'
    cases hp with
    | chapter hi hw => exact ((roman_quoteFree hi).append (by decide)).append (inflected_quoteFree hw (by decide))
    | part hs hw => exact ((capitals_quoteFree _ hs).append (by decide)).append (inflected_quoteFree hw (by decide))
    | title hi hw => exact ((roman_quoteFree hi).append (by decide)).append (inflected_quoteFree hw (by decide))
    | subtitle hi hw => exact ((slashedSpan_quoteFree (.one _) trivial).append (by decide)).append (inflected_quoteFree hw (by decide))
    | subtitleRange hd hi hj hw => exact ((slashedSpan_quoteFree (.upTo _ _ _) hd).append (by decide)).append (inflected_quoteFree hw (by decide))
    | named ht hw => exact absurd rfl (hn' _ _ _)
  · cases ht : p.title with
    | none => simp [QuoteFree]
    | some t =>
      refine QuoteFree.cons (by decide) ?_
      rcases h.title t ht with h1 | ⟨e, rfl, he⟩
      · exact (by decide : ∀ s ∈ [str!"címe", str!"címei"], QuoteFree s) _ h1
      · exact QuoteFree.append (s := str!"címé") (by decide) (quoteFree_ending he)

theorem partId_quoteFree {s : Str} (h : PartId s) : QuoteFree s := fun hm => absurd (h.1 _ hm) (by decide)

theorem attachment_quoteFree {a : Attachment} (ha : a.Usual) : QuoteFree a.text := by
  refine QuoteFree.append (quoteFree_words ha.numbers (fun s hs => ?_) (by split <;> decide) (quoteFree_ending ha.ending)) (.flatMap fun x hx => ?_)
  · cases s with
    | one i => exact (quoteFree_numeric i).append (by decide)
    | upTo d i j => exact ((quoteFree_numeric i).append (.cons (quoteFree_dash hs.1) (quoteFree_numeric j))).append (by decide)
  · have hsep : QuoteFree x.1 := by
      rcases hp : a.places with _ | ⟨y, l⟩
      · rw [hp] at hx; simp at hx
      · rw [hp] at hx
        rcases List.mem_cons.1 hx with rfl | hx
        · rw [ha.first x (by rw [hp]; rfl)]; decide
        · rcases ha.others x (by rw [hp]; exact hx) with h | h
          · rw [h]; decide
          · exact quoteFree_separator h
    refine hsep.append ?_
    have hu := ha.places x hx
    obtain ⟨sep, x⟩ := x
    cases x with
    | part first others word ending =>
      refine QuoteFree.append (.append (.append (partId_quoteFree hu.1) (.flatMap fun y hy => ?_)) (.cons (by decide) ?_)) (quoteFree_ending hu.2.2.2)
      · exact (quoteFree_separator (hu.2.1 y hy).1).append (partId_quoteFree (hu.2.1 y hy).2)
      · exact (by decide : ∀ w ∈ attachmentParts, '„' ∉ w) word hu.2.2.1
    | table ending => exact QuoteFree.append (by decide) (quoteFree_ending hu)
    | title ending => exact QuoteFree.append (by decide) (quoteFree_ending hu)

theorem force_quoteFree {x : ForcePart} {m : List StructuralRef} (h : x.Means m) (hn : ¬ x.Titled) : QuoteFree x.text := by
  cases h with
  | provisions hw => exact phrase_quoteFree hw
  | place hp => exact place_quoteFree hp hn
  | subtitles h hsep hmore he =>
    refine quoteFree_words (listing_fits h hsep) (fun s hs => slashedSpan_quoteFree s ?_) (by decide) (quoteFree_ending he)
    cases s with
    | one i => trivial
    | upTo d i j => exact hs.1
  | attachments ha => exact attachment_quoteFree ha

theorem sentence_quoteFree {x : EnforcementSentence} {e : EnforcementDateType} {ms : List (List StructuralRef)} (hx : x.Usual) (ht : x.time.Means e)
    (hms : List.Forall₂ (fun r m => r.2.Means m) x.references ms) (hn : ¬ ∃ r ∈ x.references, r.2.Titled) : QuoteFree x.text := by
  have hday : ∀ d : DayText, d.Usual → QuoteFree d.text := fun d hd => by
    refine QuoteFree.append (.append (.append (.append (.append (quoteFree_dec _) (by decide)) ?_) (by decide)) (quoteFree_dec _)) ?_
    · exact (by decide : ∀ m ∈ monthWords, QuoteFree m) _ hd.month
    · exact (by decide : ∀ m ∈ [str!"-án", str!"-én", str!"-jén", str!". napján"], QuoteFree m) _ hd.ending
  have hpub : ∀ p ∈ publications, QuoteFree p := by decide
  have hword : ∀ p ∈ ordinalWords, QuoteFree p.1 := by decide +kernel
  have hord : ∀ (o : OrdinalText) (k : Nat), o.Means k → QuoteFree o.text := fun o k h => by
    cases o with
    | word w => exact hword _ h
    | digits m => exact (quoteFree_dec _).append (by decide)
  have htime : QuoteFree x.time.text := by
    revert ht
    generalize x.time = t
    intro ht
    cases ht with
    | day hd => exact hday _ hd
    | nextDay h => exact (hpub _ h).append (by decide)
    | days h hn => exact (((hpub _ h).append (by decide)).append (hord _ _ hn)).append (by decide)
    | dayInNext h hn => exact (((((hpub _ h).append (by decide)).append (by decide)).append (by decide)).append (hord _ _ hn)).append (by decide)
    | dayInMonth h hm hn =>
      exact (((((hpub _ h).append (by decide)).append ((hword _ hm).append (by decide))).append (by decide)).append (hord _ _ hn)).append (by decide)
  refine QuoteFree.append (.append (.append (.append (.append (.append (.append (.append ?_ (by decide)) (.flatMap fun r hr => ?_)) ?_) ?_) htime) (by decide)) ?_) (by decide)
  · refine QuoteFree.append ?_ ?_
    · rcases hx.subject with h | h
      · exact (by decide : ∀ s ∈ actSubjects, QuoteFree s) _ h
      · exact (by decide : ∀ s ∈ [str!"A", str!"Az"], QuoteFree s) _ h.1
    · rcases hy : x.exception with _ | y
      · exact (by decide : QuoteFree [])
      · have hyu := hx.exception y hy
        have hm : QuoteFree y.mark := by
          unfold ExceptionText.mark
          rcases hd : y.dash with _ | d
          · exact (by decide : QuoteFree [])
          · exact .cons (by decide) (.cons (quoteFree_dash (hyu.dash d hd)) (by decide))
        refine QuoteFree.append (.append (.append (.append (.append (.append (.append hm (by decide)) (phrase_quoteFree hyu.provisions)) (by decide)) ?_) (by decide)) (quoteFree_ending hyu.ending)) hm
        exact quoteFree_ending hyu.word.2
  · refine QuoteFree.append ?_ (forall₂_left hms (f := fun r => ¬ r.2.Titled → QuoteFree r.2.text) (fun _ _ h => force_quoteFree h) r hr fun h => hn ⟨r, hr, h⟩)
    cases hl : x.references with
    | nil => rw [hl] at hr; cases hr
    | cons a l =>
      rw [hl] at hr
      rcases List.mem_cons.1 hr with rfl | hr
      · rw [hx.first r (by rw [hl]; rfl)]; decide
      · exact quoteFree_separator (hx.others r (by rw [hl]; exact hr))
  · split <;> decide
  · exact (by decide : ∀ s ∈ [[], str!"a ", str!"az "], QuoteFree s) _ hx.article
  · cases hr : x.repeal with
    | none => decide
    | some r =>
      have h1 := hx.repeal r hr
      exact (((by decide : ∀ s ∈ repealJoints, QuoteFree s) _ h1.1).append (hday _ h1.2)).append (by decide)

theorem sentence_noWs {x : EnforcementSentence} (hx : x.Usual) : NoWs x.text := by
  have h : ∃ c s, x.subject = c :: s ∧ isWs c = false := by
    have := hx.subject
    simp only [actSubjects, List.mem_cons, List.not_mem_nil, or_false] at this
    rcases this with (e | e) | ⟨e | e, -⟩ <;> rw [e]
    all_goals exact ⟨_, _, rfl, by decide⟩
  obtain ⟨c, s, e, hc⟩ := h
  rw [EnforcementSentence.text, EnforcementSentence.opening, e]
  exact noWs_cons hc

/-! ### the property -/

theorem enforcement_root (c : Cache) {x : EnforcementSentence} {e : EnforcementDateType} {ss : List StructuralRef}
    (hx : x.Usual) (ht : x.time.Means e) (hss : x.Structure ss) : ∃ y, parse x.text c.allAbbreviations = some (.enforcementDate y) := by
  have hss' := hss
  obtain ⟨ms, hms, rfl⟩ := hss
  refine ⟨sentenceAt x, parse_enforcement (reads_sentence hx ht hss') (sentence_noWs hx) rfl ?_⟩
  by_cases hn : ∃ r ∈ x.references, r.2.Titled
  · exact .inr (hx.titles hn)
  · exact .inl (sentence_quoteFree hx ht hms hn)

/-- C104: a sentence about coming into force, in the usual form, is read as it is written: the provisions and the parts of
the structure of the act which are meant, whether all of it is meant, the time, and the day of the loss of force. The
references found in the text are the same provisions, each at its place. If some of them are not well formed, the sentence
is refused.

Provisions in an exception are not among the parts, nor among the references found.

Missing: exceptions in other forms, which are not recognised: with the article "az" (`C104_violated_exceptions`), without a
word before "kivétel" (`C104_violated_bare`), with more than one phrase (`C104_violated_many`). -/
theorem C104_enforcement_partial (c : Cache) (x : EnforcementSentence) (e : EnforcementDateType) (ss : List StructuralRef)
    (hx : x.Usual) (ht : x.time.Means e) (hss : x.Structure ss) :
    ∃ r, parse x.text c.allAbbreviations = some r ∧
      ((∀ y ∈ x.parts, WellFormed y) →
        extractSpecialPhrase c r =
          some (some (.enforcementDate ⟨x.parts, ss, x.references.isEmpty, e, x.repeal.map fun r => r.2.meant⟩)) ∧
        ∃ refs, outgoingRefs c r = some refs ∧ refs.map (·.reference) = x.parts ∧
          ranges refs = markedRanges (byteLen x.opening + 1) x.pieces) ∧
      (¬ (∀ y ∈ x.parts, WellFormed y) → extractSpecialPhrase c r = none ∧ outgoingRefs c r = none) := by
  have hss' := hss
  obtain ⟨ms, hms, rfl⟩ := hss
  refine ⟨.enforcementDate (sentenceAt x), parse_enforcement (reads_sentence hx ht hss') (sentence_noWs hx) rfl ?_, ?_⟩
  · by_cases hn : ∃ r ∈ x.references, r.2.Titled
    · exact .inr (hx.titles hn)
    · exact .inl (sentence_quoteFree hx ht hms hn)
  have hcomp : enforcementRefs (sentenceAt x) = compoundRefs c (groupAt ⟨none, forceRefs [] x.references⟩ (byteLen x.opening + 1)) := by
    have := feed_parts x.references [] (byteLen x.opening + 1)
    unfold enforcementRefs compoundRefs groupAt sentenceAt sentenceFrom
    simp only [byteLen, Nat.add_zero] at this
    simp only [this]
    rfl
  have hempty : (sentenceAt x).references.isEmpty = x.references.isEmpty := by
    unfold sentenceAt sentenceFrom
    cases x.references with
    | nil => rfl
    | cons a l => rfl
  have hphrase : extractSpecialPhrase c (.enforcementDate (sentenceAt x)) = (enforcementRefs (sentenceAt x)).map fun refs =>
      some (.enforcementDate ⟨refs.map (·.reference), ms.flatten, x.references.isEmpty, e, x.repeal.map fun r => r.2.meant⟩) := by
    have h1 : convertWhen (sentenceAt x).date = some e := convert_time ht
    have h2 : convertDate? (sentenceAt x).inlineRepeal = some (x.repeal.map fun r => r.2.meant) := convert_repeal hx
    have hm : (sentenceAt x).references.mapM enforcementStructural = some ms := structural_parts hms _
    unfold extractSpecialPhrase convertEnforcementDate
    cases hr : enforcementRefs (sentenceAt x) with
    | none => simp [hr]
    | some refs => simp [hr, hm, h1, h2, hempty]
  have husual := forceRefs_usual hms []
  have h1 := groupAt_refs_of (c := c) (g := ⟨none, forceRefs [] x.references⟩) (by simp) husual (by simp) (byteLen x.opening + 1)
  have hmeant : PhraseGroup.meant ⟨none, forceRefs [] x.references⟩ = x.parts := by
    unfold EnforcementSentence.parts
    rw [← forceRefs_levels x.references []]
    rfl
  rw [hmeant, ← hcomp] at h1
  refine ⟨fun hw => ?_, fun hw => ?_⟩
  · rw [if_pos fun y hy => Ref.tryFrom_eq_some.2 ⟨rfl, hw y hy⟩] at h1
    cases hr : enforcementRefs (sentenceAt x) with
    | none => rw [hr] at h1; cases h1
    | some refs =>
      rw [hr] at h1
      have h2 : refs.map (·.reference) = x.parts := by simpa using h1
      rw [hphrase, hr]
      refine ⟨by simp [h2], refs, hr, h2, ?_⟩
      rw [groupAt_ranges_of (c := c) (g := ⟨none, forceRefs [] x.references⟩) husual (hcomp ▸ hr)]
      exact forceRefs_ranges x.references [] _
  · rw [if_neg fun h => hw fun y hy => (Ref.tryFrom_eq_some.1 (h y hy)).2] at h1
    have hr : enforcementRefs (sentenceAt x) = none := by simpa using h1
    exact ⟨by rw [hphrase, hr]; rfl, hr⟩

/-! ### examples -/

/-- "A 3. §, a II. Fejezet, a 12. és 14–16. alcím, az 1. és 3. melléklet és az 5. § (2) bekezdése a kihirdetését követő hónap első napján lép
hatályba, és 2024. december 31-én hatályát veszti." -/
def partsSentence : EnforcementSentence where
  subject := str!"A"
  references :=
    [([], .provisions { article := some ⟨.one ⟨none, .ofNum 3⟩, [], []⟩ }),
     (str!", a ", .place ⟨none, .chapter (.ofNum 2) ⟨str!"Fejezet", []⟩, none⟩),
     (str!", a ", .subtitles ⟨.one (.ofNum 12), [(str!" és ", .upTo '–' (.ofNum 14) (.ofNum 16))], []⟩),
     (str!", az ", .attachments ⟨⟨.one (.ofNum 1), [(str!" és ", .one (.ofNum 3))], []⟩, false, []⟩),
     (str!" és az ", .provisions { article := some ⟨.one ⟨none, .ofNum 5⟩, [], []⟩, paragraph := some ⟨.one (.ofNum 2), [], str!"e"⟩ })]
  article := str!"a "
  time := .dayInMonth str!"kihirdetését" none (.word str!"első")
  repeal := some (str!", és ", ⟨2024, str!"december", 31, str!"-én"⟩)

example : partsSentence.text =
    str!"A 3. §, a II. Fejezet, a 12. és 14–16. alcím, az 1. és 3. melléklet és az 5. § (2) bekezdése a kihirdetését követő hónap első napján lép hatályba, és 2024. december 31-én hatályát veszti." := by
  decide +kernel

theorem partsSentence_usual : partsSentence.Usual := by
  refine ⟨.inr ⟨by decide, by decide, rfl⟩, by simp [partsSentence], by decide, by decide, by decide, ?_, fun _ => by decide +kernel, fun _ => ⟨by decide +kernel, by decide +kernel⟩, ?_, by simp [partsSentence]⟩
  swap
  · simp [partsSentence, Closing]
  intro r hr
  simp only [partsSentence, Option.some.injEq] at hr
  subst hr
  exact ⟨by decide, by decide, by decide, by decide, by decide⟩

/-- The chapter and the subtitles of the sentence. -/
def partsStructure : List StructuralRef :=
  [⟨none, none, none, .chapter (.ofNum 2), false⟩, ⟨none, none, none, .subtitleId (.ofNum 12), false⟩,
   ⟨none, none, none, .subtitleRange ⟨.ofNum 14, .ofNum 16⟩, false⟩]

theorem partsSentence_structure : partsSentence.Structure partsStructure := by
  refine ⟨[[], [⟨none, none, none, .chapter (.ofNum 2), false⟩],
    [⟨none, none, none, .subtitleId (.ofNum 12), false⟩, ⟨none, none, none, .subtitleRange ⟨.ofNum 14, .ofNum 16⟩, false⟩], [], []],
    .cons (.provisions ?_) (.cons ?_ (.cons ?_ (.cons (.attachments ?_) (.cons (.provisions ?_) .nil)))), rfl⟩
  · refine ⟨?_, by simp, by simp, by simp, by simp, by simp, by simp, by simp, by simp, by simp [Phrase.words]⟩
    rintro l ⟨⟩
    exact ⟨⟨by simp [ArticleUsual, NumericId.ofNum], by simp⟩, .inl rfl⟩
  · exact .place (e := .chapter (.ofNum 2)) ⟨fun _ => rfl, by simp,
      .chapter ⟨by decide, by simp [NumericId.ofNum]⟩ ⟨by decide, by simp [Ending]⟩, by simp, rfl⟩
  · exact .subtitles (es := [.subtitleId (.ofNum 12), .subtitleRange ⟨.ofNum 14, .ofNum 16⟩])
      (.cons (.one (by simp [NumericId.ofNum])) (.cons (.upTo (by decide) (by simp [NumericId.ofNum]) (by simp [NumericId.ofNum])) .nil))
      (by decide) (by decide) (by simp [Ending])
  · exact ⟨⟨by simp [Span.Fits, NumericId.ofNum], by simp [Span.Fits, NumericId.ofNum, separators, joints]⟩, by simp [Ending], by simp, by simp, by simp⟩
  · refine ⟨?_, ?_, by simp, by simp, by simp, by simp, by simp, by simp, by simp, by simp [Phrase.words]⟩
    · rintro l ⟨⟩
      exact ⟨⟨by simp [ArticleUsual, NumericId.ofNum], by simp⟩, .inl rfl⟩
    · rintro l ⟨⟩
      exact ⟨⟨by simp [Span.Fits], by simp⟩, by unfold Ending; decide⟩

example : ∃ r, parse partsSentence.text (Cache.mk [] false).allAbbreviations = some r ∧
    extractSpecialPhrase ⟨[], false⟩ r = some (some (.enforcementDate
      ⟨partsSentence.parts, partsStructure, false, .dayInMonthAfterPublication none 1, some ⟨2024, 12, 31⟩⟩)) := by
  obtain ⟨r, h1, h2, -⟩ := C104_enforcement_partial ⟨[], false⟩ partsSentence (.dayInMonthAfterPublication none 1) partsStructure partsSentence_usual
    (.dayInNext (by decide) (show (_, _) ∈ ordinalWords by decide)) partsSentence_structure
  refine ⟨r, h1, ?_⟩
  rw [(h2 fun y hy => (Ref.tryFrom_eq_some.1 ((by decide +kernel : ∀ y ∈ partsSentence.parts, Ref.tryFrom y = some y) y hy)).2).1]
  decide +kernel

/-- "Ez a törvény 2024. január 1-jén lép hatályba." -/
def wholeSentence : EnforcementSentence := ⟨str!"Ez a törvény", none, [], [], .day ⟨2024, str!"január", 1, str!"-jén"⟩, none⟩

example : wholeSentence.text = str!"Ez a törvény 2024. január 1-jén lép hatályba." := by decide +kernel

theorem wholeSentence_usual : wholeSentence.Usual :=
  ⟨.inl (by decide), by simp [wholeSentence], by decide, by decide, by decide, by simp [wholeSentence], fun _ => by decide +kernel, by simp [wholeSentence], .nil,
    by simp [wholeSentence]⟩

example : ∃ r, parse wholeSentence.text (Cache.mk [] false).allAbbreviations = some r ∧
    extractSpecialPhrase ⟨[], false⟩ r = some (some (.enforcementDate ⟨[], [], true, .date ⟨2024, 1, 1⟩, none⟩)) := by
  obtain ⟨r, h1, h2, -⟩ := C104_enforcement_partial ⟨[], false⟩ wholeSentence (.date ⟨2024, 1, 1⟩) [] wholeSentence_usual
    (.day (d := ⟨2024, str!"január", 1, str!"-jén"⟩) ⟨by decide, by decide, by decide, by decide⟩) ⟨[], .nil, rfl⟩
  exact ⟨r, h1, (h2 (by intro y hy; cases hy)).1⟩

/-- "E törvény – a 3. § (2) bekezdésében foglalt kivétellel – 2024. január 1-jén lép hatályba." -/
def exceptSentence : EnforcementSentence where
  subject := str!"E törvény"
  exception := some ⟨some '–', { article := some ⟨.one ⟨none, .ofNum 3⟩, [], []⟩, paragraph := some ⟨.one (.ofNum 2), [], str!"ében"⟩ },
    str!"foglalt", str!"lel"⟩
  references := []
  article := []
  time := .day ⟨2024, str!"január", 1, str!"-jén"⟩
  repeal := none

example : exceptSentence.text = str!"E törvény – a 3. § (2) bekezdésében foglalt kivétellel – 2024. január 1-jén lép hatályba." := by decide +kernel

theorem exceptSentence_usual : exceptSentence.Usual := by
  refine ⟨.inl (by decide), ?_, by decide, by decide, by decide, by simp [exceptSentence], by simp [exceptSentence], by simp [exceptSentence], .nil,
    by simp [exceptSentence]⟩
  intro y hy
  simp only [exceptSentence, Option.some.injEq] at hy
  subst hy
  refine ⟨by decide, ⟨?_, ?_, by simp, by simp, by simp, by simp, by simp, by simp, by simp, by simp [Phrase.words]⟩, ⟨by decide, by unfold Ending; decide⟩, by unfold Ending; decide⟩
  · rintro l ⟨⟩
    exact ⟨⟨by simp [ArticleUsual, NumericId.ofNum], by simp⟩, .inl rfl⟩
  · rintro l ⟨⟩
    exact ⟨⟨by simp [Span.Fits], by simp⟩, by unfold Ending; decide⟩

example : ∃ r, parse exceptSentence.text (Cache.mk [] false).allAbbreviations = some r ∧
    extractSpecialPhrase ⟨[], false⟩ r = some (some (.enforcementDate ⟨[], [], true, .date ⟨2024, 1, 1⟩, none⟩)) ∧
    outgoingRefs ⟨[], false⟩ r = some [] := by
  obtain ⟨r, h1, h2, -⟩ := C104_enforcement_partial ⟨[], false⟩ exceptSentence (.date ⟨2024, 1, 1⟩) [] exceptSentence_usual
    (.day (d := ⟨2024, str!"január", 1, str!"-jén"⟩) ⟨by decide, by decide, by decide, by decide⟩) ⟨[], .nil, rfl⟩
  obtain ⟨h3, refs, h4, h5, -⟩ := h2 (by intro y hy; cases hy)
  refine ⟨r, h1, h3, ?_⟩
  cases refs with
  | nil => exact h4
  | cons a l => cases h5

/-- "E törvény 3. §-a és a „Záró rendelkezések” alcím a kihirdetését követő nyolcadik napon lép hatályba." -/
def titledSentence : EnforcementSentence where
  subject := str!"E törvény"
  references :=
    [([], .provisions { article := some ⟨.one ⟨none, .ofNum 3⟩, [], str!"-a"⟩ }),
     (str!" és a ", .place ⟨none, .named str!"Záró rendelkezések" false ⟨str!"alcím", []⟩, none⟩)]
  article := str!"a "
  time := .days str!"kihirdetését" (.word str!"nyolcadik")
  repeal := none

example : titledSentence.text =
    str!"E törvény 3. §-a és a „Záró rendelkezések” alcím a kihirdetését követő nyolcadik napon lép hatályba." := by decide +kernel

theorem titledSentence_usual : titledSentence.Usual :=
  ⟨.inl (by decide), by simp [titledSentence], by decide, by decide, by decide, by simp [titledSentence], fun _ => by decide +kernel,
    fun _ => ⟨by decide +kernel, by decide +kernel⟩, by simp [titledSentence], by simp [titledSentence]⟩

example : ∃ r, parse titledSentence.text (Cache.mk [] false).allAbbreviations = some r ∧
    extractSpecialPhrase ⟨[], false⟩ r = some (some (.enforcementDate
      ⟨titledSentence.parts, [⟨none, none, none, .subtitleTitle str!"Záró rendelkezések", false⟩], false, .daysAfterPublication 8, none⟩)) := by
  obtain ⟨r, h1, h2, -⟩ := C104_enforcement_partial ⟨[], false⟩ titledSentence (.daysAfterPublication 8)
    [⟨none, none, none, .subtitleTitle str!"Záró rendelkezések", false⟩] titledSentence_usual
    (.days (by decide) (show (_, _) ∈ ordinalWords by decide))
    ⟨[[], [⟨none, none, none, .subtitleTitle str!"Záró rendelkezések", false⟩]],
      .cons (.provisions (by
        refine ⟨?_, by simp, by simp, by simp, by simp, by simp, by simp, by simp, by simp, by simp [Phrase.words]⟩
        rintro l ⟨⟩
        exact ⟨⟨by simp [ArticleUsual, NumericId.ofNum], by simp⟩, .inr ⟨str!"a", rfl, by decide, by unfold Ending; decide⟩⟩))
      (.cons (.place (e := .subtitleTitle str!"Záró rendelkezések") ⟨fun _ => rfl, by simp,
        .named ⟨by decide, by decide, by decide⟩ ⟨by decide, by simp [Ending]⟩, by simp, rfl⟩) .nil), rfl⟩
  exact ⟨r, h1, (h2 fun y hy => (Ref.tryFrom_eq_some.1 ((by decide +kernel : ∀ y ∈ titledSentence.parts, Ref.tryFrom y = some y) y hy)).2).1⟩

/-! ### numbers which are not known -/

/-- The full statement about the numbers which are written as words: every number up to a hundred can be the number of days. -/
def C104_statement : Prop :=
  ∀ (c : Cache) (k : U16) (w : Str), 1 ≤ k.val → toHungarian k.val = some w →
    ∃ r d, parse (str!"Ez a törvény a kihirdetését követő " ++ w ++ str!" napon lép hatályba.") c.allAbbreviations = some r ∧
      extractSpecialPhrase c r = some (some (.enforcementDate d)) ∧ d.date = .daysAfterPublication k

/-- C104: "harmincegyedik" (31st) is a number for the program elsewhere, but no sentence with it is recognised. -/
theorem C104_violated : ¬ C104_statement := by
  intro h
  obtain ⟨r, d, h1, h2, -⟩ := h ⟨[], false⟩ 31 str!"harmincegyedik" (by decide) (by decide +kernel)
  have : ((parse (str!"Ez a törvény a kihirdetését követő " ++ str!"harmincegyedik" ++ str!" napon lép hatályba.") []).map
    fun r => match r with | .simple _ => true | _ => false) = some true := by decide +kernel
  rw [show (Cache.mk [] false).allAbbreviations = [] from rfl] at h1
  rw [h1] at this
  cases r <;> simp at this
  simp [extractSpecialPhrase] at h2

/-! ### exceptions which are not known -/

/-- The full statement about exceptions: the provisions in them can have any of the two articles. -/
def C104_exceptions_statement : Prop :=
  ∀ (c : Cache) (a : Str) (w : Phrase), a ∈ [str!"a", str!"az"] → w.Usual →
    ∃ r d, parse (str!"Ez a törvény – " ++ a ++ str!" " ++ w.text ++ str!" foglalt kivétellel – 2024. január 1-jén lép hatályba.") c.allAbbreviations = some r ∧
      extractSpecialPhrase c r = some (some (.enforcementDate d))

/-- C104: "Ez a törvény – az 5. §-ban foglalt kivétellel – 2024. január 1-jén lép hatályba." is not recognised, because only
"a" can be before the exception. -/
theorem C104_violated_exceptions : ¬ C104_exceptions_statement := by
  intro h
  obtain ⟨r, d, h1, h2⟩ := h ⟨[], false⟩ str!"az" { article := some ⟨.one ⟨none, .ofNum 5⟩, [], str!"-ban"⟩ } (by simp) (by
    refine ⟨?_, by simp, by simp, by simp, by simp, by simp, by simp, by simp, by simp, by simp [Phrase.words]⟩
    rintro l ⟨⟩
    exact ⟨⟨by simp [ArticleUsual, NumericId.ofNum], by simp⟩, .inr ⟨str!"ban", rfl, by decide, by unfold Ending; decide⟩⟩)
  have : ((parse str!"Ez a törvény – az 5. §-ban foglalt kivétellel – 2024. január 1-jén lép hatályba." []).map
    fun r => match r with | .simple _ => true | _ => false) = some true := by decide +kernel
  have e : str!"Ez a törvény – " ++ str!"az" ++ str!" " ++ Phrase.text { article := some ⟨.one ⟨none, .ofNum 5⟩, [], str!"-ban"⟩ } ++
    str!" foglalt kivétellel – 2024. január 1-jén lép hatályba." = str!"Ez a törvény – az 5. §-ban foglalt kivétellel – 2024. január 1-jén lép hatályba." := by decide +kernel
  rw [e, show (Cache.mk [] false).allAbbreviations = [] from rfl] at h1
  rw [h1] at this
  cases r <;> simp at this
  simp [extractSpecialPhrase] at h2

/-- The full statement about exceptions without a word. -/
def C104_bare_statement : Prop :=
  ∀ (c : Cache) (w : Phrase), w.Usual →
    ∃ r d, parse (str!"Ez a törvény – a " ++ w.text ++ str!" kivételével – 2024. január 1-jén lép hatályba.") c.allAbbreviations = some r ∧
      extractSpecialPhrase c r = some (some (.enforcementDate d))

/-- C104: "Ez a törvény – a 3. § kivételével – 2024. január 1-jén lép hatályba." is not recognised. -/
theorem C104_violated_bare : ¬ C104_bare_statement := by
  intro h
  obtain ⟨r, d, h1, h2⟩ := h ⟨[], false⟩ { article := some ⟨.one ⟨none, .ofNum 3⟩, [], []⟩ } (by
    refine ⟨?_, by simp, by simp, by simp, by simp, by simp, by simp, by simp, by simp, by simp [Phrase.words]⟩
    rintro l ⟨⟩
    exact ⟨⟨by simp [ArticleUsual, NumericId.ofNum], by simp⟩, .inl rfl⟩)
  have : ((parse str!"Ez a törvény – a 3. § kivételével – 2024. január 1-jén lép hatályba." []).map
    fun r => match r with | .simple _ => true | _ => false) = some true := by decide +kernel
  have e : str!"Ez a törvény – a " ++ Phrase.text { article := some ⟨.one ⟨none, .ofNum 3⟩, [], []⟩ } ++
    str!" kivételével – 2024. január 1-jén lép hatályba." = str!"Ez a törvény – a 3. § kivételével – 2024. január 1-jén lép hatályba." := by decide +kernel
  rw [e, show (Cache.mk [] false).allAbbreviations = [] from rfl] at h1
  rw [h1] at this
  cases r <;> simp at this
  simp [extractSpecialPhrase] at h2

/-- The full statement about exceptions with two phrases. -/
def C104_many_statement : Prop :=
  ∀ (c : Cache) (v w : Phrase) (s : Str), v.Usual → w.Usual → s ∈ separators →
    ∃ r d, parse (str!"Ez a törvény – a " ++ v.text ++ s ++ w.text ++ str!" foglalt kivétellel – 2024. január 1-jén lép hatályba.")
        c.allAbbreviations = some r ∧
      extractSpecialPhrase c r = some (some (.enforcementDate d))

/-- C104: "Ez a törvény – a 3. §-ban és a 4. §-ben foglalt kivétellel – 2024. január 1-jén lép hatályba." is not recognised. -/
theorem C104_violated_many : ¬ C104_many_statement := by
  intro h
  have hu : Phrase.Usual { article := some ⟨.one ⟨none, .ofNum 3⟩, [], str!"-ban"⟩ } := by
    refine ⟨?_, by simp, by simp, by simp, by simp, by simp, by simp, by simp, by simp, by simp [Phrase.words]⟩
    rintro l ⟨⟩
    exact ⟨⟨by simp [ArticleUsual, NumericId.ofNum], by simp⟩, .inr ⟨str!"ban", rfl, by decide, by unfold Ending; decide⟩⟩
  have hv : Phrase.Usual { article := some ⟨.one ⟨none, .ofNum 4⟩, [], str!"-ben"⟩ } := by
    refine ⟨?_, by simp, by simp, by simp, by simp, by simp, by simp, by simp, by simp, by simp [Phrase.words]⟩
    rintro l ⟨⟩
    exact ⟨⟨by simp [ArticleUsual, NumericId.ofNum], by simp⟩, .inr ⟨str!"ben", rfl, by decide, by unfold Ending; decide⟩⟩
  obtain ⟨r, d, h1, h2⟩ := h ⟨[], false⟩ _ _ str!" és a " hu hv (by decide +kernel)
  have : ((parse str!"Ez a törvény – a 3. §-ban és a 4. §-ben foglalt kivétellel – 2024. január 1-jén lép hatályba." []).map
    fun r => match r with | .simple _ => true | _ => false) = some true := by decide +kernel
  have e : str!"Ez a törvény – a " ++ Phrase.text { article := some ⟨.one ⟨none, .ofNum 3⟩, [], str!"-ban"⟩ } ++ str!" és a " ++
    Phrase.text { article := some ⟨.one ⟨none, .ofNum 4⟩, [], str!"-ben"⟩ } ++ str!" foglalt kivétellel – 2024. január 1-jén lép hatályba." =
      str!"Ez a törvény – a 3. §-ban és a 4. §-ben foglalt kivétellel – 2024. január 1-jén lép hatályba." := by decide +kernel
  rw [e, show (Cache.mk [] false).allAbbreviations = [] from rfl] at h1
  rw [h1] at this
  cases r <;> simp at this
  simp [extractSpecialPhrase] at h2

end HunLaw.Props
