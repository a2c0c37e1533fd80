import Verif.Props.Written
import Verif.Lemmas.Amending
import Verif.Lemmas.WrittenClean
import Verif.Lemmas.Introduced

/-! Property C105: sentences which amend the structure of an act are read as they are written. -/

set_option autoImplicit false

namespace HunLaw.Props

open HunLaw Spec Semantic Grammar P

/-! ### the values -/

theorem roman_value {i : NumericId} (h : RomanUsual i) : NumericId.fromRoman (romanText i) = some i := by
  obtain ⟨n, sfx⟩ := i
  obtain ⟨r, hr1, hr2, hr3, hr4⟩ := roman_roundtrip h.1.1 h.1.2
  have hr1' : romanTo n.val = some r := hr1
  have : NumericId.splitSuffix isRomanDigit (romanText ⟨n, sfx⟩) = some (r, sfx) := by
    unfold romanText
    rw [hr1', Option.getD_some]
    cases sfx with
    | none => simpa using NumericId.splitSuffix_none hr3
    | some c => exact NumericId.splitSuffix_slash hr3 (by decide) (HunChar.parse_displayUpper c)
  unfold NumericId.fromRoman
  rw [this]
  simp only [hr2]
  rw [dif_pos n.isLt]

theorem capital_value : ∀ e ∈ capitalNumbers, hunNumeric e.1 = some ⟨e.2, none⟩ := by decide +kernel

theorem placeId_value {p : PlaceText} {e : StructuralRefParent} (h : p.Means e) : convertStructuralId (placeId p) = some e := by
  cases h with
  | chapter hi hw => simp [placeId, convertStructuralId, SEType.parseIdentifier, roman_value hi]
  | part hs hw => simp [placeId, convertStructuralId, SEType.parseIdentifier, capital_value _ hs]
  | title hi hw => simp [placeId, convertStructuralId, SEType.parseIdentifier, roman_value hi]
  | subtitle hi hw => simp [placeId, convertStructuralId, convertSubtitlePart, idPart, NumericId.parse_displaySlash]
  | subtitleRange hd hi hj hw => simp [placeId, convertStructuralId, convertSubtitlePart, idPart, NumericId.parse_displaySlash]
  | named ht hw => simp [placeId, convertStructuralId]

theorem bookText_value {b : BookText} {i : NumericId} (h : b.Means i) : SEType.book.parseIdentifier b.number = some i := by
  obtain ⟨n, s⟩ := i
  obtain ⟨h1, h2, -⟩ := h
  simp only at h1
  subst h1
  exact capital_value _ h2

theorem place_value {p : Place} {b : Option NumericId} {e : StructuralRefParent} {o : Bool} (h : p.Means b e o) :
    convertStructural (placeAt p) = some ⟨none, b, none, e.toElement, o⟩ := by
  have hb : convertBookRef (p.book.map (·.number)) = some b := by
    cases hb : p.book with
    | none => rw [h.noBook hb]; rfl
    | some k =>
      obtain ⟨i, rfl, hk⟩ := h.book k hb
      simp [convertBookRef, bookText_value hk]
  simp only [placeAt, convertStructural, hb, placeId_value h.part, Option.bind_eq_bind, Option.bind_some, h.titleOnly]

theorem parent_value {p : Place} {b : Option NumericId} {e : StructuralRefParent} (h : p.Means b e false) :
    convertParent (placeAt p) = some e := by
  have ht : p.title.isSome = false := h.titleOnly.symm
  simp [convertParent, placeAt, ht, placeId_value h.part]

/-- A subtitle read by the rule of subtitles is the same. -/
theorem subtitle_value {p : Place} {b : Option NumericId} {e : StructuralRefParent} {o : Bool} (h : p.Means b e o) {r : ReferenceWithSubtitle}
    (hr : subtitleAt p = some r) (a : ActReference) (q : Option StructuralReference) (ins : Bool) :
    subtitlePlace ⟨a, q, none, r, ins⟩ = some e.toElement ∧ b = none ∧ r.article = none := by
  obtain ⟨bk, part, tl⟩ := p
  cases bk with
  | some k => simp [subtitleAt] at hr
  | none =>
    have hp := h.part
    have hb := h.noBook rfl
    cases hp with
    | chapter hi hw => simp [subtitleAt] at hr
    | part hs hw => simp [subtitleAt] at hr
    | title hi hw => simp [subtitleAt] at hr
    | subtitle hi hw =>
      simp only [subtitleAt, Option.some.injEq] at hr
      subst hr
      exact ⟨by simp [subtitlePlace, NumericId.parse_displaySlash, StructuralRefParent.toElement], hb, rfl⟩
    | subtitleRange hd hi hj hw => simp [subtitleAt] at hr
    | @named t called w ht hw =>
      cases called with
      | true => simp [subtitleAt] at hr
      | false =>
        simp only [subtitleAt, Option.some.injEq] at hr
        subst hr
        exact ⟨by simp [subtitlePlace, StructuralRefParent.toElement], hb, rfl⟩

/-! ### the beginning -/

/-- What may come after the name of the act. -/
structure Continues (rest : Str) : Prop where
  space : ∃ s, rest = ' ' :: s ∧ NoWs s ∧ Head (fun c => c ≠ '(' ∧ c ≠ 'h' ∧ c ≠ 'm' ∧ c ≠ 'ö') s

theorem reads_introAt {i : ActIntro} {known : List Str} {rest : Str} (h : i.Usual known rest) (hr : AfterAct rest) (hn : NotTitle rest) (k : Nat) :
    ∃ m, ReadsG (Remembers known i.introduces k m) titledActReference k (i.title ++ (i.act.text ++ introduction i.introduces)) rest
      (introAct (k + byteLen i.title) i.act i.introduces) := by
  refine reads_titled (by rw [List.append_assoc]; exact act_noWs h.act _) (at_ := fun n => introAct n i.act i.introduces)
    (reads_introAct h.act h.introduces hr ?_) hn h.words h.spaced (fun c hc => ?_) (fun p q e hq => no_abbreviation fun b hb ⟨y, hy⟩ => ?_) _
  · cases ha : i.act with
    | number a e => trivial
    | short b a =>
      have hnone : i.introduces = none := by
        cases hi : i.introduces with
        | none => rfl
        | some x => obtain ⟨⟨_, _, e⟩, -⟩ := h.introduces x hi; rw [ha] at e; cases e
      refine one_abbreviation (h.known b a ha) (List.prefix_append ..) fun d hd ⟨y, e⟩ => ?_
      obtain ⟨-, x, hx⟩ := h.abbreviations d hd i.title y (by
        rw [ha, hnone]; simp only [ActName.text, introduction, List.append_nil, List.append_assoc]; rw [e]) (Nat.le_refl _)
      rw [ha] at hx
      cases hx; rfl
  · have h1 := h.start c hc
    have h2 := h.words c (List.mem_of_mem_head? hc)
    cases hw : isWs c with
    | false => exact hw
    | true =>
      have h3 := ws_mem.1 hw
      exfalso
      rcases h2 with h2 | h2 | h2
      · exact absurd h2 ((by decide : ∀ c ∈ str!" \t\n\r\x0c", c ∉ lowerLetters) c h3)
      · exact absurd h2 ((by decide : ∀ c ∈ str!" \t\n\r\x0c", c ∉ upperLetters) c h3)
      · exact h1 ((by decide : ∀ c ∈ str!" \t\n\r\x0c", c ∈ str!" .,;!?" → c = ' ') c h3 h2)
  · have := (h.abbreviations b hb p y (by rw [e]; simp only [List.append_assoc] at hy ⊢; rw [← hy]) (by rw [e]; simp)).1
    rw [e] at this
    exact hq (by simpa using this)

theorem Continues.act {rest : Str} (h : Continues rest) : AfterAct rest ∧ NotTitle rest := by
  obtain ⟨s, rfl, hs, hh⟩ := h.space
  have esk : skipWs (' ' :: s) = s := by
    show skipWs s = s
    exact skipWs_noWs hs
  refine ⟨⟨.cons (by decide), .inl (by rw [esk]; exact Head.noBracket (hh.mono fun c hc => hc.1))⟩, fun w hw => ?_⟩
  rw [esk]
  simp only [List.mem_cons, List.not_mem_nil, or_false] at hw
  rcases hw with rfl | rfl | rfl <;> refine not_prefix_of_head (by decide) fun e => ?_
  · exact (hh _ e.symm).2.1 rfl
  · exact (hh _ e.symm).2.2.1 rfl
  · exact (hh _ e.symm).2.2.2 rfl

theorem reads_intro {i : ActIntro} {known : List Str} {rest : Str} (h : i.Usual known rest) (hr : Continues rest) :
    i.article ++ str!" " ∈ articles ∧ ∃ m, ReadsG (Remembers known i.introduces (byteLen (i.article ++ str!" ")) m) titledActReference
      (byteLen (i.article ++ str!" ")) (i.title ++ (i.act.text ++ introduction i.introduces)) rest
      (introAct (byteLen (i.article ++ str!" ") + byteLen i.title) i.act i.introduces) := by
  refine ⟨?_, reads_introAt h hr.act.1 hr.act.2 _⟩
  have := h.article
  simp only [List.mem_cons, List.not_mem_nil, or_false] at this
  rcases this with e | e | e | e <;> rw [e] <;> decide

theorem introAct_act {c : Cache} {i : ActIntro} {known : List Str} {rest : Str} (h : i.Usual known rest)
    (hc : ∀ s x, i.act = .short s x → c.resolve s = some x) (n : Nat) :
    convertActReference c (introAct n i.act i.introduces) = some i.act.act := by
  rw [← actAt_act h.act hc n]
  cases i.act <;> rfl

/-- The abbreviation of the act means the same after the abbreviation of the sentence is added. -/
theorem intro_resolves {c : Cache} {i : ActIntro} {known : List Str} {rest : Str} (h : i.Usual known rest)
    (hc : ∀ s x, i.act = .short s x → c.resolve s = some x) : ∀ s x, i.act = .short s x → (c.addMultiple i.new).resolve s = some x := by
  intro s x e
  cases hi : i.introduces with
  | none => simpa [ActIntro.new, hi, Cache.addMultiple] using hc s x e
  | some y => obtain ⟨⟨_, _, e'⟩, -⟩ := h.introduces y hi; rw [e] at e'; cases e'

/-- The abbreviation which is found in the sentence. -/
theorem intro_new {i : ActIntro} {known : List Str} {rest : Str} (h : i.Usual known rest) {n : Nat} {x : Root}
    (hx : rootActs x = [introAct n i.act i.introduces]) : getNewAbbreviations x = some i.new := by
  rw [getNewAbbreviations, hx]
  cases hi : i.introduces with
  | none => rw [introAct_none, ActIntro.new, hi]; cases i.act <;> rfl
  | some y =>
    obtain ⟨⟨a, e, ha⟩, -⟩ := h.introduces y hi
    have h1 : convertActId (actIdAt a e n) = some a := by
      have := actAt_act (c := ⟨[], false⟩) (a := .number a e) (ha ▸ h.act) (fun _ _ h => by cases h) n
      exact this
    rw [ActIntro.new, hi, ha]
    simp [introAct, actAt, newAbbreviation, convertAbbreviation, h1, ActName.act]

/-- The reference to the act. -/
theorem act_outgoing {c : Cache} {a : ActName} (ha : a.Usual) (hc : ∀ s x, a = .short s x → c.resolve s = some x) (n : Nat) :
    ∃ b : Builder, Builder.feedAct c (actAt n a) Builder.new = some b ∧ b.result = [⟨n, n + byteLen a.text, ⟨some a.act, none, none, none, none⟩⟩] := by
  have h := actAt_act ha hc n
  have hb : ∀ p : Pos, (Builder.new.setPart p fun y => y.setAct a.act).recordOne =
      some { (Builder.new.setPart p fun y => y.setAct a.act) with result := [⟨p.start, p.fin, ⟨some a.act, none, none, none, none⟩⟩], start := none } := by
    intro p
    rfl
  cases a with
  | number a e =>
    refine ⟨{ (Builder.new.setPart ⟨n, n + byteLen (ActName.number a e).text⟩ fun y => y.setAct a) with
      result := [⟨n, n + byteLen (ActName.number a e).text, ⟨some a, none, none, none, none⟩⟩], start := none }, ?_, rfl⟩
    have h' : convertActId (actIdAt a e n) = some a := h
    simp only [actAt, Builder.feedAct, h', Option.bind_eq_bind, Option.bind_some]
    exact hb ⟨n, n + byteLen (ActName.number a e).text⟩
  | short s x =>
    refine ⟨{ (Builder.new.setPart ⟨n, n + byteLen s⟩ fun y => y.setAct x) with
      result := [⟨n, n + byteLen s, ⟨some x, none, none, none, none⟩⟩], start := none }, ?_, rfl⟩
    have h' : c.resolve s = some x := h
    simp only [actAt, Builder.feedAct, h', Option.bind_eq_bind, Option.bind_some]
    exact hb ⟨n, n + byteLen s⟩

theorem intro_outgoing {c : Cache} {i : ActIntro} {known : List Str} {rest : Str} (h : i.Usual known rest)
    (hc : ∀ s x, i.act = .short s x → c.resolve s = some x) (n : Nat) :
    ∃ b : Builder, Builder.feedAct c (introAct n i.act i.introduces) Builder.new = some b ∧
      b.result = [⟨n, n + byteLen i.act.text, ⟨some i.act.act, none, none, none, none⟩⟩] := by
  obtain ⟨b, h1, h2⟩ := act_outgoing h.act hc n
  refine ⟨b, ?_, h2⟩
  rw [← h1]
  cases i.act <;> rfl

/-! ### the property -/

/-- The sentence is read as the amendment of this part. -/
def ReadAs (c : Cache) (s : StructuralSentence) (r : StructuralRef) : Prop :=
  ∃ x, parse s.text c.allAbbreviations = some x ∧ getNewAbbreviations x = some s.intro.new ∧
    extractSpecialPhrase (c.addMultiple s.intro.new) x = some (some (.structuralBlockAmendment r s.following.isSome)) ∧
    outgoingRefs (c.addMultiple s.intro.new) x = some [⟨byteLen s.intro.article + 1 + byteLen s.intro.title,
      byteLen s.intro.article + 1 + byteLen s.intro.title + byteLen s.intro.act.text, ⟨some s.intro.act.act, none, none, none, none⟩⟩]

/-- The full statement: every sentence in the usual form is read as it is written. -/
def C105_statement : Prop :=
  ∀ (c : Cache) (s : StructuralSentence) (r : StructuralRef), s.Usual → s.intro.Usual c.allAbbreviations s.rest →
    (∀ b a, s.intro.act = .short b a → c.resolve b = some a) → s.Means r → ReadAs c s r

theorem read_tail {c : Cache} {s : StructuralSentence} {p : Place} {par : Option Place} {book : Option BookText}
    {b i : Option NumericId} {e : StructuralRefParent} {d : Option StructuralRefParent} {t o : Bool}
    (hi : s.intro.Usual c.allAbbreviations s.rest) (hc : ∀ b a, s.intro.act = .short b a → c.resolve b = some a) (hr : Continues s.rest)
    (hp : p.Means b e t)
    (hpar : (par = none ∧ d = none) ∨ ∃ q d' b', par = some q ∧ d = some d' ∧ q.Means b' d' false)
    (hbook : (book = none ∧ i = b) ∨ ∃ k n, book = some k ∧ i = some n ∧ k.Means n)
    (hT : TailReads s.rest p (par.map placeAt) (book.map (·.number)) s.following.isSome o) :
    ReadAs c s ⟨some s.intro.act.act, i, d, e.toElement, o⟩ := by
  obtain ⟨hA, m, hm⟩ := reads_intro hi hr
  have etext : s.intro.article ++ str!" " ++ (s.intro.title ++ (s.intro.act.text ++ introduction s.intro.introduces) ++ s.rest) = s.text := by
    simp [StructuralSentence.text, ActIntro.text]
  have epos : byteLen (s.intro.article ++ str!" ") = byteLen s.intro.article + 1 := by rw [byteLen_append]; rfl
  have hc' := intro_resolves hi hc
  have hact := introAct_act hi hc' (byteLen (s.intro.article ++ str!" ") + byteLen s.intro.title)
  obtain ⟨bu, hb1, hb2⟩ := intro_outgoing hi hc' (byteLen (s.intro.article ++ str!" ") + byteLen s.intro.title)
  have hparent : convertParent? (par.map placeAt) = some d := by
    rcases hpar with ⟨rfl, rfl⟩ | ⟨q, d', b', rfl, rfl, hq⟩
    · rfl
    · simp [convertParent?, parent_value hq]
  have hpt := parse_tail (remembers_start ..) hA hm hT
  rw [etext] at hpt
  rcases hpt with ⟨ho, h⟩ | ⟨hbk, ho, r, hr, h⟩
  · rw [← hp.titleOnly] at ho
    subst ho
    refine ⟨_, h, intro_new hi rfl, ?_, ?_⟩
    · have hw : withBook (book.map (·.number)) ⟨some s.intro.act.act, b, d, e.toElement, o⟩ =
          some ⟨some s.intro.act.act, i, d, e.toElement, o⟩ := by
        rcases hbook with ⟨rfl, rfl⟩ | ⟨k, n, rfl, rfl, hk⟩
        · rfl
        · simp [withBook, bookText_value hk]
      simp only [extractSpecialPhrase, convertStructuralBlockAmendment, hact, hparent, place_value hp, hw, Option.bind_eq_bind, Option.bind_some]
    · simp only [outgoingRefs, structuralAmendmentRefs, hb1, hb2, Option.bind_eq_bind, Option.bind_some]; rw [epos]
  · have hb0 : book = none := by cases book with | none => rfl | some k => simp at hbk
    have hib : i = b := by
      rcases hbook with ⟨-, h⟩ | ⟨k, n, h, -, -⟩
      · exact h
      · rw [hb0] at h; cases h
    obtain ⟨hv, hbn, hra⟩ := subtitle_value hp hr (introAct (byteLen (s.intro.article ++ str!" ") + byteLen s.intro.title) s.intro.act s.intro.introduces) (par.map placeAt) s.following.isSome
    refine ⟨_, h, intro_new hi rfl, ?_, ?_⟩
    · simp only [extractSpecialPhrase, convertSubtitleBlockAmendment, hv, hparent, hact, Option.bind_eq_bind, Option.bind_some, hib, hbn, ho]
    · simp only [outgoingRefs, subtitleAmendmentRefs, hb1, hra, Builder.feedOpt, hb2, Option.bind_eq_bind, Option.bind_some]; rw [epos]

theorem place_continues {q : Place} {b : Option NumericId} {e : StructuralRefParent} {o : Bool} (hq : q.Means b e o) (R : Str) :
    Continues (' ' :: q.text ++ R) :=
  ⟨_, rfl, place_noWs hq R, (place_not hq R).mono fun c hc => by
    refine ⟨?_, ?_, ?_, ?_⟩ <;> (rintro rfl; exact hc (by decide))⟩

theorem one_subtitle {p : Place} (h : p.book = none) : p.part.OneSubtitle ↔ subtitleAt p ≠ none := by
  obtain ⟨bk, part, tl⟩ := p
  cases h
  cases part with
  | subtitles l w => cases l <;> simp [PlaceText.OneSubtitle, subtitleAt]
  | named t called w => cases called <;> simp [PlaceText.OneSubtitle, subtitleAt]
  | _ => simp [PlaceText.OneSubtitle, subtitleAt]

/-- C105, what is read in every case: a sentence which replaces or inserts a part of the structure of an act — a chapter, a
part, a title or a subtitle, perhaps in another part, perhaps only the title of it — is read as it is written: the act,
the book, the containing part, the part, whether only the title is meant, and whether it is inserted. But the book of a
containing part is always lost, and so is the word "címe" of a subtitle in another part, if the sentence does not end with
the name of something else than a subtitle. The reference to the act is found at its place. If the sentence introduces an
abbreviation of the act then that is the one new abbreviation, and if not then there is none. -/
theorem C105_recorded (c : Cache) (s : StructuralSentence) (r r' : StructuralRef) (hs : s.Usual)
    (hi : s.intro.Usual c.allAbbreviations s.rest) (hc : ∀ b a, s.intro.act = .short b a → c.resolve b = some a) (hm : s.Means r)
    (hr : s.Recorded r r') : ReadAs c s r' := by
  obtain ⟨ra, rb, rp, re, rt⟩ := r'
  cases hm with
  | @act i f p end_ b e o hp =>
    have hno : ¬ ∃ q, Container.act = .place q := by simp
    obtain rfl : ra = some i.act.act := hr.act
    obtain rfl : rp = none := hr.parent
    obtain rfl : re = e.toElement := hr.element
    obtain rfl : rb = b := hr.book hno
    obtain rfl : rt = o := hr.titleOnly fun h => hno h.1
    cases f with
    | none =>
      have he : ReplacementEnd end_ := hs.replaced rfl
      have et : StructuralSentence.rest ⟨i, .act, none, p, end_⟩ = ' ' :: p.text ++ (' ' :: end_ ++ str!":") := by
        simp [StructuralSentence.rest, Container.text]
      exact read_tail (par := none) (book := none) hi hc (et ▸ place_continues hp _) hp (.inl ⟨rfl, rfl⟩) (.inl ⟨rfl, rfl⟩)
        (by rw [et, hp.titleOnly]; exact tail_replaced_act hp he)
    | some f =>
      obtain ⟨hf, he, ht⟩ := hs.inserted f rfl
      have et : StructuralSentence.rest ⟨i, .act, some f, p, end_⟩ = ' ' :: f ++ (' ' :: p.text ++ (' ' :: end_ ++ str!":")) := by
        simp [StructuralSentence.rest, Container.text]
      obtain rfl : rt = false := by rw [hp.titleOnly, ht]; rfl
      refine read_tail (par := none) (book := none) hi hc ?_ hp (.inl ⟨rfl, rfl⟩) (.inl ⟨rfl, rfl⟩)
        (by rw [et]; exact tail_inserted_act hp hf he ht)
      rw [et]
      exact ⟨_, rfl, following_noWs hf _, (following_head hf _).mono fun c hc => by subst hc; decide⟩
  | @place i f q p end_ b d e o hq hp =>
    obtain rfl : ra = some i.act.act := hr.act
    obtain rfl : rp = some d := hr.parent
    obtain rfl : re = e.toElement := hr.element
    obtain rfl : rb = none := hr.inBook ⟨q, rfl⟩
    have hpb : p.book = none := by
      cases h : p.book with
      | none => rfl
      | some k =>
        obtain ⟨i, hi, -⟩ := hp.book k h
        cases hi
    cases f with
    | none =>
      have he : ReplacementEnd end_ := hs.replaced rfl
      have et : StructuralSentence.rest ⟨i, .place q, none, p, end_⟩ = ' ' :: q.text ++ (' ' :: p.text ++ (' ' :: end_ ++ str!":")) := by
        simp [StructuralSentence.rest, Container.text]
      refine read_tail (par := some q) (book := none) hi hc (et ▸ place_continues hq _) hp (.inr ⟨q, d, b, rfl, rfl, hq⟩) (.inl ⟨rfl, rfl⟩) ?_
      rw [et]
      refine tail_replaced_place hp hq he (fun h1 h2 => hr.subtitle ⟨⟨q, rfl⟩, (one_subtitle hpb).2 h1, h2⟩) fun h => ?_
      rw [← hp.titleOnly]
      refine hr.titleOnly fun h1 => ?_
      rcases h with h | h
      exacts [(one_subtitle hpb).1 h1.2.1 h, h1.2.2 h]
    | some f =>
      obtain ⟨hf, he, ht⟩ := hs.inserted f rfl
      have et : StructuralSentence.rest ⟨i, .place q, some f, p, end_⟩ = ' ' :: q.text ++ (' ' :: f ++ (' ' :: p.text ++ (' ' :: end_ ++ str!":"))) := by
        simp [StructuralSentence.rest, Container.text]
      obtain rfl : rt = false := by
        by_cases h : StructuralSentence.AboutSubtitle ⟨i, .place q, some f, p, end_⟩
        · exact hr.subtitle h
        · exact (hr.titleOnly h).trans (by show o = false; rw [hp.titleOnly, ht]; rfl)
      exact read_tail (par := some q) (book := none) hi hc (et ▸ place_continues hq _) hp (.inr ⟨q, d, b, rfl, rfl, hq⟩) (.inl ⟨rfl, rfl⟩)
        (by rw [et]; exact tail_inserted_place hp hq hf he ht)
  | @book i f k p end_ b e o hk hp =>
    have hno : ¬ ∃ q, Container.book k = .place q := by simp
    obtain rfl : ra = some i.act.act := hr.act
    obtain rfl : rp = none := hr.parent
    obtain rfl : re = e.toElement := hr.element
    obtain rfl : rb = some b := hr.book hno
    obtain rfl : rt = o := hr.titleOnly fun h => hno h.1
    obtain ⟨hf, he, ht⟩ := hs.inserted f rfl
    obtain rfl : rt = false := by rw [hp.titleOnly, ht]; rfl
    have et : StructuralSentence.rest ⟨i, .book k, some f, p, end_⟩ = ' ' :: k.text ++ (' ' :: f ++ (' ' :: p.text ++ (' ' :: end_ ++ str!":"))) := by
      simp [StructuralSentence.rest, Container.text]
    refine read_tail (par := none) (book := some k) hi hc ?_ hp (.inl ⟨rfl, rfl⟩) (.inr ⟨k, b, rfl, rfl, hk⟩)
      (by rw [et]; exact tail_inserted_book hp hk hf he ht)
    rw [et]
    exact ⟨_, rfl, bookText_noWs hk _, (book_not hk _).mono fun c hc => by
      refine ⟨?_, ?_, ?_, ?_⟩ <;> (rintro rfl; exact hc (by decide))⟩

/-- C105: a sentence which replaces or inserts a part of the structure of an act is read as it is written, as in
`C105_recorded`.

Missing: sentences with a part in a book which contains another part, and those about the title alone of one subtitle in
another part: there the book or the word "címe" is lost, see `C105_violated` and `C105_title`. -/
theorem C105_structural_partial (c : Cache) (s : StructuralSentence) (r : StructuralRef) (hs : s.Usual)
    (hi : s.intro.Usual c.allAbbreviations s.rest) (hc : ∀ b a, s.intro.act = .short b a → c.resolve b = some a) (hm : s.Means r)
    (hbook : ∀ q, s.container = .place q → q.book = none)
    (htitle : s.AboutSubtitle → s.element.title = none) : ReadAs c s r := by
  refine C105_recorded c s r r hs hi hc hm ⟨rfl, rfl, rfl, ?_, fun _ => rfl, fun h => ?_, fun _ => rfl⟩
  · rintro ⟨q, hq⟩
    cases hm with
    | act hp => cases hq
    | place hq' hp => exact hq'.noBook (hbook _ rfl)
    | book hk hp => cases hq
  · have ht := htitle h
    cases hm with
    | act hp => rw [hp.titleOnly]; exact (congrArg Option.isSome ht).trans rfl
    | place hq' hp => rw [hp.titleOnly]; exact (congrArg Option.isSome ht).trans rfl
    | book hk hp => rw [hp.titleOnly]; exact (congrArg Option.isSome ht).trans rfl

/-! ### examples -/

/-- "A közbeszerzésekről szóló 2015. évi CXLIII. törvény" -/
def procurementAct : ActIntro := ⟨str!"A", str!"közbeszerzésekről szóló ", .number ⟨⟨2015, by decide⟩, ⟨143, by decide⟩⟩ str!"törvény", none⟩

theorem procurementAct_usual (rest : Str) : procurementAct.Usual [] rest where
  article := by decide
  words := by unfold Ordinary; decide
  spaced := .inr ⟨str!"közbeszerzésekről szóló", rfl⟩
  start := by decide
  act := by
    exact ⟨by decide, by decide, by decide, .inl ⟨str!"y", rfl, by unfold Ending; decide, by decide⟩⟩
  abbreviations := by intro b hb; cases hb
  known := by intro b a h; cases h
  introduces := by intro x h; cases h

/-- "2015. évi CXLIII. tv." -/
example : (ActName.number ⟨⟨2015, by decide⟩, ⟨143, by decide⟩⟩ str!"tv.").text = str!"2015. évi CXLIII. tv." := by decide +kernel

example : (ActName.number ⟨⟨2015, by decide⟩, ⟨143, by decide⟩⟩ str!"tv.").Usual := ⟨by decide, by decide, by decide, .inr rfl⟩

/-- "III. Fejezet" -/
def thirdChapter : Place := ⟨none, .chapter ⟨3, none⟩ ⟨str!"Fejezet", []⟩, none⟩

theorem thirdChapter_means : thirdChapter.Means none (.chapter ⟨3, none⟩) false where
  noBook _ := rfl
  book _ h := by cases h
  part := .chapter ⟨by decide, fun _ h => by cases h⟩ ⟨by decide, fun _ h => by cases h⟩
  title _ h := by cases h
  titleOnly := rfl

/-- "12/A. alcíme" -/
def subtitle12A : Place := ⟨none, .subtitles (.one ⟨12, some (.latin 0)⟩) ⟨str!"alcím", str!"e"⟩, none⟩

theorem subtitle12A_means : subtitle12A.Means none (.subtitleId ⟨12, some (.latin 0)⟩) false where
  noBook _ := rfl
  book _ h := by cases h
  part := .subtitle (fun c h => by cases h; exact ⟨0, rfl⟩) ⟨by decide, by unfold Ending; decide⟩
  title _ h := by cases h
  titleOnly := rfl

/-- "… III. Fejezet 12/A. alcíme helyébe a következő alcím lép:" -/
example : (⟨procurementAct, .place thirdChapter, none, subtitle12A, str!"helyébe a következő alcím lép"⟩ : StructuralSentence).text =
    str!"A közbeszerzésekről szóló 2015. évi CXLIII. törvény III. Fejezet 12/A. alcíme helyébe a következő alcím lép:" := by decide +kernel

example : ReadAs ⟨[], false⟩ ⟨procurementAct, .place thirdChapter, none, subtitle12A, str!"helyébe a következő alcím lép"⟩
    ⟨some ⟨⟨2015, by decide⟩, ⟨143, by decide⟩⟩, none, some (.chapter ⟨3, none⟩), .subtitleId ⟨12, some (.latin 0)⟩, false⟩ :=
  C105_structural_partial _ _ _ ⟨fun _ => .named (f := str!"a következő") (w := str!"alcím") (.inl rfl) (by decide), fun _ h => by cases h⟩
    (procurementAct_usual _) (fun _ _ h => by cases h) (.place thirdChapter_means subtitle12A_means) (fun _ h => by cases h; rfl) (fun _ => rfl)

/-- "… a következő III. Fejezettel egészül ki:" -/
example : ReadAs ⟨[], false⟩ ⟨procurementAct, .act, some str!"a következő", { thirdChapter with part := .chapter ⟨3, none⟩ ⟨str!"Fejezet", str!"tel"⟩ },
      str!"egészül ki"⟩ ⟨some ⟨⟨2015, by decide⟩, ⟨143, by decide⟩⟩, none, none, .chapter ⟨3, none⟩, false⟩ :=
  C105_structural_partial _ _ _ ⟨fun h => (by cases h), fun f h => (by cases h; exact ⟨.inl rfl, by decide, rfl⟩)⟩
    (procurementAct_usual _) (fun _ _ h => by cases h) (.act (e := .chapter ⟨3, none⟩) ⟨fun _ => rfl, fun _ h => (by cases h),
      .chapter ⟨by decide, fun _ h => by cases h⟩ ⟨by decide, by unfold Ending; decide⟩, fun _ h => (by cases h), rfl⟩)
    (fun _ h => by cases h) (fun _ => rfl)

/-- "A közbeszerzésekről szóló 2015. évi CXLIII. törvény (a továbbiakban: Kbt.)" -/
def shortenedAct : ActIntro := { procurementAct with introduces := some str!"Kbt." }

theorem shortenedAct_usual (rest : Str) : shortenedAct.Usual [] rest where
  article := (procurementAct_usual rest).article
  words := (procurementAct_usual rest).words
  spaced := (procurementAct_usual rest).spaced
  start := (procurementAct_usual rest).start
  act := (procurementAct_usual rest).act
  abbreviations := by intro b hb; cases hb
  known := by intro b a h; cases h
  introduces := by
    intro x h
    cases h
    exact ⟨⟨_, _, rfl⟩, by decide, 'K', rfl, by decide⟩

example : (⟨shortenedAct, .place thirdChapter, none, subtitle12A, str!"helyébe a következő alcím lép"⟩ : StructuralSentence).text =
    str!"A közbeszerzésekről szóló 2015. évi CXLIII. törvény (a továbbiakban: Kbt.) III. Fejezet 12/A. alcíme helyébe a következő alcím lép:" := by
  decide +kernel

example : shortenedAct.new = [(str!"Kbt.", ⟨⟨2015, by decide⟩, ⟨143, by decide⟩⟩)] := rfl

/-- The sentence which introduces the abbreviation. -/
example : ReadAs ⟨[], false⟩ ⟨shortenedAct, .place thirdChapter, none, subtitle12A, str!"helyébe a következő alcím lép"⟩
    ⟨some ⟨⟨2015, by decide⟩, ⟨143, by decide⟩⟩, none, some (.chapter ⟨3, none⟩), .subtitleId ⟨12, some (.latin 0)⟩, false⟩ :=
  C105_structural_partial _ _ _ ⟨fun _ => .named (f := str!"a következő") (w := str!"alcím") (.inl rfl) (by decide), fun _ h => by cases h⟩
    (shortenedAct_usual _) (fun _ _ h => by cases h) (.place thirdChapter_means subtitle12A_means) (fun _ h => by cases h; rfl) (fun _ => rfl)

/-! ### the book of the containing part -/

/-- "Második Könyv III. Fejezet" -/
def thirdChapterOfBook : Place := { thirdChapter with book := some ⟨str!"Második", ⟨str!"Könyv", []⟩⟩ }

theorem thirdChapterOfBook_means : thirdChapterOfBook.Means (some ⟨2, none⟩) (.chapter ⟨3, none⟩) false where
  noBook h := by cases h
  book b h := by cases h; exact ⟨_, rfl, rfl, by decide, by decide, by unfold Ending; decide⟩
  part := thirdChapter_means.part
  title _ h := by cases h
  titleOnly := rfl

/-- C105: "Második Könyv III. Fejezet 12/A. alcíme helyébe" is taken for the subtitle of the third chapter of the act: the
book is lost. -/
theorem C105_violated : ¬ C105_statement := by
  intro h
  have h1 := h ⟨[], false⟩ ⟨procurementAct, .place thirdChapterOfBook, none, subtitle12A, str!"helyébe a következő alcím lép"⟩ _
    ⟨fun _ => .named (f := str!"a következő") (w := str!"alcím") (.inl rfl) (by decide), fun _ h => by cases h⟩
    (procurementAct_usual _) (fun _ _ h => by cases h) (.place thirdChapterOfBook_means subtitle12A_means)
  obtain ⟨x, h2, -, h3, -⟩ := h1
  replace h3 : extractSpecialPhrase ⟨[], false⟩ x = _ := h3
  have h4 : ((parse str!"A közbeszerzésekről szóló 2015. évi CXLIII. törvény Második Könyv III. Fejezet 12/A. alcíme helyébe a következő alcím lép:" []).bind
      fun r => extractSpecialPhrase ⟨[], false⟩ r) = some (some (.structuralBlockAmendment ⟨some ⟨⟨2015, by decide⟩, ⟨143, by decide⟩⟩, none,
        some (.chapter ⟨3, none⟩), .subtitleId ⟨12, some (.latin 0)⟩, false⟩ false)) := by decide +kernel
  have e : (⟨procurementAct, .place thirdChapterOfBook, none, subtitle12A, str!"helyébe a következő alcím lép"⟩ : StructuralSentence).text =
    str!"A közbeszerzésekről szóló 2015. évi CXLIII. törvény Második Könyv III. Fejezet 12/A. alcíme helyébe a következő alcím lép:" := by decide +kernel
  rw [e] at h2
  rw [show (Cache.mk [] false).allAbbreviations = [] from rfl] at h2
  rw [h2, Option.bind_some, h3] at h4
  cases h4

/-- "12/A. alcím címe" -/
def subtitleTitle : Place := ⟨none, .subtitles (.one ⟨12, some (.latin 0)⟩) ⟨str!"alcím", []⟩, some str!"címe"⟩

theorem subtitleTitle_means : subtitleTitle.Means none (.subtitleId ⟨12, some (.latin 0)⟩) true where
  noBook _ := rfl
  book _ h := by cases h
  part := .subtitle (fun c h => by cases h; exact ⟨0, rfl⟩) ⟨by decide, by unfold Ending; decide⟩
  title _ h := by cases h; exact .inl (by decide)
  titleOnly := rfl

/-- C105 without books as well: "III. Fejezet 12/A. alcím címe helyébe a következő rendelkezés lép:" is taken for the
replacement of the whole subtitle. -/
theorem C105_title : ¬ ∀ (c : Cache) (s : StructuralSentence) (r : StructuralRef), s.Usual → s.intro.Usual c.allAbbreviations s.rest →
    (∀ b a, s.intro.act = .short b a → c.resolve b = some a) → s.Means r → (∀ q, s.container = .place q → q.book = none) → ReadAs c s r := by
  intro h
  have hu : StructuralSentence.Usual ⟨procurementAct, .place thirdChapter, none, subtitleTitle, str!"helyébe a következő rendelkezés lép"⟩ :=
    ⟨fun _ => .provision (f := str!"a következő") (w := str!"rendelkezés lép") (.inl rfl) (by decide), fun _ h => by cases h⟩
  obtain ⟨x, h1, -, h2, -⟩ := h ⟨[], false⟩ _ _ hu (procurementAct_usual _) (fun _ _ h => by cases h) (.place thirdChapter_means subtitleTitle_means)
    (fun _ h => by cases h; rfl)
  have habout : StructuralSentence.AboutSubtitle ⟨procurementAct, .place thirdChapter, none, subtitleTitle, str!"helyébe a következő rendelkezés lép"⟩ := by
    refine ⟨⟨_, rfl⟩, trivial, ?_⟩
    rintro ⟨f, w, hf, hw, e⟩
    have e' := congrArg List.reverse e
    simp only [List.mem_cons, List.not_mem_nil, or_false] at hw
    rcases hw with rfl | rfl | rfl | rfl <;> simp at e'
  obtain ⟨y, h3, -, h4, -⟩ := C105_recorded ⟨[], false⟩ _ _ ⟨_, none, _, _, false⟩ hu (procurementAct_usual _) (fun _ _ h => by cases h)
    (.place thirdChapter_means subtitleTitle_means) ⟨rfl, rfl, rfl, fun _ => rfl, fun h => absurd ⟨_, rfl⟩ h, fun _ => rfl, fun h => absurd habout h⟩
  rw [h1] at h3
  cases h3
  rw [h2] at h4
  cases h4

end HunLaw.Props
