import Verif.Lemmas.Attachments
import Verif.Lemmas.Numerals
import Verif.Lemmas.WrittenText
import Verif.Lemmas.Places
import Verif.Lemmas.Announced
import Verif.Lemmas.Introduced

/-! Groups of references and mentions of attachments in running text. -/

set_option autoImplicit false

namespace HunLaw.Grammar

open HunLaw P Spec

variable {α β : Type} {known : List Str}

/-! ### what a separator takes -/

theorem prefix_split {x s r : Str} (h : x <+: s ++ r) : (∃ z, x ++ z = s) ∨ ∃ z, x = s ++ z ∧ z <+: r := by
  rcases prefix_either h with h1 | ⟨z, rfl⟩
  · exact .inl h1
  · exact .inr ⟨z, rfl, (List.prefix_append_right_inj s).1 h⟩

theorem lower_mem {c : Char} (h : isHunLower c = true) : c ∈ lowerLetters := by
  unfold isHunLower at h
  rcases Bool.or_eq_true_iff.1 h with h | h
  · have hall : ∀ k ∈ List.range 123, 97 ≤ k → Char.ofNat k ∈ lowerLetters := by decide +kernel
    unfold lowerAz at h
    rw [Bool.and_eq_true, decide_eq_true_eq, decide_eq_true_eq] at h
    have := hall c.toNat (List.mem_range.2 (by omega)) h.1
    rwa [Char.ofNat_toNat] at this
  · have : ∀ d ∈ str!"éáőúöüóíű", d ∈ lowerLetters := by decide
    exact this c (List.contains_iff_mem.1 h)

/-- A text without its white space. -/
def bare (s : Str) : Str := s.filter fun c => !isWs c

theorem bare_append (a b : Str) : bare (a ++ b) = bare a ++ bare b := List.filter_append ..

theorem bare_ws {a : Str} (h : OnlyWs a) : bare a = [] :=
  List.filter_eq_nil_iff.2 fun c hc => by rw [isWs_iff.2 (h c hc)]; simp

theorem bare_noWs {a : Str} (h : ∀ c ∈ a, isWs c = false) : bare a = a :=
  List.filter_eq_self.2 fun c hc => by rw [h c hc]; rfl

theorem bare_squeezed {s : Str} (h : Ordinary s) : bare s = squeezed s := by
  refine List.filter_congr fun c hc => ?_
  have : ∀ c ∈ lowerLetters ++ upperLetters ++ str!" .,;!?", (!isWs c) = decide (c ≠ ' ') := by decide +kernel
  refine this c ?_
  rcases h c hc with h | h | h <;> simp [h]

/-- A part of a text of words which ends between two words. -/
theorem spaced_prefix {l : List Str} (hl : ∀ w ∈ l, ∀ c ∈ w, isWs c = false) {s o : Str} (h : Spaced l s) (hp : o <+: s)
    (ho : o = s ∨ o = [] ∨ ∃ y c, o = y ++ [c] ∧ isWs c = true) : ∃ k, bare o = (l.take k).flatten := by
  induction l generalizing s o with
  | nil =>
    have : s = [] := h
    subst this
    rw [List.prefix_nil.1 hp]
    exact ⟨0, rfl⟩
  | cons w l ih =>
    obtain ⟨a, r, ha, rfl, hr⟩ := h
    have hw := hl w (List.mem_cons_self ..)
    rcases prefix_split hp with ⟨z, h1⟩ | ⟨z, h1, h2⟩
    · -- inside the word
      rcases prefix_split (show o <+: a ++ w from ⟨z, h1⟩) with ⟨z', h1'⟩ | ⟨z', h1', h2'⟩
      · exact ⟨0, by rw [List.take_zero]; exact bare_ws fun c hc => ha c (by rw [← h1']; exact List.mem_append_left _ hc)⟩
      · subst h1'
        rcases ho with h | h | ⟨y, c, h, hc⟩
        · have := congrArg List.length h
          have h3 := congrArg List.length h1
          simp only [List.length_append] at this h3
          have : r = [] := List.length_eq_zero_iff.1 (by omega)
          have hz : z = [] := List.length_eq_zero_iff.1 (by omega)
          subst hz
          rw [List.append_nil] at h1
          refine ⟨1, ?_⟩
          rw [h1, bare_append, bare_ws ha, bare_noWs hw]; simp
        · simp at h; rw [h.1, h.2]; exact ⟨0, rfl⟩
        · rcases List.eq_nil_or_concat z' with rfl | ⟨z2, d, rfl⟩
          · exact ⟨0, by rw [List.append_nil]; exact bare_ws ha⟩
          · rw [List.concat_eq_append, ← List.append_assoc] at h
            have hd := List.append_inj_right' h rfl
            cases hd
            have : c ∈ w := by
              rw [List.append_assoc] at h1
              have := List.append_cancel_left h1
              rw [← this]; simp
            rw [hw c this] at hc
            cases hc
    · subst h1
      obtain ⟨k, hk⟩ := ih (fun x hx => hl x (List.mem_cons_of_mem _ hx)) hr h2 (by
        rcases ho with h | h | ⟨y, c, h, hc⟩
        · exact .inl (List.append_cancel_left h)
        · simp at h; exact .inr (.inl h.2.2)
        · rcases List.eq_nil_or_concat z with rfl | ⟨z2, d, rfl⟩
          · exact .inr (.inl rfl)
          · rw [List.concat_eq_append, ← List.append_assoc] at h
            have hd := List.append_inj_right' h rfl
            cases hd
            exact .inr (.inr ⟨z2, c, by simp, hc⟩))
      refine ⟨k + 1, ?_⟩
      rw [bare_append, bare_append, bare_ws ha, bare_noWs hw, hk]; simp

/-- The words of separators. -/
def separatorWords : List (List Str) :=
  ((sepMarks.map fun m => [m]) ++ (sepWords.map fun w => [w]) ++ sepMarks.flatMap fun m => sepWords.map fun w => [m, w]).flatMap
    fun l => [l, l ++ [str!"a"], l ++ [str!"az"]]

theorem takes_optAz : Takes optAz fun _ t => t = [] ∨ ∃ w ∈ [str!"a", str!"az"], ∃ s, Spaced [w] s ∧ t = s ++ str!" " := by
  refine Takes.mono (Takes.bind (Takes.opt takes_az.call) fun _ => Takes.pure ()) ?_
  rintro _ t ⟨_, u, v, rfl, h, _, rfl⟩
  rcases h with ⟨_, _, b, u', hb, rfl, h⟩ | ⟨_, rfl⟩
  · right
    rcases h with rfl | rfl
    · exact ⟨str!"a", by simp, b ++ str!"a", spaced_one hb, by simp⟩
    · exact ⟨str!"az", by simp, b ++ str!"az", spaced_one hb, by simp⟩
  · exact .inl rfl

theorem takes_separator : Takes listSeparator fun _ t =>
    ∃ l ∈ separatorWords, ∃ s e, t = s ++ e ∧ Spaced l s ∧ (e = [] ∨ e = str!" ") := by
  have h1 : Takes ((do
      let _ ← opt (toks [str!",", str!";"])
      toks [str!"és", str!"valamint", str!"illetve", str!"vagy"]) <|> toks [str!",", str!";"])
      fun _ t => ∃ l ∈ (sepMarks.map fun m => [m]) ++ (sepWords.map fun w => [w]) ++ sepMarks.flatMap fun m => sepWords.map fun w => [m, w],
        Spaced l t := by
    refine Takes.alt (Takes.mono (Takes.bind (Takes.opt (Takes.toks _)) fun _ => Takes.toks _) ?_) (Takes.mono (Takes.toks _) ?_)
    · rintro _ t ⟨_, u, v, rfl, h, w, hw, hv⟩
      have hw : w ∈ sepWords := hw
      rcases h with ⟨_, _, m, hm, hu⟩ | ⟨_, rfl⟩
      · refine ⟨[m, w], List.mem_append_right _ (List.mem_flatMap.2 ⟨m, hm, List.mem_map.2 ⟨w, hw, rfl⟩⟩), spaced_append hu hv⟩
      · exact ⟨[w], List.mem_append_left _ (List.mem_append_right _ (List.mem_map.2 ⟨w, hw, rfl⟩)), hv⟩
    · rintro _ t ⟨w, hw, hv⟩
      exact ⟨[w], List.mem_append_left _ (List.mem_append_left _ (List.mem_map.2 ⟨w, hw, rfl⟩)), hv⟩
  refine Takes.mono (Takes.bind h1 fun _ => takes_optAz) ?_
  rintro _ t ⟨_, u, v, rfl, ⟨l, hl, hu⟩, hv⟩
  rcases hv with rfl | ⟨w, hw, s, hs, rfl⟩
  · exact ⟨l, List.mem_flatMap.2 ⟨l, hl, by simp⟩, u, [], rfl, hu, .inl rfl⟩
  · refine ⟨l ++ [w], List.mem_flatMap.2 ⟨l, hl, ?_⟩, u ++ s, str!" ", by simp, spaced_append hu hs, .inr rfl⟩
    simp only [List.mem_cons, List.not_mem_nil, or_false] at hw
    rcases hw with rfl | rfl <;> simp

theorem separatorWords_ok : ∀ l ∈ separatorWords, (∀ w ∈ l, ∀ c ∈ w, isWs c = false) ∧
    ∀ k < 4, (l.take k).flatten ∈ [] :: separators.map squeezed := by decide +kernel

theorem separatorWords_len : ∀ l ∈ separatorWords, l.length ≤ 3 := by decide +kernel

/-- A separator does not take all of words which are not one. -/
theorem separator_inside {o R : Str} (ho : Ordinary o) (he : ∃ y, o = y ++ str!" ") (hs : squeezed o ∉ [] :: separators.map squeezed)
    {n : Nat} {a : Unit} {j : Inp} (h : (call listSeparator).run ⟨n, o ++ R⟩ = some (a, j)) :
    ∃ t v, o = t ++ v ∧ j.rest = v ++ R ∧ skipWs v ≠ [] := by
  rw [listSeparator_call] at h
  obtain ⟨t, e, l, hl, s, b, rfl, hsp, hb⟩ := takes_separator _ _ _ h
  obtain ⟨hw, hk⟩ := separatorWords_ok l hl
  obtain ⟨y, hy⟩ := he
  have key : ∀ x, x <+: s → (x = s ∨ x = [] ∨ ∃ y c, x = y ++ [c] ∧ isWs c = true) → bare x ∈ [] :: separators.map squeezed := by
    intro x hx hx'
    obtain ⟨k, e⟩ := spaced_prefix hw hsp hx hx'
    rw [e]
    rcases Nat.lt_or_ge k 4 with h | h
    · exact hk k h
    · have := separatorWords_len l hl
      rw [List.take_of_length_le (by omega)]
      have := hk 3 (by decide)
      rwa [List.take_of_length_le (by assumption)] at this
  have hbb : bare b = [] := by rcases hb with rfl | rfl <;> rfl
  have e : o ++ R = (s ++ b) ++ j.rest := e
  have hbad : ¬ o <+: s := fun hp => hs (by
    rw [← bare_squeezed ho]
    exact key o hp (.inr (.inr ⟨y, ' ', hy, by decide⟩)))
  rcases prefix_split (show o <+: (s ++ b) ++ j.rest from ⟨R, e⟩) with ⟨z, h1⟩ | ⟨z, h1, h2⟩
  · rcases prefix_split (show o <+: s ++ b from ⟨z, h1⟩) with ⟨z', h1'⟩ | ⟨z', h1', h2'⟩
    · exact absurd ⟨z', h1'⟩ hbad
    · -- all of the separator
      subst h1'
      refine absurd ?_ hs
      rw [← bare_squeezed ho, bare_append]
      have : bare z' = [] := by
        obtain ⟨q, hq⟩ := h2'
        rw [← hq, bare_append] at hbb
        exact (List.append_eq_nil_iff.1 hbb).1
      rw [this, List.append_nil]
      exact key s (List.prefix_rfl) (.inl rfl)
  · subst h1
    refine ⟨s ++ b, z, rfl, ?_, fun hz => ?_⟩
    · rw [List.append_assoc (s ++ b)] at e
      exact (List.append_cancel_left e).symm
    · refine absurd ?_ hs
      rw [← bare_squeezed ho, bare_append, bare_append, hbb, List.append_nil]
      have hbz : bare z = [] := by
        obtain ⟨w, hw, e⟩ := skipWs_split z
        rw [hz, List.append_nil] at e
        rw [e]
        exact bare_ws fun c hc => isWs_iff.1 (hw c hc)
      rw [hbz, List.append_nil]
      exact key s (List.prefix_rfl) (.inl rfl)

/-! ### what is after a group -/

theorem skipWs_end {y : Str} {v : Str} (hv : v = y ++ [' ']) (h : skipWs v ≠ []) : ∃ c ∈ skipWs v, lowerAz c = false := by
  obtain ⟨w, -, e⟩ := skipWs_split v
  rcases List.eq_nil_or_concat (skipWs v) with h' | ⟨z, d, h'⟩
  · exact absurd h' h
  · rw [List.concat_eq_append] at h'
    rw [h', hv, ← List.append_assoc] at e
    have := List.append_inj_right' e rfl
    cases this
    exact ⟨' ', by rw [h']; simp, by decide⟩

/-- Words before something are not a level of a reference. -/
theorem noLevel_between {v R : Str} (ho : Ordinary v) (he : ∃ y, v = y ++ str!" ") (hv : skipWs v ≠ [])
    (hR : Head (fun c => c ≠ ')' ∧ isDashChar c = false) (skipWs R)) : NoLevel (v ++ R) := by
  obtain ⟨y, hy⟩ := he
  have hsk : skipWs (v ++ R) = skipWs v ++ R := skipWs_append_of hv
  have hh : ∀ {f : Char → Prop}, (∀ c ∈ skipWs v, f c) → Head f (skipWs v ++ R) := by
    intro f hf
    cases hs : skipWs v with
    | nil => exact absurd hs hv
    | cons c r => exact .cons (hf c (by rw [hs]; simp))
  refine .of_head ?_ ?_ ?_ <;> rw [hsk]
  · exact hh fun c hc => (ordinary_char (ho.skip c hc)).2.1
  · exact hh fun c hc => (ordinary_char (ho.skip c hc)).2.2.1
  · exact noMark_text (fun c hc => (ordinary_char (ho.skip c hc)).1) (.inr (skipWs_end hy hv)) hR

/-- Words after a group, before something else. -/
theorem tailing_words {o R : Str} (ho : Ordinary o) (hl : ∀ c, o.head? = some c → c ∉ lowerLetters) (he : ∃ y, o = y ++ str!" ")
    (hs : squeezed o ∉ [] :: separators.map squeezed)
    (hR : Head (fun c => c ≠ ')' ∧ isDashChar c = false) (skipWs R)) : Tailing (o ++ R) := by
  have hne : skipWs o ≠ [] := by
    intro h
    obtain ⟨w, hw, e⟩ := skipWs_split o
    rw [h, List.append_nil] at e
    refine hs ?_
    rw [← bare_squeezed ho, e, bare_ws fun c hc => isWs_iff.1 (hw c hc)]
    simp
  refine ⟨⟨⟨?_, ?_⟩, noLevel_between ho he hne hR⟩, fun n => ?_⟩
  · obtain ⟨y, hy⟩ := he
    intro c hc
    cases hoo : o with
    | nil => rw [hoo] at hne; exact absurd rfl hne
    | cons d r =>
      rw [hoo] at hc hl
      simp at hc; subst hc
      have := hl d rfl
      cases hlow : isHunLower d
      · rfl
      · exact absurd (lower_mem hlow) this
  · rw [skipWs_append_of hne]
    cases hsk : skipWs o with
    | nil => exact absurd hsk hne
    | cons c r => exact .cons (ordinary_char (ho.skip c (by rw [hsk]; simp))).1.2
  · rcases hp : (call listSeparator).run ⟨n, o ++ R⟩ with _ | ⟨a, j⟩
    · exact Fails.bind hp
    · obtain ⟨t, v, e, hj, hv⟩ := separator_inside ho he hs hp
      obtain ⟨c, h1, h2⟩ := (call listSeparator).adv _ _ _ hp
      have h1 : o ++ R = c ++ j.rest := h1
      have h3 : Reads (call listSeparator) n c j.rest a := by
        unfold Reads; rw [← h1, hp]; congr 2; cases j; simp_all
      rw [h1]
      refine Fails.bind_of h3 (fails_call_reference ?_)
      rw [hj]
      refine noLevel_between (by rw [e] at ho; exact ho.tail) ?_ hv hR
      obtain ⟨y, hy⟩ := he
      rcases List.eq_nil_or_concat v with h' | ⟨z, d, h'⟩
      · exact absurd (by rw [h']; rfl) hv
      · rw [List.concat_eq_append] at h'
        rw [e, h', ← List.append_assoc] at hy
        have := List.append_inj_right' hy rfl
        exact ⟨z, by rw [h', this]⟩

/-! ### attachments -/

theorem attachment_start {a : Attachment} (ha : a.Usual) (r : Str) : PhraseStart (a.text ++ r) := by
  rw [attachment_text, List.append_assoc]
  obtain ⟨r', e, h⟩ := words_others (span := dottedSpan) (word := ' ' :: attachmentWord a) ha.numbers (placesText a.places ++ r)
  rw [e]
  refine dotted_start (w := attachmentWord a) (r' := (Classical.choose (α := Str) (p := fun x => Joined r' ∨ r' = ' ' :: attachmentWord a ++ x) ?_)) ha.numbers.1 (attachmentWord_noWs a) (attachmentWord_ne a) ?_ (Classical.choose_spec (p := fun x => Joined r' ∨ r' = ' ' :: attachmentWord a ++ x) _)
  · rcases h with h | ⟨r'', h⟩
    · exact ⟨[], .inl h⟩
    · exact ⟨r'', .inr h⟩
  · rcases attachmentWord_cases a with h | h <;> rw [h] <;> exact .cons (by decide)

/-- A mention of attachments and words after it. -/
theorem found_attachment {a : Attachment} (ha : a.Usual) {post : Str} {out : List CompoundReference}
    (hlow : Head (isHunLower · = false) post) (hend : a.Ended post)
    (hno : parseAbbreviation known (a.text ++ post) = none)
    {N : Nat} (h : Found known (N + byteLen a.text) post out) :
    ∀ w m, (∀ c ∈ w, isWs c = true) → m + byteLen w = N → Found known m (w ++ (a.text ++ post)) out := by
  intro w m hw hN
  obtain ⟨t, u, l, e, hu, hread, hout⟩ := h
  obtain ⟨c, r, ea, hcd⟩ := attachment_head a post
  have hcw := digit_noWs hcd
  have hnw : NoWs (a.text ++ post) := by rw [ea]; exact noWs_cons hcw
  have hact : ∀ n, FailsS known (PS.call actReference) n (a.text ++ post) := fun n =>
    fails_actReference (fun n => by rw [skipWs_noWs hnw]; exact fails_actId_start (attachment_start ha post))
      (by rw [skipWs_noWs hnw]; exact hno)
  have hstep : ReadsS known (PS.call simpleExpression) m (w ++ a.text) post .attachment := by
    refine ReadsS.call_ws hw hnw ?_
    refine ReadsS.right (FailsS.bind (FailsS.lift (Fails.call_noWs hnw fun n => fails_quote ?_))) ?_
    · rw [skipWs_noWs hnw, ea]; refine .cons ?_; rintro rfl; revert hcd; decide
    refine ReadsS.right (FailsS.bind (FailsS.call_noWs hnw fun n => ?_)) ?_
    · refine FailsS.alt ?_ (FailsS.bind (hact n))
      exact FailsS.bind_of (t := []) (ReadsS.opt_none (hact n)) (FailsS.bind (FailsS.lift (fails_call_reference (attachment_noLevel ha post))))
    exact ReadsS.left (ReadsS.map (g := fun _ => SimpleExpression.attachment) (ReadsS.lift (Reads.call hnw (reads_attachment ha hlow hend _))))
  refine ⟨w ++ a.text ++ t, u, .attachment :: l, by rw [e]; simp, hu, ?_, hout⟩
  rw [e] at hstep
  refine RunsS.many_cons ?_ hstep.steps ?_
  · intro h
    have : a.text = [] := (List.append_eq_nil_iff.1 h).2
    obtain ⟨c', r', ea', -⟩ := attachment_head a []
    rw [this] at ea'; cases ea'
  · rw [byteLen_append', ← Nat.add_assoc, hN]
    exact hread

/-! ### quotations -/

theorem quoted_noLevel (s r : Str) : NoLevel (str!"„" ++ s ++ str!"”" ++ r) := by
  have e : skipWs (str!"„" ++ s ++ str!"”" ++ r) = '„' :: (s ++ str!"”" ++ r) := skipWs_cons (by decide)
  refine .of_head ?_ ?_ ?_ <;> rw [e]
  · exact .cons (by decide)
  · exact .cons (by decide)
  · exact noMark_head (.cons (by decide))

theorem found_quoted {s : Str} (hs : QuotedUsual s) {post : Str} {out : List CompoundReference}
    {N : Nat} (h : Found known (N + byteLen (str!"„" ++ s ++ str!"”")) post out) :
    ∀ w m, (∀ c ∈ w, isWs c = true) → m + byteLen w = N → Found known m (w ++ (str!"„" ++ s ++ str!"”" ++ post)) out := by
  intro w m hw hN
  obtain ⟨t, u, l, e, hu, hread, hout⟩ := h
  have hnw : NoWs (str!"„" ++ s ++ str!"”" ++ post) := noWs_cons (by decide)
  have hstep : ReadsS known (PS.call simpleExpression) m (w ++ (str!"„" ++ s ++ str!"”")) post (.quote s) :=
    ReadsS.call_ws hw hnw (ReadsS.left (ReadsS.map (g := SimpleExpression.quote) (ReadsS.lift (Reads.call hnw (by
      rw [List.append_assoc]; exact reads_quote hs)))))
  refine ⟨w ++ (str!"„" ++ s ++ str!"”") ++ t, u, .quote s :: l, by rw [e]; simp, hu, ?_, hout⟩
  rw [e] at hstep
  refine RunsS.many_cons (by simp) hstep.steps ?_
  rw [byteLen_append', ← Nat.add_assoc, hN]
  exact hread

/-! ### running text -/

theorem closing_head {last : Str} (hi : (PassageItem.closing last).Usual) (h : last ≠ []) :
    ∃ c r, last = c :: r ∧ (c ∈ lowerLetters ∨ c ∈ upperLetters) := by
  rcases hi with hi | hi
  · exact absurd hi h
  · cases last with
    | nil => exact absurd rfl h
    | cons c r => exact ⟨c, r, rfl, hi.2 c (List.mem_cons_self ..)⟩

theorem item_head {i : PassageItem} (hi : i.Usual) (hne : i ≠ .closing []) : ∃ c r, i.text = c :: r ∧ isWs c = false ∧ c ≠ ')' ∧ isDashChar c = false := by
  cases i with
  | group g =>
    obtain ⟨c, r, e, h1, -, h2⟩ := group_head hi
    exact ⟨c, r, e, h1, h2⟩
  | introducing a word colon name references =>
    obtain ⟨c, r, e, h1, h2, h3⟩ := act_head (hi.1.act _ rfl)
    exact ⟨c, r ++ (introducedAs colon name ++ refsText references), by rw [PassageItem.text, e]; simp [refsText], h1, h2⟩
  | attachment a =>
    obtain ⟨c, r, e, h⟩ := attachment_head a []
    rw [List.append_nil] at e
    refine ⟨c, r, e, digit_noWs h, ?_, ?_⟩
    · rintro rfl; revert h; decide
    · cases hd : isDashChar c
      · rfl
      · exact absurd h (by rw [(by decide : ∀ c ∈ str!"−–-", isDigit c = false) c (by simpa [isDashChar] using hd)]; decide)
  | quoted s => exact ⟨'„', s ++ str!"”", rfl, by decide, by decide, by decide⟩
  | number k ending =>
    obtain ⟨c, r, e, h⟩ := dec_head k ending
    refine ⟨c, r, e, digit_noWs h, ?_, ?_⟩
    · rintro rfl; revert h; decide
    · cases hd : isDashChar c
      · rfl
      · exact absurd h (by rw [(by decide : ∀ c ∈ str!"−–-", isDigit c = false) c (by simpa [isDashChar] using hd)]; decide)
  | aside words last => exact ⟨'(', words ++ last ++ str!")", rfl, by decide, by decide, by decide⟩
  | opening => exact ⟨'(', [], rfl, by decide, by decide, by decide⟩
  | closing last =>
    obtain ⟨c, r, rfl, hc⟩ := closing_head hi (by rintro rfl; exact hne rfl)
    have := letters_char hc
    exact ⟨c, r ++ str!")", rfl, this.1, this.2.2.2.2.1, this.2.2.2.2.2.1⟩

theorem number_ended {k : Nat} {ending : Str} {l : List (Str × PassageItem)} {after : Str} (h : passageUsual (.number k ending) l after) :
    NumberEnded ending (passageText l after) := by
  cases l with
  | nil => exact h.2.2
  | cons x l =>
    obtain ⟨o, j⟩ := x
    obtain ⟨hj, ⟨h1, h2, h3, h4⟩, -⟩ := h
    cases j <;> exact h4

theorem number_after {k : Nat} {ending post : Str} (he : (PassageItem.number k ending).Usual) (hend : NumberEnded ending post) :
    AfterNumber (ending ++ post) := by
  rcases he with rfl | ⟨e, rfl, h1, h2⟩
  · exact numberEnded_after hend
  · exact ending_after h1 h2 post

theorem aside_noLevel {words last : Str} (h : (PassageItem.aside words last).Usual) (o r : Str) (ho : o = [] ∨ o = str!" ") :
    NoLevel (o ++ ((PassageItem.aside words last).text ++ r)) := by
  refine NoLevel.of_aside (r := words ++ last ++ ')' :: r) ?_ (aside_words h.1 h.2.2.1 h.2.2.2.1 h.2.2.2.2)
  have e : (PassageItem.aside words last).text ++ r = '(' :: (words ++ last ++ ')' :: r) := by simp [PassageItem.text]
  rw [e]
  exact skipWs_sp ho (noWs_cons (by decide))

/-- The number of an act is not the continuation of a reference. -/
theorem number_start {a : ActId} {word : Str} (hu : (ActName.number a word).Usual) (t : Str) :
    ItemStart ((ActName.number a word).text ++ t) ∧ NoLevel ((ActName.number a word).text ++ t) := by
  obtain ⟨t', e'⟩ : ∃ t', (ActName.number a word).text ++ t = dec a.year.val.toNat ++ '.' :: ' ' :: 'é' :: 'v' :: t' :=
    ⟨_, by simp only [ActName.text, decInt_nonneg hu.1, List.append_assoc, List.cons_append]; rfl⟩
  rw [e']
  obtain ⟨c, u, e, hc⟩ := dec_head a.year.val.toNat ('.' :: ' ' :: 'é' :: 'v' :: t')
  refine ⟨itemStart_of_head (c := c) (by rw [e]; rfl) (digit_noWs hc) ?_, number_noLevel (.inr ⟨_, rfl, ?_, ?_⟩) _⟩
  · refine ⟨?_, ?_, ?_, ?_⟩ <;> (rintro rfl; revert hc; decide)
  · rw [skipWs_space (by decide)]
    intro w hw h
    have hall : ∀ w ∈ sepMarks ++ sepWords, ¬ w <+: str!"év" ∧ ¬ str!"év" <+: w := by decide +kernel
    exact not_prefix_words (r := t') (hall w hw).1 (hall w hw).2 h
  · rw [skipWs_space (by decide)]
    intro w hw h
    have hall : ∀ w ∈ [str!"§", str!"pont", str!"alpont"], ¬ w <+: str!"év" ∧ ¬ str!"év" <+: w := by decide +kernel
    exact not_prefix_words (r := t') (hall w hw).1 (hall w hw).2 h

/-- A group which names its act is not the continuation of another one. -/
theorem ofAct_start {g : PhraseGroup} (hg : g.Usual) (h : g.OfAct) (r : Str) : ItemStart (g.text ++ r) ∧ NoLevel (g.text ++ r) := by
  obtain ⟨a, ha, hs⟩ := h
  have e : ∃ t, g.text ++ r = a.text ++ t := ⟨_, by rw [PhraseGroup.text, ha, Option.map_some, Option.getD_some, List.append_assoc]⟩
  obtain ⟨t, e⟩ := e
  rw [e]
  have hu := hg.act a ha
  cases a with
  | number a word => exact number_start hu t
  | short s x =>
    obtain ⟨c, hc, hup⟩ := hs s x rfl
    cases s with
    | nil => cases hc
    | cons d s =>
      cases hc
      have hall : ∀ c ∈ upperLetters, isHunUpper c = true ∧ isWs c = false ∧ c ≠ 'é' ∧ c ≠ 'v' ∧ c ≠ 'i' ∧ c ≠ 'a' := by decide +kernel
      have := hall _ hup
      exact ⟨itemStart_of_head rfl this.2.1 this.2.2, noLevel_upper (.inl this.1)⟩

theorem digit_mem {c : Char} (h : isDigit c = true) : c ∈ str!"0123456789" := by
  rw [isDigit_iff] at h
  rw [← Char.ofNat_toNat c]
  obtain ⟨h1, h2⟩ := h
  generalize c.toNat = n at *
  have : n = 48 ∨ n = 49 ∨ n = 50 ∨ n = 51 ∨ n = 52 ∨ n = 53 ∨ n = 54 ∨ n = 55 ∨ n = 56 ∨ n = 57 := by omega
  rcases this with rfl | rfl | rfl | rfl | rfl | rfl | rfl | rfl | rfl | rfl <;> decide

theorem opened_aside {s : Str} (h : Opened s) : Aside s := by
  have hns : skipWs s = s := by
    refine skipWs_noWs ?_
    rcases h.number with h | ⟨k, c, r, hs, -⟩
    · intro c hc
      by_cases hw : isWs c = true
      · exact absurd (List.mem_append_left str!"0123456789" (isWs_iff.1 hw)) (h c hc)
      · simpa using hw
    · rw [hs]; exact noWs_dec _ _
  refine ⟨?_, fun u hu hp => h.short ?_⟩
  · rcases h.number with h | ⟨k, c, r, hs, h⟩
    · refine .inl ?_
      cases s with
      | nil => exact .nil
      | cons c s =>
        have hc := h c rfl
        have hd : isDigit c = false := by
          cases hd : isDigit c
          · rfl
          · exact absurd (List.mem_append_right [' ', '\t', '\n', '\r', '\x0c'] (digit_mem hd)) hc
        by_cases hw : isWs c = true
        · exact absurd (List.mem_append_left str!"0123456789" (isWs_iff.1 hw)) hc
        · rw [skipWs_cons (by simpa using hw)]; exact .cons hd
    · rw [hs]
      clear hs
      refine .inr ⟨k, c :: r, skipWs_noWs (noWs_dec _ _), ?_, ?_⟩
      · refine .cons ?_
        rcases h with h | ⟨rfl, -⟩
        · exact (by decide : ∀ c ∈ str!".:/,;–-", isDigit c = false ∧ lowerAz c = false) c h
        · decide
      · rcases h with h | ⟨rfl, h⟩
        · have := (by decide : ∀ c ∈ str!".:/,;–-", isWs c = false ∧ c ≠ ')') c h
          rw [skipWs_cons this.1]; exact .cons this.2
        · cases r with
          | nil => exact .nil
          | cons d r =>
            have hall : ∀ c ∈ lowerLetters ++ upperLetters ++ str!"0123456789(„", isWs c = false ∧ c ≠ ')' := by decide +kernel
            have := hall d (by rcases h d rfl with h | h | h <;> simp [h])
            rw [skipWs_space this.1]; exact .cons this.2
  · rw [hns] at hu
    obtain ⟨w, hw, e⟩ := skipWs_split u
    obtain ⟨r, hr⟩ := hp
    exact ⟨w, r, by rw [hu, hr, ← e], fun c hc => isWs_iff.1 (hw c hc)⟩

theorem opening_noLevel {s : Str} (h : Opened s) (o : Str) (ho : o = [] ∨ o = str!" ") : NoLevel (o ++ (str!"(" ++ s)) :=
  NoLevel.of_aside (r := s) (skipWs_sp ho (noWs_cons (by decide))) (opened_aside h)

theorem opened_of {l : List (Str × PassageItem)} {after : Str} (h : passageUsual .opening l after) : Opened (passageText l after) := by
  cases l with
  | nil => exact h.2.2
  | cons x l =>
    obtain ⟨o, j⟩ := x
    obtain ⟨hj, ⟨h1, h2, h3, h4⟩, -⟩ := h
    cases j <;> exact h4

theorem item_itemStart {i : PassageItem} (hi : i.Usual) (hg : ∀ g, i = .group g → g.OfAct) (hcl : ∀ s, i ≠ .closing s) {l : List (Str × PassageItem)} {after : Str}
    (hl : passageUsual i l after) : ItemStart (i.text ++ passageText l after) ∧ NoLevel (i.text ++ passageText l after) := by
  cases i with
  | group g => exact ofAct_start hi (hg g rfl) _
  | introducing a word colon name references =>
    rw [PassageItem.text, List.append_assoc, List.append_assoc]
    exact number_start (hi.1.act _ rfl) _
  | attachment a => exact ⟨(attachment_start hi _).itemStart, attachment_noLevel hi _⟩
  | quoted s => exact ⟨itemStart_of_head (c := '„') rfl (by decide) (by decide), quoted_noLevel s _⟩
  | number k ending =>
    have h := number_after hi (number_ended hl)
    rw [PassageItem.text, List.append_assoc]
    exact ⟨(h.start k).itemStart, h.noLevel k⟩
  | aside words last => exact ⟨itemStart_of_head (c := '(') rfl (by decide) (by decide), aside_noLevel hi [] _ (.inl rfl)⟩
  | opening => exact ⟨itemStart_of_head (c := '(') rfl (by decide) (by decide), opening_noLevel (opened_of hl) [] (.inl rfl)⟩
  | closing last => exact absurd rfl (hcl last)

theorem item_mark {i : PassageItem} (hi : i.Usual) (hne : i ≠ .closing []) (r : Str) : Head (fun c => c ≠ ')' ∧ isDashChar c = false) (skipWs (i.text ++ r)) := by
  obtain ⟨c, t, e, h1, h2⟩ := item_head hi hne
  rw [e, List.cons_append, skipWs_cons h1]
  exact .cons h2

theorem head_lower {s : Str} (h : ∀ c, s.head? = some c → c ∉ lowerLetters) : Head (isHunLower · = false) s := fun c hc => by
  cases hl : isHunLower c
  · exact hl
  · exact absurd (lower_mem hl) (h c hc)

theorem passage_lower {a : Attachment} {l : List (Str × PassageItem)} {after : Str} (h : passageUsual (.attachment a) l after) :
    Head (isHunLower · = false) (passageText l after) := by
  cases l with
  | nil => exact head_lower (h.2.1.resolve_left (by simp))
  | cons x l =>
    obtain ⟨o, j⟩ := x
    obtain ⟨-, ⟨-, h, h3, -⟩, -⟩ := h
    obtain ⟨y, hy⟩ : ∃ y, o = y ++ str!" " := by
      rcases h3 with h3 | h3
      · exact h3.1
      · cases j <;> exact h3.2.elim
    have h := head_lower (h.resolve_left (by simp))
    intro c hc
    refine h c ?_
    rw [passageText] at hc
    subst hy
    cases y <;> simpa using hc

theorem passage_tailing {g : PhraseGroup} {l : List (Str × PassageItem)} {after : Str} (h : passageUsual (.group g) l after) :
    Tailing (passageText l after) := by
  cases l with
  | nil => exact tailing_ordinary h.1 (head_lower (h.2.1.resolve_left (by simp)))
  | cons x l =>
    obtain ⟨o, j⟩ := x
    obtain ⟨hj, ⟨h1, h2, h3, h4⟩, hl⟩ := h
    replace h2 := h2.resolve_left (by simp)
    rw [passageText]
    by_cases hclose : o = [] ∧ ∃ last, j = .closing last
    · obtain ⟨rfl, last, rfl⟩ := hclose
      obtain rfl : last = [] := by
        rcases h3 with ⟨⟨y, hy⟩, -⟩ | h3
        · simp at hy
        · exact h3.2
      have hs : skipWs ([] ++ ((PassageItem.closing []).text ++ passageText l after)) = ')' :: passageText l after := skipWs_cons (by decide)
      refine ⟨⟨⟨.cons (by decide), ?_⟩, .of_head ?_ ?_ (noMark_head ?_)⟩, fun n => Fails.bind (fails_listSeparator ?_)⟩ <;> rw [hs] <;> exact .cons (by decide)
    have h3' : (∃ y, o = y ++ str!" ") ∧ j ≠ .closing [] := by
      rcases h3 with h3 | h3
      · exact h3
      · refine absurd ?_ hclose
        cases j <;> first | exact h3.2.elim | exact ⟨h3.1, _, rfl⟩
    clear h3
    obtain ⟨h3, hne⟩ := h3'
    have key : (∀ g, j = .group g → g.OfAct) → (∀ s, j ≠ .closing s) → o ∈ separators ∨ squeezed o ∉ [] :: separators.map squeezed → Tailing (o ++ (j.text ++ passageText l after)) := by
      rintro hg hcl (h4 | h4)
      · obtain ⟨hs, hn⟩ := item_itemStart hj hg hcl hl
        exact ⟨separator_noLevel h4 (item_mark hj hne _), fun n => fails_separated h4 hs fun n => hn.reference⟩
      · exact tailing_words h1 h2 h3 h4 (item_mark hj hne _)
    cases j with
    | group g' =>
      rcases h4 with ⟨h4, ha⟩ | h4
      · exact key (fun g e => by cases e; exact ha) (by simp) (.inl h4)
      · exact tailing_words h1 h2 h3 h4 (item_mark hj hne _)
    | introducing a word colon name references => exact key (by simp) (by simp) h4
    | attachment a => exact key (by simp) (by simp) h4
    | quoted s => exact key (by simp) (by simp) h4
    | number k ending => exact key (by simp) (by simp) h4
    | opening =>
      rcases h4 with rfl | h4
      · have hn := opening_noLevel (opened_of hl) str!" " (.inr rfl)
        have hr : skipWs (str!" " ++ (PassageItem.opening.text ++ passageText l after)) = '(' :: passageText l after := skipWs_space (by decide)
        refine ⟨⟨⟨.cons (by decide), ?_⟩, hn⟩, fun n => Fails.bind (fails_listSeparator ?_)⟩ <;> rw [hr] <;> exact .cons (by decide)
      · exact key (by simp) (by simp) h4
    | closing last =>
      rcases h4 with rfl | ⟨rfl, h4⟩ | h4
      · obtain ⟨y, hy⟩ := h3
        simp at hy
      · have hlast : last ≠ [] := by rintro rfl; exact hne rfl
        obtain ⟨h5, h6⟩ := Or.resolve_left hj hlast
        obtain ⟨c, r, rfl, hc⟩ := closing_head hj hlast
        have hc := letters_char hc
        have hs : skipWs (str!" " ++ ((PassageItem.closing (c :: r)).text ++ passageText l after)) = c :: r ++ ')' :: passageText l after := by
          rw [PassageItem.text, List.append_assoc]; exact skipWs_space hc.1
        refine ⟨⟨⟨.cons (by decide), ?_⟩, last_noLevel h5 h6 hs⟩, fun n => Fails.bind (fails_listSeparator_words ?_)⟩
        · rw [hs]; exact .cons hc.2.2.2.2.2.1
        · rw [hs]
          intro w hw hp
          have hin : ')' ∉ w := (by decide : ∀ w ∈ sepMarks ++ sepWords, ')' ∉ w) w hw
          have hp : w <+: c :: r := by
            rcases Nat.lt_or_ge (c :: r).length w.length with hlt | hle
            rotate_left
            · exact List.prefix_of_prefix_length_le hp (List.prefix_append ..) hle
            · have hq : c :: r ++ str!")" <+: w := by
                refine List.prefix_of_prefix_length_le (l₃ := c :: r ++ ')' :: passageText l after) ⟨passageText l after, by simp⟩ hp ?_
                rw [List.length_append]; exact hlt
              exact absurd (hq.subset (by simp)) hin
          rcases List.mem_append.1 hw with hw | hw
          · have hall : ∀ c ∈ lowerLetters ++ upperLetters, ∀ w ∈ sepMarks, w.head? ≠ some c := by decide +kernel
            have hne := hall c (List.mem_append.2 (h6 c (List.mem_cons_self ..))) w hw
            cases w with
            | nil => exact absurd hw (by decide)
            | cons d v => exact hne (by rw [(List.cons_prefix_cons.1 hp).1]; rfl)
          · exact h4 w hw hp
      · exact tailing_words h1 h2 h3 h4 (item_mark hj hne _)
    | aside words last =>
      rcases h4 with rfl | h4
      · have hn := aside_noLevel hj str!" " (passageText l after) (.inr rfl)
        have hsk : ∃ r, skipWs (str!" " ++ ((PassageItem.aside words last).text ++ passageText l after)) = '(' :: r :=
          ⟨_, skipWs_space (by decide)⟩
        obtain ⟨r, hr⟩ := hsk
        refine ⟨⟨⟨.cons (by decide), ?_⟩, hn⟩, fun n => Fails.bind (fails_listSeparator ?_)⟩ <;> rw [hr] <;> exact .cons (by decide)
      · exact key (by simp) (by simp) h4

theorem passage_ended {a : Attachment} {l : List (Str × PassageItem)} {after : Str} (h : passageUsual (.attachment a) l after) :
    a.Ended (passageText l after) := by
  cases l with
  | nil => exact h.2.2
  | cons x l =>
    obtain ⟨o, j⟩ := x
    obtain ⟨hj, ⟨h1, h2, h3, h4⟩, -⟩ := h
    cases j <;> exact h4

/-- What is after a group which introduces an abbreviation is what can be after any group. -/
theorem introducing_group {a : ActId} {colon : Bool} {word name : Str} {references : List (Str × Phrase)} {l : List (Str × PassageItem)} {after : Str}
    (h : passageUsual (.introducing a word colon name references) l after) (g : PhraseGroup) : passageUsual (.group g) l after := by
  cases l with
  | nil => exact ⟨h.1, .inr (h.2.1.resolve_left (by simp)), trivial⟩
  | cons x l =>
    obtain ⟨o, j⟩ := x
    obtain ⟨hj, ⟨h1, h2, h3, h4⟩, h⟩ := h
    refine ⟨hj, ⟨h1, .inr (h2.resolve_left (by simp)), ?_, ?_⟩, h⟩
    · cases j <;> exact h3
    · cases j <;> exact h4

/-- The result for a group which introduces an abbreviation. -/
def introGroupAt (a : ActId) (word : Str) (colon : Bool) (name : Str) (references : List (Str × Phrase)) (n : Nat) : CompoundReference :=
  ⟨some (introAct n (.number a word) (some name)), refsAt (n + byteLen ((ActName.number a word).text ++ introducedAs colon name)) references⟩

/-- What is found in a text from a position on. -/
def compoundsAt : Nat → List (Str × PassageItem) → List CompoundReference
  | _, [] => []
  | n, (o, .group g) :: l => groupAt g (n + byteLen o) :: compoundsAt (n + byteLen o + byteLen g.text) l
  | n, (o, .introducing a word colon name references) :: l => introGroupAt a word colon name references (n + byteLen o) ::
      compoundsAt (n + byteLen o + byteLen (PassageItem.introducing a word colon name references).text) l
  | n, (o, i) :: l => compoundsAt (n + byteLen o + byteLen i.text) l

theorem no_short {s : Str} (h : ∀ b ∈ known, ¬ b <+: s) : parseAbbreviation known s = none := by
  unfold parseAbbreviation
  rw [List.find?_eq_none]
  intro b hb
  rw [List.isPrefixOf_iff_prefix]
  exact h b hb

theorem one_short {s a : Str} (ha : a ∈ known) (hp : a <+: s) (h : ∀ b ∈ known, b <+: s → b = a) :
    parseAbbreviation known s = some a := by
  unfold parseAbbreviation
  cases hf : known.find? fun b => b.isPrefixOf s with
  | none =>
    rw [List.find?_eq_none] at hf
    exact absurd (List.isPrefixOf_iff_prefix.2 hp) (hf a ha)
  | some b =>
    rw [h b (List.mem_of_find?_eq_some hf) (List.isPrefixOf_iff_prefix.1 (by simpa using List.find?_some hf))]

/-! ### groups which introduce an abbreviation -/

theorem StepsS.bind {α β : Type} {k1 k2 k3 : List Str} {p : PS α} {f : α → PS β} {n : Nat} {t u rest : Str} {a : α} {b : β}
    (h1 : StepsS k1 k2 p n t (u ++ rest) a) (h2 : StepsS k2 k3 (f a) (n + byteLen t) u rest b) :
    StepsS k1 k3 (p >>= f) n (t ++ u) rest b := fun s hs => by
  obtain ⟨s1, hs1, h1⟩ := h1 s hs
  obtain ⟨s2, hs2, h2⟩ := h2 s1 hs1
  refine ⟨s2, hs2, ?_⟩
  rw [ps_bind_run, List.append_assoc, h1]
  simp only
  rw [h2, byteLen_append', Nat.add_assoc]

theorem StepsS.map {α β : Type} {k1 k2 : List Str} {p : PS α} {g : α → β} {n : Nat} {t rest : Str} {a : α} (h : StepsS k1 k2 p n t rest a) :
    StepsS k1 k2 (p >>= fun x => Pure.pure (g x)) n t rest (g a) := by
  have := StepsS.bind (f := fun x => Pure.pure (g x)) (u := []) (rest := rest) h (ReadsS.pure (g a)).steps
  simpa using this

theorem StepsS.opt_some {α : Type} {k1 k2 : List Str} {p : PS α} {n : Nat} {t rest : Str} {a : α} (h : StepsS k1 k2 p n t rest a) :
    StepsS k1 k2 (PS.opt p) n t rest (some a) := fun s hs => by
  obtain ⟨s1, hs1, h⟩ := h s hs
  exact ⟨s1, hs1, by simp only [PS.opt, PS.optRun, h]⟩

theorem StepsS.left {α : Type} {k1 k2 : List Str} {p q : PS α} {n : Nat} {t rest : Str} {a : α} (h : StepsS k1 k2 p n t rest a) :
    StepsS k1 k2 (p <|> q) n t rest a := fun s hs => by
  obtain ⟨s1, hs1, h⟩ := h s hs
  exact ⟨s1, hs1, by rw [ps_alt_run, h]⟩

theorem StepsS.right {α : Type} {k1 k2 k3 : List Str} {p q : PS α} {n : Nat} {t rest : Str} {a : α}
    (h : ∀ s : St, s.known = k1 → ∃ s', s'.known = k2 ∧ p.run ⟨n, t ++ rest⟩ s = (none, s')) (h2 : StepsS k2 k3 q n t rest a) :
    StepsS k1 k3 (p <|> q) n t rest a := fun s hs => by
  obtain ⟨s1, hs1, h⟩ := h s hs
  obtain ⟨s2, hs2, h2⟩ := h2 s1 hs1
  exact ⟨s2, hs2, by rw [ps_alt_run, h]; exact h2⟩

theorem StepsS.call_ws {α : Type} {k1 k2 : List Str} {p : PS α} {n : Nat} {w t rest : Str} {a : α} (hw : ∀ c ∈ w, isWs c = true)
    (h : NoWs (t ++ rest)) (h2 : StepsS k1 k2 p (n + byteLen w) t rest a) : StepsS k1 k2 (PS.call p) n (w ++ t) rest a :=
  StepsS.bind (ReadsS.lift (Reads.ws hw h)).steps h2

theorem StepsS.call {α : Type} {k1 k2 : List Str} {p : PS α} {n : Nat} {t rest : Str} {a : α} (h : NoWs (t ++ rest))
    (h2 : StepsS k1 k2 p n t rest a) : StepsS k1 k2 (PS.call p) n t rest a :=
  StepsS.call_ws (w := []) (by simp) h (by simpa [byteLen] using h2)

theorem reads_introducedAs {colon : Bool} {x : Str} (hx : ')' ∉ x) (hh : ∃ c, x.head? = some c ∧ (c ∈ lowerLetters ∨ c ∈ upperLetters)) (n : Nat) (r : Str) :
    Reads fromNowOn n (introducedAs colon x) r (some x) := by
  cases colon with
  | true =>
    rw [show introducedAs true x = introduction (some x) by simp [introducedAs, introduction]]
    exact reads_fromNowOn hx hh n r
  | false =>
    have e : introducedAs false x = str!" (" ++ (str!"a" ++ (str!" továbbiakban" ++ ([] ++ ((' ' :: x) ++ str!")")))) := by
      simp [introducedAs]
    rw [e]
    obtain ⟨c, t, e1, hc1, hc2⟩ := head_letter hh (str!")" ++ r)
    have hcolon : c ≠ ':' := by
      rintro rfl
      obtain ⟨d, hd, hl⟩ := hh
      cases x with
      | nil => cases hd
      | cons y x =>
        cases hd
        cases e1
        revert hl
        decide
    refine Reads.bind (Reads.tok_space (s := str!"(") (noWs_cons (by decide))) (Reads.bind (Reads.tok (noWs_cons (by decide)))
      (Reads.bind (Reads.tok_space (s := str!"továbbiakban") (noWs_cons (by decide))) (Reads.bind (a := none)
        (Reads.opt_none ?_) (Reads.bind (a := some x) ?_ (Reads.map (g := fun _ => some x) (a := ()) (Reads.tok (noWs_cons (by decide))))))))
    · have hw : NoWs (x ++ (str!")" ++ r)) := by rw [e1]; exact noWs_cons hc1
      refine Fails.tok (by decide) ?_
      rw [show skipWs (' ' :: x ++ str!")" ++ r) = x ++ (str!")" ++ r) by rw [List.append_assoc]; exact skipWs_noWs hw, e1]
      simpa using fun h : ':' = c => hcolon h.symm
    · exact reads_newName hx hh _ _

/-- The act of such a group. -/
theorem steps_introAct {a : ActId} {colon : Bool} {word name : Str} (ha : (ActName.number a word).Usual) (hx : ')' ∉ name)
    (hh : ∃ c, name.head? = some c ∧ (c ∈ lowerLetters ∨ c ∈ upperLetters)) (n : Nat) (rest : Str) :
    StepsS known (known ++ [name]) (PS.call actReference) n ((ActName.number a word).text ++ introducedAs colon name) rest
      (introAct n (.number a word) (some name)) := by
  have hw := act_noWs ha (introducedAs colon name ++ rest)
  rw [← List.append_assoc] at hw
  refine StepsS.call hw (StepsS.left (StepsS.call hw fun s hs => ?_))
  have h1 : Reads actIdWithFromNowOn n ((ActName.number a word).text ++ introducedAs colon name) rest (actIdAt a word n, some name) :=
    Reads.bind (f := fun i => opt fromNowOn >>= fun a => Pure.pure (i, a.join))
      (Reads.call (by rw [← List.append_assoc]; exact hw) (reads_actId ha (n := n) (.cons (by decide))))
      ((Reads.opt_some (reads_introducedAs hx hh _ _)).map (g := fun b' : Option (Option Str) => (actIdAt a word n, b'.join)))
  refine ⟨s.store (some name), by simp [St.store, hs], ?_⟩
  show checkedRun _ _ = _
  unfold Reads at h1
  simp only [checkedRun, h1, introAct, actAt]

/-- A group which introduces an abbreviation. If it has no references, the abbreviation is introduced twice. -/
theorem steps_introGroup {a : ActId} {colon : Bool} {word name : Str} {references : List (Str × Phrase)}
    (hi : (PassageItem.introducing a word colon name references).Usual) {rest : Str} (h : Tailing rest) (n : Nat) :
    ∃ l, l ≠ [] ∧ (∀ x ∈ l, x = name) ∧ StepsS known (known ++ l) compoundReference n
      (PassageItem.introducing a word colon name references).text rest (introGroupAt a word colon name references n) := by
  obtain ⟨hg, hx, hh⟩ := hi
  have ha : (ActName.number a word).Usual := hg.act _ rfl
  have htext : (PassageItem.introducing a word colon name references).text =
    ((ActName.number a word).text ++ introducedAs colon name) ++ refsText references := rfl
  rw [htext]
  cases references with
  | nil =>
    refine ⟨[name, name], by simp, by simp, ?_⟩
    rw [show refsText [] = [] from rfl, List.append_nil]
    refine StepsS.right (k2 := known ++ [name]) (fun s hs => ?_) ?_
    · obtain ⟨s1, hs1, hr⟩ := StepsS.opt_some (steps_introAct (known := known) ha hx hh n rest) s hs
      refine ⟨s1, hs1, ?_⟩
      show ((PS.opt (PS.call actReference)) >>= _).run _ _ = _
      rw [ps_bind_run, hr]
      exact FailsS.bind (known := s1.known) (FailsS.lift (fails_call_reference h.after.none)) s1 rfl
    · have := steps_introAct (known := known ++ [name]) (colon := colon) ha hx hh n rest
      rw [List.append_assoc] at this
      exact this.map (g := fun a => (⟨some a, []⟩ : CompoundReference))
  | cons x refs =>
    obtain ⟨sep, w⟩ := x
    have hw := hg.references _ (List.mem_cons_self ..)
    have hrest : ∀ x ∈ refs, x.1 ∈ separators ∧ x.2.Usual := fun x hx =>
      ⟨hg.others x hx, hg.references x (List.mem_cons_of_mem _ hx)⟩
    have hafter := after_refs hrest h.after
    have hstart := phrase_start hw (refsText refs ++ rest)
    have hsep : sep = [' '] := hg.first (sep, w) rfl
    subst hsep
    refine ⟨[name], by simp, by simp, StepsS.left ?_⟩
    rw [refsText_cons, ← List.append_assoc str!" "]
    refine StepsS.bind (StepsS.opt_some (steps_introAct ha hx hh n _)) (ReadsS.steps ?_)
    refine ReadsS.bind (ReadsS.lift (reads_call_sp (.inr rfl) hstart.itemStart.noWs (reads_reference hw hafter))) ?_
    refine ReadsS.map (g := fun l => (⟨_, _ :: l⟩ : CompoundReference)) (ReadsS.lift ?_)
    have := reads_refs hrest h (n := n + byteLen ((ActName.number a word).text ++ introducedAs colon name) + byteLen str!" " + byteLen w.text)
    rw [byteLen_append' str!" "]
    simpa only [Nat.add_assoc] using this

/-- Such a group and the text after it, where the abbreviation is known. -/
theorem found_introducing {a : ActId} {colon : Bool} {word name : Str} {references : List (Str × Phrase)}
    (hi : (PassageItem.introducing a word colon name references).Usual) {post : Str} {out : List CompoundReference} (hpost : Tailing post)
    {N : Nat} (h : ∀ l, l ≠ [] → (∀ x ∈ l, x = name) →
      Found (known ++ l) (N + byteLen (PassageItem.introducing a word colon name references).text) post out) :
    ∀ w m, (∀ c ∈ w, isWs c = true) → m + byteLen w = N →
      Found known m (w ++ ((PassageItem.introducing a word colon name references).text ++ post)) (introGroupAt a word colon name references N :: out) := by
  intro w m hw hN
  obtain ⟨k, hk1, hk2, hread0⟩ := steps_introGroup (known := known) hi hpost N
  obtain ⟨t, u, l, e, hu, hread, hout⟩ := h k hk1 hk2
  obtain ⟨c, r, eg, hcw, -, hcq⟩ := act_head (hi.1.act _ rfl)
  have ei : ∃ r, (PassageItem.introducing a word colon name references).text = c :: r := ⟨_, by rw [PassageItem.text, eg]; rfl⟩
  obtain ⟨r, ei⟩ := ei
  generalize (PassageItem.introducing a word colon name references).text = text at *
  have hnw : NoWs (text ++ post) := by rw [ei]; exact noWs_cons hcw
  have hstep : StepsS known (known ++ k) (PS.call simpleExpression) m (w ++ text) post (.compound (introGroupAt a word colon name references N)) := by
    subst hN
    refine StepsS.call_ws hw hnw ?_
    refine StepsS.right (k2 := known) (fun s hs => ⟨s, hs, FailsS.bind (FailsS.lift (Fails.call_noWs hnw fun n => fails_quote ?_)) s hs⟩) ?_
    · rw [skipWs_noWs hnw, ei]; exact .cons hcq
    exact StepsS.left (StepsS.map (g := SimpleExpression.compound) (StepsS.call hnw hread0))
  refine ⟨w ++ text ++ t, u, .compound (introGroupAt a word colon name references N) :: l, by rw [e]; simp, hu, ?_, ?_⟩
  · rw [e] at hstep
    refine RunsS.many_cons (by rw [ei]; simp) hstep ?_
    rw [byteLen_append', ← Nat.add_assoc, hN]
    exact hread
  · simp [compoundOf, hout]

theorem nameable_mono {l : List (Str × PassageItem)} : ∀ {k1 k2 : List Str}, (∀ b ∈ k1, b ∈ k2) → nameable k1 l → nameable k2 l := by
  induction l with
  | nil => intro _ _ _ h; exact h
  | cons x l ih =>
    intro k1 k2 hs h
    refine ⟨fun g s a h1 h2 => hs _ (h.1 g s a h1 h2), ih (fun b hb => ?_) h.2⟩
    rcases List.mem_append.1 hb with hb | hb
    · exact List.mem_append_left _ (hs b hb)
    · exact List.mem_append_right _ hb

theorem clear_mono {l : List (Str × PassageItem)} {after : Str} {k1 k2 : List Str} (hs : ∀ b ∈ k2, b ∈ k1) (h : clear k1 l after) :
    clear k2 l after := by
  induction l with
  | nil => exact fun x y e b hb => h x y e b (hs b hb)
  | cons x l ih =>
    exact ⟨fun x y e hy b hb => h.1 x y e hy b (hs b hb), fun b hb => h.2.1 b (hs b hb), ih h.2.2.1,
      fun x y e hy b hb => h.2.2.2 x y e hy b (hs b hb)⟩

theorem clear_nil {l : List (Str × PassageItem)} {after : Str} (h : clear known l after) : ∀ b ∈ known, ¬ b <+: [] := by
  induction l with
  | nil => exact h after [] (by simp)
  | cons x l ih => exact ih h.2.2.1

/-- An item at its place. -/
theorem found_item {o : Str} {i : PassageItem} (hi : i.Usual) {l : List (Str × PassageItem)} {after : Str} (hl : passageUsual i l after)
    (hc : clear known ((o, i) :: l) after) (hk : nameable known ((o, i) :: l)) {n : Nat}
    (h : ∀ k, (∀ b, b ∈ k ↔ b ∈ i.new.map Prod.fst) →
      Found (known ++ k) (n + byteLen o + byteLen i.text) (passageText l after) (compoundsAt (n + byteLen o + byteLen i.text) l)) :
    ∀ w m, (∀ c ∈ w, isWs c = true) → m + byteLen w = n + byteLen o →
      Found known m (w ++ (i.text ++ passageText l after)) (compoundsAt n ((o, i) :: l)) := by
  have h0 : i.new = [] → Found known (n + byteLen o + byteLen i.text) (passageText l after) (compoundsAt (n + byteLen o + byteLen i.text) l) := fun e => by
    have := h [] (by simp [e])
    rwa [List.append_nil] at this
  cases i with
  | introducing a word colon name references =>
    refine found_introducing hi (passage_tailing (introducing_group hl ⟨none, []⟩)) fun k hk1 hk2 => h k fun b => ?_
    rw [show (PassageItem.introducing a word colon name references).new.map Prod.fst = [name] from rfl, List.mem_singleton]
    refine ⟨hk2 b, ?_⟩
    rintro rfl
    cases k with
    | nil => exact absurd rfl hk1
    | cons c k => rw [← hk2 c (List.mem_cons_self ..)]; exact List.mem_cons_self ..
  | group g =>
    replace h := h0 rfl
    refine found_group hi (passage_tailing hl) (fun a ha => ?_) (fun ha => ?_) h
    · cases a with
      | number a e => trivial
      | short s a =>
        refine one_short (hk.1 g s a rfl ha) (List.prefix_append _ _) fun b hb hp => ?_
        obtain ⟨g', a', e, ha'⟩ := hc.2.1 b hb (by
          have : (PassageItem.group g).text = s ++ refsText g.references := by
            rw [PassageItem.text, PhraseGroup.text, ha]; simp [ActName.text, refsText]
          rw [this, List.append_assoc]
          exact hp)
        cases e
        rw [ha] at ha'
        cases ha'
        rfl
    · refine no_short fun b hb hp => ?_
      obtain ⟨g', a', e, ha'⟩ := hc.2.1 b hb (by
          have : (PassageItem.group g).text = refsText g.references := by
            rw [PassageItem.text, PhraseGroup.text, ha]; simp [refsText]
          rw [this]
          exact hp)
      cases e
      rw [ha] at ha'
      cases ha'
  | attachment a =>
    replace h := h0 rfl
    refine found_attachment hi (passage_lower hl) (passage_ended hl) (no_short fun b hb hp => ?_) h
    obtain ⟨g', a', e, ha'⟩ := hc.2.1 b hb hp
    cases e
  | quoted s => exact found_quoted hi (h0 rfl)
  | number k ending =>
    replace h := h0 rfl
    refine found_number hi (number_ended hl) (no_short fun b hb hp => ?_) (fun hne => no_short fun b hb => hc.2.2.2 [] ending rfl hne b hb) h
    obtain ⟨g', a', e, ha'⟩ := hc.2.1 b hb (by rw [PassageItem.text, List.append_assoc]; exact hp)
    cases e
  | aside words last =>
    replace h := h0 rfl
    refine found_aside hi.1 hi.2.1 hi.2.2.1 hi.2.2.2.1 hi.2.2.2.2 (fun x y e hy => no_short fun b hb hp => ?_) h
    cases x with
    | nil =>
      obtain ⟨g', a', e, ha'⟩ := hc.2.1 b hb (by rw [PassageItem.text, e]; exact hp)
      cases e
    | cons d x =>
      refine hc.2.2.2 x y ?_ hy b hb hp
      simp only [List.cons_append, List.cons.injEq] at e
      exact e.2
  | opening =>
    replace h := h0 rfl
    refine found_opening (opened_aside (opened_of hl)) (no_short fun b hb hp => ?_) h
    obtain ⟨g', a', e, ha'⟩ := hc.2.1 b hb hp
    cases e
  | closing last => exact found_closing hi (fun x y e hy => no_short fun b hb hp => hc.2.2.2 x y e hy b hb hp) (h0 rfl)

/-- The words before an item, and the item. -/
theorem found_before {o : Str} {i : PassageItem} (ho : Ordinary o) (he : o = [] ∨ (∃ y, o = y ++ str!" ") ∧ i ≠ .closing []) (hi : i.Usual)
    {l : List (Str × PassageItem)} {after : Str} (hl : passageUsual i l after)
    (hc : clear known ((o, i) :: l) after) (hk : nameable known ((o, i) :: l)) {n : Nat}
    (h : ∀ k, (∀ b, b ∈ k ↔ b ∈ i.new.map Prod.fst) →
      Found (known ++ k) (n + byteLen o + byteLen i.text) (passageText l after) (compoundsAt (n + byteLen o + byteLen i.text) l)) :
    Found known n (passageText ((o, i) :: l) after) (compoundsAt n ((o, i) :: l)) := by
  rcases he with rfl | ⟨he, hne⟩
  · exact found_item hi hl hc hk h [] n (by simp) rfl
  · exact found_words (item_mark hi hne _) (found_item hi hl hc hk h) o.length o n (Nat.le_refl _) rfl ho (.inr (.inr he))
      fun p q e hq => no_short fun b hb => hc.1 p q e hq b hb

theorem found_last {after : Str} (h : Ordinary after) (hc : clear known [] after) (n : Nat) : Found known n after [] := by
  have := found_words (known := known) (R := []) (N := n + byteLen after) (out := []) Head.nil
    (fun w m hw _ => by rw [List.append_nil]; exact found_nil hw m (no_short (clear_nil (l := []) hc))) after.length after n (Nat.le_refl _) rfl h
    (.inl rfl) fun p q e hq => no_short fun b hb => by rw [List.append_nil]; exact hc p q e b hb
  rwa [List.append_nil] at this

theorem found_rest {K : List Str} {l : List (Str × PassageItem)} {after : Str} (hK : ∀ x ∈ l, ∀ e ∈ x.2.new, e.1 ∈ K)
    (hc : clear K l after) : ∀ {i : PassageItem} {known : List Str}, passageUsual i l after → (∀ b ∈ known, b ∈ K) →
    nameable known l → ∀ n, Found known n (passageText l after) (compoundsAt n l) := by
  induction l with
  | nil => intro i known h hs _ n; exact found_last h.1 (clear_mono hs hc) n
  | cons x l ih =>
    obtain ⟨o, j⟩ := x
    intro i known h hs hk n
    obtain ⟨hj, ⟨h1, -, h3, -⟩, h⟩ := h
    refine found_before h1 (h3.elim .inr fun h => .inl h.1) hj h (clear_mono hs hc) hk fun k hk' => ?_
    refine ih (fun x hx => hK x (List.mem_cons_of_mem _ hx)) hc.2.2.1 h (fun b hb => ?_) (nameable_mono (fun b hb => ?_) hk.2) _
    · rcases List.mem_append.1 hb with hb | hb
      · exact hs b hb
      · obtain ⟨e, he, rfl⟩ := List.mem_map.1 ((hk' b).1 hb)
        exact hK _ (List.mem_cons_self ..) e he
    · rcases List.mem_append.1 hb with hb | hb
      · exact List.mem_append_left _ hb
      · exact List.mem_append_right _ ((hk' b).2 hb)

/-- A whole text. -/
theorem found_passage {K : List Str} {p : Passage} (hp : p.Usual) (hK : ∀ e ∈ p.new, e.1 ∈ K) (hs : ∀ b ∈ known, b ∈ K)
    (hc : clear K p.items p.after) (hk : nameable known p.items) : Found known 0 p.text (compoundsAt 0 p.items) := by
  obtain ⟨l, after⟩ := p
  have hK : ∀ x ∈ l, ∀ e ∈ x.2.new, e.1 ∈ K := fun x hx e he => hK e (List.mem_flatMap.2 ⟨x, hx, he⟩)
  cases l with
  | nil => exact found_last hp (clear_mono hs hc) 0
  | cons x l =>
    obtain ⟨o, j⟩ := x
    obtain ⟨h1, h2, h3, h5, h4⟩ := hp
    refine found_before h1 (h2.imp_right fun h => ⟨h, h5 _⟩) h3 h4 (clear_mono hs hc) hk fun k hk' => ?_
    refine found_rest (fun x hx => hK x (List.mem_cons_of_mem _ hx)) hc.2.2.1 h4 (fun b hb => ?_) (nameable_mono (fun b hb => ?_) hk.2) _
    · rcases List.mem_append.1 hb with hb | hb
      · exact hs b hb
      · obtain ⟨e, he, rfl⟩ := List.mem_map.1 ((hk' b).1 hb)
        exact hK _ (List.mem_cons_self ..) e he
    · rcases List.mem_append.1 hb with hb | hb
      · exact List.mem_append_left _ hb
      · exact List.mem_append_right _ ((hk' b).2 hb)

end HunLaw.Grammar
