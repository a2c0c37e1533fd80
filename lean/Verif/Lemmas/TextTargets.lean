import Verif.Spec.TextAmendments
import Verif.Lemmas.StructuralTail
import Verif.Lemmas.Provisions
import Verif.Lemmas.Attachments
import Verif.Lemmas.Beside

/-!
References to provisions are not references to the structure of acts, and how the places of text amendments are read.
-/

set_option autoImplicit false

namespace HunLaw.Grammar

open HunLaw P Spec

variable {α β : Type}

/-! ### numbers of subtitles -/

/-- The number is followed by something else than in the number of a subtitle. -/
structure OtherThan (c : Char) : Prop where
  digit : isDigit c = false
  slash : c ≠ '/'
  upper : upperAz c = false
  dot : c ≠ '.'
  dash : isDashChar c = false
  ws : isWs c = false

theorem reads_subtitleNum {n k : Nat} {s : Str} (h : Head (fun c => isDigit c = false ∧ c ≠ '/' ∧ upperAz c = false ∧ isWs c = false) s) :
    Reads (call subtitleId) n (dec k) s (dec k) := by
  have hs : NoWs s := h.mono fun c hc => hc.2.2.2
  refine Reads.call (noWs_dec _ _) (Reads.slice (a := ()) (Reads.bind_last (Reads.call (noWs_dec _ _) (reads_number (h.mono fun c hc => hc.1)))
    (Reads.map (a := none) (Reads.opt_none ?_))))
  refine Fails.bind_of (t := []) (a := none) (rest := s) (Reads.opt_none (Fails.tok (by decide) ?_))
    (Fails.call_noWs hs fun _ => Fails.char (h.mono fun c hc => hc.2.2.1))
  rw [skipWs_noWs hs]
  exact fun e => (h _ e.symm).2.1 rfl

theorem fails_subtitlePart_other {n k : Nat} {s : Str} (h : Head OtherThan s) : Fails subtitlePart n (dec k ++ s) := by
  have hs : skipWs s = s := skipWs_noWs (h.mono fun c hc => hc.ws)
  have hid : ∀ n, Reads (call subtitleId) n (dec k) s (dec k) := fun n =>
    reads_subtitleNum (h.mono fun c hc => ⟨hc.digit, hc.slash, hc.upper, hc.ws⟩)
  have hdot : ∀ n, Fails (tok str!".") n s := fun n =>
    Fails.tok (by decide) (by rw [hs]; exact fun e => (h _ e.symm).dot rfl)
  refine Fails.alt (Fails.bind_of (hid _) ?_) (Fails.bind_of (hid _) (Fails.bind (hdot _)))
  refine Fails.bind_of (t := []) (rest := s) (a := none) (Reads.opt_none (hdot _)) (Fails.bind (fails_call_dash ?_))
  rw [hs]; exact h.mono fun c hc => hc.dash

theorem fails_subtitlePart_upTo {n k m : Nat} {d : Char} {s : Str} (hd : d ∈ dashes) (h : Head OtherThan s) :
    Fails subtitlePart n (dec k ++ d :: (dec m ++ s)) := by
  have hn := dashes_not hd
  have hup : upperAz d = false := (by decide : ∀ d ∈ dashes, upperAz d = false) d hd
  have hs : skipWs s = s := skipWs_noWs (h.mono fun c hc => hc.ws)
  have hid : ∀ n, Reads (call subtitleId) n (dec k) (d :: (dec m ++ s)) (dec k) := fun n =>
    reads_subtitleNum (Head.cons (f := fun c => isDigit c = false ∧ c ≠ '/' ∧ upperAz c = false ∧ isWs c = false) ⟨hn.1, hn.2.1, hup, dashes_noWs hd⟩)
  have hdot : ∀ n, Fails (tok str!".") n (d :: (dec m ++ s)) := fun n =>
    Fails.tok (by decide) (by rw [skipWs_cons (dashes_noWs hd)]; simpa using fun e => hn.2.2.2.1 e.symm)
  refine Fails.alt (Fails.bind_of (hid _) ?_) (Fails.bind_of (hid _) (Fails.bind (hdot _)))
  refine Fails.bind_of (t := []) (a := none) (Reads.opt_none (hdot _)) ?_
  refine Fails.bind_of (t := [d]) (reads_call_dash hd) ?_
  refine Fails.bind_of (reads_subtitleNum (h.mono fun c hc => ⟨hc.digit, hc.slash, hc.upper, hc.ws⟩)) ?_
  exact Fails.bind (Fails.tok (by decide) (by rw [hs]; exact fun e => (h _ e.symm).dot rfl))

theorem OtherThan.of_lower {c : Char} (h : lowerAz c = true) : OtherThan c := by
  have ho := Other.of_lower h
  refine ⟨ho.digit, ho.slash, ?_, ho.dot, ho.dash, ho.ws⟩
  rw [Bool.eq_false_iff]
  intro hu
  simp only [lowerAz, upperAz, Bool.and_eq_true, decide_eq_true_eq] at h hu
  omega

theorem otherThan_letters (c : HunChar) (s : Str) : Head OtherThan (c.display ++ s) :=
  Head.append (Head.of_all fun x hx => .of_lower (letter_display.1 x hx)) letter_display.2.1

theorem otherThan_colon (s : Str) : Head OtherThan (':' :: s) :=
  Head.cons (f := OtherThan) ⟨by decide, by decide, by decide, by decide, by decide, by decide⟩

theorem stuck_subtitle_article {s : Span ArticleId} (hs : ArticleUsual s) {r : Str} (hr : Head (isDashChar · = false) (skipWs r)) :
    Stuck subtitlePart subtitleSuffix (articleSpan s) r := by
  cases s with
  | one a =>
    cases hb : a.book with
    | none =>
      have e : articleSpan (.one a) = slashedSpan (.one a.identifier) := by simp [slashedSpan, articleSpan, display_article, hb, bookText]
      exact .inl fun n => ⟨_, by rw [e]; exact reads_subtitlePart (x := .one a.identifier) hs hr⟩
    | some b =>
      refine .inr (.inr fun n => ?_)
      simp only [articleSpan, display_article, hb, bookText, List.append_assoc, List.cons_append, List.nil_append]
      exact fails_subtitlePart_other (otherThan_colon _)
  | upTo d a b =>
    obtain ⟨g1, g2, g3, g4⟩ := hs
    cases hb : a.book with
    | none =>
      have e : articleSpan (.upTo d a b) = slashedSpan (.upTo d a.identifier b.identifier) := by
        simp [slashedSpan, articleSpan, display_article, hb, ← g2, bookText]
      exact .inl fun n => ⟨_, by rw [e]; exact reads_subtitlePart (x := .upTo d a.identifier b.identifier) ⟨g1, g3, g4⟩ hr⟩
    | some k =>
      refine .inr (.inr fun n => ?_)
      simp only [articleSpan, display_article, hb, bookText, List.append_assoc, List.cons_append, List.nil_append]
      exact fails_subtitlePart_other (otherThan_colon _)

theorem stuck_subtitle_dotted {s : Span NumericId} (hs : s.Fits fun _ => True) {r : Str} (hr : Head (isDashChar · = false) (skipWs r)) :
    Stuck subtitlePart subtitleSuffix (dottedSpan s) r := by
  have text : ∀ i : NumericId, i.suffix = none → i.display = i.displaySlash := by
    intro i hi
    rw [display_numeric, displaySlash_eq, hi]; rfl
  cases s with
  | one a =>
    cases ha : a.suffix with
    | none =>
      refine .inl fun n => ⟨idPart NumericId.displaySlash (.one a), ?_⟩
      rw [dottedSpan, text a ha]
      exact reads_subtitlePart (x := .one a) (by intro c hc; simp [ha] at hc) hr
    | some c =>
      refine .inr (.inr fun n => ?_)
      rw [dottedSpan, display_numeric, ha]
      simp only [lettered, List.append_assoc]
      exact fails_subtitlePart_other (otherThan_letters _ _)
  | upTo d a b =>
    cases ha : a.suffix with
    | some c =>
      refine .inr (.inr fun n => ?_)
      rw [dottedSpan, display_numeric, ha]
      simp only [lettered, List.append_assoc]
      exact fails_subtitlePart_other (otherThan_letters _ _)
    | none =>
      cases hb : b.suffix with
      | none =>
        refine .inl fun n => ⟨idPart NumericId.displaySlash (.upTo d a b), ?_⟩
        rw [dottedSpan, text a ha, text b hb]
        exact reads_subtitlePart (x := .upTo d a b) ⟨hs.1, by intro c hc; simp [ha] at hc, by intro c hc; simp [hb] at hc⟩ hr
      | some c =>
        refine .inr (.inr fun n => ?_)
        rw [dottedSpan, display_numeric, display_numeric, ha, hb]
        simp only [lettered, List.append_assoc, List.append_nil, List.cons_append]
        exact fails_subtitlePart_upTo hs.1 (otherThan_letters _ _)

/-! ### references to provisions are not references to the structure -/

/-- What is after an article when it is not a title of it or a place relative to it. -/
def articleFollowers : List Str := [str!"cím", str!"szakasz", str!"követő", str!"megelőző", str!"előtti"]

/-- It is not a reference to the structure of an act. -/
structure NotPart (s : Str) : Prop where
  noWs : NoWs s
  structural : ∀ n, Fails structuralReference n s
  noAz : ¬ str!"a " <+: s ∧ ¬ str!"az " <+: s
  single : (∀ n, Fails singleArticle n s) ∨
    ∃ t u, s = t ++ u ∧ (∀ n, ∃ a, Reads singleArticle n t u a) ∧ ∀ w ∈ articleFollowers, ¬ w <+: skipWs u

/-- It is not a list of subtitles either. -/
structure NotPlace (s : Str) : Prop extends NotPart s where
  subtitles : ∀ n, Fails subtitlesReference n s

theorem Stuck.one {part : P β} {suffix : P Unit} {x r : Str} (h : Stuck part suffix x r) (hw : NoWs (x ++ r)) (hr : ∀ n, Fails (call suffix) n r)
    {γ : Type} {g : β → Unit → P γ} (n : Nat) : Fails (call part >>= fun a => call suffix >>= g a) n (x ++ r) := by
  rcases h with h | ⟨t, u, e, h, hb⟩ | h
  · obtain ⟨a, ha⟩ := h n
    exact Fails.bind_of (Reads.call hw ha) (Fails.bind (hr _))
  · obtain ⟨a, ha⟩ := h n
    rw [e] at hw ⊢
    exact Fails.bind_of (Reads.call hw ha) (Fails.bind (hb.2 _))
  · exact Fails.bind (Fails.call_noWs hw h)

theorem fails_structural_digit {s : Str} (hd : Head (isDigit · = true) s)
    (h : ∀ n, Fails (call subtitlePart >>= fun x => call subtitleSuffix >>= fun _ => pure (StructuralId.subtitle x)) n s) (n : Nat) :
    Fails structuralReference n s := by
  have hd : Head (fun c => isHunUpper c = false ∧ isRomanChar c = false ∧ c ≠ '„' ∧ isWs c = false) s :=
    hd.mono fun c hc => ⟨(timeChar_digit hc).upper, (timeChar_digit hc).roman, by rintro rfl; revert hc; decide, digit_noWs hc⟩
  have hws : NoWs s := hd.mono fun c hc => hc.2.2.2
  have hcap : ∀ n, Fails (call hungarianOrdinalCapital) n s := fun n => Fails.call_noWs hws fun n => fails_capital (hd.mono fun c hc => hc.1)
  have hrom : ∀ n, Fails (call romanId) n s := fun n => Fails.call_noWs hws fun n =>
    Fails.slice (Fails.bind (Fails.call_noWs hws fun n => fails_roman (hd.mono fun c hc => hc.2.1)))
  refine Fails.bind_of (t := []) (rest := s) (a := none) (Reads.opt_none (Fails.call_noWs hws fun n => Fails.bind (hcap _))) (Fails.bind ?_)
  refine Fails.alt (Fails.bind (Fails.call_noWs hws fun n => Fails.bind (hrom _))) <|
    Fails.alt (Fails.bind (Fails.call_noWs hws fun n => Fails.bind (hcap _))) <|
    Fails.alt (Fails.bind (Fails.call_noWs hws fun n => Fails.bind (hrom _))) <|
    Fails.alt (h _) (Fails.bind (Fails.call_noWs hws fun n => Fails.bind (Fails.alt ?_ ?_)))
  · refine Fails.call_noWs hws fun n => fails_quote ?_
    rw [skipWs_noWs hws]; exact hd.mono fun c hc => hc.2.2.1
  · exact Fails.call_noWs hws fun n => Fails.slice (Fails.bind (Fails.call_noWs hws fun n => Fails.bind (Fails.char (hd.mono fun c hc => hc.1))))

theorem fails_call_suffix {w s : Str} {n : Nat} (h : ¬ w <+: skipWs s) : Fails (call (partSuffix w)) n s :=
  Fails.call fun _ => Fails.bind (Fails.lit h)

theorem joined_noSubtitle {r : Str} (h : Joined r) (n : Nat) : Fails (call subtitleSuffix) n r :=
  fails_call_suffix (not_prefix_of_head (by decide) fun e => absurd (joined_head (f := (· ≠ 'a')) h (by decide) _ e.symm) (by simp))

theorem joined_noSign {r : Str} (h : Joined r) (n : Nat) : Fails (call articleSuffix) n r :=
  Fails.call fun _ => fails_articleSuffix (joined_head h (by decide))

theorem notPlace_head {s : Str} (hu : Unnamed s) (hd : Head (isDigit · = false) s) (ha : ¬ str!"a " <+: s ∧ ¬ str!"az " <+: s) : NotPlace s :=
  ⟨⟨hu.noWs, fun _ => fails_structural hu, ha, .inl fun _ => fails_singleArticle hu.noWs hd⟩, fun _ => fails_subtitles hu⟩

theorem notPlace_dotted {l : Listing NumericId} (hl : l.Fits (Span.Fits fun _ => True)) {word : Str}
    (hw : word ∈ [str!" pont", str!" alpont", str!" melléklet", str!" számú melléklet"]) (R : Str) : NotPlace ((l.words dottedSpan word).text ++ R) := by
  have hlt : LevelText ((l.words dottedSpan word).text ++ R) := levelText_dotted l word R
  have e1 : (l.words dottedSpan word).text ++ R = dottedSpan l.first ++ othersText dottedSpan l.others ++ (word ++ (l.ending ++ R)) := by
    rw [words_text]; simp
  have hend : Head (fun c => c ≠ ',' ∧ c ≠ ';' ∧ c ≠ 'é' ∧ c ≠ 'v' ∧ c ≠ 'i') (skipWs (word ++ (l.ending ++ R))) ∧
      Head (· ≠ '§') (skipWs (word ++ (l.ending ++ R))) ∧ Head (isDashChar · = false) (skipWs (word ++ (l.ending ++ R))) ∧
      ¬ str!"alcím" <+: skipWs (word ++ (l.ending ++ R)) := by
    simp only [List.mem_cons, List.not_mem_nil, or_false] at hw
    rcases hw with rfl | rfl | rfl | rfl
    · exact ⟨.cons (by decide), .cons (by decide), .cons (by decide), not_prefix_of_head (by decide) (by simp [skipWs, isWs])⟩
    · refine ⟨.cons (by decide), .cons (by decide), .cons (by decide), ?_⟩
      rintro ⟨z, hz⟩
      have : (str!"alcím" ++ z)[2]? = some 'p' := by rw [hz]; rfl
      exact absurd this (by simp)
    · exact ⟨.cons (by decide), .cons (by decide), .cons (by decide), not_prefix_of_head (by decide) (by simp [skipWs, isWs])⟩
    · exact ⟨.cons (by decide), .cons (by decide), .cons (by decide), not_prefix_of_head (by decide) (by simp [skipWs, isWs])⟩
  have hj := joined_or dottedSpan (fun x hx => (hl.2 x hx).1) (word ++ (l.ending ++ R))
  have hr : Head (isDashChar · = false) (skipWs (othersText dottedSpan l.others ++ (word ++ (l.ending ++ R)))) := by
    rcases hj with h | h
    · exact joined_head h (by decide)
    · rw [h]; exact hend.2.2.1
  have hr2 : Head (· ≠ '§') (skipWs (othersText dottedSpan l.others ++ (word ++ (l.ending ++ R)))) := by
    rcases hj with h | h
    · exact joined_head h (by decide)
    · rw [h]; exact hend.2.1
  have hsub : ∀ n, Fails (call subtitleSuffix) n (othersText dottedSpan l.others ++ (word ++ (l.ending ++ R))) := fun n => by
    rcases hj with h | h
    · exact joined_noSubtitle h n
    · rw [h]; exact fails_call_suffix hend.2.2.2
  suffices h : (∀ n, Fails structuralReference n ((l.words dottedSpan word).text ++ R)) ∧ (∀ n, Fails subtitlesReference n ((l.words dottedSpan word).text ++ R)) ∧
      ∀ n, Fails singleArticle n ((l.words dottedSpan word).text ++ R) from ⟨⟨hlt.noWs, h.1, hlt.noAz, .inl h.2.2⟩, h.2.1⟩
  refine ⟨?_, ?_, ?_⟩
  · have hnw := hlt.noWs
    rw [e1, List.append_assoc] at hnw ⊢
    refine fails_structural_digit ?_ (Stuck.one (stuck_subtitle_dotted hl.1 hr) hnw hsub)
    obtain ⟨c, t, e, hc⟩ := dotted_words l word R
    rw [e1, List.append_assoc] at e
    rw [e]; exact .cons hc
  · rw [e1]
    refine fails_stuck (f := Span.Fits fun _ => True) l hl (fun x hx r => itemStart_dotted r) (fun x hx r h => ?_) ⟨fun n => fails_listSeparator hend.1, fun n => fails_call_suffix hend.2.2.2⟩ (fun r h n => joined_noSubtitle h n)
    refine stuck_subtitle_dotted hx ?_
    rcases h with h | rfl
    · exact joined_head h (by decide)
    · exact hend.2.2.1
  · intro n
    have hnw := hlt.noWs
    rw [e1, List.append_assoc] at hnw ⊢
    refine Fails.positioned (Stuck.one (stuck_dotted hl.1 (noRange_of_head hr2)) hnw (fun n => Fails.call fun _ => fails_articleSuffix hr2) n)

theorem notPlace_articles {l : Listing ArticleId} (hl : l.Fits ArticleUsual) (he : SignEnding l.ending) {R : Str} (h : Next R)
    (hR : ∀ w ∈ articleFollowers, ¬ w <+: skipWs R) : NotPlace ((l.words articleSpan str!" §").text ++ R) := by
  have hlt : LevelText ((l.words articleSpan str!" §").text ++ R) := levelText_article l R
  have e1 : (l.words articleSpan str!" §").text ++ R = articleSpan l.first ++ othersText articleSpan l.others ++ (str!" §" ++ l.ending ++ R) := by
    rw [words_text]; simp
  refine ⟨⟨hlt.noWs, fun n => fails_structural_article hl he h, hlt.noAz, ?_⟩, ?_⟩
  on_goal 2 =>
    rw [e1]
    refine fails_stuck (f := ArticleUsual) l hl (fun x hx r => itemStart_article x r) (fun x hx r h => ?_)
      ⟨fun n => fails_listSeparator (.cons (by decide)), fun n => fails_call_suffix (not_prefix_of_head (by decide) ?_)⟩ (fun r h n => joined_noSubtitle h n)
    · refine stuck_subtitle_article hx ?_
      rcases h with h | rfl
      · exact joined_head h (by decide)
      · exact .cons (by decide)
    · simp [skipWs, isWs]
  · have hnw := hlt.noWs
    rw [e1, List.append_assoc] at hnw ⊢
    rcases joined_or articleSpan (fun x hx => (hl.2 x hx).1) (str!" §" ++ l.ending ++ R) with hj | e
    · refine .inl fun n => Fails.positioned (Stuck.one (part := articlePart) (suffix := articleSuffix) (.inl fun n => ⟨_, reads_articlePart hl.1 (noRange_of_head (joined_head hj (by decide)))⟩) hnw
        (joined_noSign hj) n)
    · rw [e] at hnw ⊢
      refine .inr ⟨articleSpan l.first ++ (str!" §" ++ l.ending), R, by simp, fun n =>
        ⟨⟨articleAt l.first n, ⟨n, n + byteLen (articleSpan l.first ++ (str!" §" ++ l.ending))⟩⟩, ?_⟩, hR⟩
      rw [List.append_assoc] at hnw
      refine Reads.positioned (f := fun p => (⟨articleAt l.first n, p⟩ : SingleArticle)) (Reads.bind (Reads.call ?_ (reads_articlePart hl.1 ?_))
        (Reads.map (g := fun _ p => (⟨articleAt l.first n, p⟩ : SingleArticle)) (reads_call_articleSuffix he h)))
      · rw [List.append_assoc]; exact hnw
      · exact noRange_sign he h

theorem levelText_words {w : Phrase} (hw : w.Usual) {x : Words} (hx : x ∈ w.words) (r : Str) : LevelText (x.text ++ r) := by
  rw [words_eq, List.mem_append, List.mem_append, List.mem_append] at hx
  rcases hx with hx | hx | hx | hx
  · simp only [articleWords, List.mem_map] at hx
    obtain ⟨l, -, rfl⟩ := hx
    exact levelText_article l r
  · simp only [paragraphWords, List.mem_map] at hx
    obtain ⟨l, -, rfl⟩ := hx
    exact levelText_paragraph l r
  · exact levelText_point hx r
  · exact levelText_subpoint hw hx r

theorem followers_level {s : Str} (h : LevelText s) : ∀ w ∈ articleFollowers, ¬ w <+: s := fun w hw =>
  have hall : ∀ w ∈ articleFollowers, (∀ c, w.head? = some c → isDigit c = false ∧ c ≠ '(') ∧ w ≠ [] ∧ ')' ∉ w ∧ 3 ≤ w.length := by
    intro w hw
    simp only [articleFollowers, List.mem_cons, List.not_mem_nil, or_false] at hw
    rcases hw with rfl | rfl | rfl | rfl | rfl <;> exact ⟨by intro c hc; cases hc; decide, by decide, by decide, by decide⟩
  h.not_prefix (hall w hw).1 (hall w hw).2.1 (hall w hw).2.2.1 (.inl (hall w hw).2.2.2)

theorem lower_unnamed {s : Str} (h : Head (lowerAz · = true) s) : Unnamed s := by
  have hall : ∀ c, lowerAz c = true → isWs c = false ∧ c ≠ '„' ∧ isHunUpper c = false ∧ isRomanChar c = false ∧ isDigit c = false := by
    intro c hc
    have hall : ∀ k ∈ List.range 26, isHunUpper (Char.ofNat (97 + k)) = false ∧ isRomanChar (Char.ofNat (97 + k)) = false := by decide +kernel
    have hr := hc
    simp only [lowerAz, Bool.and_eq_true, decide_eq_true_eq] at hr
    have e : Char.ofNat (97 + (c.toNat - 97)) = c := by
      have : 97 + (c.toNat - 97) = c.toNat := by omega
      rw [this, Char.ofNat_toNat]
    have := hall (c.toNat - 97) (List.mem_range.2 (by omega))
    rw [e] at this
    exact ⟨lowerAz_noWs hc, by rintro rfl; revert hc; decide, this.1, this.2, (Other.of_lower hc).digit⟩
  exact ⟨h.mono fun c hc => (hall c hc).1, h.mono fun c hc => (hall c hc).2.1, h.mono fun c hc => (hall c hc).2.2.1,
    h.mono fun c hc => (hall c hc).2.2.2.1, .inl (h.mono fun c hc => (hall c hc).2.2.2.2)⟩

/-- A reference to provisions is not a reference to the structure. -/
theorem phrase_notPlace {w : Phrase} (hw : w.Usual) {rest : Str} (h : After rest) (hr : ∀ w ∈ articleFollowers, ¬ w <+: skipWs rest) :
    NotPlace (w.text ++ rest) := by
  have hwords := words_eq w
  have hmem : ∀ x ∈ w.words, ∀ r, LevelText (x.text ++ r) := fun x hx r => levelText_words hw hx r
  rcases hx : w.words with _ | ⟨x, l⟩
  · exact absurd hx hw.named
  rw [text_glue hx, List.append_assoc]
  rw [hx] at hwords hmem
  have hlt := hmem x (List.mem_cons_self ..) (glue l ++ rest)
  cases ha : w.article with
  | some a =>
    simp only [articleWords, ha, Option.toList_some, List.map_cons, List.map_nil, List.cons_append, List.nil_append,
      List.cons.injEq] at hwords
    rw [hwords.1]
    have hR : Next (glue l ++ rest) ∧ ∀ w ∈ articleFollowers, ¬ w <+: skipWs (glue l ++ rest) := by
      rcases l with _ | ⟨y, l⟩
      · exact ⟨h.next, hr⟩
      · have hy := hmem y (List.mem_cons_of_mem _ (List.mem_cons_self ..)) (glue l ++ rest)
        have e : glue (y :: l) ++ rest = ' ' :: (y.text ++ (glue l ++ rest)) := by simp [glue]
        rw [e]
        refine ⟨hy.next, ?_⟩
        have : skipWs (' ' :: (y.text ++ (glue l ++ rest))) = y.text ++ (glue l ++ rest) := by
          show skipWs (y.text ++ (glue l ++ rest)) = _
          exact skipWs_noWs hy.noWs
        rw [this]
        exact followers_level hy
    exact notPlace_articles (hw.article a ha).1 (hw.article a ha).2 hR.1 hR.2
  | none =>
  simp only [articleWords, ha, Option.toList_none, List.map_nil, List.nil_append] at hwords
  cases hp : w.paragraph with
  | some p =>
    simp only [paragraphWords, hp, Option.toList_some, List.map_cons, List.map_nil, List.cons_append, List.nil_append,
      List.cons.injEq] at hwords
    rw [hwords.1] at hlt ⊢
    obtain ⟨r', e, -⟩ := words_others (span := paragraphSpan) (word := str!" bekezdés") (hw.paragraph p hp).1 (glue l ++ rest)
    rw [e] at hlt ⊢
    have hh : ∃ t, paragraphSpan p.first ++ r' = '(' :: t := by cases p.first <;> exact ⟨_, rfl⟩
    obtain ⟨t, ht⟩ := hh
    rw [ht] at hlt ⊢
    exact notPlace_head ⟨noWs_cons (by decide), .cons (by decide), .cons (by decide), .cons (by decide), .inl (.cons (by decide))⟩ (.cons (by decide)) hlt.noAz
  | none =>
  simp only [paragraphWords, hp, Option.toList_none, List.map_nil, List.nil_append] at hwords
  have letters : Head (lowerAz · = true) (x.text ++ (glue l ++ rest)) → NotPlace (x.text ++ (glue l ++ rest)) := fun hh =>
    notPlace_head (lower_unnamed hh) (hh.mono fun c hc => (Other.of_lower hc).digit) hlt.noAz
  cases hn : w.numericPoint with
  | some p =>
    simp only [pointWords, hn, Option.toList_some, List.map_cons, List.map_nil, List.cons_append, List.nil_append,
      List.cons.injEq] at hwords
    rw [hwords.1]
    exact notPlace_dotted (hw.numericPoint p hn).1 (by simp) _
  | none =>
  cases hb : w.alphabeticPoint with
  | some p =>
    simp only [pointWords, hn, hb, Option.toList_some, Option.toList_none, List.map_cons, List.map_nil, List.cons_append,
      List.nil_append, List.cons.injEq] at hwords
    refine letters ?_
    rw [hwords.1]
    obtain ⟨r', e, -⟩ := words_others (span := letterSpan) (word := str!" pont") (hw.alphabeticPoint p hb).1 (glue l ++ rest)
    rw [e]
    obtain ⟨c, t, e2, hc⟩ := letter_head p.first
    rw [e2]; exact .cons hc
  | none =>
  simp only [pointWords, hn, hb, Option.toList_none, List.map_nil, List.append_nil, List.nil_append] at hwords
  cases hm : w.numericSubpoint with
  | some p =>
    simp only [subpointWords, hm, Option.toList_some, List.map_cons, List.map_nil, List.cons_append, List.nil_append,
      List.cons.injEq] at hwords
    rw [hwords.1]
    have hfit : ∀ x : Span NumericId, x.Fits (fun i => i.suffix = none) → x.Fits fun _ => True := by
      intro x hx
      cases x with
      | one i => trivial
      | upTo d i j => exact ⟨hx.1, trivial, trivial⟩
    have hl := (hw.numericSubpoint p hm).1
    exact notPlace_dotted ⟨hfit _ hl.1, fun x hx => ⟨(hl.2 x hx).1, hfit _ (hl.2 x hx).2⟩⟩ (by simp) _
  | none =>
  cases hd : w.alphabeticSubpoint with
  | some p =>
    simp only [subpointWords, hm, hd, Option.toList_some, Option.toList_none, List.map_cons, List.map_nil, List.cons_append,
      List.nil_append, List.cons.injEq] at hwords
    refine letters ?_
    rw [hwords.1]
    obtain ⟨r', e, -⟩ := words_others (span := prefixedSpan) (word := str!" alpont") (hw.alphabeticSubpoint p hd).1 (glue l ++ rest)
    rw [e]
    obtain ⟨c, t, e2, hc⟩ := prefixed_head (hw.alphabeticSubpoint p hd).1.1
    rw [e2]; exact .cons hc
  | none =>
    simp [subpointWords, hm, hd] at hwords

/-! ### lists of subtitles -/

theorem subtitlesMean_usual {x : Span NumericId} {e : StructuralRefParent} (h : SubtitlesMean x e) : SlashedUsual x := by
  cases h with
  | one hi => exact hi
  | upTo hd hi hj => exact ⟨hd, hi, hj⟩

theorem forall₂_left {α β : Type} {R : α → β → Prop} {f : α → Prop} {l : List α} {m : List β} (h : List.Forall₂ R l m)
    (hf : ∀ x y, R x y → f x) : ∀ x ∈ l, f x := by
  induction h with
  | nil => simp
  | cons h _ ih => intro x hx; rcases List.mem_cons.1 hx with rfl | hx; exacts [hf _ _ h, ih x hx]

theorem slashed_itemStart (x : Span NumericId) (r : Str) :
    ItemStart (slashedSpan x ++ r) ∧ Head (fun c => c ≠ ')' ∧ isDashChar c = false) (skipWs (slashedSpan x ++ r)) := by
  obtain ⟨a, ha⟩ : ∃ a, slashedSpan x = articleSpan a := ⟨_, slashedSpan_article x⟩
  rw [ha]
  refine ⟨itemStart_article a _, ?_⟩
  obtain ⟨c, t, e, hc⟩ := article_head a
  rw [e, List.cons_append, skipWs_cons (digit_noWs hc)]
  refine .cons ⟨by rintro rfl; revert hc; decide, ?_⟩
  rw [Bool.eq_false_iff]; intro hd
  simp only [isDashChar, List.contains_iff_mem, List.mem_cons, List.not_mem_nil, or_false] at hd
  rcases hd with rfl | rfl | rfl <;> revert hc <;> decide

/-- What is after the numbers of a list of subtitles. -/
structure AlcimEnd (s : Str) : Prop where
  sep : ∀ n, Fails (call listSeparator) n s
  word : ∃ r, skipWs s = str!"alcím" ++ r

theorem alcimEnd (e R : Str) : AlcimEnd (str!" alcím" ++ (e ++ R)) :=
  ⟨fun _ => fails_listSeparator (.cons (by decide)), e ++ R, rfl⟩

theorem AlcimEnd.bad {s w : Str} (h : AlcimEnd s) (h1 : ¬ w <+: str!"alcím") (h2 : ¬ str!"alcím" <+: w) : Bad (partSuffix w) s := by
  obtain ⟨r, e⟩ := h.word
  exact ⟨h.sep, fun n => Fails.call fun _ => Fails.bind (Fails.lit (by rw [e]; exact not_prefix_words h1 h2))⟩

theorem subtitleList_noLevel {l : Listing NumericId} (hl : l.Fits SlashedUsual) (R : Str) :
    NoLevel ((l.words slashedSpan str!" alcím").text ++ R) := by
  have e1 : (l.words slashedSpan str!" alcím").text ++ R =
      slashedSpan l.first ++ othersText slashedSpan l.others ++ (str!" alcím" ++ (l.ending ++ R)) := by
    rw [words_text]; simp
  have hend := alcimEnd l.ending R
  rw [e1]
  have hws : NoWs (slashedSpan l.first ++ othersText slashedSpan l.others ++ (str!" alcím" ++ (l.ending ++ R))) := by
    rw [List.append_assoc]; exact slashed_noWs _ _
  have hd : Head (isDigit · = true) (slashedSpan l.first ++ othersText slashedSpan l.others ++ (str!" alcím" ++ (l.ending ++ R))) := by
    rw [List.append_assoc]; exact slashed_digit _ _
  have hpart : ∀ w, w ≠ [] → ¬ w <+: str!"alcím" → ¬ str!"alcím" <+: w → (∀ c, w.head? = some c → c ∉ str!",;évi") →
      ∀ (p : P Str), (∀ n k r, AfterDigits r → Reads p n (dec k) r (dec k)) → ∀ (γ : Type) (g : List Part → Unit → P γ) n,
      Fails (listOf (dottedPart p) >>= fun l => call (partSuffix w) >>= g l) n
        (slashedSpan l.first ++ othersText slashedSpan l.others ++ (str!" alcím" ++ (l.ending ++ R))) := by
    intro w hw h1 h2 h3 p hp γ g n
    refine fails_stuck l hl (fun x _ r => (slashed_itemStart x r).1) (fun x hx r _ => ?_) (hend.bad h1 h2) (fun r h n => ?_) n
    · rcases dotted_slashed hp hx r with h | h
      · exact .inl h
      · exact .inr (.inr h)
    · refine fails_call_suffix (not_prefix_of_head hw fun e => ?_)
      cases w with
      | nil => exact hw rfl
      | cons c w =>
        have := joined_head (f := (· ∈ str!",;évi")) h (by decide) c (by rw [← e]; rfl)
        exact h3 c rfl this
  refine ⟨?_, fun n => ?_, fun n => ?_, fun n => ?_, ?_⟩ <;> rw [skipWs_noWs hws]
  · exact Head.noBracket (hd.mono fun c hc => (digit_not hc).2)
  · refine fails_stuck (f := SlashedUsual) l hl (fun x _ r => (slashed_itemStart x r).1) (fun x hx r h => .inl fun n => ?_)
      ⟨hend.sep, fun n => Fails.call fun _ => fails_articleSuffix (.cons (by decide))⟩ (fun r h n => joined_noSign h n) n
    have hr : Head (· ≠ '§') (skipWs r) := by
      rcases h with h | rfl
      · exact joined_head h (by decide)
      · exact .cons (by decide)
    rw [slashedSpan_article]
    cases x with
    | one i => exact ⟨_, reads_articlePart hx (noRange_of_head hr)⟩
    | upTo d i j => exact ⟨_, reads_articlePart ⟨hx.1, rfl, hx.2⟩ (noRange_of_head hr)⟩
  · exact hpart str!"pont" (by decide) (by decide) (by decide) (by decide) _ (fun n k r h => reads_pointId_digits h) _ _ n
  · exact hpart str!"alpont" (by decide) (by decide) (by decide) (by decide) _ (fun n k r h => reads_number_digits h) _ _ n
  · exact noMark_head (hd.mono fun c hc => (digit_not hc).1)

/-- How a list of subtitles begins. -/
theorem subtitleList_start (l : Listing NumericId) (r : Str) : ItemStart ((l.words slashedSpan str!" alcím").text ++ r) ∧
    Head (fun c => c ≠ ')' ∧ isDashChar c = false) (skipWs ((l.words slashedSpan str!" alcím").text ++ r)) := by
  have e1 : (l.words slashedSpan str!" alcím").text ++ r =
      slashedSpan l.first ++ (othersText slashedSpan l.others ++ (str!" alcím" ++ (l.ending ++ r))) := by
    rw [words_text]; simp
  rw [e1]
  exact slashed_itemStart _ _

theorem fails_structural_list {l : Listing NumericId} (hl : l.Fits SlashedUsual) (hmore : l.others ≠ []) (R : Str) (n : Nat) :
    Fails structuralReference n ((l.words slashedSpan str!" alcím").text ++ R) := by
  have e1 : (l.words slashedSpan str!" alcím").text ++ R =
      slashedSpan l.first ++ (othersText slashedSpan l.others ++ (str!" alcím" ++ (l.ending ++ R))) := by
    rw [words_text]; simp
  have hj : Joined (othersText slashedSpan l.others ++ (str!" alcím" ++ (l.ending ++ R))) := by
    cases ho : l.others with
    | nil => exact absurd ho hmore
    | cons x k =>
      have := (hl.2 x (by rw [ho]; exact List.mem_cons_self ..)).1
      exact ⟨x.1, this, slashedSpan x.2 ++ (othersText slashedSpan k ++ (str!" alcím" ++ (l.ending ++ R))), by simp [othersText]⟩
  rw [e1]
  refine fails_structural_digit (slashed_digit _ _) (Stuck.one (.inl fun n => ⟨_, reads_subtitlePart hl.1 (joined_head hj (by decide))⟩)
    (slashed_noWs _ _) (fun n => joined_noSubtitle hj n)) n

/-- A list of subtitles is not a part of the structure. -/
theorem subtitleList_notPart {l : Listing NumericId} (hl : l.Fits SlashedUsual) (hmore : l.others ≠ []) (R : Str) :
    NotPart ((l.words slashedSpan str!" alcím").text ++ R) := by
  have hst := (subtitleList_start l R).1
  refine ⟨hst.noWs, fun n => fails_structural_list hl hmore R n, hst.noAz, .inl fun n => ?_⟩
  have e1 : (l.words slashedSpan str!" alcím").text ++ R =
      slashedSpan l.first ++ (othersText slashedSpan l.others ++ (str!" alcím" ++ (l.ending ++ R))) := by
    rw [words_text]; simp
  have hj : Joined (othersText slashedSpan l.others ++ (str!" alcím" ++ (l.ending ++ R))) := by
    rcases joined_or slashedSpan (fun x hx => (hl.2 x hx).1) (str!" alcím" ++ (l.ending ++ R)) with h | h
    · exact h
    · cases ho : l.others with
      | nil => exact absurd ho hmore
      | cons x k =>
        have := (hl.2 x (by rw [ho]; exact List.mem_cons_self ..)).1
        exact ⟨x.1, this, slashedSpan x.2 ++ (othersText slashedSpan k ++ (str!" alcím" ++ (l.ending ++ R))), by simp [othersText]⟩
  have hnw := hst.noWs
  rw [e1] at hnw ⊢
  refine Fails.positioned (Stuck.one (part := articlePart) (suffix := articleSuffix) (.inl fun n => ?_) hnw (joined_noSign hj) n)
  have hr := noRange_of_head (joined_head hj (f := (· ≠ '§')) (by decide))
  have hx := hl.1
  rw [slashedSpan_article]
  cases hf : l.first with
  | one i => rw [hf] at hx; exact ⟨_, reads_articlePart hx hr⟩
  | upTo d i j => rw [hf] at hx; exact ⟨_, reads_articlePart ⟨hx.1, rfl, hx.2⟩ hr⟩

theorem itemsAt_const {span : Span α → Str} {f : Span α → β} (n : Nat) (l : Listing α) : itemsAt span (fun x _ => f x) n l = l.spans.map f := by
  have : ∀ (k : List (Str × Span α)) n, othersAt span (fun x _ => f x) n k = (k.map Prod.snd).map f := by
    intro k
    induction k with
    | nil => intro n; rfl
    | cons x k ih => intro n; obtain ⟨s, x⟩ := x; simp [othersAt, ih]
  simp [itemsAt, Listing.spans, this]

theorem reads_subtitleList {l : Listing NumericId} (hl : l.Fits SlashedUsual) (he : Ending l.ending) {rest : Str} (h : Next rest) {n : Nat} :
    Reads subtitlesReference n (l.words slashedSpan str!" alcím").text rest (l.spans.map (idPart NumericId.displaySlash)) := by
  have e1 : (l.words slashedSpan str!" alcím").text = (slashedSpan l.first ++ othersText slashedSpan l.others) ++ (' ' :: (str!"alcím" ++ l.ending)) := by
    rw [words_text]; simp
  rw [e1, ← itemsAt_const (span := slashedSpan) n l]
  refine Reads.bind (reads_listOf (f := SlashedUsual) l hl (fun x _ r => (slashed_itemStart x r).1) (fun x hx n r h => reads_subtitlePart hx ?_) ?_) (Reads.map (a := ())
    (g := fun _ => itemsAt slashedSpan (fun x _ => idPart NumericId.displaySlash x) n l) (reads_call_subtitleSuffix (w := ⟨str!"alcím", l.ending⟩) ⟨by simp, he⟩ h))
  · rcases h with h | rfl
    · exact joined_head h (by decide)
    · exact .cons (by decide)
  · exact fun n => fails_listSeparator (.cons (by decide))

/-! ### attachments -/

theorem any_lower {c : Char} (h : isHunAny c = false) : isHunLower c = false := by
  simp only [isHunAny, Bool.or_eq_false_iff] at h
  exact h.1

theorem attachment_notPlace {a : Attachment} (ha : a.Usual) (r : Str) : NotPlace (a.text ++ r) := by
  have hfit : a.numbers.Fits (Span.Fits fun _ => True) := by
    have hs : ∀ s : Span NumericId, s.Fits (fun i => i.suffix = none) → s.Fits fun _ => True := by
      intro s h
      cases s with
      | one i => trivial
      | upTo d i j => exact ⟨h.1, trivial, trivial⟩
    exact ⟨hs _ ha.numbers.1, fun x hx => ⟨(ha.numbers.2 x hx).1, hs _ (ha.numbers.2 x hx).2⟩⟩
  rw [attachment_text, List.append_assoc]
  refine notPlace_dotted hfit ?_ _
  rcases attachmentWord_cases a with h | h <;> rw [h] <;> simp

/-- How attachments begin. -/
theorem attachment_begins {a : Attachment} (ha : a.Usual) (r : Str) :
    ItemStart (a.text ++ r) ∧ Head (fun c => c ≠ ')' ∧ isDashChar c = false) (skipWs (a.text ++ r)) := by
  obtain ⟨c, t, e, hc⟩ := attachment_head a r
  have hi : ItemStart (a.text ++ r) := by
    rw [attachment_text, List.append_assoc, words_text, List.append_assoc, List.append_assoc]
    exact itemStart_dotted _
  refine ⟨hi, ?_⟩
  rw [e, skipWs_cons (digit_noWs hc)]
  refine .cons ⟨by rintro rfl; revert hc; decide, ?_⟩
  rw [Bool.eq_false_iff]; intro hd
  simp only [isDashChar, List.contains_iff_mem, List.mem_cons, List.not_mem_nil, or_false] at hd
  rcases hd with rfl | rfl | rfl <;> revert hc <;> decide

/-- What is next does not belong to the attachments. -/
def Shut (a : Attachment) (rest : Str) : Prop :=
  (∀ n, Fails (call attachmentJunk) n rest) ∧ (a.places ≠ [] → ∀ n, Fails (call listSeparator) n rest)

theorem closing_noJunk {sep : Str} (h : Closing sep) (r : Str) (n : Nat) : Fails (call attachmentJunk) n (sep ++ r) := by
  obtain ⟨c, hc, t, e⟩ := h
  refine (ended_fails (a := ⟨⟨.one (.ofNum 1), [], []⟩, false, []⟩) (rest := sep ++ r) ?_).1 n
  have h1 : ∀ c ∈ str!",;é", (c ∈ lowerLetters ∨ c ∈ upperLetters ∨ c ∈ str!",;!?") ∧ c ∉ identifierChars := by decide
  rcases e with rfl | rfl
  · exact .other [] c (t ++ r) rfl (.inl rfl) (h1 c hc)
  · exact .other str!" " c (t ++ r) rfl (.inr rfl) (h1 c hc)

/-- What is not the beginning of a place in an attachment. -/
theorem fails_junk {s : Str} (hq : Head (· ≠ '„') (skipWs s))
    (hsep : ∀ w ∈ sepMarks ++ sepWords ++ attachmentParts, ¬ w <+: skipWs ((skipWs s).dropWhile isJunkIdChar))
    (hq2 : Head (· ≠ '„') (skipWs ((skipWs s).dropWhile isJunkIdChar)))
    (h1 : Head (fun c => c ≠ 'f' ∧ c ≠ 'c') (skipWs s)) (n : Nat) : Fails (call attachmentJunk) n s := by
  refine Fails.call fun n => Fails.alt (fails_junkIds ?_ (fun w hw => hsep w (List.mem_append_left _ hw)) hq2
    (fun w hw => hsep w (List.mem_append_right _ hw)) n) (Fails.alt (Fails.bind (Fails.lit ?_)) (Fails.bind (Fails.lit ?_)))
  · rwa [skipWs_noWs (noWs_skipWs s)]
  · exact not_prefix_of_head (by decide) fun e => (h1 'f' e.symm).1 rfl
  · exact not_prefix_of_head (by decide) fun e => (h1 'c' e.symm).2 rfl

theorem listing_fits {l : Listing NumericId} {es : List StructuralRefParent} (h : List.Forall₂ SubtitlesMean l.spans es)
    (hsep : ∀ x ∈ l.others, x.1 ∈ separators) : l.Fits SlashedUsual := by
  have hu := forall₂_left h fun _ _ h => subtitlesMean_usual h
  exact ⟨hu _ (List.mem_cons_self ..), fun x hx => ⟨hsep x hx, hu _ (List.mem_cons_of_mem _ (List.mem_map_of_mem hx))⟩⟩

theorem dot_noJunk (n : Nat) : Fails (call attachmentJunk) n str!"." :=
  fails_junk (.cons (by decide)) (by decide +kernel) (by intro c hc; cases hc) (.cons (by decide)) n

theorem reads_quoteSp {t : Str} (ht : QuotedUsual t) {n : Nat} {rest : Str} :
    Reads quote n (str!" „" ++ (t ++ str!"”")) rest t := by
  refine Reads.bind (t := str!" „") (Reads.tok_space (s := str!"„") (noWs_cons (by decide))) (Reads.bind (Reads.call ?_ (reads_quoteInner ht))
    (Reads.map (g := fun _ => t) (Reads.tok (s := str!"”") (noWs_cons (by decide)))))
  cases t with
  | nil => exact noWs_cons (by decide)
  | cons c t =>
    refine noWs_cons ?_
    have := ht.first c rfl
    rw [← ws_mem] at this
    simpa using this

theorem reads_quoteAt {v t : Str} (hv : v = [] ∨ v = [' ']) (ht : QuotedUsual t) {n : Nat} {rest : Str} :
    Reads quote n (v ++ (str!"„" ++ (t ++ str!"”"))) rest t := by
  rcases hv with rfl | rfl
  · refine Reads.bind (t := str!"„") (Reads.tok (s := str!"„") (noWs_cons (by decide))) (Reads.bind (Reads.call ?_ (reads_quoteInner ht))
      (Reads.map (g := fun _ => t) (Reads.tok (s := str!"”") (noWs_cons (by decide)))))
    cases t with
    | nil => exact noWs_cons (by decide)
    | cons c t =>
      refine noWs_cons ?_
      have := ht.first c rfl
      rw [← ws_mem] at this
      simpa using this
  · exact reads_quoteSp ht

/-- No text that begins like this names a part of an attachment: after all possible identifiers there is something else. -/
def NoPart (s : Str) : Prop := ∀ n, ∃ t r k, s = t ++ r ∧ Reads (many attachmentJunkItem) n t r k ∧
  ∀ n, Fails (ws >>= fun _ => lits attachmentParts >>= fun _ => hunLowers) n r

theorem reads_noJunkSeparator {s : Str} (hs : Head (fun c => c ≠ ',' ∧ c ≠ ';' ∧ c ≠ 'é' ∧ c ≠ 'v' ∧ c ≠ 'i') (skipWs s)) {n : Nat} :
    Reads (opt (listSeparator >>= fun _ => opt ws)) n [] s none := by
  refine Reads.opt_none (Fails.bind ?_)
  have h : Fails (call listSeparator) n s := fails_listSeparator hs
  unfold Fails at h ⊢
  rwa [listSeparator_call] at h

theorem noPart_szoveg (r : Str) : NoPart (' ' :: str!"szöveg" ++ r) := fun n => by
  refine ⟨[], _, [], rfl, Reads.many_nil (Fails.bind (Fails.alt (Fails.bind (fails_quote (.cons (by decide))))
    (Fails.bind (Fails.many1 (Fails.char (by intro c hc; simp at hc; subst hc; decide)))))), fun n => ?_⟩
  refine Fails.bind_of (t := [' ']) (rest := str!"szöveg" ++ r) (a := ()) (Reads.ws (by simp [isWs]) (noWs_cons (by decide))) (Fails.bind (Fails.lits ?_))
  intro w hw
  have : ∀ w ∈ attachmentParts, ¬ w <+: str!"szöveg" ∧ ¬ str!"szöveg" <+: w := by decide
  exact not_prefix_words (this w hw).1 (this w hw).2

theorem noPart_dot : NoPart str!"." := fun n => by
  have h0 : ∀ n, Fails attachmentJunkItem n ([] : Str) := fun n =>
    Fails.bind (Fails.alt (Fails.bind (fails_quote (by intro c hc; cases hc))) (Fails.bind (Fails.many1 (Fails.char (by intro c hc; cases hc)))))
  have h1 : Reads attachmentJunkItem n str!"." [] () := by
    refine Reads.bind_last (Reads.right (Fails.bind (fails_quote (.cons (by decide)))) (Reads.many1_chars (by decide) (by decide) (by intro c hc; cases hc)).map)
      (Reads.map (g := fun _ => ()) (reads_noJunkSeparator (by intro c hc; cases hc)))
  refine ⟨str!".", [], [()], rfl, ?_, fun n => ?_⟩
  · exact Reads.many_cons (u := []) (by simp) h1 (Reads.many_nil (h0 _))
  · exact Fails.bind_of (t := []) (rest := []) (a := ()) (Reads.ws (by simp) (by intro c hc; cases hc)) (Fails.bind (Fails.lits (by decide)))

theorem noPart_quote {v x sep rest : Str} (hv : v = [] ∨ v = [' ']) (hx : QuotedUsual x)
    (hs : ∀ n, ∃ o, Reads (opt (listSeparator >>= fun _ => opt ws)) n sep rest o) (h : NoPart rest) :
    NoPart (v ++ (str!"„" ++ (x ++ str!"”")) ++ (sep ++ rest)) := fun n => by
  obtain ⟨o, ho⟩ := hs (n + byteLen (v ++ (str!"„" ++ (x ++ str!"”"))))
  obtain ⟨t, r, k, rfl, h1, h2⟩ := h (n + byteLen (v ++ (str!"„" ++ (x ++ str!"”")) ++ sep))
  refine ⟨v ++ (str!"„" ++ (x ++ str!"”")) ++ sep ++ t, r, () :: k, by simp, Reads.many_cons (by simp) ?_ h1, h2⟩
  exact Reads.bind (Reads.left (Reads.map (g := fun _ => ()) (reads_quoteAt hv hx))) (Reads.map (g := fun _ => ()) ho)

/-- An article before a text that does not name a part of an attachment. -/
theorem article_noJunk {a s : Str} (ha : a ∈ [str!"a", str!"az"]) (h : NoPart (str!" „" ++ s)) (n : Nat) :
    Fails (call attachmentJunk) n (' ' :: a ++ (str!" „" ++ s)) := by
  have ha' : (∀ c ∈ a, isJunkIdChar c = true) ∧ a ≠ [] ∧ a.head? = some 'a' := by
    simp only [List.mem_cons, List.not_mem_nil, or_false] at ha
    rcases ha with rfl | rfl <;> decide
  obtain ⟨hj, hne, hh⟩ := ha'
  have hhead : ∀ {f : Char → Prop} (s : Str), f 'a' → Head f (a ++ s) := by
    intro f s h
    cases a with
    | nil => exact absurd rfl hne
    | cons c a => simp at hh; subst hh; exact .cons h
  refine Fails.call fun n => ?_
  have hsk : skipWs (' ' :: a ++ (str!" „" ++ s)) = a ++ (str!" „" ++ s) := by
    rw [List.cons_append]
    exact skipWs_noWs (hhead _ (by decide))
  rw [hsk]
  refine Fails.alt ?_ (Fails.alt (Fails.bind (Fails.lit (not_prefix_of_head (by decide) ?_))) (Fails.bind (Fails.lit (not_prefix_of_head (by decide) ?_))))
  · have h1 : Reads attachmentJunkItem n a (str!" „" ++ s) () := by
      refine Reads.bind_last (Reads.right (Fails.bind (fails_quote ?_)) (Reads.many1_chars hne hj ?_).map) (Reads.map (g := fun _ => ()) (reads_noJunkSeparator ?_))
      · rw [skipWs_noWs (hhead _ (by decide))]; exact hhead _ (by decide)
      · intro c hc; simp at hc; subst hc; decide
      · exact .cons (by decide)
    obtain ⟨t, r, k, e, h2, h3⟩ := h (n + byteLen a)
    rw [e] at h1 ⊢
    have h4 : Reads (many1 attachmentJunkItem) n (a ++ t) r (() :: k) := Reads.bind h1 (Reads.map (g := fun l => () :: l) h2)
    have h5 := Fails.bind_of (f := fun _ => ws >>= fun _ => lits attachmentParts >>= fun _ => hunLowers) h4 (h3 _)
    rwa [List.append_assoc] at h5
  · exact fun e => hhead (f := (· ≠ 'f')) _ (by decide) _ e.symm rfl
  · exact fun e => hhead (f := (· ≠ 'c')) _ (by decide) _ e.symm rfl

/-- Quoted words are not the identifier of a place in an attachment when the word "szöveg" is after them. -/
theorem quote_noJunk {a x : Str} (ha : a ∈ [str!"a", str!"az"]) (hx : QuotedUsual x) (r : Str) (n : Nat) :
    Fails (call attachmentJunk) n (' ' :: a ++ (str!" „" ++ (x ++ str!"”") ++ (' ' :: str!"szöveg" ++ r))) := by
  have := noPart_quote (v := [' ']) (sep := []) (.inr rfl) hx (fun n => ⟨_, reads_noJunkSeparator (s := ' ' :: str!"szöveg" ++ r) (n := n) (.cons (by decide))⟩) (noPart_szoveg r)
  have h := article_noJunk (s := x ++ str!"”" ++ (' ' :: str!"szöveg" ++ r)) ha (by simpa using this) n
  simpa using h

/-! ### what is after a place -/

/-- What can be after a place: a separator, the quoted words, or the end of the sentence. -/
structure Ended (s : Str) : Prop where
  after : After s
  any : Head (isHunAny · = false) s
  followers : ∀ w ∈ str!"nyitó" :: str!"záró" :: articleFollowers, ¬ w <+: skipWs s
  unnamed : Unnamed (skipWs s)
  noArticle : NoArticle (skipWs s)

theorem NoArticle.relative_of {s : Str} (h : NoArticle (skipWs s)) {n : Nat} : Fails (call articleRelative) n s :=
  Fails.call fun _ =>
    Fails.alt (Fails.bind (Fails.call_noWs h.noWs fun _ => h.bind)) (Fails.bind (Fails.call_noWs h.noWs fun _ => h.bind))

theorem followers_head {s : Str} (h : Head (fun c => c ∉ str!"nzcskme") s) : ∀ w ∈ str!"nyitó" :: str!"záró" :: articleFollowers, ¬ w <+: s := by
  intro w hw
  have hall : ∀ w ∈ str!"nyitó" :: str!"záró" :: articleFollowers, w ≠ [] ∧ ∃ c ∈ w.head?, c ∈ str!"nzcskme" := by decide
  obtain ⟨h1, c, hc, hm⟩ := hall w hw
  refine not_prefix_of_head h1 fun e => h c ?_ hm
  rw [← e]; exact hc

theorem unnamed_head {s : Str} (h : Head (fun c => c ∈ str!",;évia.nz") s) : Unnamed s := by
  have hall : ∀ c ∈ str!",;évia.nz", isWs c = false ∧ c ≠ '„' ∧ isHunUpper c = false ∧ isRomanChar c = false ∧ isDigit c = false := by decide
  exact ⟨h.mono fun c hc => (hall c hc).1, h.mono fun c hc => (hall c hc).2.1, h.mono fun c hc => (hall c hc).2.2.1,
    h.mono fun c hc => (hall c hc).2.2.2.1, .inl (h.mono fun c hc => (hall c hc).2.2.2.2)⟩

theorem ended_separator {sep r : Str} (hsep : sep ∈ separators) (hr : Head (fun c => c ≠ ')' ∧ isDashChar c = false) (skipWs r)) :
    Ended (sep ++ r) := by
  have hj : Joined (sep ++ r) := ⟨sep, hsep, r, rfl⟩
  refine ⟨separator_noLevel hsep hr, ?_, followers_head (joined_head hj (by decide)), unnamed_head (joined_head hj (by decide)),
    noArticle_word (noWs_skipWs _) (joined_head hj (by decide))⟩
  have hall : ∀ sep ∈ separators, ∃ c ∈ sep.head?, isHunAny c = false := by decide +kernel
  obtain ⟨c, hc, h⟩ := hall sep hsep
  cases sep with
  | nil => simp at hc
  | cons d sep => simp at hc; subst hc; exact .cons h

theorem ended_dot : Ended str!"." := by
  refine ⟨⟨⟨.cons (by decide), .cons (by decide)⟩, .of_head (.cons (by decide)) (.cons (by decide)) (noMark_head (.cons (by decide)))⟩,
    .cons (by decide), followers_head (.cons (by decide)), unnamed_head (.cons (by decide)),
    noArticle_word (noWs_skipWs _) (.cons (by decide))⟩

theorem ended_quote {a : Str} (ha : a ∈ [str!"a", str!"az"]) (r : Str) : Ended (' ' :: a ++ (' ' :: '„' :: r)) := by
  have ha' : a ++ [' '] = str!"a " ∨ a ++ [' '] = str!"az " := by
    simp only [List.mem_cons, List.not_mem_nil, or_false] at ha
    rcases ha with rfl | rfl <;> simp
  have e : skipWs (' ' :: a ++ (' ' :: '„' :: r)) = (a ++ [' ']) ++ '„' :: r := by
    simp only [List.mem_cons, List.not_mem_nil, or_false] at ha
    rcases ha with rfl | rfl <;> rfl
  have hh : Head (· = 'a') ((a ++ [' ']) ++ '„' :: r) := by rcases ha' with e | e <;> rw [e] <;> exact .cons rfl
  have hn : NoWs ((a ++ [' ']) ++ '„' :: r) := hh.mono fun c hc => by subst hc; decide
  refine ⟨⟨⟨.cons (by decide), ?_⟩, ?_⟩, .cons (by decide), ?_, ?_, ?_⟩
  · rw [e]; exact hh.mono fun c hc => by subst hc; decide
  · refine .of_head ?_ ?_ ?_
    · rw [e]; exact hh.mono fun c hc => by subst hc; decide
    · rw [e]; exact hh.mono fun c hc => by subst hc; decide
    · rw [e]
      refine noMark_text ?_ (.inr ⟨' ', by simp, by decide⟩) (by rw [skipWs_cons (by decide)]; exact .cons (by decide))
      intro c hc
      rcases ha' with e | e <;> rw [e] at hc <;> revert c <;> decide
  · rw [e]; exact followers_head (hh.mono fun c hc => by subst hc; decide)
  · rw [e]; exact unnamed_head (hh.mono fun c hc => by subst hc; decide)
  · rw [e]
    have hd : Head (isDigit · = false) ((a ++ [' ']) ++ '„' :: r) := hh.mono fun c hc => by subst hc; decide
    have h1 : NoWs ('„' :: r) := noWs_cons (by decide)
    have h2 : Head (isDigit · = false) ('„' :: r) := .cons (by decide)
    refine ⟨hn, fun n => Fails.bind_of (reads_optAz_az ha') (Fails.call_noWs h1 fun n => fails_articleReference_head h1 h2),
      fun n => Fails.bind_of (reads_optAz_az ha') (Fails.call_noWs h1 fun n => fails_singleArticle h1 h2),
      fun n => fails_singleArticle hn hd, ?_, ?_⟩
    all_goals
      rintro ⟨u, he⟩
      rcases ha' with e | e <;> rw [e] at he <;> simp at he

theorem Ended.afterPlace {s : Str} (h : Ended s) (p : Place) : AfterPlace p s := by
  refine ⟨⟨h.any, h.after.next.dash⟩, fun _ => ?_⟩
  have := h.followers str!"cím" (by simp [articleFollowers])
  exact ⟨fun hp => this (List.IsPrefix.trans ⟨['e'], rfl⟩ hp), fun hp => this (List.IsPrefix.trans ⟨['é'], rfl⟩ hp)⟩

/-- No further place is read. -/
theorem Ended.fails {s : Str} (h : Ended s) (n : Nat) : Fails textReferenceItem n s := by
  have hs : ∀ n, Fails (call structuralReference) n s := fun n => Fails.call fun _ => fails_structural h.unnamed
  have hs' : ∀ n, Fails (call structuralReference) n (skipWs s) := fun n => Fails.call_noWs (noWs_skipWs s) fun _ => fails_structural h.unnamed
  have hn := noWs_skipWs s
  have hrel : ∀ n, Fails (call articleRelative) n (skipWs s) := fun n => NoArticle.relative_of (by rw [skipWs_noWs hn]; exact h.noArticle)
  refine Fails.bind (Fails.call fun _ => ?_)
  refine Fails.alt (Fails.call_noWs hn fun _ => Fails.bind (Fails.call_noWs hn h.noArticle.single)) <|
    Fails.alt (Fails.call_noWs hn fun _ => Fails.alt (Fails.bind (hs' _)) (Fails.alt (Fails.bind (hs' _)) (Fails.alt (Fails.bind (hrel _)) (Fails.bind (hs' _))))) <|
    Fails.alt (Fails.bind (Fails.call_noWs hn fun _ => fails_subtitles h.unnamed)) <|
    Fails.alt (Fails.call_noWs hn fun _ => Fails.bind (fails_call_reference h.after.none.skip)) (Fails.bind (Fails.call_noWs hn fun _ => fails_attachments h.unnamed))

/-! ### places -/

/-- The result for a place. -/
def TargetAt : Target → TextReference → Prop
  | .provisions w p, x => ∃ k, x = .reference (phraseAt w k) (p.map fun y => if y.opening then .intro else .wrapUp)
  | .heading a _ _, x => ∃ k q, x = .articleTitle ⟨articleAt a k, q⟩
  | .place p, x => x = .structural none (.structural (placeAt p))
  | .placeIn q p, x => x = .structural (some (placeAt q)) (.structural (placeAt p))
  | .beside q b _, x => ∃ y, BesideIs b y ∧ x = .structural (q.map placeAt) (.relative y)
  | .subtitles l, x => x = .subtitles (l.spans.map (idPart NumericId.displaySlash))
  | .attachments _, x => x = .attachment

/-- What is after a place does not belong to the attachments in it. -/
def TargetShut (t : Target) (rest : Str) : Prop := ∀ a, t = .attachments a → Shut a rest

theorem NotPart.title {s : Str} (h : NotPart s) (n : Nat) : Fails articleTitleReference n s := by
  rcases h.single with h1 | ⟨t, u, e, h1, h2⟩
  · exact Fails.bind (Fails.call_noWs h.noWs h1)
  · obtain ⟨a, ha⟩ := h1 n
    have hn := h.noWs
    subst e
    refine Fails.bind_of (Reads.call hn ha) (Fails.bind (Fails.call fun _ => ?_))
    refine Fails.bind_of (t := []) (a := none) (Reads.opt_none (Fails.lit (h2 _ (by simp [articleFollowers])))) (Fails.bind (Fails.lit (h2 _ (by simp [articleFollowers]))))

theorem NotPart.relative {s : Str} (h : NotPart s) (n : Nat) : Fails (call articleRelative) n s := by
  have key : ∀ (l : List Str), (∀ w ∈ l, ∃ v ∈ articleFollowers, v <+: w) → ∀ n,
      Fails (optAz >>= fun _ => call singleArticle >>= fun a => toks l >>= fun _ => (pure a : P SingleArticle)) n s := by
    intro l hl n
    rcases h.single with h1 | ⟨t, u, e, h1, h2⟩
    · exact fails_optAz' h.noWs h.noAz h1
    · have hn := h.noWs
      have haz := h.noAz
      subst e
      refine Fails.bind_of (t := []) (a := ()) (rest := t ++ u) ?_ ?_
      · exact Reads.map (g := fun _ => ()) (Reads.opt_none (Fails.call_noWs hn fun _ => fails_az haz.1 haz.2))
      · obtain ⟨a, ha⟩ := h1 (n + byteLen [])
        refine Fails.bind_of (Reads.call hn ha) (Fails.bind (Fails.toks fun w hw hp => ?_))
        obtain ⟨v, hv, hp2⟩ := hl w hw
        exact h2 v hv (hp2.trans hp)
  refine Fails.call_noWs h.noWs fun _ => Fails.alt (Fails.bind (Fails.call_noWs h.noWs fun _ => key _ ?_ _)) (Fails.bind (Fails.call_noWs h.noWs fun _ => key _ ?_ _))
  all_goals decide

theorem fails_textStructural {s : Str} (h : NotPart s) (n : Nat) : Fails textStructuralReference n s := by
  have hs : ∀ n, Fails (call structuralReference) n s := fun n => Fails.call_noWs h.noWs h.structural
  exact Fails.alt (Fails.bind (hs _)) (Fails.alt (Fails.bind (hs _)) (Fails.alt (Fails.bind (h.relative _)) (Fails.bind (hs _))))

theorem noLevel_space {s : Str} (h : NoLevel s) : NoLevel (' ' :: s) := ⟨h.paragraph, h.article, h.numericPoint, h.numericSubpoint, h.letters⟩

theorem partWord_text (y : PartWord) : ∃ w, ((y.opening = true ∧ w = str!"nyitó") ∨ (y.opening = false ∧ w = str!"záró")) ∧
    y.text = ' ' :: w ++ (' ' :: str!"szöveg" ++ y.ending) := by
  cases ho : y.opening with
  | false => exact ⟨str!"záró", .inr ⟨rfl, rfl⟩, by simp [PartWord.text, ho]⟩
  | true => exact ⟨str!"nyitó", .inl ⟨rfl, rfl⟩, by simp [PartWord.text, ho]⟩

theorem partWord_after (y : PartWord) (rest : Str) : After (y.text ++ rest) ∧ ∀ v ∈ articleFollowers, ¬ v <+: skipWs (y.text ++ rest) := by
  obtain ⟨w, hw, e⟩ := partWord_text y
  have e2 : y.text ++ rest = ' ' :: (w ++ str!" ") ++ (str!"szöveg" ++ (y.ending ++ rest)) := by rw [e]; simp
  rw [e2]
  have hw' : w = str!"nyitó" ∨ w = str!"záró" := by rcases hw with h | h; exacts [.inl h.2, .inr h.2]
  refine ⟨⟨⟨.cons (by decide), ?_⟩, noLevel_space (noLevel_words ?_ (by simp) ?_ (.cons (by decide)))⟩, fun v hv => ?_⟩
  · rcases hw' with rfl | rfl <;> exact .cons (by decide)
  · rcases hw' with rfl | rfl <;> unfold Ordinary <;> decide
  · rcases hw' with rfl | rfl <;> exact .cons (by decide)
  · have hall : ∀ v ∈ articleFollowers, v ≠ [] ∧ v.head? ≠ some 'n' ∧ v.head? ≠ some 'z' := by decide
    obtain ⟨h1, h2, h3⟩ := hall v hv
    rcases hw' with rfl | rfl
    · exact not_prefix_of_head h1 h2
    · exact not_prefix_of_head h1 h3

theorem reads_partWord {y : PartWord} (hy : Ending y.ending) {rest : Str} (h : Next rest) {n : Nat} :
    Reads (opt (partToken >>= fun t => call textAmendmentToken >>= fun _ => pure t)) n y.text rest
      (some (if y.opening then .intro else .wrapUp)) := by
  obtain ⟨w, hw, e⟩ := partWord_text y
  rw [e]
  have hs : ∀ n, Reads (call textAmendmentToken) n (' ' :: str!"szöveg" ++ y.ending) rest () := fun n =>
    reads_call_partSuffix (by decide) (noWs_cons (by decide)) hy h
  refine Reads.opt_some (Reads.bind (a := if y.opening then PartToken.intro else .wrapUp) ?_ (Reads.map (g := fun _ => if y.opening then PartToken.intro else .wrapUp) (hs _)))
  rcases hw with ⟨ho, rfl⟩ | ⟨ho, rfl⟩
  · rw [ho]
    exact Reads.left (Reads.map (g := fun _ => PartToken.intro) (Reads.tok_space (noWs_cons (by decide))))
  · rw [ho]
    refine Reads.right (Fails.bind (Fails.tok (by decide) ?_)) (Reads.map (g := fun _ => PartToken.wrapUp) (Reads.tok_space (noWs_cons (by decide))))
    simp [skipWs, isWs]

theorem reads_textProvisions {w : Phrase} (hw : w.Usual) {p : Option PartWord} (hp : ∀ x, p = some x → Ending x.ending) {rest : Str} (h : Ended rest)
    (n : Nat) : Reads textReference n (w.text ++ (p.map PartWord.text).getD []) rest
      (.reference (phraseAt w n) (p.map fun y => if y.opening then .intro else .wrapUp)) := by
  have hafter : After ((p.map PartWord.text).getD [] ++ rest) ∧ ∀ v ∈ articleFollowers, ¬ v <+: skipWs ((p.map PartWord.text).getD [] ++ rest) := by
    cases p with
    | none => exact ⟨h.after, fun v hv => h.followers v (by simp [hv])⟩
    | some y => exact partWord_after y rest
  have hnp : NotPlace ((w.text ++ (p.map PartWord.text).getD []) ++ rest) := by
    rw [List.append_assoc]; exact phrase_notPlace hw hafter.1 hafter.2
  have hnw := hnp.noWs
  refine Reads.right (Fails.call_noWs hnw hnp.title) <| Reads.right (Fails.call_noWs hnw (fails_textStructural hnp.toNotPart)) <|
    Reads.right (Fails.bind (Fails.call_noWs hnw hnp.subtitles)) <| Reads.left (Reads.call hnw ?_)
  refine Reads.bind (a := phraseAt w n) (Reads.call (by rw [List.append_assoc] at hnw; exact hnw) (reads_reference hw hafter.1)) ?_
  refine Reads.map (g := fun t => TextReference.reference (phraseAt w n) t) ?_
  cases p with
  | none =>
    refine Reads.opt_none (Fails.bind (Fails.alt (Fails.bind (Fails.call fun _ => Fails.lit (h.followers _ (by simp))))
      (Fails.bind (Fails.call fun _ => Fails.lit (h.followers _ (by simp))))))
  | some y => exact reads_partWord (hp y rfl) h.after.next

theorem reads_heading {a : Span ArticleId} (ha : ArticleUsual a) {sign : Str} (hs : SignEnding sign) {w : Inflected} (hw : w.Of [str!"cím", str!"szakaszcím"])
    (hne : w.ending ≠ []) {rest : Str} (h : Head (isHunLower · = false) rest) (n : Nat) :
    Reads textReference n (articleSpan a ++ str!" §" ++ sign ++ str!" " ++ w.text) rest
      (.articleTitle ⟨articleAt a n, ⟨n, n + byteLen (articleSpan a ++ (str!" §" ++ sign))⟩⟩) := by
  have e : articleSpan a ++ str!" §" ++ sign ++ str!" " ++ w.text = articleSpan a ++ (str!" §" ++ sign) ++ (' ' :: w.text) := by simp
  rw [e]
  have hwt : ∀ r, NoWs (w.text ++ r) ∧ Head (isDashChar · = false) (w.text ++ r) := by
    have := hw.1
    simp only [List.mem_cons, List.not_mem_nil, or_false] at this
    intro r
    rcases this with e | e <;> rw [Inflected.text, e] <;> exact ⟨noWs_cons (by decide), .cons (by decide)⟩
  have hnext : Next ((' ' :: w.text) ++ rest) := ⟨.cons (by decide), by
    show Head _ (skipWs (w.text ++ rest))
    rw [skipWs_noWs (hwt rest).1]; exact (hwt rest).2⟩
  have hnw : ∀ r, NoWs (articleSpan a ++ r) := fun r => (itemStart_article a r).noWs
  have hone : Reads singleArticle n (articleSpan a ++ (str!" §" ++ sign)) ((' ' :: w.text) ++ rest) ⟨articleAt a n, ⟨n, n + byteLen (articleSpan a ++ (str!" §" ++ sign))⟩⟩ := by
    refine Reads.positioned (f := fun p => (⟨articleAt a n, p⟩ : SingleArticle)) (Reads.bind (Reads.call ?_ (reads_articlePart ha ?_))
        (Reads.map (g := fun _ p => (⟨articleAt a n, p⟩ : SingleArticle)) (reads_call_articleSuffix hs hnext)))
    · exact hnw _
    · exact noRange_sign hs hnext
  refine Reads.left (Reads.call (by rw [List.append_assoc, List.append_assoc]; exact hnw _) (Reads.bind (Reads.call (by rw [List.append_assoc]; exact hnw _) hone) ?_))
  refine Reads.map (a := ()) (g := fun _ => TextReference.articleTitle ⟨articleAt a n, ⟨n, n + byteLen (articleSpan a ++ (str!" §" ++ sign))⟩⟩) ?_
  refine Reads.call_space (hwt rest).1 ?_
  have htail : ∀ n, Reads (lit str!"cím" >>= fun _ => hunLowers1) n (str!"cím" ++ w.ending) rest () := fun n =>
    Reads.bind (Reads.lit _) (Reads.map (g := fun _ => ()) (Reads.many1_chars hne (ending_lower hw.2) h))
  have := hw.1
  simp only [List.mem_cons, List.not_mem_nil, or_false] at this
  rcases this with e | e <;> rw [Inflected.text, e]
  · refine Reads.bind_first (a := none) (Reads.opt_none (Fails.lit (not_prefix_of_head (by decide) (by simp)))) (htail _)
  · exact Reads.bind (t := str!"szakasz") (a := some ()) (Reads.opt_some (Reads.lit _)) (htail _)

theorem fails_title_place {p : Place} {b : Option NumericId} {e : StructuralRefParent} {o : Bool} (hp : p.Means b e o) (R : Str) (n : Nat) :
    Fails articleTitleReference n (p.text ++ R) :=
  Fails.bind (Fails.call_noWs (place_noWs hp R) (noArticle_place hp R).single)

theorem reads_textPlace {p : Place} {b : Option NumericId} {e : StructuralRefParent} {o : Bool} (hp : p.Means b e o) {rest : Str} (h : Ended rest) (n : Nat) :
    Reads textReference n p.text rest (.structural none (.structural (placeAt p))) := by
  have hnw := place_noWs hp rest
  have hr : ∀ n, Reads (call structuralReference) n p.text rest (placeAt p) := fun n => Reads.call hnw (reads_structural hp (h.afterPlace p))
  refine Reads.right (Fails.call_noWs hnw (fails_title_place hp rest)) (Reads.left (Reads.call hnw ?_))
  refine Reads.right (Fails.bind_of (hr _) (Fails.bind h.noArticle.relative_of)) <|
    Reads.right (Fails.bind_of (hr _) (Fails.bind (Fails.call fun _ => fails_structural h.unnamed))) <|
    Reads.right (Fails.bind (NoArticle.relative_of (by rw [skipWs_noWs hnw]; exact noArticle_place hp rest)))
      (Reads.map (g := fun c => TextReference.structural none (.structural c)) (hr _))

theorem reads_textPlaceIn {q p : Place} {b b' : Option NumericId} {e d : StructuralRefParent} {o o' : Bool} (hq : q.Means b' d o') (hp : p.Means b e o)
    {rest : Str} (h : Ended rest) (n : Nat) :
    Reads textReference n (q.text ++ str!" " ++ p.text) rest (.structural (some (placeAt q)) (.structural (placeAt p))) := by
  have hnp := place_noWs hp rest
  have hnw := place_noWs hq (' ' :: p.text ++ rest)
  have e : q.text ++ str!" " ++ p.text = q.text ++ (' ' :: p.text) := by simp
  rw [e]
  have hr : ∀ n, Reads (call structuralReference) n q.text (' ' :: p.text ++ rest) (placeAt q) := fun n =>
    Reads.call hnw (reads_structural hq (afterPlace_space q hnp (place_after hp rest)))
  have hr2 : ∀ n, Reads (call structuralReference) n (' ' :: p.text) rest (placeAt p) := fun n =>
    Reads.call_space hnp (reads_structural hp (h.afterPlace p))
  refine Reads.right (Fails.call_noWs (by rw [List.append_assoc]; exact hnw) fun _ => by rw [List.append_assoc]; exact fails_title_place hq _ _)
    (Reads.left (Reads.call (by rw [List.append_assoc]; exact hnw) ?_))
  refine Reads.right ?_ <| Reads.left (Reads.bind (hr _) (Reads.map (g := fun c => TextReference.structural (some (placeAt q)) (.structural c)) (hr2 _)))
  rw [List.append_assoc]
  exact Fails.bind_of (hr _) (Fails.bind (noArticle_place hp rest).relative)

/-! ### the name of a subtitle beside an article -/

theorem beside_after {b : Beside} (hb : b.Usual) (R : Str) : Head (fun c => c ≠ 'c' ∧ isDashChar c = false) (b.text ++ R) := by
  have e : b.text ++ R = b.the ++ (b.article.text ++ (' ' :: b.word ++ R)) := by simp [Beside.text]
  rw [e]
  rcases the_cases hb.the with e | e | e <;> rw [e]
  · refine (one_digit b.article _).mono fun c hc => ⟨by rintro rfl; exact absurd hc (by decide), ?_⟩
    cases hd : isDashChar c
    · rfl
    · exact absurd hc (by rw [(by decide : ∀ c ∈ str!"−–-", isDigit c = false) c (by simpa [isDashChar] using hd)]; decide)
  · exact .cons (by decide)
  · exact .cons (by decide)

theorem fails_subtitleTitle {s : Str} (hs : NoWs s) (hq : Head (· ≠ '„') s) (hu : Head (isHunUpper · = false) s) (n : Nat) :
    Fails subtitleTitle n s := by
  refine Fails.bind (Fails.alt (Fails.call_noWs hs fun n => fails_quote ?_) (Fails.call_noWs hs fun n => Fails.slice (Fails.bind (Fails.call_noWs hs fun n =>
    Fails.bind (Fails.char hu)))))
  rw [skipWs_noWs hs]; exact hq

theorem reads_subtitleWord {dash : Bool} {e : Str} (he : Ending e) {title : Option Str} (ht : ∀ x, title = some x → Ending x) {rest : Str} (h : Ended rest)
    (n : Nat) : Reads subtitleToken n (str!"alcím" ++ ((if dash then str!"-" else []) ++ (e ++ (title.map fun x => str!" cím" ++ x).getD []))) rest () := by
  have hlow : Head (isHunLower · = false) rest := h.any.mono fun c hc => any_lower hc
  have hend : Head (isHunLower · = false) ((title.map fun x => str!" cím" ++ x).getD [] ++ rest) := by
    cases title with
    | none => exact hlow
    | some x => exact .cons (by decide)
  refine Reads.bind (Reads.lit str!"alcím") ?_
  have htail : ∀ n, Reads (hunLowers >>= fun _ => opt (do lit str!" "; lit str!"cím"; hunLowers) >>= fun _ => (pure () : P Unit)) n
      (e ++ (title.map fun x => str!" cím" ++ x).getD []) rest () := by
    intro n
    refine Reads.bind (Reads.map (g := fun _ => ()) (Reads.many_chars (ending_lower he) hend)) ?_
    cases title with
    | none =>
      refine Reads.map (a := none) (g := fun _ => ()) (Reads.opt_none ?_)
      have hc := h.followers str!"cím" (by simp [articleFollowers])
      rcases rest with _ | ⟨c, r⟩
      · exact Fails.bind (Fails.lit_head (by decide) (by simp))
      · by_cases hsp : c = ' '
        · subst hsp
          refine Fails.bind_of (t := [' ']) (Reads.lit str!" ") (Fails.bind (Fails.lit fun hp => hc ?_))
          have hn : NoWs r := by
            obtain ⟨z, hz⟩ := hp
            rw [← hz]; exact noWs_cons (by decide)
          rw [show skipWs (' ' :: r) = skipWs r from rfl, skipWs_noWs hn]
          exact hp
        · refine Fails.bind (Fails.lit_head (by decide) ?_)
          simp only [List.head?_cons, ne_eq, Option.some.injEq]
          exact fun e => hsp e.symm
    | some x =>
      refine Reads.map (a := some ()) (g := fun _ => ()) (Reads.opt_some (Reads.bind (t := [' ']) (Reads.lit str!" ") (Reads.bind (t := str!"cím") (Reads.lit str!"cím") ?_)))
      exact Reads.map (g := fun _ => ()) (Reads.many_chars (ending_lower (ht x rfl)) hlow)
  cases dash with
  | true => exact Reads.bind (t := str!"-") (a := some ()) (Reads.opt_some (Reads.lit str!"-")) (htail _)
  | false =>
    refine Reads.bind_first (a := none) (Reads.opt_none (Fails.lit_head (by decide) ?_)) (htail _)
    rw [List.append_assoc]
    cases e with
    | cons c r =>
      have hl := he c (List.mem_cons_self ..)
      intro e
      simp at e
      subst e
      exact absurd hl (by decide)
    | nil =>
      cases title with
      | some x => simp
      | none =>
        intro e
        have hd := h.after.next.dash
        rcases rest with _ | ⟨c, r⟩
        · simp at e
        · simp at e
          subst e
          exact absurd (hd '-' rfl) (by decide)

theorem besideName_noWs {x : BesideName} (hx : x.Usual) (R : Str) : NoWs (x.text ++ R) := by
  cases x with
  | titled t called w title => exact noWs_cons (by decide)
  | word ids dash e title =>
    cases ids with
    | none => exact noWs_cons (by decide)
    | some y =>
      simp only [BesideName.text, Option.map_some, Option.getD_some, List.append_assoc]
      exact slashed_noWs _ _

theorem reads_besideName {x : BesideName} (hx : x.Usual) {rest : Str} (h : Ended rest) (n : Nat) : Reads subtitleJunk n x.text rest () := by
  have hnw := besideName_noWs hx rest
  cases x with
  | titled t called w title =>
    obtain ⟨ht, hw, htitle⟩ := hx
    have hp : AfterPlace ⟨none, .named t called w, title⟩ rest := h.afterPlace _
    have hpart := place_afterPart (p := ⟨none, .named t called w, title⟩) htitle hp.part
    obtain ⟨y, -, hy⟩ := reads_titleOpt (p := ⟨none, .named t called w, title⟩) htitle hp (n := n + byteLen (PlaceText.named t called w).text)
    refine Reads.left (Reads.bind (Reads.call ?_ (reads_subtitleTitle ht hw hpart.next)) (Reads.map (g := fun _ => ()) hy))
    rw [BesideName.text, List.append_assoc] at hnw
    exact hnw
  | word ids dash e title =>
    obtain ⟨hids, he, htitle⟩ := hx
    have hword := fun n => reads_subtitleWord (dash := dash) he htitle h n
    cases ids with
    | none =>
      have e1 : BesideName.text (.word none dash e title) = str!"alcím" ++ ((if dash then str!"-" else []) ++ (e ++ (title.map fun x => str!" cím" ++ x).getD [])) := by
        simp [BesideName.text]
      rw [e1] at hnw ⊢
      refine Reads.right (Fails.bind (Fails.call_noWs hnw fun n => fails_subtitleTitle hnw (.cons (by decide)) (.cons (by decide)) n)) ?_
      refine Reads.bind_first (a := none) (Reads.opt_none (Fails.call_noWs hnw fun n => fails_subtitlePart_head hnw (.cons (by decide)))) (Reads.call hnw (hword _))
    | some y =>
      obtain ⟨m, hm⟩ := hids y rfl
      have hy := subtitlesMean_usual hm
      have e1 : BesideName.text (.word (some y) dash e title) = slashedSpan y ++ (' ' :: (str!"alcím" ++ ((if dash then str!"-" else []) ++ (e ++ (title.map fun x => str!" cím" ++ x).getD [])))) := by
        simp [BesideName.text]
      rw [e1] at hnw ⊢
      have hd : Head (isDigit · = true) (slashedSpan y ++ (' ' :: (str!"alcím" ++ ((if dash then str!"-" else []) ++ (e ++ (title.map fun x => str!" cím" ++ x).getD [])))) ++ rest) := by
        rw [List.append_assoc]; exact slashed_digit _ _
      refine Reads.right (Fails.bind (Fails.call_noWs hnw fun n => fails_subtitleTitle hnw ?_ ?_ n)) ?_
      · exact hd.mono fun c hc => by rintro rfl; revert hc; decide
      · exact hd.mono fun c hc => (timeChar_digit hc).upper
      · rw [List.append_assoc] at hnw
        refine Reads.bind (a := some (idPart NumericId.displaySlash y)) (Reads.opt_some (Reads.call hnw (reads_subtitlePart hy ?_))) (Reads.call_space ?_ (hword _))
        · exact .cons (by decide)
        · exact noWs_cons (by decide)

theorem fails_title_beside {b : Beside} (hb : b.Usual) (R : Str) (n : Nat) : Fails articleTitleReference n (b.text ++ ' ' :: R) := by
  have hnw := beside_noWs hb (' ' :: R)
  have e : b.text ++ ' ' :: R = b.the ++ (b.article.text ++ (' ' :: b.word ++ ' ' :: R)) := by simp [Beside.text]
  rcases the_cases hb.the with h | h
  · rw [e, h, List.nil_append] at hnw ⊢
    have hN := beside_next hb (' ' :: R)
    obtain ⟨y, -, hy⟩ := reads_single hb.article hN.1 n
    refine Fails.bind_of (Reads.call hnw hy) (Fails.bind (Fails.call_space (s := b.word ++ ' ' :: R) hN.2 fun n => ?_))
    have hword := hb.word
    refine Fails.bind_of (t := []) (a := none) (Reads.opt_none (Fails.lit ?_)) (Fails.bind (Fails.lit ?_)) <;>
      cases hbf : b.before <;> rw [hbf] at hword <;> simp only [besideWords, List.mem_cons, List.not_mem_nil, or_false] at hword
    · rcases hword with e | e <;> rw [e] <;> exact not_prefix_of_head (by decide) (by simp)
    · rcases hword with e | e | e <;> rw [e] <;> exact not_prefix_of_head (by decide) (by simp)
    · rcases hword with e | e <;> rw [e] <;> exact not_prefix_of_head (by decide) (by simp)
    · rcases hword with e | e | e <;> rw [e] <;> exact not_prefix_of_head (by decide) (by simp)
  · refine Fails.bind (Fails.call_noWs hnw fun n => fails_singleArticle hnw ?_)
    rw [e]
    rcases h with h | h <;> rw [h] <;> exact .cons (by decide)

theorem reads_textBeside {q : Option Place} {b : Beside} {name : BesideName} (ht : (Target.beside q b name).Usual) {rest : Str} (h : Ended rest) (n : Nat) :
    ∃ x, Reads textReference n (Target.text (.beside q b name)) rest x ∧ TargetAt (.beside q b name) x := by
  obtain ⟨hq, hb, hthe, hname⟩ := ht
  have hjnw := besideName_noWs hname rest
  have hbnw := beside_noWs hb (' ' :: name.text ++ rest)
  cases q with
  | none =>
    have e : Target.text (.beside none b name) = b.text ++ (' ' :: name.text) := by simp [Target.text]
    have e2 : b.text ++ (' ' :: name.text) ++ rest = b.text ++ (' ' :: name.text ++ rest) := by simp
    have e3 : b.text ++ (' ' :: name.text ++ rest) = b.the ++ (b.article.text ++ (' ' :: b.word ++ (' ' :: name.text ++ rest))) := by simp [Beside.text]
    obtain ⟨x, hx, hr⟩ := reads_besideAt hb (S := name.text ++ rest) n
    refine ⟨.structural none (.relative x), ?_, x, hx, rfl⟩
    rw [e]
    have hs : ∀ n, Fails (call structuralReference) n (b.text ++ (' ' :: name.text ++ rest)) := fun n =>
      Fails.call_noWs hbnw fun n => by
        have := fails_structuralOneAt hb.the hb.article (beside_next hb (' ' :: name.text ++ rest)).1 n
        rw [e3]; exact this
    refine Reads.right (by rw [e2]; exact Fails.call_noWs hbnw (fails_title_beside hb _)) (Reads.left (Reads.call (by rw [e2]; exact hbnw) ?_))
    refine Reads.right (by rw [e2]; exact Fails.bind (hs _)) (Reads.right (by rw [e2]; exact Fails.bind (hs _)) (Reads.left ?_))
    exact Reads.bind (Reads.call hbnw hr) (Reads.map (g := fun _ => TextReference.structural none (.relative x)) (Reads.call_space hjnw (reads_besideName hname h _)))
  | some q =>
    obtain ⟨k, d, hq⟩ := hq q rfl
    have e : Target.text (.beside (some q) b name) = q.text ++ (' ' :: b.text ++ (' ' :: name.text)) := by simp [Target.text]
    have e2 : q.text ++ (' ' :: b.text ++ (' ' :: name.text)) ++ rest = q.text ++ (' ' :: (b.text ++ (' ' :: name.text ++ rest))) := by simp
    obtain ⟨x, hx, hr⟩ := reads_beside hb (S := name.text ++ rest) (n + byteLen q.text)
    refine ⟨.structural (some (placeAt q)) (.relative x), ?_, x, hx, rfl⟩
    have hqnw := place_noWs hq (' ' :: (b.text ++ (' ' :: name.text ++ rest)))
    rw [e]
    refine Reads.right (by rw [e2]; exact Fails.call_noWs hqnw (fails_title_place hq _)) (Reads.left (Reads.call (by rw [e2]; exact hqnw) ?_))
    refine Reads.left (Reads.bind (a := placeAt q) (Reads.call ?_ (reads_structural hq ?_)) ?_)
    · rw [show q.text ++ (' ' :: b.text ++ ' ' :: name.text ++ rest) = q.text ++ (' ' :: (b.text ++ (' ' :: name.text ++ rest))) by simp]; exact hqnw
    · rw [show ' ' :: b.text ++ ' ' :: name.text ++ rest = ' ' :: (b.text ++ (' ' :: name.text ++ rest)) by simp]
      exact afterPlace_space q hbnw (beside_after hb _)
    · exact Reads.bind hr (Reads.map (g := fun _ => TextReference.structural (some (placeAt q)) (.relative x)) (Reads.call_space hjnw (reads_besideName hname h _)))

theorem reads_target {t : Target} (ht : t.Usual) {rest : Str} (h : Ended rest) (hc : TargetShut t rest) (n : Nat) : ∃ x, Reads textReference n t.text rest x ∧ TargetAt t x := by
  cases t with
  | provisions w p => exact ⟨_, reads_textProvisions ht.1 ht.2 h n, ⟨n, rfl⟩⟩
  | heading a sign w => exact ⟨_, reads_heading ht.1 ht.2.1 ht.2.2.1 ht.2.2.2 h.after.next.lower n, ⟨n, _, rfl⟩⟩
  | place p =>
    obtain ⟨b, e, o, hp⟩ := ht
    exact ⟨_, reads_textPlace hp h n, rfl⟩
  | placeIn q p =>
    obtain ⟨⟨b, d, hq⟩, e, o, hp⟩ := ht
    exact ⟨_, reads_textPlaceIn hq hp h n, rfl⟩
  | subtitles l =>
    obtain ⟨⟨es, hes⟩, hsep, hmore, he⟩ := ht
    have hl := listing_fits hes hsep
    have hp := subtitleList_notPart hl hmore rest
    exact ⟨_, Reads.right (Fails.call_noWs hp.noWs hp.title) <| Reads.right (Fails.call_noWs hp.noWs (fails_textStructural hp)) <|
      Reads.left (Reads.map (g := TextReference.subtitles) (Reads.call hp.noWs (reads_subtitleList hl he h.after.next))), rfl⟩
  | beside q b name => exact reads_textBeside ht h n
  | attachments a =>
    have hp := attachment_notPlace ht rest
    refine ⟨_, Reads.right (Fails.call_noWs hp.noWs hp.title) <| Reads.right (Fails.call_noWs hp.noWs (fails_textStructural hp.toNotPart)) <|
      Reads.right (Fails.bind (Fails.call_noWs hp.noWs hp.subtitles)) <| Reads.right ?_ <|
      Reads.map (g := fun _ => TextReference.attachment) (Reads.call hp.noWs (reads_attachment_of ht ?_ (hc a rfl).1 (hc a rfl).2 _)), rfl⟩
    · exact Fails.call_noWs hp.noWs fun n => Fails.bind (fails_call_reference (attachment_noLevel ht rest))
    · exact h.any.mono fun c hc => any_lower hc

/-- How a place begins. -/
theorem target_start {t : Target} (ht : t.Usual) (r : Str) : ItemStart (t.text ++ r) ∧ Head (fun c => c ≠ ')' ∧ isDashChar c = false) (skipWs (t.text ++ r)) := by
  have hplace : ∀ {p : Place} {b : Option NumericId} {e : StructuralRefParent} {o : Bool} (_ : p.Means b e o) (r : Str),
      ItemStart (p.text ++ r) ∧ Head (fun c => c ≠ ')' ∧ isDashChar c = false) (skipWs (p.text ++ r)) := by
    intro p b e o hp r
    obtain ⟨c, r', e, hc⟩ := place_head hp r
    have hn := placeChar hc
    rw [e]
    have hws : isWs c = false := by
      rcases hc with hc | rfl | hc
      · exact upper_noWs hc
      · decide
      · exact digit_noWs hc
    refine ⟨itemStart_of_head (c := c) rfl hws ⟨?_, ?_, ?_, ?_⟩, ?_⟩
    · rintro rfl; exact hn (by decide)
    · rintro rfl; exact hn (by decide)
    · rintro rfl; revert hc; decide
    · rintro rfl; exact hn (by decide)
    · rw [skipWs_cons hws]
      refine .cons ⟨?_, ?_⟩
      · rintro rfl; exact hn (by decide)
      · rw [Bool.eq_false_iff]; intro hd
        simp only [isDashChar, List.contains_iff_mem, List.mem_cons, List.not_mem_nil, or_false] at hd
        rcases hd with rfl | rfl | rfl <;> exact hn (by decide)
  cases t with
  | provisions w p =>
    have := phrase_start ht.1 ((p.map PartWord.text).getD [] ++ r)
    rw [Target.text, List.append_assoc]
    exact ⟨this.itemStart, this.noMark⟩
  | heading a sign w =>
    simp only [Target.text, List.append_assoc]
    refine ⟨itemStart_article a _, ?_⟩
    obtain ⟨c, t, e, hc⟩ := article_head a
    rw [e, List.cons_append, skipWs_cons (digit_noWs hc)]
    refine .cons ⟨by rintro rfl; revert hc; decide, ?_⟩
    rw [Bool.eq_false_iff]; intro hd
    simp only [isDashChar, List.contains_iff_mem, List.mem_cons, List.not_mem_nil, or_false] at hd
    rcases hd with rfl | rfl | rfl <;> revert hc <;> decide
  | place p =>
    obtain ⟨b, e, o, hp⟩ := ht
    exact hplace hp r
  | placeIn q p =>
    obtain ⟨⟨b, d, hq⟩, e, o, hp⟩ := ht
    rw [Target.text, List.append_assoc, List.append_assoc]
    exact hplace hq _
  | subtitles l => exact subtitleList_start l r
  | beside q b name =>
    obtain ⟨hq, hb, hthe, -⟩ := ht
    cases q with
    | none =>
      have e : Target.text (.beside none b name) ++ r = b.article.text ++ (' ' :: b.word ++ (' ' :: name.text ++ r)) := by
        simp [Target.text, Beside.text, hthe rfl]
      rw [e]
      have hd := one_digit b.article (' ' :: b.word ++ (' ' :: name.text ++ r))
      have hlev := levelText_one b.article (' ' :: b.word ++ (' ' :: name.text ++ r))
      refine ⟨?_, ?_⟩
      · simp only [NamedArticle.text, List.append_assoc]
        exact itemStart_article _ _
      · rw [skipWs_noWs hlev.noWs]
        refine hd.mono fun c hc => ⟨by rintro rfl; exact absurd hc (by decide), ?_⟩
        cases hdc : isDashChar c
        · rfl
        · exact absurd hc (by rw [(by decide : ∀ c ∈ str!"−–-", isDigit c = false) c (by simpa [isDashChar] using hdc)]; decide)
    | some q =>
      obtain ⟨k, d, hq⟩ := hq q rfl
      rw [show Target.text (.beside (some q) b name) ++ r = q.text ++ (' ' :: b.text ++ (' ' :: name.text ++ r)) by simp [Target.text]]
      exact hplace hq _
  | attachments a => exact attachment_begins ht r

/-- The text of places, with something before each. -/
theorem listText_cons {α : Type} (f : α → Str) (sep : Str) (x : α) (l : List (Str × α)) : listText f ((sep, x) :: l) = sep ++ (f x ++ listText f l) := by
  simp [listText]

/-- What is after the last place. -/
def LastShut (l : List (Str × Target)) (rest : Str) : Prop := ∀ r, l.getLast? = some r → TargetShut r.2 rest

theorem shut_first {x : Str × Target} {l : List (Str × Target)} (h : TargetChain (x :: l)) {rest : Str} (hlast : LastShut (x :: l) rest) :
    TargetShut x.2 (listText Target.text l ++ rest) := by
  cases l with
  | nil => exact hlast x rfl
  | cons y l =>
    intro a ha
    have h1 : a.places = [] ∧ Closing y.1 := by
      unfold TargetChain at h
      rw [List.isChain_cons_cons] at h
      exact h.1 a ha
    refine ⟨fun n => ?_, fun hn => absurd h1.1 hn⟩
    obtain ⟨sep, y⟩ := y
    rw [listText_cons, List.append_assoc]
    exact closing_noJunk h1.2 _ n

theorem targetChain_tail {x : Str × Target} {l : List (Str × Target)} (h : TargetChain (x :: l)) : TargetChain l := by
  cases l with
  | nil => exact .nil
  | cons y l => unfold TargetChain at h ⊢; rw [List.isChain_cons_cons] at h; exact h.2

theorem targetChain_sep {s s' : Str} {t : Target} {l : List (Str × Target)} (h : TargetChain ((s, t) :: l)) : TargetChain ((s', t) :: l) := by
  cases l with
  | nil => exact .singleton _
  | cons y l => unfold TargetChain at h ⊢; rw [List.isChain_cons_cons] at h ⊢; exact h

theorem lastShut_tail {x : Str × Target} {l : List (Str × Target)} {rest : Str} (h : LastShut (x :: l) rest) : LastShut l rest := by
  cases l with
  | nil => intro r hr; cases hr
  | cons y l => exact fun r hr => h r (by rw [List.getLast?_cons_cons]; exact hr)

theorem lastShut_sep {s s' : Str} {t : Target} {l : List (Str × Target)} {rest : Str} (h : LastShut ((s, t) :: l) rest) : LastShut ((s', t) :: l) rest := by
  cases l with
  | nil => rintro r ⟨⟩; exact h (s, t) rfl
  | cons y l => exact fun r hr => h r (by rw [List.getLast?_cons_cons] at hr ⊢; exact hr)

/-- The places are read one after the other. -/
theorem reads_targets (l : List (Str × Target)) (hl : ∀ x ∈ l, x.1 ∈ separators ∧ x.2.Usual) {rest : Str} (h : Ended rest)
    (hsep : ∀ n, Fails (call listSeparator) n rest) : ∀ (t : Target) (_ : t.Usual) (_ : TargetChain (([], t) :: l)) (_ : LastShut (([], t) :: l) rest) (v : Str) (_ : v = [] ∨ v = [' ']) (n : Nat),
    ∃ t1 t2 x xs, v ++ (t.text ++ listText Target.text l) = t1 ++ t2 ∧ t1 ≠ [] ∧ Reads textReferenceItem n t1 (t2 ++ rest) x ∧
      Reads (many textReferenceItem) (n + byteLen t1) t2 rest xs ∧ List.Forall₂ TargetAt (t :: l.map Prod.snd) (x :: xs) := by
  have hne : ∀ {t : Target} (_ : t.Usual), t.text ≠ [] := by
    intro t ht e
    have := (target_start ht (str!")")).2
    rw [e] at this
    exact (this ')' rfl).1 rfl
  induction l with
  | nil =>
    intro t ht _ hlast v hv n
    obtain ⟨x, hx, hxt⟩ := reads_target ht h (hlast ([], t) rfl) (n + byteLen v)
    refine ⟨v ++ t.text, [], x, [], by simp [listText], by simp [hne ht], ?_, Reads.many_nil (h.fails _), .cons hxt .nil⟩
    refine Reads.bind_last (reads_call_sp hv (target_start ht _).1.noWs hx) ?_
    exact Reads.map (g := fun _ => x) (Reads.opt_none (hsep _))
  | cons y l ih =>
    intro t ht hch hlast v hv n
    obtain ⟨sep, t2⟩ := y
    have hy : sep ∈ separators ∧ t2.Usual := hl _ (List.mem_cons_self ..)
    have hst := target_start hy.2 (listText Target.text l ++ rest)
    have hend : Ended (sep ++ (t2.text ++ (listText Target.text l ++ rest))) := ended_separator hy.1 hst.2
    have hshut : TargetShut t (sep ++ (t2.text ++ (listText Target.text l ++ rest))) := by
      have := shut_first hch hlast
      rwa [listText_cons, List.append_assoc, List.append_assoc] at this
    obtain ⟨x, hx, hxt⟩ := reads_target ht hend hshut (n + byteLen v)
    obtain ⟨s, v', e, hs, hv'⟩ := reads_separator (n := n + byteLen (v ++ t.text)) hy.1 hst.1
    obtain ⟨t1', t2', x2, xs2, e2, hne2, h1, h2, h3⟩ := ih (fun z hz => hl z (List.mem_cons_of_mem _ hz)) t2 hy.2 (targetChain_sep (targetChain_tail hch)) (lastShut_sep (lastShut_tail hlast)) v' hv' (n + byteLen ((v ++ t.text) ++ s))
    refine ⟨(v ++ t.text) ++ s, t1' ++ t2', x, x2 :: xs2, ?_, by simp [hne ht], ?_, Reads.many_cons hne2 h1 h2, .cons hxt h3⟩
    · rw [← e2]
      simp only [listText, List.flatMap_cons]
      subst e
      simp
    · have e3 : s ++ (t1' ++ t2' ++ rest) = sep ++ (t2.text ++ (listText Target.text l ++ rest)) := by
        rw [← e2, e]; simp
      have e4 : t1' ++ t2' ++ rest = v' ++ (t2.text ++ (listText Target.text l ++ rest)) := by rw [← e2]; simp
      refine Reads.bind (a := x) ?_ (Reads.map (g := fun _ => x) (Reads.opt_some (a := ()) ?_))
      · rw [e3]
        exact reads_call_sp hv (target_start ht _).1.noWs hx
      · rw [e4]; exact hs

/-! ### the changed words -/

theorem Reads.and {p : P α} {n : Nat} {t rest : Str} {a : α} (h : Reads p n t rest a) : Reads (P.and p) n [] (t ++ rest) () := by
  show P.andRun p ⟨n, t ++ rest⟩ = _
  have h : p.run ⟨n, t ++ rest⟩ = _ := h
  simp [P.andRun, h, byteLen]

theorem fails_and {p : P α} {n : Nat} {s : Str} (h : Fails p n s) : Fails (P.and p) n s := by
  show P.andRun p ⟨n, s⟩ = _
  have h : p.run ⟨n, s⟩ = none := h
  simp [P.andRun, h]

/-- What can be after a change: a separator and a further change, or, if the last word is there, something else. -/
def AfterChange (x : TextChange) (rest : Str) : Prop :=
  (x.newEnding ≠ none ∧ Next rest) ∨ ∃ sep ∈ separators, ∃ r, rest = sep ++ '„' :: r

theorem quote_itemStart (r : Str) : ItemStart ('„' :: r) := itemStart_of_head (c := '„') rfl (by decide) (by decide)

theorem reads_noAz {s : Str} (h : Head (· ≠ 'a') s) (hw : NoWs s) {n : Nat} : Reads optAz n [] s () :=
  Reads.map (g := fun _ => ()) (Reads.opt_none (Fails.call_noWs hw fun _ => fails_az
    (not_prefix_of_head (by decide) fun e => h _ e.symm rfl) (not_prefix_of_head (by decide) fun e => h _ e.symm rfl)))

theorem reads_anyAz {a s : Str} (ha : a ∈ [[], str!"a ", str!"az "]) {n : Nat} : Reads optAz n a ('„' :: s) () := by
  simp only [List.mem_cons, List.not_mem_nil, or_false] at ha
  rcases ha with rfl | ha
  · exact reads_noAz (.cons (by decide)) (noWs_cons (by decide))
  · exact reads_optAz_az ha

theorem reads_changeEnd {x : TextChange} (hx : x.Usual) {rest : Str} (h : AfterChange x rest) (n : Nat) :
    Reads (P.and (call listSeparator) <|> call textAmendmentToken) n ((x.newEnding.map fun e => str!" szöveg" ++ e).getD []) rest () := by
  have hnext : Next rest := by
    rcases h with h | ⟨sep, hsep, r, rfl⟩
    · exact h.2
    · exact (separator_noLevel hsep (.cons (by decide))).next
  cases he : x.newEnding with
  | some e =>
    refine Reads.right (fails_and (fails_listSeparator (.cons (by decide)))) ?_
    exact reads_call_partSuffix (w := str!"szöveg") (by decide) (noWs_cons (by decide)) (hx.newEnding e he) hnext
  | none =>
    rcases h with h | ⟨sep, hsep, r, rfl⟩
    · exact absurd he h.1
    · obtain ⟨t, v, rfl, ht, -⟩ := reads_separator (n := n) hsep (quote_itemStart r)
      refine Reads.left ?_
      rw [List.append_assoc]
      exact Reads.and ht

theorem reads_textChange {x : TextChange} (hx : x.Usual) {a : Str} (ha : a ∈ [[], str!"a ", str!"az "]) {rest : Str} (h : AfterChange x rest) (n : Nat) :
    Reads textAmendmentPart n (a ++ x.text) rest (x.old, x.new) := by
  have hq : ∀ {t : Str} (_ : QuotedUsual t) (n : Nat) (r : Str), Reads (call quote) n (str!"„" ++ (t ++ str!"”")) r t := fun ht n r =>
    Reads.call (noWs_cons (by decide)) (reads_quote ht)
  have e : a ++ x.text = a ++ (str!"„" ++ (x.old ++ str!"”") ++ ((' ' :: str!"szöveg" ++ x.oldEnding) ++ ((' ' :: x.how) ++ ((' ' :: x.article) ++ (str!"„" ++ (x.new ++ str!"”") ++
      (x.newEnding.map fun e => str!" szöveg" ++ e).getD []))))) := by
    simp [TextChange.text]
  rw [e]
  refine Reads.bind (reads_anyAz ha) (Reads.bind (hq hx.old _ _) (Reads.bind (a := ()) ?_ (Reads.bind (a := ()) ?_ ?_)))
  · exact reads_call_partSuffix (w := str!"szöveg") (by decide) (noWs_cons (by decide)) hx.oldEnding ⟨.cons (by decide), by
      have := hx.how
      simp only [List.mem_cons, List.not_mem_nil, or_false] at this
      rcases this with e | e <;> rw [e] <;> exact .cons (by decide)⟩
  · refine reads_toks_space hx.how ?_ ?_
    · intro u hu
      exact (by decide : ∀ w ∈ [str!"helyébe", str!"helyett"], ∀ u ∈ [str!"helyébe", str!"helyett"], u ≠ w → ¬ u <+: w ∧ ¬ w <+: u) _ hx.how u hu
    · have := hx.how
      simp only [List.mem_cons, List.not_mem_nil, or_false] at this
      rcases this with e | e <;> rw [e] <;> exact noWs_cons (by decide)
  · have hend := fun n => Reads.map (g := fun _ => (x.old, x.new)) (reads_changeEnd hx h n)
    rcases List.mem_cons.1 hx.article with ea | ha2
    · rw [ea]
      have e2 : (' ' :: ([] : Str)) ++ (str!"„" ++ (x.new ++ str!"”") ++ (x.newEnding.map fun e => str!" szöveg" ++ e).getD []) =
          (' ' :: (str!"„" ++ (x.new ++ str!"”"))) ++ (x.newEnding.map fun e => str!" szöveg" ++ e).getD [] := by simp
      rw [e2]
      refine Reads.bind_first (a := ()) ?_ (Reads.bind (Reads.call_space (noWs_cons (by decide)) (reads_quote hx.new)) (hend _))
      refine Reads.map (g := fun _ => ()) (Reads.opt_none (Fails.call_space (s := _) (noWs_cons (by decide)) fun _ => fails_az
        (not_prefix_of_head (by decide) (by simp)) (not_prefix_of_head (by decide) (by simp))))
    · have ha3 : x.article = str!"a " ∨ x.article = str!"az " := by simpa using ha2
      refine Reads.bind (a := ()) (Reads.map (g := fun _ => ()) (Reads.opt_some (Reads.call_space ?_ (reads_az ha3)))) (Reads.bind (hq hx.new _ _) (hend _))
      rcases ha3 with e | e <;> rw [e] <;> exact noWs_cons (by decide)

theorem textChange_head (x : TextChange) (r : Str) : ∃ t, x.text ++ r = '„' :: t := ⟨_, rfl⟩

theorem afterChange_list (l : List (Str × TextChange)) (hl : ∀ x ∈ l, x.1 ∈ separators) {rest : Str} (hr : Next rest) (x : TextChange)
    (hx : l = [] → x.newEnding ≠ none) : AfterChange x (listText TextChange.text l ++ rest) := by
  cases l with
  | nil => exact .inl ⟨hx rfl, hr⟩
  | cons y l =>
    obtain ⟨t, ht⟩ := textChange_head y.2 (listText TextChange.text l ++ rest)
    exact .inr ⟨y.1, hl y (List.mem_cons_self ..), t, by rw [← ht]; simp [listText]⟩

/-- The further changes. -/
theorem reads_moreChanges (l : List (Str × TextChange)) (hl : ∀ x ∈ l, x.1 ∈ separators ∧ x.2.Usual) {rest : Str} (hr : Next rest)
    (hfail : ∀ n, Fails (do call listSeparator; call textAmendmentPart) n rest) (hlast : ∀ x, l.getLast? = some x → x.2.newEnding ≠ none) : ∀ n,
    Reads (many (do call listSeparator; call textAmendmentPart)) n (listText TextChange.text l) rest (l.map fun x => (x.2.old, x.2.new)) := by
  induction l with
  | nil => exact fun n => Reads.many_nil (hfail n)
  | cons y l ih =>
    intro n
    obtain ⟨sep, x⟩ := y
    have hy : sep ∈ separators ∧ x.Usual := hl _ (List.mem_cons_self ..)
    have e : listText TextChange.text ((sep, x) :: l) = (sep ++ x.text) ++ listText TextChange.text l := by simp [listText]
    rw [e]
    have hne : sep ++ x.text ≠ [] := by simp [TextChange.text]
    refine Reads.many_cons hne ?_ (ih (fun z hz => hl z (List.mem_cons_of_mem _ hz)) (fun z hz => hlast z ?_) _)
    · have hst : ItemStart (x.text ++ (listText TextChange.text l ++ rest)) := by
        obtain ⟨t, ht⟩ := textChange_head x (listText TextChange.text l ++ rest)
        rw [ht]; exact quote_itemStart t
      refine reads_separated (a := (x.old, x.new)) hy.1 hst (reads_textChange hy.2 (a := []) (by simp) (afterChange_list l (fun z hz => (hl z (List.mem_cons_of_mem _ hz)).1) hr x ?_) _)
      rintro rfl
      exact hlast (sep, x) rfl
    · cases l with
      | nil => simp at hz
      | cons w l => rw [List.getLast?_cons_cons]; exact hz

/-- All changes, with an article before the first one. -/
theorem reads_changesList {a : Str} (ha : a ∈ [str!"a", str!"az"]) {x : TextChange} (hx : x.Usual) (l : List (Str × TextChange))
    (hl : ∀ x ∈ l, x.1 ∈ separators ∧ x.2.Usual) {rest : Str} (hr : Next rest)
    (hfail : ∀ n, Fails (do call listSeparator; call textAmendmentPart) n rest)
    (hlast : ∀ y, (x :: l.map Prod.snd).getLast? = some y → y.newEnding ≠ none) (n : Nat) :
    Reads (listOf textAmendmentPart) n (' ' :: a ++ (' ' :: x.text ++ listText TextChange.text l)) rest ((x :: l.map Prod.snd).map fun x => (x.old, x.new)) := by
  have ha' : (a ++ [' ']) ∈ [[], str!"a ", str!"az "] := by
    simp only [List.mem_cons, List.not_mem_nil, or_false] at ha
    rcases ha with rfl | rfl <;> simp
  have hnw : ∀ r, NoWs ((a ++ [' ']) ++ x.text ++ r) := by
    simp only [List.mem_cons, List.not_mem_nil, or_false] at ha
    rcases ha with rfl | rfl <;> exact fun r => noWs_cons (by decide)
  have e : ' ' :: a ++ (' ' :: x.text ++ listText TextChange.text l) = (' ' :: ((a ++ [' ']) ++ x.text)) ++ listText TextChange.text l := by simp
  have e2 : (x :: l.map Prod.snd).map (fun x => (x.old, x.new)) = (x.old, x.new) :: l.map fun x => (x.2.old, x.2.new) := by simp
  rw [e, e2]
  refine Reads.bind (a := (x.old, x.new)) (Reads.call_space (hnw _) (reads_textChange hx ha' (afterChange_list l (fun z hz => (hl z hz).1) hr x ?_) _)) ?_
  · rintro rfl
    exact hlast x rfl
  · refine Reads.map (g := fun m => (x.old, x.new) :: m) (reads_moreChanges l hl hr hfail (fun z hz => hlast z.2 ?_) _)
    cases l with
    | nil => simp at hz
    | cons w l => rw [List.map_cons, List.getLast?_cons_cons, ← List.map_cons, List.getLast?_map, hz]; rfl

end HunLaw.Grammar
