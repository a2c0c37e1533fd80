import Verif.Lemmas.EnforcementSentence
import Verif.Lemmas.TextTargets
import Verif.Lemmas.Attachments

/-! Reading the parts of an act which come into force, and whole sentences about that. -/

set_option autoImplicit false

namespace HunLaw.Grammar

open HunLaw Spec P

variable {α β : Type}

/-! ### attachments -/

theorem time_noJunk {a s : Str} (ha : a ∈ nounArticles) (h : TimeStart s) (hp : a = [] → ∃ y m r, m ∈ monthWords ∧ s = dec y ++ (str!"." ++ (' ' :: m ++ r)))
    (n : Nat) : Fails (call attachmentJunk) n (' ' :: (a ++ s)) := by
  have words_ne : ∀ w ∈ sepMarks ++ sepWords ++ attachmentParts, w ≠ [] := by decide
  have words_head : ∀ w ∈ sepMarks ++ sepWords ++ attachmentParts, ∀ c, w.head? = some c → isDigit c = false ∧ c ≠ 'k' ∧ c ≠ 'e' := by decide
  have hart : ∀ b, b ∈ [str!"a", str!"az"] → a = b ++ [' '] → Fails (call attachmentJunk) n (' ' :: (a ++ s)) := by
    intro b hb e
    have hd : ∀ r, (b ++ ' ' :: r).dropWhile isJunkIdChar = ' ' :: r := by
      simp only [List.mem_cons, List.not_mem_nil, or_false] at hb
      rcases hb with rfl | rfl <;> intro r <;> rfl
    have hs : skipWs (' ' :: (a ++ s)) = b ++ ' ' :: s := by
      rw [e, List.append_assoc]
      simp only [List.mem_cons, List.not_mem_nil, or_false] at hb
      rcases hb with rfl | rfl <;> rfl
    have hstart : Head (fun c => (isDigit c = true ∨ c = 'k' ∨ c = 'e')) s := by
      cases h with
      | year y m r hm e => 
        obtain ⟨c, t, h1, h2⟩ := dec_head y (str!"." ++ (' ' :: m ++ r))
        rw [e, h1]; exact .cons (.inl h2)
      | published p r hp e =>
        have : p.head? = some 'k' ∨ p.head? = some 'e' := (by decide : ∀ p ∈ publications, p.head? = some 'k' ∨ p.head? = some 'e') p hp
        cases p with
        | nil => simp at this
        | cons d p => rw [e]; refine .cons (.inr ?_); simpa using this
    have hnw : skipWs s = s := skipWs_noWs (time_unnamed (a := []) (by decide) h).noWs
    refine fails_junk ?_ ?_ ?_ ?_ n
    · rw [hs]
      simp only [List.mem_cons, List.not_mem_nil, or_false] at hb
      rcases hb with rfl | rfl <;> exact .cons (by decide)
    · intro w hw
      rw [hs, hd, show skipWs (' ' :: s) = skipWs s from rfl, hnw]
      refine not_prefix_of_head (words_ne w hw) fun e' => ?_
      cases w with
      | nil => exact words_ne _ hw rfl
      | cons c w =>
        have := hstart c (by rw [← e']; rfl)
        have h2 := words_head _ hw c rfl
        rcases this with h | h | h
        · rw [h2.1] at h; cases h
        · exact h2.2.1 h
        · exact h2.2.2 h
    · rw [hs, hd, show skipWs (' ' :: s) = skipWs s from rfl, hnw]
      refine hstart.mono fun c hc => ?_
      rintro rfl
      revert hc; decide
    · rw [hs]
      simp only [List.mem_cons, List.not_mem_nil, or_false] at hb
      rcases hb with rfl | rfl <;> exact .cons (by decide)
  simp only [nounArticles, List.mem_cons, List.not_mem_nil, or_false] at ha
  rcases ha with e | e | e
  · obtain ⟨y, m, r, hm, es⟩ := hp e
    obtain ⟨c, t, h1, h2⟩ := dec_head y (str!"." ++ (' ' :: m ++ r))
    have hs : skipWs (' ' :: (a ++ s)) = dec y ++ (str!"." ++ (' ' :: m ++ r)) := by
      rw [e, es, h1]
      rw [show skipWs (' ' :: ([] ++ c :: t)) = skipWs (c :: t) from rfl, skipWs_cons (digit_noWs h2)]
    have hmh : ∀ m ∈ monthWords, m ≠ [] ∧ ∀ c, m.head? = some c → isWs c = false ∧ c ≠ '„' := by decide +kernel
    obtain ⟨d, u, em⟩ := List.exists_cons_of_ne_nil (hmh m hm).1
    obtain ⟨hdw, hdq⟩ := (hmh m hm).2 d (by rw [em]; rfl)
    have hd : skipWs ((dec y ++ (str!"." ++ (' ' :: m ++ r))).dropWhile isJunkIdChar) = m ++ r := by
      have : (dec y ++ (str!"." ++ (' ' :: m ++ r))).dropWhile isJunkIdChar = ' ' :: m ++ r := by
        rw [← List.append_assoc, List.dropWhile_append_of_pos]
        · rfl
        · intro c hc
          rcases List.mem_append.1 hc with hc | hc
          · exact (by simp [isJunkIdChar, dec_digits y c hc])
          · simp at hc; subst hc; rfl
      rw [this, show skipWs (' ' :: m ++ r) = skipWs (m ++ r) from rfl, em]
      exact skipWs_cons hdw
    refine fails_junk ?_ ?_ ?_ ?_ n
    · rw [hs, h1]; refine .cons ?_; rintro rfl; revert h2; decide
    · intro w hw
      rw [hs, hd]
      have : ∀ w ∈ sepMarks ++ sepWords ++ attachmentParts, ∀ m ∈ monthWords, ¬ w <+: m ∧ ¬ m <+: w := by decide +kernel
      exact not_prefix_words (this w hw m hm).1 (this w hw m hm).2
    · rw [hs, hd, em]; exact .cons hdq
    · rw [hs, h1]; refine .cons ⟨?_, ?_⟩ <;> rintro rfl <;> revert h2 <;> decide
  · exact hart str!"a" (by simp) e
  · exact hart str!"az" (by simp) e

/-! ### the parts which come into force -/

/-- The result for a part. -/
def forceAt : ForcePart → Nat → EnforcementReference
  | .provisions w, n => .reference (phraseAt w n)
  | .place p, _ => .structural (placeAt p)
  | .subtitles l, _ => .subtitles (l.spans.map (idPart NumericId.displaySlash))
  | .attachments _, _ => .attachment

/-- The text of the parts, with something before each. -/
def forceText (l : List (Str × ForcePart)) : Str := l.flatMap fun x => x.1 ++ x.2.text

/-- The results for the parts of the act. -/
def partsAt : Nat → List (Str × ForcePart) → List EnforcementReference
  | _, [] => []
  | n, (sep, x) :: l => forceAt x (n + byteLen sep) :: partsAt (n + byteLen sep + byteLen x.text) l

theorem forceText_cons (sep : Str) (x : ForcePart) (l : List (Str × ForcePart)) :
    forceText ((sep, x) :: l) = sep ++ (x.text ++ forceText l) := by simp [forceText]

/-- What can be after a part. -/
structure AfterForce (s : Str) : Prop where
  after : After s
  any : Head (isHunAny · = false) s
  noTitle : ¬ str!"cím" <+: skipWs s

theorem AfterForce.place {s : Str} (h : AfterForce s) (p : Place) : AfterPlace p s :=
  ⟨⟨h.any, h.after.next.dash⟩, fun _ => ⟨fun hp => h.noTitle (List.IsPrefix.trans ⟨['e'], rfl⟩ hp), fun hp => h.noTitle (List.IsPrefix.trans ⟨['é'], rfl⟩ hp)⟩⟩

theorem force_start {x : ForcePart} {m : List StructuralRef} (hx : x.Means m) (r : Str) :
    ItemStart (x.text ++ r) ∧ Head (fun c => c ≠ ')' ∧ isDashChar c = false) (skipWs (x.text ++ r)) := by
  cases hx with
  | provisions h => exact ⟨(phrase_start h r).itemStart, (phrase_start h r).noMark⟩
  | place h => exact target_start (t := .place _) ⟨_, _, _, h⟩ r
  | @subtitles l es h hsep hmore he => exact subtitleList_start l r
  | @attachments a ha => exact attachment_begins ha r

/-- What is after a part does not belong to the attachments in it. -/
def Closed (x : ForcePart) (rest : Str) : Prop :=
  ∀ a, x = .attachments a → Shut a rest

theorem reads_forcePart {x : ForcePart} {m : List StructuralRef} (hx : x.Means m) {n : Nat} {rest : Str} (h : AfterForce rest)
    (hc : Closed x rest) : Reads enforcementReference n x.text rest (forceAt x n) := by
  have hws := (force_start hx rest).1.noWs
  cases hx with
  | provisions hw => exact Reads.left (Reads.map (g := EnforcementReference.reference) (Reads.call hws (reads_reference hw h.after)))
  | place hp =>
    exact Reads.right (Fails.bind (fails_call_reference (place_noLevel hp rest)))
      (Reads.left (Reads.map (g := EnforcementReference.structural) (Reads.call hws (reads_structural hp (h.place _)))))
  | subtitles hs hsep hmore he =>
    have hl := listing_fits hs hsep
    exact Reads.right (Fails.bind (fails_call_reference (subtitleList_noLevel hl rest))) <|
      Reads.right (Fails.bind (Fails.call_noWs hws fun n => fails_structural_list hl hmore rest n)) <|
      Reads.left (Reads.map (g := EnforcementReference.subtitles) (Reads.call hws (reads_subtitleList hl he h.after.next)))
  | @attachments a ha =>
    have hp := attachment_notPlace ha rest
    refine Reads.right (Fails.bind (fails_call_reference (attachment_noLevel ha rest))) <|
      Reads.right (Fails.bind (Fails.call_noWs hws hp.structural)) <|
      Reads.right (Fails.bind (Fails.call_noWs hws hp.subtitles)) ?_
    refine Reads.map (g := fun _ => EnforcementReference.attachment) (Reads.call hws (reads_attachment_of ha ?_ (hc a rfl).1 (hc a rfl).2 _))
    exact h.any.mono fun c hc => any_lower hc

/-- The parts which are before another one are closed by what is between them. -/
def Chained (l : List (Str × ForcePart)) : Prop :=
  l.IsChain fun r s => ∀ a, r.2 = .attachments a → a.places = [] ∧ Closing s.1

theorem closed_next {x y : Str × ForcePart} {l : List (Str × ForcePart)} (h : Chained (x :: y :: l)) (rest : Str) :
    Closed x.2 (forceText (y :: l) ++ rest) := by
  intro a ha
  have h1 : a.places = [] ∧ Closing y.1 := by
    unfold Chained at h
    rw [List.isChain_cons_cons] at h
    exact h.1 a ha
  refine ⟨fun n => ?_, fun hn => absurd h1.1 hn⟩
  obtain ⟨sep, y⟩ := y
  rw [forceText_cons, List.append_assoc]
  exact closing_noJunk h1.2 _ n

/-- What is after the last part. -/
def LastClosed (l : List (Str × ForcePart)) (rest : Str) : Prop := ∀ r, l.getLast? = some r → Closed r.2 rest

theorem closed_first {x : Str × ForcePart} {l : List (Str × ForcePart)} (h : Chained (x :: l)) {rest : Str} (hlast : LastClosed (x :: l) rest) :
    Closed x.2 (forceText l ++ rest) := by
  cases l with
  | nil => exact hlast x rfl
  | cons y l => exact closed_next h rest

theorem chained_tail {x : Str × ForcePart} {l : List (Str × ForcePart)} (h : Chained (x :: l)) : Chained l := by
  cases l with
  | nil => exact .nil
  | cons y l => unfold Chained at h ⊢; rw [List.isChain_cons_cons] at h; exact h.2

theorem lastClosed_tail {x : Str × ForcePart} {l : List (Str × ForcePart)} {rest : Str} (h : LastClosed (x :: l) rest) : LastClosed l rest := by
  cases l with
  | nil => intro r hr; cases hr
  | cons y l => exact fun r hr => h r (by rw [List.getLast?_cons_cons]; exact hr)

theorem after_parts {l : List (Str × ForcePart)} {ms : List (List StructuralRef)} (hl : List.Forall₂ (fun r m => r.2.Means m) l ms)
    (hsep : ∀ x ∈ l, x.1 ∈ separators) {rest : Str} (h : AfterForce rest) : AfterForce (forceText l ++ rest) := by
  cases hl with
  | nil => exact h
  | @cons x m l ms hx hl =>
    obtain ⟨sep, x⟩ := x
    rw [forceText_cons, List.append_assoc, List.append_assoc]
    have := ended_separator (hsep _ (List.mem_cons_self ..)) (force_start hx (forceText l ++ rest)).2
    exact ⟨this.after, this.any, this.followers _ (by simp [articleFollowers])⟩

theorem reads_more_parts {l : List (Str × ForcePart)} {ms : List (List StructuralRef)} (hl : List.Forall₂ (fun r m => r.2.Means m) l ms)
    (hs : ∀ x ∈ l, x.1 ∈ separators) (hch : Chained l) {n : Nat} {rest : Str} (hlast : LastClosed l rest) (h : AfterForce rest)
    (hsep : ∀ n, Fails (call listSeparator) n rest) :
    Reads (many (do call listSeparator; call enforcementReference)) n (forceText l) rest (partsAt n l) := by
  induction hl generalizing n with
  | nil => exact .many_nil (Fails.bind (hsep _))
  | @cons x m l ms hx hl ih =>
    obtain ⟨sep, x⟩ := x
    have hs' := fun x hx => hs x (List.mem_cons_of_mem _ hx)
    rw [forceText_cons, ← List.append_assoc]
    refine Reads.many_cons ?_ (reads_separated (hs _ (List.mem_cons_self ..)) (force_start hx _).1 (reads_forcePart hx (after_parts hl hs' h) (closed_first hch hlast))) ?_
    · intro e
      have : x.text = [] := by simp at e; exact e.2
      have h1 := force_start hx str!")"
      rw [this] at h1
      exact absurd (h1.2 ')' rfl).1 (by simp)
    · rw [byteLen_append', ← Nat.add_assoc]
      exact ih hs' (chained_tail hch) (lastClosed_tail hlast)

theorem reads_parts_list {x : ForcePart} {l : List (Str × ForcePart)} {m : List StructuralRef} {ms : List (List StructuralRef)} (hx : x.Means m)
    (hl : List.Forall₂ (fun r m => r.2.Means m) l ms) (hs : ∀ x ∈ l, x.1 ∈ separators) {n : Nat}
    (hch : Chained (([], x) :: l)) {rest : Str} (hlast : LastClosed (([], x) :: l) rest) (h : AfterForce rest) (hsep : ∀ n, Fails (call listSeparator) n rest) :
    Reads (listOf enforcementReference) n (forceText (([], x) :: l)) rest (partsAt n (([], x) :: l)) := by
  have e : forceText (([], x) :: l) = x.text ++ forceText l := by rw [forceText_cons]; rfl
  rw [e]
  refine (Reads.bind (Reads.call ?_ (reads_forcePart hx (after_parts hl hs h) (closed_first hch hlast)))
    (Reads.map (g := fun l => forceAt x n :: l) (reads_more_parts hl hs (chained_tail hch) (lastClosed_tail hlast) h hsep)))
  exact (force_start hx _).1.noWs

theorem time_afterForce {a s : Str} (ha : a ∈ nounArticles) (h : TimeStart s) : AfterForce (' ' :: (a ++ s)) := by
  obtain ⟨c, r, e, hc⟩ := timeStart_head h
  refine ⟨time_after ha h, .cons (by decide), ?_⟩
  rw [show skipWs (' ' :: (a ++ s)) = skipWs (a ++ s) from rfl, skipWs_noWs (time_unnamed ha h).noWs]
  simp only [nounArticles, List.mem_cons, List.not_mem_nil, or_false] at ha
  rcases ha with rfl | rfl | rfl
  · have hh : Head (· ≠ 'c') s := by
      cases h with
      | year y m r hm e =>
        obtain ⟨c, t, h1, h2⟩ := dec_head y (str!"." ++ (' ' :: m ++ r))
        rw [e, h1]; exact .cons (by rintro rfl; revert h2; decide)
      | published p r hp e =>
        have : p.head? = some 'k' ∨ p.head? = some 'e' := (by decide : ∀ p ∈ publications, p.head? = some 'k' ∨ p.head? = some 'e') p hp
        cases p with
        | nil => simp at this
        | cons d p => rw [e]; refine .cons ?_; simp at this; rcases this with rfl | rfl <;> decide
    exact not_prefix_of_head (by decide) fun e => hh 'c' e.symm rfl
  · exact not_prefix_of_head (by decide) (by simp)
  · exact not_prefix_of_head (by decide) (by simp)

/-! ### exceptions -/

theorem ending_hunLowers {e rest : Str} (he : Ending e) (h : Head (isHunLower · = false) rest) {n : Nat} : Reads hunLowers n e rest () :=
  Reads.map (g := fun _ => ()) (Reads.many_chars (ending_lower he) h)

theorem exception_word {w : Str} (h : w ≠ [] ∧ Ending w) :
    NoWs w ∧ w ≠ [] ∧ Head (isWs · = false) w ∧ Head (isDashChar · = false) w ∧ Ordinary w ∧
      ∃ p q, w = p ++ q ∧ Ending q ∧
        ∀ n r, Reads (P.lits [str!"szerinti", str!"foglalt", str!"foglalt", str!""]) n p (q ++ ' ' :: r) () := by
  obtain ⟨hne, he⟩ := h
  have hall : ∀ c ∈ lowerLetters, isWs c = false ∧ isDashChar c = false := by decide +kernel
  refine ⟨Head.of_all fun c hc => (hall c (he c hc)).1, hne, Head.of_all fun c hc => (hall c (he c hc)).1,
    Head.of_all fun c hc => (hall c (he c hc)).2, fun c hc => .inl (he c hc), ?_⟩
  by_cases h1 : str!"szerinti" <+: w
  · obtain ⟨q, rfl⟩ := h1
    exact ⟨_, q, rfl, fun c hc => he c (List.mem_append_right _ hc), fun n r => rfl⟩
  by_cases h2 : str!"foglalt" <+: w
  · obtain ⟨q, rfl⟩ := h2
    exact ⟨_, q, rfl, fun c hc => he c (List.mem_append_right _ hc), fun n r => rfl⟩
  refine ⟨[], w, rfl, he, fun n r => ?_⟩
  have f1 : ∀ n, Fails (P.lit str!"szerinti") n (w ++ ' ' :: r) := fun n => Fails.lit fun hp => h1 (prefix_word (by decide) (.inr ⟨_, rfl⟩) hp)
  have f2 : ∀ n, Fails (P.lit str!"foglalt") n (w ++ ' ' :: r) := fun n => Fails.lit fun hp => h2 (prefix_word (by decide) (.inr ⟨_, rfl⟩) hp)
  exact Reads.right (f1 n) (Reads.right (f2 n) (Reads.right (f2 n) (Reads.left (Reads.lit []))))

theorem reads_exceptionJunk {w e rest : Str} (hw : w ≠ [] ∧ Ending w) (he : Ending e)
    (hl : Head (isHunLower · = false) rest) {n : Nat} : Reads (call exceptionJunk) n (' ' :: (w ++ (str!" kivétel" ++ e))) rest () := by
  obtain ⟨h1, h2, -, -, -, p, q, rfl, hq, hp⟩ := exception_word hw
  refine Reads.call_space (by rw [List.append_assoc]; exact noWs_append h2 h1) ?_
  rw [List.append_assoc]
  refine Reads.bind (a := ()) ?_ (Reads.bind (a := ()) (ending_hunLowers hq (.cons (by decide)))
    (Reads.bind (a := ()) (Reads.lit _) (ending_hunLowers he hl)))
  rw [List.append_assoc]
  exact hp _ _

theorem exception_after {w e r : Str} (hw : w ≠ [] ∧ Ending w) :
    After (' ' :: (w ++ (str!" kivétel" ++ (e ++ r)))) := by
  obtain ⟨h1, h2, h3, h4, h5, -⟩ := exception_word hw
  refine ⟨⟨.cons (by decide), ?_⟩, NoLevel.space ?_⟩
  · rw [show skipWs (' ' :: (w ++ (str!" kivétel" ++ (e ++ r)))) = skipWs (w ++ (str!" kivétel" ++ (e ++ r))) from rfl, skipWs_noWs (noWs_append h2 h1)]
    exact h4.append h2
  · have := noLevel_words (x := w ++ [' ']) (y := str!"kivétel" ++ (e ++ r))
      (fun c hc => (List.mem_append.1 hc).elim (h5 c) fun h => by simp at h; subst h; decide) (by simp) (h3.append h2) (.cons (by decide))
    rw [List.append_assoc] at this
    exact this

theorem reads_mark {y : ExceptionText} (hy : y.Usual) {rest : Str} (hd : y.dash = none → Head (isDashChar · = false) (skipWs rest)) {n : Nat} :
    ∃ a, Reads (opt (call dash)) n y.mark rest a := by
  unfold ExceptionText.mark
  rcases h : y.dash with _ | d
  · refine ⟨none, Reads.opt_none ?_⟩
    exact fails_call_dash (hd h)
  · have hdd := dashes_dash (hy.dash d h)
    refine ⟨some (), Reads.opt_some (Reads.call_space (t := [d]) (noWs_cons ?_) (reads_dash hdd))⟩
    exact (by decide : ∀ d ∈ dashes, isWs d = false) d (hy.dash d h)

/-- An exception is read as a whole if a lower case letter or a dash is not after it. -/
theorem reads_exception {y : ExceptionText} (hy : y.Usual) {rest : Str} (hl : Head (isHunLower · = false) rest)
    (hd : Head (isDashChar · = false) (skipWs rest)) {n : Nat} : Reads enforcementException n y.text rest () := by
  have hmark : Head (isHunLower · = false) (y.mark ++ rest) := by
    unfold ExceptionText.mark
    rcases h : y.dash with _ | d
    · exact hl
    · exact .cons (by decide)
  have e : y.text = y.mark ++ (str!" a" ++ (' ' :: y.provisions.text ++ (' ' :: (y.word ++ (str!" kivétel" ++ y.ending)) ++ y.mark))) := by
    unfold ExceptionText.text; simp
  rw [e]
  obtain ⟨a, ha⟩ := reads_mark hy (rest := str!" a" ++ (' ' :: y.provisions.text ++ (' ' :: (y.word ++ (str!" kivétel" ++ y.ending)) ++ y.mark)) ++ rest)
    (fun _ => .cons (by decide)) (n := n)
  refine Reads.bind ha (Reads.bind (a := ()) (Reads.tok_space (s := str!"a") (noWs_cons (by decide))) (Reads.bind (Reads.call_space ?_ (reads_reference hy.provisions ?_)) ?_))
  · exact (phrase_start hy.provisions _).itemStart.noWs
  · have := exception_after (r := y.mark ++ rest) hy.word (e := y.ending)
    simpa using this
  · obtain ⟨b, hb⟩ := reads_mark hy (rest := rest) (fun _ => hd)
    exact Reads.bind (a := ()) (reads_exceptionJunk hy.word hy.ending hmark) (Reads.map (g := fun _ => ()) hb)

/-! ### the sentence -/

/-- The result for a sentence with the parts beginning at byte `n`. -/
def sentenceFrom (n : Nat) (x : EnforcementSentence) : GEnforcementDate :=
  ⟨partsAt n x.references, timeAt x.time, x.repeal.map fun r => dayAt r.2⟩

/-- The result for a sentence. -/
def sentenceAt (x : EnforcementSentence) : GEnforcementDate := sentenceFrom (byteLen x.opening + 1) x

theorem reads_repealOpt {x : EnforcementSentence} (hx : x.Usual) {n k : Nat} :
    Reads (opt (call inlineRepeal) >>= fun r => tok str!"." >>= fun _ =>
        (pure ⟨partsAt k x.references, timeAt x.time, r⟩ : P GEnforcementDate)) n
      ((x.repeal.map fun r => r.1 ++ r.2.text ++ str!" hatályát veszti").getD [] ++ str!".") [] (sentenceFrom k x) := by
  unfold sentenceFrom
  cases hr : x.repeal with
  | none =>
    refine Reads.bind (t := []) (a := none) (Reads.opt_none (Fails.call_noWs (noWs_cons (by decide)) fun n => ?_))
      (Reads.map (a := ()) reads_dot)
    refine Fails.bind_of (t := []) (a := none) (Reads.opt_none (Fails.tok (by decide) (by decide))) (Fails.bind ?_)
    exact Fails.tok (by decide) (by decide)
  | some r =>
    have := hx.repeal r hr
    exact Reads.bind (a := some (dayAt r.2)) (Reads.opt_some (reads_inlineRepeal this.1 this.2)) (Reads.map (a := ()) reads_dot)

/-- The sentence after the first parts. -/
def sentenceTail (x : EnforcementSentence) : Str :=
  forceText x.references ++ (if x.references.isEmpty then [] else str!" ") ++ x.article ++ x.time.text ++ str!" lép hatályba" ++
    ((x.repeal.map fun r => r.1 ++ r.2.text ++ str!" hatályát veszti").getD [] ++ str!".")

theorem sentence_text (x : EnforcementSentence) : x.text = x.opening ++ (' ' :: sentenceTail x) := by
  unfold EnforcementSentence.text sentenceTail forceText; simp

/-- What reads the sentence from the parts on. -/
def fromParts : P GEnforcementDate := do
  let l ← opt (listOf enforcementReference)
  optAz
  let d ← enforcementWhen
  tok str!"lép hatályba"
  let r ← opt (call inlineRepeal)
  tok str!"."
  pure ⟨l.getD [], d, r⟩

theorem reads_listOf_space {p : P α} {n : Nat} {t rest : Str} {a : List α} (hws : NoWs (t ++ rest)) (h : Reads (listOf p) (n + 1) t rest a) :
    Reads (listOf p) n (' ' :: t) rest a := by
  unfold Reads at *
  have e : ∀ i : Inp, (listOf p).run i = match (P.call p).run i with
      | some (a, j) => ((many (do call listSeparator; call p)) >>= fun l => (pure (a :: l) : P (List α))).run j
      | none => none := fun _ => rfl
  rw [e] at h ⊢
  rw [show (' ' :: t) ++ rest = ' ' :: (t ++ rest) from rfl, call_space_run p hws, h]
  simp [byteLen, Nat.add_assoc]
  rfl

theorem reads_tail {x : EnforcementSentence} {e : EnforcementDateType} {ss : List StructuralRef} (hx : x.Usual) (ht : x.time.Means e) (hss : x.Structure ss) :
    (∀ n, Reads fromParts n (' ' :: sentenceTail x) [] (sentenceFrom (n + 1) x)) ∧
    (x.references ≠ [] → ∀ n, Reads fromParts n (sentenceTail x) [] (sentenceFrom n x)) ∧
    Head (isDashChar · = false) (skipWs (sentenceTail x)) := by
  generalize hR : str!" lép hatályba" ++ ((x.repeal.map fun r => r.1 ++ r.2.text ++ str!" hatályát veszti").getD [] ++ str!".") = R
  have hs := time_start ht R
  have hart : x.article ∈ nounArticles := hx.article
  -- from the time on
  have hend : ∀ n k, Reads (optAz >>= fun _ => enforcementWhen >>= fun d => tok str!"lép hatályba" >>= fun _ =>
      opt (call inlineRepeal) >>= fun r => tok str!"." >>= fun _ =>
        (pure ⟨partsAt k x.references, d, r⟩ : P GEnforcementDate)) n
      (' ' :: (x.article ++ x.time.text ++ R)) [] (sentenceFrom k x) := by
    intro n k
    have hu : ' ' :: x.article ∈ [str!" ", str!" a ", str!" az "] := by
      simp only [nounArticles, List.mem_cons, List.not_mem_nil, or_false] at hart ⊢
      rcases hart with h | h | h <;> simp [h]
    obtain ⟨t, v, e1, h1, hv⟩ := reads_optAz hu (time_itemStart hs)
    have e2 : ' ' :: (x.article ++ x.time.text ++ R) = t ++ ((v ++ x.time.text) ++ R) := by
      rw [show ' ' :: (x.article ++ x.time.text ++ R) = (' ' :: x.article) ++ (x.time.text ++ R) by simp, e1]; simp
    rw [e2]
    refine Reads.bind (a := ()) ?_ (Reads.bind (reads_time_space ht hv) ?_)
    · have := h1 n
      simpa using this
    · rw [← hR]
      exact Reads.bind (a := ()) (Reads.tok_space (s := str!"lép hatályba") (noWs_cons (by decide))) (reads_repealOpt hx)
  have hsep : ∀ n, Fails (call listSeparator) n (' ' :: (x.article ++ x.time.text ++ R)) := fun n => by
    rw [List.append_assoc]; exact time_noSeparator hart hs
  obtain ⟨ms, hms, -⟩ := hss
  by_cases hrefs : x.references = []
  · have etail : sentenceTail x = x.article ++ x.time.text ++ R := by
      rw [sentenceTail, hrefs, ← hR]; simp [forceText]
    have hu : Unnamed (x.article ++ (x.time.text ++ R)) := time_unnamed hart hs
    rw [etail]
    refine ⟨fun n => Reads.bind_first (a := none) (Reads.opt_none ?_) ?_, fun h => absurd hrefs h, ?_⟩
    · rw [List.append_nil, List.append_assoc]
      exact Fails.bind (Fails.call_space hu.noWs fun n => fails_enforcementReference hu (time_noLevel hart hs))
    · have := hend n (n + 1)
      rw [hrefs] at this
      exact this
    · rw [List.append_assoc]
      exact (time_after hart hs).next.dash
  · have hrefs' : ¬ x.references.isEmpty = true := by rw [List.isEmpty_iff]; exact hrefs
    obtain ⟨⟨s0, w⟩, l, hl⟩ : ∃ r l, x.references = r :: l := List.exists_cons_of_ne_nil hrefs
    obtain ⟨m, ms', hw, hms'⟩ : ∃ m ms', w.Means m ∧ List.Forall₂ (fun (r : Str × ForcePart) m => r.2.Means m) l ms' := by
      rw [hl] at hms
      cases hms with
      | cons h1 h2 => exact ⟨_, _, h1, h2⟩
    have hs0 : s0 = [] := hx.first (s0, w) (by rw [hl]; rfl)
    subst hs0
    have hothers : ∀ y ∈ l, y.1 ∈ separators := fun y hy => hx.others y (by rw [hl]; exact hy)
    have etail : sentenceTail x = forceText (([], w) :: l) ++ (' ' :: (x.article ++ x.time.text ++ R)) := by
      rw [sentenceTail, if_neg hrefs', ← hR, hl]; simp
    have hstart := force_start hw (forceText l ++ (' ' :: (x.article ++ x.time.text ++ R)))
    have hparts : ∀ n, Reads (listOf enforcementReference) n (forceText (([], w) :: l)) (' ' :: (x.article ++ x.time.text ++ R)) (partsAt n x.references) := by
      intro n
      rw [hl]
      refine reads_parts_list hw hms' hothers (hl ▸ hx.inner) (fun r hr a ha => ?_) ?_ hsep
      · refine ⟨fun n => ?_, fun _ => hsep⟩
        rw [List.append_assoc]
        refine time_noJunk hart hs (fun h0 => ?_) n
        obtain ⟨d, hd⟩ := hx.outer r (by rw [hl]; exact hr) ⟨a, ha⟩ h0
        rw [hd] at ht
        cases ht with
        | day hday => exact ⟨d.year, d.month, str!" " ++ dec d.day ++ d.ending ++ R, hday.month, by rw [hd]; simp [WhenText.text, DayText.text]⟩
      · rw [List.append_assoc]; exact time_afterForce hart hs
    have estart : forceText (([], w) :: l) ++ (' ' :: (x.article ++ x.time.text ++ R)) = w.text ++ (forceText l ++ (' ' :: (x.article ++ x.time.text ++ R))) := by
      rw [forceText_cons]; simp
    have hws : NoWs (forceText (([], w) :: l) ++ (' ' :: (x.article ++ x.time.text ++ R))) := by rw [estart]; exact hstart.1.noWs
    rw [etail]
    refine ⟨fun n => ?_, fun _ n => ?_, ?_⟩
    · rw [show ' ' :: (forceText (([], w) :: l) ++ (' ' :: (x.article ++ x.time.text ++ R))) = (' ' :: forceText (([], w) :: l)) ++ (' ' :: (x.article ++ x.time.text ++ R)) from rfl]
      refine Reads.bind (a := some (partsAt (n + 1) x.references)) (Reads.opt_some (reads_listOf_space (by simpa using hws) ?_)) (hend _ _)
      rw [List.append_nil]; exact hparts _
    · refine Reads.bind (a := some (partsAt n x.references)) (Reads.opt_some ?_) (hend _ _)
      rw [List.append_nil]; exact hparts _
    · rw [estart]
      exact hstart.2.mono fun c hc => hc.2

theorem reads_actSubject {s rest : Str} (h : s ∈ actSubjects) {n : Nat} : Reads enforcementSubject n s rest () := by
  simp only [actSubjects, List.mem_cons, List.not_mem_nil, or_false] at h
  refine Reads.left ?_
  rcases h with e | e <;> rw [e]
  · refine Reads.bind (t := str!"Ez a") (a := ()) (Reads.call (noWs_cons (by decide)) ?_)
      (Reads.tok_space (s := str!"törvény") (noWs_cons (by decide)))
    exact Reads.lits (l := []) (k := [str!"E"]) (s := str!"Ez a") (by simp)
  · refine Reads.bind (t := str!"E") (a := ()) (Reads.call (noWs_cons (by decide)) ?_)
      (Reads.tok_space (s := str!"törvény") (noWs_cons (by decide)))
    exact Reads.lits (l := [str!"Ez a"]) (k := []) (s := str!"E") (by simp)

theorem reads_articleSubject {s rest : Str} (h : s ∈ [str!"A", str!"Az"]) {n : Nat} : Reads enforcementSubject n (s ++ [' ']) rest () := by
  simp only [List.mem_cons, List.not_mem_nil, or_false] at h
  rcases h with e | e <;> rw [e]
  · refine Reads.right (Fails.bind (Fails.toks fun w hw => ?_)) (Reads.call (noWs_cons (by decide)) ?_)
    · simp only [List.mem_cons, List.not_mem_nil, or_false] at hw
      rcases hw with rfl | rfl <;> exact not_prefix_of_head (by decide) (by simp [skipWs, isWs])
    · exact Reads.bind (t := ['A']) (a := ()) (Reads.lit _)
        (Reads.bind_first (a := none) (Reads.opt_none (Fails.lit_head (by decide) (by simp))) (Reads.lit [' ']))
  · refine Reads.right (Fails.bind (Fails.toks fun w hw => ?_)) (Reads.call (noWs_cons (by decide)) ?_)
    · simp only [List.mem_cons, List.not_mem_nil, or_false] at hw
      rcases hw with rfl | rfl <;> exact not_prefix_of_head (by decide) (by simp [skipWs, isWs])
    · exact Reads.bind (t := ['A']) (a := ()) (Reads.lit _)
        (Reads.bind (t := ['z']) (a := some ()) (Reads.opt_some (Reads.lit _)) (Reads.lit [' ']))

theorem reads_sentence {x : EnforcementSentence} {e : EnforcementDateType} {ss : List StructuralRef} (hx : x.Usual) (ht : x.time.Means e) (hss : x.Structure ss) :
    Reads enforcementDate 0 x.text [] (sentenceAt x) := by
  obtain ⟨h1, h2, h3⟩ := reads_tail hx ht hss
  have hno : ∀ p, x.exception = none → ∀ s, x.text = p ++ s → ∀ n, Fails enforcementException n s := fun p hn s e n => by
    refine fails_exception fun ⟨a, b, h⟩ => hx.noException hn ⟨p ++ a, b, ?_⟩
    rw [e, ← h]; simp
  rw [sentence_text]
  unfold EnforcementSentence.opening at hno ⊢
  unfold sentenceAt
  rcases hx.subject with hsub | ⟨hsub, hrefs, hexc⟩
  · rw [List.append_assoc]
    refine Reads.bind (a := ()) (reads_actSubject hsub) ?_
    rcases hexc : x.exception with _ | y
    · refine Reads.bind_first (a := none) (Reads.opt_none ?_) ?_
      · rw [List.append_nil]
        exact hno x.subject hexc _ (by rw [sentence_text]; simp [EnforcementSentence.opening, hexc]) _
      · have := h1 (0 + byteLen x.subject)
        rw [show byteLen x.opening = 0 + byteLen x.subject by simp [EnforcementSentence.opening, hexc]]
        exact this
    · refine Reads.bind (a := some ()) (Reads.opt_some (reads_exception (hx.exception y hexc) (.cons (by decide)) ?_)) ?_
      · show Head _ (skipWs (sentenceTail x ++ []))
        rw [List.append_nil]; exact h3
      · have := h1 (0 + byteLen x.subject + byteLen y.text)
        rw [show byteLen x.opening = 0 + byteLen x.subject + byteLen y.text by simp [EnforcementSentence.opening, hexc, byteLen_append']]
        exact this
  · have e1 : x.opening ++ ' ' :: sentenceTail x = (x.subject ++ [' ']) ++ sentenceTail x := by simp [EnforcementSentence.opening, hexc]
    rw [show (x.subject ++ (x.exception.map ExceptionText.text).getD []) = x.opening from rfl, e1]
    refine Reads.bind (a := ()) (reads_articleSubject hsub) (Reads.bind_first (a := none) (Reads.opt_none ?_) ?_)
    · rw [List.append_nil]
      exact hno (x.subject ++ [' ']) hexc _ (by rw [sentence_text, e1]) _
    · have := h2 hrefs (0 + byteLen (x.subject ++ [' ']))
      rw [show byteLen x.opening + 1 = 0 + byteLen (x.subject ++ [' ']) by simp [EnforcementSentence.opening, hexc, byteLen_append', byteLen]; rfl]
      exact this

end HunLaw.Grammar
