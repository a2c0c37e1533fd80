import Verif.Lemmas.Attachments
import Verif.Lemmas.Announced

/-! Numbers in running text, which are not identifiers. -/

set_option autoImplicit false

namespace HunLaw.Grammar

open HunLaw P Spec

variable {α β : Type} {known : List Str}

/-- What is after a number which has no dot. -/
structure Undotted (s : Str) : Prop where
  next : Head (fun c => isDigit c = false ∧ lowerAz c = false ∧ c ≠ '/') s
  mark : Head (fun c => c ≠ '.' ∧ c ≠ ':') (skipWs s)
  hyphen : Head (isDashChar · = false) (skipWs s) ∨ ∃ r, s = '-' :: r ∧ Head (isDigit · = false) (skipWs r)

/-- What is after the dot of a number which is not an identifier. -/
structure NotNamed (s : Str) : Prop where
  sep : ∀ w ∈ sepMarks ++ sepWords, ¬ w <+: skipWs s
  name : ∀ w ∈ identified, ¬ w <+: skipWs s

/-- What is after the dot of a number which is not the number of an article, a point or a subpoint. -/
structure NotNumbered (s : Str) : Prop where
  sep : ∀ w ∈ sepMarks ++ sepWords, ¬ w <+: skipWs s
  name : ∀ w ∈ [str!"§", str!"pont", str!"alpont"], ¬ w <+: skipWs s

theorem NotNamed.numbered {s : Str} (h : NotNamed s) : NotNumbered s where
  sep := h.sep
  name w hw := h.name w ((by decide : ∀ w ∈ [str!"§", str!"pont", str!"alpont"], w ∈ identified) w hw)

/-- What is after a number. -/
def AfterNumber (s : Str) : Prop := Undotted s ∨ ∃ r, s = '.' :: r ∧ NotNamed r

theorem Undotted.fails_dot {s : Str} (h : Undotted s) (n : Nat) : Fails (tok str!".") n s :=
  Fails.tok (by decide) fun e => (h.mark _ e.symm).1 rfl

theorem Undotted.fails_dash {s : Str} (h : Undotted s) {q : P β} (hq : ∀ n r, Head (isDigit · = false) (skipWs r) → Fails q n r) (n : Nat) :
    Fails (call Grammar.dash >>= fun _ => q) n s := by
  rcases h.hyphen with h | ⟨r, rfl, h'⟩
  · exact Fails.bind (fails_call_dash h)
  · exact Fails.bind_of (t := ['-']) (Reads.call (noWs_cons (by decide)) (reads_dash (by decide))) (hq _ _ h')

theorem fails_call_number {n : Nat} {s : Str} (h : Head (isDigit · = false) (skipWs s)) : Fails (call number) n s :=
  Fails.call fun _ => fails_number h

theorem fails_call_articleId {n : Nat} {s : Str} (h : Head (isDigit · = false) (skipWs s)) : Fails (call articleId) n s :=
  Fails.call fun _ => Fails.slice (Fails.bind (fails_number h))

theorem Undotted.fails_article {s : Str} (h : Undotted s) (k n : Nat) : Fails articlePart n (dec k ++ s) := by
  have hid : ∀ n, Reads (call articleId) n (dec k) s (dec k) := fun n =>
    Reads.call (noWs_dec _ _) (reads_articleNum (h.next.mono fun c hc => ⟨hc.1, hc.2.2⟩))
  refine Fails.positioned (Fails.bind_of (t := []) (rest := dec k ++ s) (Reads.opt_none ?_) ?_)
  · exact Fails.bind_of (Reads.call (noWs_dec _ _) (reads_number (h.next.mono fun c hc => hc.1)))
      (Fails.bind (Fails.tok (by decide) fun e => (h.mark _ e.symm).2 rfl))
  refine Fails.bind (Fails.alt (Fails.bind_of (hid _) ?_) (Fails.bind_of (hid _) (Fails.bind (h.fails_dot _))))
  refine Fails.bind_of (t := []) (Reads.opt_none (Fails.bind (h.fails_dot _))) (h.fails_dash (fun n r hr => ?_) _)
  exact Fails.bind_of (t := []) (Reads.opt_none (Fails.bind (fails_call_number hr))) (Fails.bind (fails_call_articleId hr))

theorem Undotted.fails_dotted {s : Str} (h : Undotted s) {p : P Str} {k : Nat} (hp : ∀ n, Reads p n (dec k) s (dec k))
    (hp2 : ∀ n r, Head (isDigit · = false) (skipWs r) → Fails (call p) n r) (n : Nat) : Fails (dottedPart p) n (dec k ++ s) := by
  have hid : ∀ n, Reads (call p) n (dec k) s (dec k) := fun n => Reads.call (noWs_dec _ _) (hp _)
  refine Fails.positioned (Fails.bind (Fails.alt (Fails.bind_of (hid _) (h.fails_dash (fun n r hr => Fails.bind (hp2 _ _ hr)) _))
    (Fails.bind_of (hid _) (Fails.bind (h.fails_dot _)))))

theorem reads_pointNum {n k : Nat} {s : Str} (h : Head (fun c => isDigit c = false ∧ lowerAz c = false ∧ c ≠ '/') s) :
    Reads numericPointId n (dec k) s (dec k) := by
  refine Reads.slice (a := ()) (Reads.bind_last (reads_number (h.mono fun c hc => hc.1)) ?_)
  refine (Reads.opt_none ?_).map
  exact Fails.bind_of (t := []) (Reads.opt_none (Fails.lit_head (s := ['/']) (by decide) fun e => (h _ e.symm).2.2 rfl))
    (fails_suffixChar (h.mono fun c hc => hc.2.1))

theorem fails_call_pointId {n : Nat} {s : Str} (h : Head (isDigit · = false) (skipWs s)) : Fails (call numericPointId) n s :=
  Fails.call fun _ => Fails.slice (Fails.bind (fails_number h))

/-! ### with a dot -/

theorem dotted_next (r : Str) : Head (fun c => isDigit c = false ∧ lowerAz c = false ∧ c ≠ '/') ('.' :: r) := .cons (by decide)

theorem reads_dot (n : Nat) (r : Str) : Reads (tok str!".") n ['.'] r () := Reads.tok (noWs_cons (by decide))

/-- A list of one element. -/
theorem fails_one {p : P α} {q : List α → P β} {n : Nat} {t r : Str} {a : α} (hws : NoWs (t ++ r)) (hp : Reads p n t r a)
    (hsep : ∀ n, Fails (call listSeparator) n r) (hq : ∀ n a, Fails (q a) n r) : Fails (listOf p >>= q) n (t ++ r) :=
  Fails.bind_of (a := [a]) (Reads.bind_last (Reads.call hws hp)
    (Reads.map (g := fun l => a :: l) (a := []) (Reads.many_nil (Fails.bind (hsep _))))) (hq _ _)

theorem NotNumbered.sign {r : Str} (h : NotNumbered r) : Head (· ≠ '§') (skipWs r) := by
  intro c hc e
  subst e
  refine h.name str!"§" (by decide) ?_
  cases hs : skipWs r with
  | nil => rw [hs] at hc; cases hc
  | cons d t => rw [hs] at hc; cases hc; exact ⟨t, rfl⟩

theorem NotNumbered.fails_article {r : Str} (h : NotNumbered r) (k n : Nat) : Fails articleReference n (dec k ++ '.' :: r) := by
  have hid : ∀ n, Reads (call articleId) n (dec k) ('.' :: r) (dec k) := fun n =>
    Reads.call (noWs_dec _ _) (reads_articleNum ((dotted_next r).mono fun c hc => ⟨hc.1, hc.2.2⟩))
  have hpart : Reads articlePart n (dec k ++ ['.']) r ⟨none, .single (dec k), ⟨n, n + byteLen (dec k ++ ['.'])⟩⟩ := by
    have : Reads (articleBook >>= fun book => (articleRange <|> articleSingle) >>= fun id =>
        (pure fun p => (⟨book, id, p⟩ : ArticlePart))) n (dec k ++ ['.']) r (fun p => ⟨none, .single (dec k), p⟩) := by
      have hb : Reads articleBook n [] (dec k ++ '.' :: r) none := Reads.opt_none
        (Fails.bind_of (Reads.call (noWs_dec _ _) (reads_number (.cons (by decide))))
          (Fails.bind (Fails.tok (by decide) (by rw [skipWs_cons (by decide)]; simp))))
      have hr : Fails articleRange n (dec k ++ '.' :: r) := by
        refine Fails.bind_of (hid _) (Fails.bind_of (t := []) (Reads.opt_none ?_) (Fails.bind (fails_call_dash ?_)))
        · exact Fails.bind_of (t := ['.']) (reads_dot _ r) (Fails.call fun _ => fails_articleSuffix h.sign)
        · rw [skipWs_cons (by decide)]; exact .cons (by decide)
      refine Reads.bind_first (by simpa using hb) (Reads.map (g := fun id p => (⟨none, id, p⟩ : ArticlePart)) (Reads.right (by simpa using hr) ?_))
      exact Reads.bind (by simpa using hid _) (reads_dot _ r).map
    exact this.positioned
  rw [show dec k ++ '.' :: r = (dec k ++ ['.']) ++ r by simp]
  refine fails_one (by rw [List.append_assoc]; exact noWs_dec _ _) hpart (fun n => fails_listSeparator_words h.sep) fun n a => ?_
  exact Fails.bind (Fails.call fun _ => fails_articleSuffix h.sign)

theorem NotNumbered.fails_dotted {r : Str} (h : NotNumbered r) {p : P Str} {k : Nat} (hp : ∀ n, Reads p n (dec k) ('.' :: r) (dec k))
    {w : Str} (hw : w ∈ [str!"§", str!"pont", str!"alpont"]) (n : Nat) :
    Fails (do
      let l ← listOf (dottedPart p)
      call (partSuffix w)
      pure l) n (dec k ++ '.' :: r) := by
  have hid : ∀ n, Reads (call p) n (dec k) ('.' :: r) (dec k) := fun n => Reads.call (noWs_dec _ _) (hp _)
  have hpart : Reads (dottedPart p) n (dec k ++ ['.']) r ⟨.single (dec k), ⟨n, n + byteLen (dec k ++ ['.'])⟩⟩ := by
    refine reads_part (i := .single (dec k)) (Reads.right ?_ (Reads.bind (by simpa using hid _) (reads_dot _ r).map))
    rw [show dec k ++ ['.'] ++ r = dec k ++ '.' :: r by simp]
    refine Fails.bind_of (hid _) (Fails.bind (fails_call_dash ?_))
    rw [skipWs_cons (by decide)]; exact .cons (by decide)
  rw [show dec k ++ '.' :: r = (dec k ++ ['.']) ++ r by simp]
  refine fails_one (by rw [List.append_assoc]; exact noWs_dec _ _) hpart (fun n => fails_listSeparator_words h.sep) fun n a => ?_
  exact Fails.bind (fails_partSuffix (h.name w hw))

theorem NotNamed.fails_attachment {r : Str} (h : NotNamed r) (k n : Nat) : Fails attachmentReference n (dec k ++ '.' :: r) := by
  have hnum : ∀ n, Reads (call number) n (dec k) ('.' :: r) (dec k) := fun n =>
    Reads.call (noWs_dec _ _) (reads_number (.cons (by decide)))
  have hpart : Reads attachmentPart n (dec k ++ ['.']) r () := by
    refine Reads.bind (Reads.right (Fails.bind_of (by simpa using hnum _) (Fails.bind (fails_call_dash ?_))) (Reads.map (by simpa using hnum _))) (reads_dot _ r)
    rw [List.singleton_append, skipWs_cons (by decide)]; exact .cons (by decide)
  rw [show dec k ++ '.' :: r = (dec k ++ ['.']) ++ r by simp]
  refine fails_one (by rw [List.append_assoc]; exact noWs_dec _ _) hpart (fun n => fails_listSeparator_words h.sep) fun n a => ?_
  refine Fails.bind (Fails.call fun m => ?_)
  by_cases hz : str!"számú " <+: skipWs r
  · obtain ⟨u, hu⟩ := hz
    rw [← hu]
    refine Fails.bind_of (t := str!"számú ") (Reads.opt_some (Reads.lit _)) (Fails.bind (Fails.lit fun hm => ?_))
    refine h.name str!"számú melléklet" (by decide) ?_
    rw [← hu, show str!"számú melléklet" = str!"számú " ++ str!"melléklet" from rfl]
    exact (List.prefix_append_right_inj _).2 hm
  · exact Fails.bind_of (t := []) (Reads.opt_none (Fails.lit hz)) (Fails.bind (Fails.lit (h.name str!"melléklet" (by decide))))

theorem Undotted.fails_attachment {s : Str} (h : Undotted s) (k n : Nat) : Fails attachmentReference n (dec k ++ s) := by
  have hnum : ∀ n, Reads (call number) n (dec k) s (dec k) := fun n =>
    Reads.call (noWs_dec _ _) (reads_number (h.next.mono fun c hc => hc.1))
  refine Fails.bind (fails_listOf (noWs_dec _ _) fun n => ?_)
  refine Fails.bind_of (a := ()) (Reads.right (Fails.bind_of (hnum _) (h.fails_dash (fun n r hr => Fails.bind (fails_call_number hr)) _))
    (hnum _).map) (h.fails_dot _)

/-! ### both -/

theorem number_noLevel {s : Str} (h : Undotted s ∨ ∃ r, s = '.' :: r ∧ NotNumbered r) (k : Nat) : NoLevel (dec k ++ s) := by
  obtain ⟨c, t, e, hc⟩ := dec_head k s
  have hsk : skipWs (dec k ++ s) = dec k ++ s := by rw [e]; exact skipWs_cons (digit_noWs hc)
  refine ⟨?_, fun n => ?_, fun n => ?_, fun n => ?_, ?_⟩ <;> rw [hsk]
  · rw [e]; refine .cons ?_; rintro rfl; revert hc; decide
  · rcases h with h | ⟨r, rfl, h⟩
    · exact Fails.bind (fails_listOf (noWs_dec _ _) fun n => h.fails_article k n)
    · exact h.fails_article k n
  · rcases h with h | ⟨r, rfl, h⟩
    · exact Fails.bind (fails_listOf (noWs_dec _ _) fun n => h.fails_dotted (fun n => reads_pointNum h.next) (fun n r hr => fails_call_pointId hr) n)
    · exact h.fails_dotted (fun n => reads_pointNum (dotted_next r)) (by decide) n
  · rcases h with h | ⟨r, rfl, h⟩
    · exact Fails.bind (fails_listOf (noWs_dec _ _) fun n =>
        h.fails_dotted (fun n => reads_number (h.next.mono fun c hc => hc.1)) (fun n r hr => fails_call_number hr) n)
    · exact h.fails_dotted (fun n => reads_number (.cons (by decide))) (by decide) n
  · rw [e]
    refine noMark_head (.cons ?_)
    cases hl : lowerAz c
    · rfl
    · rw [(Other.of_lower hl).digit] at hc; cases hc

theorem AfterNumber.noLevel {s : Str} (h : AfterNumber s) (k : Nat) : NoLevel (dec k ++ s) :=
  number_noLevel (h.imp_right fun ⟨r, e, h⟩ => ⟨r, e, h.numbered⟩) k

theorem AfterNumber.start {s : Str} (h : AfterNumber s) (k : Nat) : PhraseStart (dec k ++ s) := by
  refine .number k s ?_ rfl
  rcases h with h | ⟨r, rfl, h⟩
  · exact ⟨h.next.mono fun c hc => hc.1, .inl (h.mark.mono fun c hc => hc.1)⟩
  · exact ⟨.cons (by decide), .inr ⟨r, rfl, h.name _ (by decide)⟩⟩

theorem AfterNumber.fails_attachment {s : Str} (h : AfterNumber s) (k n : Nat) : Fails attachmentReference n (dec k ++ s) := by
  rcases h with h | ⟨r, rfl, h⟩
  · exact h.fails_attachment k n
  · exact h.fails_attachment k n

theorem AfterNumber.digit {s : Str} (h : AfterNumber s) : Head (isDigit · = false) s := by
  rcases h with h | ⟨r, rfl, h⟩
  · exact h.next.mono fun c hc => hc.1
  · exact .cons (by decide)

/-- A number is read alone. -/
theorem AfterNumber.reads {s : Str} (h : AfterNumber s) {k n : Nat} (hno : parseAbbreviation known (dec k ++ s) = none) :
    ReadsS known simpleExpression n (dec k) s .token := by
  obtain ⟨c, t, e, hc⟩ := dec_head k s
  have hnw : NoWs (dec k ++ s) := noWs_dec _ _
  have hact : ∀ n, FailsS known (PS.call actReference) n (dec k ++ s) := fun n =>
    fails_actReference (fun n => by rw [skipWs_noWs hnw]; exact fails_actId_start (h.start k)) (by rw [skipWs_noWs hnw]; exact hno)
  refine ReadsS.right (FailsS.bind (FailsS.lift (Fails.call_noWs hnw fun n => fails_quote ?_))) ?_
  · rw [skipWs_noWs hnw, e]; refine .cons ?_; rintro rfl; revert hc; decide
  refine ReadsS.right (FailsS.bind (FailsS.call_noWs hnw fun n => ?_)) ?_
  · refine FailsS.alt ?_ (FailsS.bind (hact n))
    exact FailsS.bind_of (t := []) (ReadsS.opt_none (hact n)) (FailsS.bind (FailsS.lift (fails_call_reference (h.noLevel k))))
  refine ReadsS.right (FailsS.bind (FailsS.lift (Fails.call_noWs hnw fun n => h.fails_attachment k n))) ?_
  refine ReadsS.map (a := ()) (g := fun _ => SimpleExpression.token) (ReadsS.lift (Reads.call hnw (Reads.right ?_ (Reads.left ?_))))
  · refine Fails.call_noWs hnw fun n => Fails.bind (Fails.many1 (Fails.char ?_))
    rw [e]
    rintro c' hc'
    cases hc'
    cases hw : isWordChar c
    · rfl
    · have hall : ∀ k ∈ List.range 58, 48 ≤ k → isWordChar (Char.ofNat k) = false := by decide +kernel
      rw [isDigit_iff] at hc
      have := hall c.toNat (List.mem_range.2 (by omega)) hc.1
      rwa [Char.ofNat_toNat, hw] at this
  · exact (Reads.call hnw (reads_number h.digit)).map

/-! ### what is after a number -/

theorem begins_char {c : Char} (h : Begins c) : isWs c = false ∧ c ≠ '.' ∧ c ≠ ':' ∧ isDashChar c = false ∧ c ≠ ',' ∧ c ≠ ';' := by
  have hall : ∀ c ∈ lowerLetters ++ upperLetters ++ str!"0123456789(„",
      isWs c = false ∧ c ≠ '.' ∧ c ≠ ':' ∧ isDashChar c = false ∧ c ≠ ',' ∧ c ≠ ';' := by decide +kernel
  refine hall c ?_
  rcases h with h | h | h <;> simp [h]

theorem skipWs_space {c : Char} {r : Str} (h : isWs c = false) : skipWs (' ' :: c :: r) = c :: r :=
  skipWs_sp (sp := [' ']) (.inr rfl) (noWs_cons h)

theorem numberEnded_word {e s : Str} (h : NumberEnded e s) : Head (isWordChar · = false) s := by
  cases h with
  | nothing => exact .nil
  | mark c rest what => exact .cons ((by decide +kernel : ∀ c ∈ str!",;!?", isWordChar c = false) c what)
  | space => exact .cons (by decide)
  | last => exact .cons (by decide)
  | dot => exact .cons (by decide)

theorem numberEnded_after {s : Str} (h : NumberEnded [] s) : AfterNumber s := by
  cases h with
  | nothing => exact .inl ⟨.nil, .nil, .inl .nil⟩
  | mark c rest what =>
    have hall : ∀ c ∈ str!",;!?", (isDigit c = false ∧ lowerAz c = false ∧ c ≠ '/') ∧ (c ≠ '.' ∧ c ≠ ':') ∧ isDashChar c = false ∧ isWs c = false := by
      decide +kernel
    obtain ⟨h1, h2, h3, h4⟩ := hall c what
    refine .inl ⟨.cons h1, ?_, .inl ?_⟩ <;> rw [skipWs_cons h4]
    · exact .cons h2
    · exact .cons h3
  | space c rest what =>
    have h := begins_char what
    refine .inl ⟨.cons (by decide), ?_, .inl ?_⟩ <;> rw [skipWs_space h.1]
    · exact .cons ⟨h.2.1, h.2.2.1⟩
    · exact .cons h.2.2.2.1
  | last =>
    refine .inr ⟨[], rfl, fun w hw h => ?_, fun w hw h => ?_⟩
    · exact (by decide : ∀ w ∈ sepMarks ++ sepWords, w ≠ []) w hw (List.prefix_nil.1 h)
    · exact (by decide : ∀ w ∈ identified, w ≠ []) w hw (List.prefix_nil.1 h)
  | dot c rest what alone =>
    have h := begins_char what
    have alone := alone.resolve_left fun h => h rfl
    refine .inr ⟨_, rfl, fun w hw => ?_, fun w hw => ?_⟩ <;> rw [skipWs_space h.1]
    · rcases List.mem_append.1 hw with hw | hw
      · simp only [sepMarks, List.mem_cons, List.not_mem_nil, or_false] at hw
        rcases hw with rfl | rfl <;> refine not_prefix_of_head (by decide) ?_
        · simpa using fun e => h.2.2.2.2.1 e.symm
        · simpa using fun e => h.2.2.2.2.2 e.symm
      · exact alone w (List.mem_append_left _ hw)
    · exact alone w (List.mem_append_right _ hw)

theorem ending_after {e : Str} (he : Ending e) (hne : e ≠ []) (r : Str) : AfterNumber ('-' :: e ++ r) := by
  have hd : Head (isDigit · = false) (skipWs (e ++ r)) := by
    cases e with
    | nil => exact absurd rfl hne
    | cons c e =>
      have hall : ∀ c ∈ lowerLetters, isWs c = false ∧ isDigit c = false := by decide +kernel
      obtain ⟨h1, h2⟩ := hall c (he c (List.mem_cons_self ..))
      rw [List.cons_append, skipWs_cons h1]; exact .cons h2
  refine .inl ⟨.cons (by decide), ?_, .inr ⟨_, rfl, hd⟩⟩
  rw [List.cons_append, skipWs_cons (by decide)]; exact .cons (by decide)

/-! ### steps -/

/-- One expression which is no reference. -/
theorem found_step {t R : Str} (ht : t ≠ []) (hws : NoWs (t ++ R)) (hr : ∀ n, ReadsS known simpleExpression n t R .token)
    {out : List CompoundReference} {N : Nat} (h : Found known (N + byteLen t) R out) :
    ∀ w m, (∀ c ∈ w, isWs c = true) → m + byteLen w = N → Found known m (w ++ (t ++ R)) out := by
  intro w m hw hN
  obtain ⟨t', u, l, e, hu, hread, hout⟩ := h
  have hstep : ReadsS known (PS.call simpleExpression) m (w ++ t) R .token := ReadsS.call_ws hw hws (hr _)
  refine ⟨w ++ t ++ t', u, .token :: l, by rw [e]; simp, hu, ?_, hout⟩
  rw [e] at hstep
  refine RunsS.many_cons (by simp [ht]) hstep.steps ?_
  rw [byteLen_append', ← Nat.add_assoc, hN]
  exact hread

/-- One word or mark. -/
theorem found_token {c : Char} {t R : Str} (hc : isWs c = false) (hq : c ≠ '„') (hd : isDigit c = false) (hl : NoLevel (c :: t ++ R))
    (ha : parseAbbreviation known (c :: t ++ R) = none)
    (hw : (∀ d ∈ c :: t, isWordChar d = true) ∧ Head (isWordChar · = false) R ∨ isWordChar c = false ∧ t = [])
    {out : List CompoundReference} {N : Nat} (h : Found known (N + byteLen (c :: t)) R out) :
    ∀ w m, (∀ c ∈ w, isWs c = true) → m + byteLen w = N → Found known m (w ++ (c :: t ++ R)) out := by
  refine found_step (by simp) (noWs_cons hc) (fun n => simpleExpression_token (t := c :: t) (noWs_cons hc) (Head.cons (f := (· ≠ '„')) hq) (.cons hd) hl ha ?_) h
  rcases hw with ⟨h1, h2⟩ | ⟨h1, rfl⟩
  · exact Reads.left (Reads.call (noWs_cons hc) (Reads.many1_chars (by simp) h1 h2).map)
  · refine Reads.right ?_ (Reads.right ?_ ?_)
    · exact Fails.call_noWs (noWs_cons hc) fun n => Fails.bind (Fails.many1 (Fails.char (by
        intro d hd; simp at hd; subst hd; exact h1)))
    · exact Fails.bind (Fails.call_noWs (noWs_cons hc) fun n => fails_number (.cons hd))
    · exact Reads.call (noWs_cons hc) (Reads.char rfl).map

theorem found_number {k : Nat} {ending post : Str} (he : ending = [] ∨ ∃ e, ending = '-' :: e ∧ Ending e ∧ e ≠ [])
    (hend : NumberEnded ending post) (hno : parseAbbreviation known (dec k ++ (ending ++ post)) = none)
    (hno2 : ending ≠ [] → parseAbbreviation known (ending ++ post) = none)
    {out : List CompoundReference} {N : Nat} (h : Found known (N + byteLen (dec k ++ ending)) post out) :
    ∀ w m, (∀ c ∈ w, isWs c = true) → m + byteLen w = N → Found known m (w ++ (dec k ++ ending ++ post)) out := by
  have hafter : AfterNumber (ending ++ post) := by
    rcases he with rfl | ⟨e, rfl, h1, h2⟩
    · exact numberEnded_after hend
    · exact ending_after h1 h2 post
  rw [List.append_assoc]
  refine found_step (dec_ne_nil k) (noWs_dec _ _) (fun n => hafter.reads hno) ?_
  rw [byteLen_append', ← Nat.add_assoc] at h
  rcases he with rfl | ⟨e, rfl, h1, h2⟩
  · simpa [byteLen] using h
  · have hsk : skipWs ('-' :: e ++ post) = '-' :: e ++ post := skipWs_cons (by decide)
    refine found_token (by decide) (by decide) (by decide) ?_ (hno2 (by simp)) (.inl ⟨?_, numberEnded_word hend⟩) h [] _ (by simp) rfl
    · refine .of_head ?_ ?_ (noMark_head ?_) <;> rw [hsk] <;> exact .cons (by decide)
    · intro d hd
      rcases List.mem_cons.1 hd with rfl | hd
      · decide
      · exact (by decide +kernel : ∀ c ∈ lowerLetters, isWordChar c = true) d (h1 d hd)

/-! ### asides -/

theorem NoLevel.of_aside {s r : Str} (e : skipWs s = '(' :: r) (h : Aside r) : NoLevel s := by
  have h2 : Head (isDigit · = false) (skipWs s) := by rw [e]; exact .cons (by decide)
  refine ⟨fun r' e' => ?_, fun _ => Fails.bind (fails_listOf (noWs_skipWs s) fun _ => fails_articlePart (noWs_skipWs s) h2),
    fun _ => Fails.bind (fails_listOf (noWs_skipWs s) fun _ =>
      fails_dottedPart (noWs_skipWs s) fun _ => Fails.slice (Fails.bind (fails_number h2))),
    fun _ => Fails.bind (fails_listOf (noWs_skipWs s) fun _ => fails_dottedPart (noWs_skipWs s) fun _ => fails_number h2), ?_⟩
  · rw [e] at e'; cases e'; exact h
  · rw [e]; exact noMark_head (.cons (by decide))

theorem infix_words {x : Str} {b : Char} {w r : Str} (hb : b ∉ w) (h : w <+: x ++ b :: r) : w <+: x := by
  rcases List.prefix_or_prefix_of_prefix h (List.prefix_append x _) with h' | ⟨z, rfl⟩
  · exact h'
  · have := (List.prefix_append_right_inj x).1 h
    cases z with
    | nil => simp
    | cons d z =>
      obtain ⟨z', hz⟩ := this
      cases hz
      exact absurd (by simp) hb

theorem letters_char {c : Char} (h : c ∈ lowerLetters ∨ c ∈ upperLetters) :
    isWs c = false ∧ c ≠ '„' ∧ isDigit c = false ∧ isWordChar c = true ∧ c ≠ ')' ∧ isDashChar c = false ∧ c ≠ '(' := by
  have hall : ∀ c ∈ lowerLetters ++ upperLetters,
      isWs c = false ∧ c ≠ '„' ∧ isDigit c = false ∧ isWordChar c = true ∧ c ≠ ')' ∧ isDashChar c = false ∧ c ≠ '(' := by decide +kernel
  exact hall c (List.mem_append.2 h)

theorem aside_words {words last r : Str} (h1 : Ordinary words) (h3 : 3 ≤ last.length) (h4 : ∀ c ∈ last, c ∈ lowerLetters ∨ c ∈ upperLetters)
    (h5 : ¬ str!"továbbiakban" <:+: words ++ last) : Aside (words ++ last ++ ')' :: r) := by
  have hne : skipWs (words ++ last) ≠ [] := by
    intro e
    obtain ⟨w, hw, e'⟩ := skipWs_split (words ++ last)
    rw [e, List.append_nil] at e'
    cases last with
    | nil => simp at h3
    | cons c last =>
      have := hw c (by rw [← e']; simp)
      rw [(letters_char (h4 c (List.mem_cons_self ..))).1] at this
      cases this
  have hord : ∀ c ∈ words ++ last, isDigit c = false := by
    intro c hc
    rcases List.mem_append.1 hc with hc | hc
    · exact (ordinary_char (h1 c hc)).2.2.1
    · exact (letters_char (h4 c hc)).2.2.1
  have hsub : ∀ c ∈ skipWs (words ++ last), c ∈ words ++ last := fun c hc => (List.dropWhile_suffix _).subset hc
  refine ⟨?_, fun u hu hp => h5 ?_⟩
  · rw [skipWs_append_of hne]
    cases hs : skipWs (words ++ last) with
    | nil => exact absurd hs hne
    | cons c t => exact .inl (.cons (hord c (hsub c (by rw [hs]; simp))))
  · rw [skipWs_append_of hne] at hu
    cases hs : skipWs (words ++ last) with
    | nil => exact absurd hs hne
    | cons c t =>
      rw [hs] at hu
      cases hu
      have hp : str!"továbbiakban" <+: skipWs (t ++ ')' :: r) := hp
      have : str!"továbbiakban" <:+: t := by
        by_cases ht : skipWs t = []
        · obtain ⟨w, hw, e⟩ := skipWs_split t
          rw [ht, List.append_nil] at e
          have e2 : skipWs (t ++ ')' :: r) = ')' :: r := by
            rw [← e] at hw
            unfold skipWs
            rw [List.dropWhile_append_of_pos hw]; rfl
          rw [e2] at hp
          exact absurd hp (not_prefix_of_head (by decide) (by simp))
        · rw [skipWs_append_of ht] at hp
          exact (infix_words (by decide) hp).isInfix.trans (List.dropWhile_suffix _).isInfix
      exact (this.trans (List.suffix_cons ..).isInfix).trans (by rw [← hs]; exact (List.dropWhile_suffix _).isInfix)

/-- The last word in brackets. -/
theorem last_noLevel {c : Char} {last post s : Str} (h3 : 3 ≤ (c :: last).length) (h4 : ∀ d ∈ c :: last, d ∈ lowerLetters ∨ d ∈ upperLetters)
    (hs : skipWs s = c :: last ++ ')' :: post) : NoLevel s := by
  have hc := letters_char (h4 c (List.mem_cons_self ..))
  refine .of_head ?_ ?_ ?_ <;> rw [hs]
  · exact .cons hc.2.2.2.2.2.2
  · exact .cons hc.2.2.1
  · intro t u e ht hlen _
    have hp : t <+: c :: last := by
      refine List.prefix_of_prefix_length_le ⟨u, e.symm⟩ (List.prefix_append ..) (by omega)
    obtain ⟨v, hv⟩ := hp
    rw [← hv, List.append_assoc] at e
    have e := List.append_cancel_left e
    cases v with
    | nil =>
      rw [List.append_nil] at hv
      rw [hv] at hlen; omega
    | cons d v =>
      have hd := letters_char (h4 d (by rw [← hv]; simp))
      rw [← e, List.cons_append, skipWs_cons hd.1]
      exact .cons ⟨hd.2.2.2.2.1, hd.2.2.2.2.2.1⟩

/-- The end of something in brackets. -/
theorem found_closing {last post : Str} (h : last = [] ∨ 3 ≤ last.length ∧ ∀ c ∈ last, c ∈ lowerLetters ∨ c ∈ upperLetters)
    (hno : ∀ x y, last ++ str!")" = x ++ y → y ≠ [] → parseAbbreviation known (y ++ post) = none)
    {out : List CompoundReference} {N : Nat} (hf : Found known (N + byteLen (last ++ str!")")) post out) :
    ∀ w m, (∀ c ∈ w, isWs c = true) → m + byteLen w = N → Found known m (w ++ (last ++ str!")" ++ post)) out := by
  have hb : ∀ n, n + byteLen str!")" = N + byteLen (last ++ str!")") →
      ∀ w m, (∀ c ∈ w, isWs c = true) → m + byteLen w = n → Found known m (w ++ (')' :: [] ++ post)) out := by
    intro n hn
    have hs : skipWs (')' :: [] ++ post) = ')' :: post := skipWs_cons (by decide)
    refine found_token (by decide) (by decide) (by decide) ?_ (hno last str!")" rfl (by simp)) (.inr ⟨by decide, rfl⟩) (N := n) (by rw [hn]; exact hf)
    refine .of_head ?_ ?_ (noMark_head ?_) <;> rw [hs] <;> exact .cons (by decide)
  cases last with
  | nil => exact hb N rfl
  | cons c last =>
    obtain ⟨h3, h4⟩ := h.resolve_left (by simp)
    have hc := letters_char (h4 c (List.mem_cons_self ..))
    rw [show c :: last ++ str!")" ++ post = c :: last ++ (')' :: [] ++ post) by simp]
    refine found_token hc.1 hc.2.1 hc.2.2.1 (last_noLevel (post := post) h3 h4 (skipWs_cons hc.1)) ?_
      (.inl ⟨fun d hd => (letters_char (h4 d hd)).2.2.2.1, .cons (by decide)⟩)
      (hb (N + byteLen (c :: last)) (by simp only [byteLen_append']; omega) [] _ (by simp) rfl)
    have := hno [] _ rfl (by simp)
    simpa using this

/-- The beginning of something in brackets. -/
theorem found_opening {post : Str} (ha : Aside post) (hno : parseAbbreviation known ('(' :: post) = none)
    {out : List CompoundReference} {N : Nat} (hf : Found known (N + byteLen str!"(") post out) :
    ∀ w m, (∀ c ∈ w, isWs c = true) → m + byteLen w = N → Found known m (w ++ ('(' :: [] ++ post)) out :=
  found_token (by decide) (by decide) (by decide) (NoLevel.of_aside (r := post) (skipWs_cons (by decide)) ha) hno (.inr ⟨by decide, rfl⟩) hf

theorem found_aside {words last post : Str} (h1 : Ordinary words) (h2 : words = [] ∨ ∃ y, words = y ++ str!" ") (h3 : 3 ≤ last.length)
    (h4 : ∀ c ∈ last, c ∈ lowerLetters ∨ c ∈ upperLetters) (h5 : ¬ str!"továbbiakban" <:+: words ++ last)
    (hno : ∀ x y, '(' :: words ++ last ++ str!")" = x ++ y → y ≠ [] → parseAbbreviation known (y ++ post) = none)
    {out : List CompoundReference} {N : Nat} (h : Found known (N + byteLen ('(' :: words ++ last ++ str!")")) post out) :
    ∀ w m, (∀ c ∈ w, isWs c = true) → m + byteLen w = N → Found known m (w ++ ('(' :: words ++ last ++ str!")" ++ post)) out := by
  have e : '(' :: words ++ last ++ str!")" ++ post = '(' :: [] ++ (words ++ (last ++ ')' :: post)) := by simp
  rw [e]
  refine found_token (by decide) (by decide) (by decide) ?_ ?_ (.inr ⟨by decide, rfl⟩) ?_
  · refine NoLevel.of_aside (r := words ++ last ++ ')' :: post) ?_ (aside_words h1 h3 h4 h5)
    rw [List.cons_append, skipWs_cons (by decide)]; simp
  · rw [← e]; exact hno [] _ rfl (by simp)
  cases last with
  | nil => simp at h3
  | cons c last =>
    have hc := letters_char (h4 c (List.mem_cons_self ..))
    have hlast : ∀ w m, (∀ c ∈ w, isWs c = true) → m + byteLen w = N + byteLen str!"(" + byteLen words →
        Found known m (w ++ (c :: last ++ ')' :: post)) out := by
      rw [show c :: last ++ ')' :: post = c :: last ++ str!")" ++ post by simp]
      refine found_closing (.inr ⟨h3, h4⟩) (fun x y e hy => hno ('(' :: words ++ x) y ?_ hy) ?_
      · rw [List.append_assoc ('(' :: words), e]; simp
      · rw [show '(' :: words ++ c :: last ++ str!")" = str!"(" ++ words ++ (c :: last) ++ str!")" by simp] at h
        simp only [byteLen_append'] at h ⊢
        convert h using 1
        omega
    refine found_words ?_ hlast words.length words _ (Nat.le_refl _) rfl h1 (.inr h2) fun p q hpq hq => ?_
    · rw [List.cons_append, skipWs_cons hc.1]; exact .cons ⟨hc.2.2.2.2.1, hc.2.2.2.2.2.1⟩
    · have := hno ('(' :: p) (q ++ c :: last ++ str!")") (by rw [hpq]; simp) (by simp)
      simpa using this

end HunLaw.Grammar
