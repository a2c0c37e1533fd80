import Verif.Lemmas.WrittenText
import Verif.Spec.Passage

/-! The grammar recognises mentions of attachments in the usual form, which are not references. -/

set_option autoImplicit false

namespace HunLaw.Grammar

open HunLaw P Spec

variable {α β : Type} {known : List Str}

/-! ### the numbers -/

/-- The words after the numbers. -/
def attachmentWord (a : Attachment) : Str := if a.numbered then str!"számú melléklet" else str!"melléklet"

theorem attachmentWord_cases (a : Attachment) : attachmentWord a = str!"számú melléklet" ∨ attachmentWord a = str!"melléklet" := by
  unfold attachmentWord; split <;> simp

theorem attachmentWord_ne (a : Attachment) : attachmentWord a ≠ [] := by
  rcases attachmentWord_cases a with h | h <;> rw [h] <;> simp

theorem attachmentWord_noWs (a : Attachment) : NoWs (attachmentWord a) := by
  rcases attachmentWord_cases a with h | h <;> rw [h] <;> exact noWs_cons (by decide)

/-- The places of a mention. -/
def placesText (l : List (Str × AttachmentPlace)) : Str := l.flatMap fun x => x.1 ++ x.2.text

theorem attachment_text (a : Attachment) :
    a.text = (a.numbers.words dottedSpan (' ' :: attachmentWord a)).text ++ placesText a.places := by
  unfold Attachment.text attachmentWord placesText
  split <;> rfl

theorem fails_words_point {n : Nat} {w rest : Str} {l : Listing NumericId} (hw : w ∈ [str!"számú melléklet", str!"melléklet"])
    (hl : l.Fits (Span.Fits fun i => i.suffix = none)) :
    Fails numericPointReference n ((l.words dottedSpan (' ' :: w)).text ++ rest) ∧
    Fails numericSubpointReference n ((l.words dottedSpan (' ' :: w)).text ++ rest) := by
  rw [words_text, List.append_assoc]
  have hw' : w ≠ [] ∧ NoWs w ∧ Head (fun c => c ≠ ',' ∧ c ≠ ';' ∧ c ≠ 'é' ∧ c ≠ 'v' ∧ c ≠ 'i') w ∧ w.head? ≠ some 'p' ∧ w.head? ≠ some 'a' := by
    simp only [List.mem_cons, List.not_mem_nil, or_false] at hw
    rcases hw with rfl | rfl <;> exact ⟨by decide, noWs_cons (by decide), .cons (by decide), by decide, by decide⟩
  have hsk : skipWs (' ' :: w ++ l.ending ++ rest) = w ++ (l.ending ++ rest) := by
    rw [List.append_assoc]; exact skipWs_word hw'.1 hw'.2.1 _
  have hhead : ∀ s : Str, s.head? ≠ w.head? → s ≠ [] → ¬ s <+: w ++ (l.ending ++ rest) := fun s h hs => by
    refine not_prefix_of_head hs ?_
    cases w with
    | nil => exact absurd rfl hw'.1
    | cons c w => exact h
  constructor
  · refine Fails.bind_of (reads_listOf l hl (value := partAt NumericId.display dottedSpan)
      (fun s _ r => itemStart_dotted r) (fun s hs n r hr => reads_dottedPart hs fun n i t _ ht =>
        reads_numericPointId (ht.mono ?_)) fun n => fails_listSeparator ?_) (Fails.bind (fails_partSuffix ?_))
    · rintro c (rfl | hc)
      · decide
      · have := dashes_not hc; exact ⟨this.1, this.2.2.2.2.2.1, this.2.1⟩
    · rw [hsk]; exact hw'.2.2.1.append hw'.1
    · rw [hsk]; exact hhead _ (fun h => hw'.2.2.2.1 h.symm) (by decide)
  · refine Fails.bind_of (reads_listOf l hl (value := partAt NumericId.display dottedSpan)
      (fun s _ r => itemStart_dotted r) (fun s hs n r hr => reads_dottedPart hs fun n i t hi ht => ?_) fun n => fails_listSeparator ?_)
      (Fails.bind (fails_partSuffix ?_))
    · rw [display_numeric, hi]
      simp only [lettered, List.append_nil]
      refine reads_number (ht.mono ?_)
      rintro c (rfl | hc)
      · decide
      · exact (dashes_not hc).1
    · rw [hsk]; exact hw'.2.2.1.append hw'.1
    · rw [hsk]; exact hhead _ (fun h => hw'.2.2.2.2 h.symm) (by decide)

theorem attachment_head (a : Attachment) (r : Str) : ∃ c t, a.text ++ r = c :: t ∧ isDigit c = true := by
  rw [attachment_text, List.append_assoc]
  exact dotted_words _ _ _

/-- A mention of attachments is not a reference. -/
theorem attachment_noLevel {a : Attachment} (ha : a.Usual) (r : Str) : NoLevel (a.text ++ r) := by
  obtain ⟨c, t, e, hc⟩ := attachment_head a r
  have hsk : skipWs (a.text ++ r) = a.text ++ r := by rw [e]; exact skipWs_cons (digit_noWs hc)
  have hw : attachmentWord a ∈ [str!"számú melléklet", str!"melléklet"] := by
    rcases attachmentWord_cases a with h | h <;> rw [h] <;> simp
  have hfit : a.numbers.Fits (Span.Fits fun _ => True) := by
    have hs : ∀ s : Span NumericId, s.Fits (fun i => i.suffix = none) → s.Fits fun _ => True := by
      intro s hs
      cases s with
      | one => trivial
      | upTo d a b => exact ⟨hs.1, trivial, trivial⟩
    exact ⟨hs _ ha.numbers.1, fun x hx => ⟨(ha.numbers.2 x hx).1, hs _ (ha.numbers.2 x hx).2⟩⟩
  refine ⟨?_, fun n => ?_, fun n => ?_, fun n => ?_, ?_⟩ <;> rw [hsk]
  · rw [e]; refine .cons ?_; rintro rfl; revert hc; decide
  · rw [attachment_text, List.append_assoc]
    refine fails_article_dotted (attachmentWord_ne a) (attachmentWord_noWs a) ?_ hfit
    rcases attachmentWord_cases a with h | h <;> rw [h] <;> exact .cons (by decide)
  · rw [attachment_text, List.append_assoc]; exact (fails_words_point hw ha.numbers).1
  · rw [attachment_text, List.append_assoc]; exact (fails_words_point hw ha.numbers).2
  · intro t' u e2 ht' _ hl
    cases t' with
    | nil => exact absurd rfl ht'
    | cons d t' =>
      rw [e] at e2
      cases e2
      have := hl c (List.mem_cons_self ..)
      rw [(Other.of_lower this).digit] at hc
      cases hc

theorem reads_attachmentPart {n : Nat} {s : Span NumericId} (hs : s.Fits fun i => i.suffix = none) {rest : Str} :
    Reads attachmentPart n (dottedSpan s) rest () := by
  have hd : ∀ i : NumericId, i.suffix = none → i.display = dec i.num := by
    intro i hi
    rw [display_numeric, hi]; simp [lettered]
  have num : ∀ {n k t}, Head (isDigit · = false) t → Reads (call number) n (dec k) t (dec k) := fun h =>
    Reads.call (noWs_dec _ _) (reads_number h)
  cases s with
  | one a =>
    rw [dottedSpan, hd a hs]
    refine Reads.bind (Reads.right (Fails.bind_of (num (.cons (by decide))) (Fails.bind (fails_call_dash (.cons (by decide)))))
      (num (.cons (by decide))).map) (Reads.tok (noWs_cons (by decide)))
  | upTo d a b =>
    obtain ⟨h1, h2, h3⟩ := hs
    have hn := dashes_not h1
    have e : dottedSpan (.upTo d a b) = (dec a.num ++ ([d] ++ dec b.num)) ++ str!"." := by
      rw [dottedSpan, hd a h2, hd b h3]; simp
    rw [e]
    refine Reads.bind (Reads.left (Reads.bind (num (.cons hn.1)) (Reads.bind (Reads.call (noWs_cons (dashes_noWs h1)) (reads_dash (dashes_dash h1)))
      (num (.cons (by decide))).map))) (Reads.tok (noWs_cons (by decide)))

theorem reads_numbers {a : Attachment} (ha : a.Usual) {n : Nat} {rest : Str} (h : Head (isHunLower · = false) rest) :
    Reads (listOf attachmentPart >>= fun _ => call attachmentSuffix) n (a.numbers.words dottedSpan (' ' :: attachmentWord a)).text rest () := by
  rw [words_text]
  have hsk : skipWs (' ' :: attachmentWord a ++ a.numbers.ending ++ rest) = attachmentWord a ++ (a.numbers.ending ++ rest) := by
    rw [List.append_assoc]; exact skipWs_word (attachmentWord_ne a) (attachmentWord_noWs a) _
  refine Reads.bind (reads_listOf a.numbers ha.numbers (value := fun _ _ => ()) (fun s _ r => itemStart_dotted r)
    (fun s hs n r _ => reads_attachmentPart hs) fun n => fails_listSeparator ?_) ?_
  · rw [hsk]
    rcases attachmentWord_cases a with h | h <;> rw [h] <;> exact .cons (by decide)
  · refine Reads.call_space (t := attachmentWord a ++ a.numbers.ending)
      (by rw [List.append_assoc]; exact noWs_append (attachmentWord_ne a) (attachmentWord_noWs a)) ?_
    have hend : ∀ n, Reads hunLowers n a.numbers.ending rest () := fun n =>
      (Reads.many_chars (ending_lower ha.ending) h).map
    rcases attachmentWord_cases a with h | h <;> rw [h]
    · exact Reads.bind (t := str!"számú ") (u := str!"melléklet" ++ a.numbers.ending) (Reads.opt_some (Reads.lit _)) (Reads.bind (Reads.lit _) (hend _))
    · exact Reads.bind_first (Reads.opt_none (Fails.lit_head (by decide) (by simp))) (Reads.bind (Reads.lit _) (hend _))

/-! ### separators -/

theorem skip_skip (i : Inp) : (i.drop (i.rest.takeWhile isWs).length).drop
    ((i.drop (i.rest.takeWhile isWs).length).rest.takeWhile isWs).length = i.drop (i.rest.takeWhile isWs).length := by
  have : (i.drop (i.rest.takeWhile isWs).length).rest.takeWhile isWs = [] := by
    show (i.rest.drop (i.rest.takeWhile isWs).length).takeWhile isWs = []
    have e : i.rest.drop (i.rest.takeWhile isWs).length = skipWs i.rest := by
      unfold skipWs
      have := List.takeWhile_append_dropWhile (p := isWs) (l := i.rest)
      conv => lhs; arg 2; rw [← this]
      rw [List.drop_left]
    rw [e]
    have h := noWs_skipWs i.rest
    cases hr : skipWs i.rest with
    | nil => rfl
    | cons c l => rw [List.takeWhile_cons, if_neg (by rw [hr] at h; simp [h c rfl])]
  rw [this]
  simp [Inp.drop, byteLen]

theorem call_skips (p : P α) (i : Inp) : (call p).run i = p.run (i.drop (i.rest.takeWhile isWs).length) := rfl

theorem opt_takes (p : P α) (i : Inp) : (opt p).run i = match p.run i with
    | some (a, j) => some (some a, j)
    | none => some (none, i) := rfl

/-- A separator skips the whitespace before it also without being called. -/
theorem listSeparator_call (i : Inp) : (call listSeparator).run i = listSeparator.run i := by
  have ht : ∀ l, (toks l).run (i.drop (i.rest.takeWhile isWs).length) = (toks l).run i := fun l => by
    unfold toks; rw [call_skips, call_skips, skip_skip]
  rw [call_skips]
  unfold listSeparator
  rw [bind_run, bind_run, alt_run, alt_run, bind_run, bind_run, opt_takes, opt_takes, ht]
  rcases h : (toks [str!",", str!";"]).run i with _ | ⟨a, j⟩
  · simp only [ht]
  · rfl

theorem fails_listSeparator_words {n : Nat} {s : Str} (h : ∀ w ∈ sepMarks ++ sepWords, ¬ w <+: skipWs s) :
    Fails (call listSeparator) n s := by
  have hm : ∀ w ∈ sepMarks, ¬ w <+: skipWs s := fun w hw => h w (List.mem_append_left _ hw)
  have hw : ∀ w ∈ sepWords, ¬ w <+: skipWs s := fun w hw => h w (List.mem_append_right _ hw)
  refine Fails.call fun n => ?_
  refine Fails.bind (Fails.alt ?_ (Fails.call_noWs (noWs_skipWs s) fun n => Fails.lits hm))
  exact Fails.bind_of (t := []) (Reads.opt_none (Fails.call_noWs (noWs_skipWs s) fun n => Fails.lits hm))
    (Fails.call_noWs (noWs_skipWs s) fun n => Fails.lits hw)

/-! ### identifiers of parts -/

theorem idChar {c : Char} : c ∈ identifierChars ↔ isJunkIdChar c = true := by
  constructor
  · have : ∀ c ∈ identifierChars, isJunkIdChar c = true := by decide +kernel
    exact this c
  · intro h
    have hall : ∀ k ∈ List.range 128, isJunkIdChar (Char.ofNat k) = true → Char.ofNat k ∈ identifierChars := by decide +kernel
    have hd : ∀ c ∈ str!"−–-", c ∈ identifierChars := by decide
    by_cases hk : c.toNat < 128
    · have := hall c.toNat (List.mem_range.2 hk)
      rw [Char.ofNat_toNat] at this
      exact this h
    · unfold isJunkIdChar lowerAz upperAz isDigit isDashChar at h
      simp only [Bool.or_eq_true, Bool.and_eq_true, decide_eq_true_eq, beq_iff_eq] at h
      rcases h with (((((h | h) | h) | h) | h) | h) | h
      · omega
      · omega
      · omega
      · exact hd c (List.contains_iff_mem.1 h)
      all_goals (subst h; decide)

theorem idChar_noWs {c : Char} (h : c ∈ identifierChars) : isWs c = false ∧ c ≠ '„' ∧ c ≠ ' ' := by
  have : ∀ c ∈ identifierChars, isWs c = false ∧ c ≠ '„' ∧ c ≠ ' ' := by decide +kernel
  exact this c h

theorem prefix_either {x s r : Str} (h : x <+: s ++ r) : x <+: s ∨ s <+: x := by
  exact List.prefix_or_prefix_of_prefix h (List.prefix_append ..)

theorem partId_start {s : Str} (hs : PartId s) (r : Str) : ItemStart (s ++ r) := by
  obtain ⟨h1, ⟨y, c, rfl, hc⟩, h3⟩ := hs
  have hsub : ∀ {x : Str}, y ++ [c] <+: x → c ∈ x := fun h => h.subset (by simp)
  have hcs : c ≠ ' ' ∧ (∀ w ∈ sepWords, c ∉ w) ∧ c ∉ str!"a " ∧ c ∉ str!"az " :=
    (by decide : ∀ c ∈ str!".)", c ≠ ' ' ∧ (∀ w ∈ sepWords, c ∉ w) ∧ c ∉ str!"a " ∧ c ∉ str!"az ") c hc
  have hsp : ' ' ∉ y ++ [c] := fun h => (idChar_noWs (h1 _ h)).2.2 rfl
  refine ⟨noWs_append (by simp) (Head.of_all fun c hc => (idChar_noWs (h1 c hc)).1), fun w hw h => ?_, fun h => ?_, fun h => ?_⟩
  · rcases prefix_either h with h | h
    · exact h3 w hw h
    · exact hcs.2.1 w hw (hsub h)
  · rcases prefix_either h with h | h
    · exact hsp (h.subset (by simp))
    · exact hcs.2.2.1 (hsub h)
  · rcases prefix_either h with h | h
    · exact hsp (h.subset (by simp))
    · exact hcs.2.2.2 (hsub h)

theorem partId_ne {s : Str} (hs : PartId s) : s ≠ [] := by
  obtain ⟨-, ⟨y, c, rfl, -⟩, -⟩ := hs
  simp

theorem partId_noQuote {s : Str} (hs : PartId s) (r : Str) (n : Nat) : Fails quote n (s ++ r) := by
  refine fails_quote ?_
  rw [skipWs_noWs (partId_start hs r).noWs]
  cases s with
  | nil => exact absurd rfl (partId_ne hs)
  | cons c s => exact .cons (idChar_noWs (hs.1 c (List.mem_cons_self ..))).2.1

theorem reads_junkId {s : Str} (hs : PartId s) {r : Str} (h : Head (· ∉ identifierChars) r) (n : Nat) :
    Reads attachmentJunkId n s r () := by
  refine Reads.right (Fails.bind (partId_noQuote hs r n)) ?_
  refine (Reads.many1_chars (partId_ne hs) (fun c hc => idChar.1 (hs.1 c hc)) fun c hc => ?_).map
  have h1 : ¬ c ∈ identifierChars := h c hc
  rw [idChar] at h1
  simpa using h1

theorem separator_head {sep : Str} (h : sep ∈ separators) (r : Str) :
    Head (· ∉ identifierChars) (sep ++ r) ∧ Head (isHunLower · = false) (sep ++ r) ∧ sep ≠ [] := by
  have hall : ∀ sep ∈ separators, (∃ c ∈ sep.head?, c ∉ identifierChars ∧ isHunLower c = false) := by decide +kernel
  obtain ⟨c, hc, h1⟩ := hall sep h
  cases sep with
  | nil => cases hc
  | cons d sep => cases hc; exact ⟨.cons h1.1, .cons h1.2, by simp⟩

/-- An identifier with a separator and another one after it. -/
theorem reads_item_more {s sep t : Str} (hs : PartId s) (hsep : sep ∈ separators) (ht : PartId t) (r : Str) (n : Nat) :
    Reads attachmentJunkItem n (s ++ sep) (t ++ r) () := by
  obtain ⟨u, v, e, h1, h2⟩ := reads_separator (n := n + byteLen s) hsep (partId_start ht r)
  refine Reads.bind (reads_junkId hs (separator_head hsep _).1 n) ?_
  refine Reads.map (g := fun _ => ()) (a := some (some ())) (Reads.opt_some ?_)
  rw [e]
  refine Reads.bind (a := ()) ?_ ?_
  · have h := h1
    unfold Reads at h ⊢
    rwa [listSeparator_call] at h
  · refine Reads.opt_some (Reads.ws ?_ (partId_start ht r).noWs)
    rcases h2 with rfl | rfl
    · simp
    · simp [isWs]

theorem part_word {w : Str} (hw : w ∈ attachmentParts) (r : Str) : NoWs (w ++ r) ∧ w ≠ [] ∧
    Head (fun c => c ≠ ',' ∧ c ≠ ';' ∧ c ≠ 'é' ∧ c ≠ 'v' ∧ c ≠ 'i') (w ++ r) ∧ Head (· ≠ '„') (w ++ r) := by
  have hall : ∀ w ∈ attachmentParts, ∃ c ∈ w.head?, isWs c = false ∧ (c ≠ ',' ∧ c ≠ ';' ∧ c ≠ 'é' ∧ c ≠ 'v' ∧ c ≠ 'i') ∧ c ≠ '„' := by decide
  obtain ⟨c, hc, h1, h2, h3⟩ := hall w hw
  cases w with
  | nil => cases hc
  | cons d w => cases hc; exact ⟨noWs_cons h1, by simp, .cons h2, .cons h3⟩

theorem reads_item_last {s w : Str} (hs : PartId s) (hw : w ∈ attachmentParts) (r : Str) (n : Nat) :
    Reads attachmentJunkItem n s (' ' :: (w ++ r)) () := by
  refine Reads.bind_last (reads_junkId hs (.cons (by decide)) n) ?_
  refine Reads.map (g := fun _ => ()) (a := none) (Reads.opt_none (Fails.bind ?_))
  have h : Fails (call listSeparator) (n + byteLen s) (' ' :: (w ++ r)) := fails_listSeparator (by
    have : skipWs (' ' :: (w ++ r)) = w ++ r := skipWs_sp (sp := [' ']) (.inr rfl) (part_word hw r).1
    rw [this]; exact (part_word hw r).2.2.1)
  unfold Fails at h ⊢
  rwa [listSeparator_call] at h

theorem fails_item {w : Str} (hw : w ∈ attachmentParts) (r : Str) (n : Nat) : Fails attachmentJunkItem n (' ' :: (w ++ r)) := by
  refine Fails.bind (Fails.alt (Fails.bind (fails_quote ?_)) (Fails.bind (Fails.many1 (Fails.char ?_))))
  · have : skipWs (' ' :: (w ++ r)) = w ++ r := skipWs_sp (sp := [' ']) (.inr rfl) (part_word hw r).1
    rw [this]; exact (part_word hw r).2.2.2
  · intro c hc; cases hc; decide

theorem reads_junkItems {w : Str} (hw : w ∈ attachmentParts) (r : Str) (others : List (Str × Str)) : ∀ (first : Str) (n : Nat),
    PartId first → (∀ x ∈ others, x.1 ∈ separators ∧ PartId x.2) →
    ∃ t u l, first ++ others.flatMap (fun x => x.1 ++ x.2) = t ++ u ∧ t ≠ [] ∧
      Reads attachmentJunkItem n t (u ++ ' ' :: (w ++ r)) () ∧
      Reads (many attachmentJunkItem) (n + byteLen t) u (' ' :: (w ++ r)) l := by
  induction others with
  | nil =>
    intro first n hf _
    exact ⟨first, [], [], by simp, partId_ne hf, reads_item_last hf hw r n, Reads.many_nil (fails_item hw r _)⟩
  | cons x others ih =>
    intro first n hf ho
    obtain ⟨sep, y⟩ := x
    have hx := ho _ (List.mem_cons_self ..)
    obtain ⟨t, u, l, e, ht, h1, h2⟩ := ih y (n + byteLen (first ++ sep)) hx.2 fun x hx => ho x (List.mem_cons_of_mem _ hx)
    refine ⟨first ++ sep, t ++ u, () :: l, ?_, ?_, ?_, Reads.many_cons ht h1 h2⟩
    · rw [List.flatMap_cons, ← e]; simp
    · simp [partId_ne hf]
    · rw [← e, List.append_assoc]
      exact reads_item_more hf hx.1 hx.2 _ n

/-! ### places -/

theorem reads_endingOf {e rest : Str} (he : Ending e) (h : Head (isHunLower · = false) rest) (n : Nat) :
    Reads hunLowers n e rest () := (Reads.many_chars (ending_lower he) h).map

theorem reads_attachmentPartWord {w : Str} (hw : w ∈ attachmentParts) {r : Str} (n : Nat) : Reads (lits attachmentParts) n w r () := by
  have hall : ∀ w ∈ attachmentParts, ∃ l k, attachmentParts = l ++ w :: k ∧ ∀ u ∈ l, ∃ c d, u.head? = some c ∧ w.head? = some d ∧ c ≠ d := by
    intro w hw
    simp only [attachmentParts, List.mem_cons, List.not_mem_nil, or_false] at hw
    rcases hw with rfl | rfl | rfl | rfl | rfl | rfl
    · exact ⟨[], _, rfl, by simp⟩
    · exact ⟨[str!"pont"], _, rfl, by simp⟩
    · exact ⟨[str!"pont", str!"alpont"], _, rfl, by simp⟩
    · exact ⟨[str!"pont", str!"alpont", str!"rész"], _, rfl, by simp⟩
    · exact ⟨[str!"pont", str!"alpont", str!"rész", str!"fejezet"], _, rfl, by simp⟩
    · exact ⟨[str!"pont", str!"alpont", str!"rész", str!"fejezet", str!"sor"], _, rfl, by simp⟩
  obtain ⟨l, k, e, hl⟩ := hall w hw
  rw [e]
  refine Reads.lits fun u hu => ?_
  obtain ⟨c, d, h1, h2, h3⟩ := hl u hu
  have hw : w ≠ [] := by rintro rfl; cases h2
  refine not_prefix_of_head (by rintro rfl; cases h1) ?_
  cases w with
  | nil => cases h2
  | cons f w => cases h2; rw [h1]; exact fun h => h3 (Option.some.inj h)

/-- What is after the first identifier is neither the name of a part nor a separator. -/
theorem fails_junkIds {s : Str} (hq : Head (· ≠ '„') (skipWs s))
    (hsep : ∀ w ∈ sepMarks ++ sepWords, ¬ w <+: skipWs (s.dropWhile isJunkIdChar))
    (hq2 : Head (· ≠ '„') (skipWs (s.dropWhile isJunkIdChar)))
    (hparts : ∀ x ∈ attachmentParts, ¬ x <+: skipWs (s.dropWhile isJunkIdChar)) (n : Nat) : Fails attachmentJunkIds n s := by
  have e : s = s.takeWhile isJunkIdChar ++ s.dropWhile isJunkIdChar := (List.takeWhile_append_dropWhile ..).symm
  have hd : ∀ c, (s.dropWhile isJunkIdChar).head? = some c → isJunkIdChar c = false := fun c hc => by
    have := List.head?_dropWhile_not isJunkIdChar s
    rw [hc] at this
    simpa using this
  have hq' : ∀ n, Fails quote n s := fun n => fails_quote hq
  have hq2' : ∀ n, Fails quote n (s.dropWhile isJunkIdChar) := fun n => fails_quote hq2
  generalize s.dropWhile isJunkIdChar = u at *
  rcases ht : s.takeWhile isJunkIdChar with _ | ⟨c, t⟩
  · rw [ht, List.nil_append] at e
    subst e
    exact Fails.bind (Fails.many1 (Fails.bind (Fails.alt (Fails.bind (hq' _)) (Fails.bind (Fails.many1 (Fails.char hd))))))
  · have hall : ∀ d ∈ c :: t, isJunkIdChar d = true := fun d hd => List.all_eq_true.1 (ht ▸ List.all_takeWhile) d hd
    rw [ht] at e
    rw [e] at hq' ⊢
    have hitem : Reads attachmentJunkItem n (c :: t) u () := by
      refine Reads.bind_last (Reads.right (Fails.bind (hq' _)) (Reads.many1_chars (by simp) hall hd).map) ?_
      refine Reads.map (g := fun _ => ()) (a := none) (Reads.opt_none (Fails.bind ?_))
      have h : Fails (call listSeparator) (n + byteLen (c :: t)) u := fails_listSeparator_words hsep
      unfold Fails at h ⊢
      rwa [listSeparator_call] at h
    refine Fails.bind_of (a := [()]) (t := c :: t) (Reads.bind_last hitem (Reads.map (g := fun l => () :: l) (a := []) (Reads.many_nil ?_))) ?_
    · exact Fails.bind (Fails.alt (Fails.bind (hq2' _)) (Fails.bind (Fails.many1 (Fails.char hd))))
    · obtain ⟨w, hw, ew⟩ := skipWs_split u
      rw [ew]
      exact Fails.bind_of (Reads.ws hw (noWs_skipWs u)) (Fails.bind (Fails.lits hparts))

/-- A place in an attachment. -/
theorem reads_attachmentPlace {x : AttachmentPlace} (hx : x.Usual) {rest : Str} (h : Head (isHunLower · = false) rest) (n : Nat) :
    Reads attachmentJunk n x.text rest () := by
  cases x with
  | part first others w e =>
    obtain ⟨h1, h2, h3, h4⟩ := hx
    obtain ⟨t, u, l, e1, ht, h5, h6⟩ := reads_junkItems h3 (e ++ rest) others first n h1 h2
    have etext : (AttachmentPlace.part first others w e).text = (t ++ u) ++ ([' '] ++ (w ++ e)) := by
      rw [AttachmentPlace.text, e1]; simp
    rw [etext]
    refine Reads.left (Reads.bind (a := () :: l) ?_ ?_)
    · have h5' : Reads attachmentJunkItem n t (u ++ ([' '] ++ (w ++ e) ++ rest)) () := by simpa using h5
      have h6' : Reads (many attachmentJunkItem) (n + byteLen t) u ([' '] ++ (w ++ e) ++ rest) l := by simpa using h6
      exact Reads.bind h5' h6'.map
    · refine Reads.bind (Reads.ws (by simp [isWs]) ?_) (Reads.bind (reads_attachmentPartWord h3 _) (reads_endingOf h4 h _))
      rw [List.append_assoc]; exact (part_word h3 _).1
  | table e =>
    refine Reads.right ?_ (Reads.left (Reads.bind (Reads.lit _) (reads_endingOf hx h _)))
    have hsk : skipWs ((AttachmentPlace.table e).text ++ rest |>.dropWhile isJunkIdChar) = str!"táblázat" ++ e ++ rest := rfl
    refine fails_junkIds (.cons (by decide)) ?_ ?_ ?_ n <;> rw [hsk]
    · intro w hw
      refine not_prefix_of_head ?_ ?_
      · rintro rfl; revert hw; decide
      · exact (by decide : ∀ w ∈ sepMarks ++ sepWords, w.head? ≠ some 't') w hw
    · exact .cons (by decide)
    · intro w hw
      refine not_prefix_of_head ?_ ?_
      · rintro rfl; revert hw; decide
      · exact (by decide : ∀ w ∈ attachmentParts, w.head? ≠ some 't') w hw
  | title e =>
    refine Reads.right ?_ (Reads.right (Fails.bind (Fails.lit_head (by decide) (by simp [AttachmentPlace.text]))) (Reads.bind (Reads.lit _) (reads_endingOf hx h _)))
    have hsk : skipWs ((AttachmentPlace.title e).text ++ rest |>.dropWhile isJunkIdChar) = str!"ím" ++ e ++ rest := rfl
    refine fails_junkIds (.cons (by decide)) ?_ ?_ ?_ n <;> rw [hsk]
    · intro w hw
      refine not_prefix_of_head ?_ ?_
      · rintro rfl; revert hw; decide
      · exact (by decide : ∀ w ∈ sepMarks ++ sepWords, w.head? ≠ some 'í') w hw
    · exact .cons (by decide)
    · intro w hw
      refine not_prefix_of_head ?_ ?_
      · rintro rfl; revert hw; decide
      · exact (by decide : ∀ w ∈ attachmentParts, w.head? ≠ some 'í') w hw

theorem attachmentPlace_start {x : AttachmentPlace} (hx : x.Usual) (r : Str) :
    ItemStart (x.text ++ r) ∧ x.text ≠ [] ∧ Head (fun c => c ≠ ',' ∧ c ≠ ';') (x.text ++ r) := by
  cases x with
  | part first others w e =>
    have h1 := partId_start hx.1 (others.flatMap (fun x => x.1 ++ x.2) ++ ' ' :: w ++ e ++ r)
    have h2 := partId_ne hx.1
    refine ⟨by simpa [AttachmentPlace.text] using h1, by simp [AttachmentPlace.text], ?_⟩
    cases first with
    | nil => exact absurd rfl h2
    | cons c first =>
      have hall : ∀ c ∈ identifierChars, c ≠ ',' ∧ c ≠ ';' := by decide
      exact Head.cons (f := fun c => c ≠ ',' ∧ c ≠ ';') (hall c (hx.1.1 c (List.mem_cons_self ..)))
  | table e => exact ⟨itemStart_of_head (c := 'f') rfl (by decide) (by decide), by simp [AttachmentPlace.text], .cons (by decide)⟩
  | title e => exact ⟨itemStart_of_head (c := 'c') rfl (by decide) (by decide), by simp [AttachmentPlace.text], .cons (by decide)⟩

/-! ### the whole mention -/

theorem placesText_cons (x : Str × AttachmentPlace) (l : List (Str × AttachmentPlace)) :
    placesText (x :: l) = x.1 ++ (x.2.text ++ placesText l) := by
  simp [placesText]

theorem reads_places {rest : Str} (h : Head (isHunLower · = false) rest) (hj : ∀ n, Fails (call attachmentJunk) n rest)
    (hsep : ∀ n, Fails (call listSeparator) n rest) (l : List (Str × AttachmentPlace)) :
    ∀ (v : Str) (x : AttachmentPlace) (n : Nat), v = [] ∨ v = [' '] → x.Usual →
    (∀ y ∈ l, (y.1 = str!" " ∨ y.1 ∈ separators) ∧ y.2.Usual) →
    ∃ k, Reads (many (do call attachmentJunk; opt (call listSeparator))) n (v ++ (x.text ++ placesText l)) rest k := by
  induction l with
  | nil =>
    intro v x n hv hx _
    have hst := attachmentPlace_start hx rest
    refine ⟨[none], ?_⟩
    have h1 : Reads (do call attachmentJunk; opt (call listSeparator)) n (v ++ x.text) rest none :=
      Reads.bind_last (reads_call_sp hv hst.1.noWs (reads_attachmentPlace hx h _)) (Reads.opt_none (hsep _))
    have := Reads.many_cons (u := []) (rest := rest) (by simp [hst.2.1]) h1 (Reads.many_nil (Fails.bind (hj _)))
    simpa [placesText] using this
  | cons y l ih =>
    intro v x n hv hx hl
    obtain ⟨sep, y⟩ := y
    have hy := hl _ (List.mem_cons_self ..)
    have hst := attachmentPlace_start hx (sep ++ (y.text ++ placesText l) ++ rest)
    have hsty := attachmentPlace_start hy.2 (placesText l ++ rest)
    have hlow : Head (isHunLower · = false) (sep ++ (y.text ++ placesText l) ++ rest) := by
      rw [List.append_assoc]
      rcases hy.1 with hs | hs
      · simp only at hs; rw [hs]; exact .cons (by decide)
      · exact (separator_head hs _).2.1
    have key : ∃ t v' k, sep = t ++ v' ∧ (v' = [] ∨ v' = [' ']) ∧
        Reads (opt (call listSeparator)) (n + byteLen (v ++ x.text)) t (v' ++ (y.text ++ placesText l) ++ rest) k := by
      rcases hy.1 with hs | hs
      · simp only at hs
        refine ⟨[], [' '], none, hs, .inr rfl, Reads.opt_none ?_⟩
        have hsk : skipWs ([' '] ++ (y.text ++ placesText l) ++ rest) = y.text ++ (placesText l ++ rest) := by
          rw [List.append_assoc, List.append_assoc]; exact skipWs_sp (.inr rfl) hsty.1.noWs
        refine fails_listSeparator_words fun w hw => ?_
        rw [hsk]
        rcases List.mem_append.1 hw with hw | hw
        · have hm : ∀ w ∈ sepMarks, w = str!"," ∨ w = str!";" := by decide
          rcases hm w hw with rfl | rfl
          · exact not_prefix_of_head (by decide) fun h => (hsty.2.2 _ h.symm).1 rfl
          · exact not_prefix_of_head (by decide) fun h => (hsty.2.2 _ h.symm).2 rfl
        · exact hsty.1.noWord w hw
      · obtain ⟨t, v', e, h1, h2⟩ := reads_separator (n := n + byteLen (v ++ x.text)) hs hsty.1
        refine ⟨t, v', some (), e, h2, Reads.opt_some ?_⟩
        rw [List.append_assoc, List.append_assoc]
        exact h1
    obtain ⟨t, v', k, e, hv', hr⟩ := key
    obtain ⟨ks, hks⟩ := ih v' y (n + byteLen (v ++ x.text ++ t)) hv' hy.2 fun z hz => hl z (List.mem_cons_of_mem _ hz)
    refine ⟨k :: ks, ?_⟩
    have h1 : Reads (do call attachmentJunk; opt (call listSeparator)) n ((v ++ x.text) ++ t) (v' ++ (y.text ++ placesText l) ++ rest) k := by
      refine Reads.bind (reads_call_sp hv ?_ (reads_attachmentPlace hx ?_ _)) hr
      · have := hst.1.noWs; rw [e] at this; simpa using this
      · rw [e] at hlow; simpa using hlow
    have := Reads.many_cons (by simp [hst.2.1]) h1 hks
    rw [placesText_cons, e]
    simpa using this

theorem prefix_word {x w rest : Str} (hx : ' ' ∉ x) (hr : rest = [] ∨ ∃ r, rest = ' ' :: r) (h : x <+: w ++ rest) : x <+: w := by
  rcases hr with rfl | ⟨r, rfl⟩
  · rwa [List.append_nil] at h
  · rcases prefix_either h with h' | ⟨z, hz⟩
    · exact h'
    · subst hz
      rw [List.prefix_append_right_inj] at h
      cases z with
      | nil => simp
      | cons c z =>
        obtain ⟨y, hy⟩ := h
        cases hy
        exact absurd (by simp) hx

/-- What is after the mention is not taken. -/
theorem ended_fails {a : Attachment} {rest : Str} (h : a.Ended rest) :
    (∀ n, Fails (call attachmentJunk) n rest) ∧ (a.places ≠ [] → ∀ n, Fails (call listSeparator) n rest) := by
  have parts_ne : ∀ w ∈ attachmentParts, w ≠ [] ∧ ∀ c ∈ w.head?, isJunkIdChar c = true := by decide +kernel
  have seps_ne : ∀ w ∈ sepMarks ++ sepWords, w ≠ [] := by decide
  have start : ∀ s : Str, skipWs s = [] → (∀ n, Fails (call attachmentJunk) n s) ∧ ∀ n, Fails (call listSeparator) n s := by
    intro s hs
    refine ⟨fun n => Fails.call fun n => ?_, fun n => fails_listSeparator (by rw [hs]; exact .nil)⟩
    rw [hs]
    refine Fails.alt (fails_junkIds .nil ?_ .nil ?_ n) (Fails.alt (Fails.bind (Fails.lit (by simp))) (Fails.bind (Fails.lit (by simp))))
    · intro w hw h; exact seps_ne w hw (by simpa [skipWs] using h)
    · intro w hw h; exact (parts_ne w hw).1 (by simpa [skipWs] using h)
  cases h with
  | nothing => exact ⟨(start [] rfl).1, fun _ => (start [] rfl).2⟩
  | other space c r none one what =>
    refine ⟨fun n => ?_, fun h => absurd none h⟩
    have hc : isWs c = false ∧ c ≠ '„' := by
      have h1 : ∀ c ∈ lowerLetters, isWs c = false ∧ c ≠ '„' := by decide +kernel
      have h2 : ∀ c ∈ upperLetters, isWs c = false ∧ c ≠ '„' := by decide +kernel
      have h3 : ∀ c ∈ str!",;!?", isWs c = false ∧ c ≠ '„' := by decide
      rcases what.1 with h | h | h
      · exact h1 c h
      · exact h2 c h
      · exact h3 c h
    have hj : isJunkIdChar c = false := by
      have := what.2; rw [idChar] at this; simpa using this
    refine Fails.call fun n => ?_
    rw [skipWs_sp (by simpa using one) (noWs_cons hc.1)]
    have head : ∀ w : Str, w ≠ [] → (∀ d ∈ w.head?, isJunkIdChar d = true) → ¬ w <+: c :: r := fun w hw h =>
      not_prefix_of_head hw fun e => by
        have := h c (by rw [e]; rfl)
        rw [hj] at this; cases this
    refine Fails.alt (Fails.bind (Fails.many1 (Fails.bind (Fails.alt (Fails.bind (fails_quote ?_)) (Fails.bind (Fails.many1 (Fails.char ?_)))))))
      (Fails.alt (Fails.bind (Fails.lit (head _ (by decide) (by decide)))) (Fails.bind (Fails.lit (head _ (by decide) (by decide)))))
    · rw [skipWs_cons hc.1]; exact .cons hc.2
    · intro d hd; cases hd; exact hj
  | word space w r one some chars alone inner title table next =>
    have hc : ∀ c ∈ w, isWs c = false ∧ c ≠ '„' ∧ c ≠ ',' ∧ c ≠ ';' ∧ c ≠ ' ' := by
      have h1 : ∀ c ∈ lowerLetters, isWs c = false ∧ c ≠ '„' ∧ c ≠ ',' ∧ c ≠ ';' ∧ c ≠ ' ' := by decide +kernel
      have h2 : ∀ c ∈ upperLetters, isWs c = false ∧ c ≠ '„' ∧ c ≠ ',' ∧ c ≠ ';' ∧ c ≠ ' ' := by decide +kernel
      have h3 : ∀ c ∈ str!".!?", isWs c = false ∧ c ≠ '„' ∧ c ≠ ',' ∧ c ≠ ';' ∧ c ≠ ' ' := by decide
      intro c hc
      rcases chars c hc with h | h | h
      · exact h1 c h
      · exact h2 c h
      · exact h3 c h
    have hr : r = [] ∨ ∃ x, r = ' ' :: x := next.imp_right fun ⟨x, hx, _⟩ => ⟨x, hx⟩
    have hws : NoWs (w ++ r) := noWs_append some (Head.of_all fun c h => (hc c h).1)
    have hsk : skipWs (space ++ w ++ r) = w ++ r := by
      rw [List.append_assoc]; exact skipWs_sp (by simpa using one) hws
    have pre : ∀ x : Str, ' ' ∉ x → ¬ x <+: w → ¬ x <+: w ++ r := fun x hx h h' => h (prefix_word hx hr h')
    have marks : ∀ {s : Str}, (∀ c ∈ s.head?, c ≠ ',' ∧ c ≠ ';') → ∀ x ∈ sepMarks, ¬ x <+: s := by
      intro s hs x hx
      have hm : ∀ w ∈ sepMarks, w = str!"," ∨ w = str!";" := by decide
      rcases hm x hx with rfl | rfl
      · exact not_prefix_of_head (by decide) fun h => (hs ',' (by rw [← h]; rfl)).1 rfl
      · exact not_prefix_of_head (by decide) fun h => (hs ';' (by rw [← h]; rfl)).2 rfl
    have whead : ∀ c, (w ++ r).head? = Option.some c → c ∈ w := by
      intro c hc
      cases w with
      | nil => exact absurd rfl some
      | cons d w => cases hc; simp
    have spaceless : ∀ x ∈ joiningWords, ' ' ∉ x := by decide
    constructor
    · refine fun n => Fails.call fun n => ?_
      rw [hsk]
      refine Fails.alt ?_ (Fails.alt (Fails.bind (Fails.lit fun h => ?_)) (Fails.bind (Fails.lit (pre _ (by decide) title))))
      swap
      · exact pre str!"foglalt" (by decide) table ((List.prefix_append str!"foglalt" str!" táblázat").trans h)
      · have hq : Head (· ≠ '„') (w ++ r) := fun c h => (hc c (whead c h)).2.1
        have hrd : r.dropWhile isJunkIdChar = r := by
          rcases hr with rfl | ⟨x, rfl⟩
          · rfl
          · rw [List.dropWhile_cons, if_neg (by decide)]
        rcases hd : w.dropWhile isJunkIdChar with _ | ⟨c, u⟩
        · have e : (w ++ r).dropWhile isJunkIdChar = r := by
            rw [List.dropWhile_append, hd]; exact hrd
          rcases next with rfl | ⟨x, rfl, hx, hno⟩
          · refine fails_junkIds (by rwa [skipWs_noWs hws]) ?_ ?_ ?_ n <;> rw [e]
            · intro w hw h; exact seps_ne w hw (by simpa [skipWs] using h)
            · exact .nil
            · intro w hw h; exact (parts_ne w hw).1 (by simpa [skipWs] using h)
          · have hxc : ∀ c, x.head? = Option.some c → isWs c = false ∧ c ≠ '„' ∧ c ≠ ',' ∧ c ≠ ';' := by
              have h1 : ∀ c ∈ lowerLetters, isWs c = false ∧ c ≠ '„' ∧ c ≠ ',' ∧ c ≠ ';' := by decide +kernel
              have h2 : ∀ c ∈ upperLetters, isWs c = false ∧ c ≠ '„' ∧ c ≠ ',' ∧ c ≠ ';' := by decide +kernel
              have h3 : ∀ c ∈ str!"0123456789(.", isWs c = false ∧ c ≠ '„' ∧ c ≠ ',' ∧ c ≠ ';' := by decide
              intro c hc
              rcases hx c hc with h | h | h
              · exact h1 c h
              · exact h2 c h
              · exact h3 c h
            have hskx : skipWs (' ' :: x) = x := skipWs_sp (sp := [' ']) (.inr rfl) fun c hc => (hxc c hc).1
            refine fails_junkIds (by rwa [skipWs_noWs hws]) ?_ ?_ ?_ n <;> rw [e, hskx]
            · intro y hy
              rcases List.mem_append.1 hy with hy | hy
              · exact marks (fun c h => (hxc c h).2.2) y hy
              · exact hno y (List.mem_append_left _ hy)
            · exact fun c hc => (hxc c hc).2.1
            · exact fun y hy => hno y (List.mem_append_right _ hy)
        · have e : (w ++ r).dropWhile isJunkIdChar = c :: u ++ r := by
            rw [List.dropWhile_append, hd]; rfl
          have hsuf : c :: u <:+ w := hd ▸ List.dropWhile_suffix _
          have hcw := hc c (hsuf.subset (List.mem_cons_self ..))
          have hcj : isJunkIdChar c = false := by
            have := List.head?_dropWhile_not isJunkIdChar w
            rw [hd] at this
            simpa using this
          have hskc : skipWs (c :: u ++ r) = c :: u ++ r := skipWs_cons hcw.1
          refine fails_junkIds (by rwa [skipWs_noWs hws]) ?_ ?_ ?_ n <;> rw [e, hskc]
          · intro y hy
            rcases List.mem_append.1 hy with hy | hy
            · exact marks (fun d h => by cases h; exact ⟨hcw.2.2.1, hcw.2.2.2.1⟩) y hy
            · intro h
              have h' := prefix_word (spaceless y hy) hr h
              have hw4 : ∀ y ∈ sepWords, y = str!"és" ∨ ∀ d ∈ y.head?, isJunkIdChar d = true := by decide
              rcases hw4 y hy with rfl | h4
              · exact inner (h'.isInfix.trans hsuf.isInfix)
              · obtain ⟨z, hz⟩ := h'
                cases y with
                | nil => exact absurd rfl (seps_ne _ (List.mem_append_right _ hy))
                | cons d y =>
                  cases hz
                  rw [h4 c rfl] at hcj; cases hcj
          · exact .cons hcw.2.1
          · intro y hy
            refine not_prefix_of_head (parts_ne y hy).1 fun h => ?_
            have := (parts_ne y hy).2 c (by rw [h]; rfl)
            rw [hcj] at this; cases this
    · intro _ n
      refine fails_listSeparator_words fun x hx => ?_
      rw [hsk]
      rcases List.mem_append.1 hx with hx | hx
      · exact marks (fun c h => ⟨(hc c (whead c h)).2.2.1, (hc c (whead c h)).2.2.2.1⟩) x hx
      · exact pre x (spaceless x hx) (alone x hx)

/-- A mention of attachments is read. -/
theorem reads_attachment_of {a : Attachment} (ha : a.Usual) {rest : Str} (h : Head (isHunLower · = false) rest)
    (hj : ∀ n, Fails (call attachmentJunk) n rest) (hsep : a.places ≠ [] → ∀ n, Fails (call listSeparator) n rest) (n : Nat) :
    Reads attachmentReference n a.text rest () := by
  have key : ∃ k, Reads (many (do call attachmentJunk; opt (call listSeparator))) (n + byteLen (a.numbers.words dottedSpan (' ' :: attachmentWord a)).text)
      (placesText a.places) rest k := by
    rcases hp : a.places with _ | ⟨⟨sep, x⟩, l⟩
    · exact ⟨[], Reads.many_nil (Fails.bind (hj _))⟩
    · have hs : sep = str!" " := ha.first (sep, x) (by rw [hp]; rfl)
      rw [placesText_cons]
      refine reads_places h hj (hsep (by rw [hp]; simp)) l sep x _ (.inr hs) (ha.places (sep, x) (by rw [hp]; simp)) fun y hy => ?_
      exact ⟨ha.others y (by rw [hp]; exact hy), ha.places y (by rw [hp]; simp [hy])⟩
  obtain ⟨k, hk⟩ := key
  have hlow : Head (isHunLower · = false) (placesText a.places ++ rest) := by
    rcases hp : a.places with _ | ⟨⟨sep, x⟩, l⟩
    · exact h
    · have hs : sep = str!" " := ha.first (sep, x) (by rw [hp]; rfl)
      rw [placesText_cons, hs]
      exact .cons (by decide)
  rw [attachment_text]
  have h1 := reads_numbers ha (n := n) hlow
  have := Reads.bind (f := fun _ => do let _ ← many (do call attachmentJunk; opt (call listSeparator))) h1 hk.map
  unfold Reads at this ⊢
  rw [← this]
  unfold attachmentReference
  rw [bind_run, bind_run, bind_run]
  rcases (listOf attachmentPart).run _ with _ | ⟨x, j⟩
  · rfl
  · rfl

theorem reads_attachment {a : Attachment} (ha : a.Usual) {rest : Str} (h : Head (isHunLower · = false) rest)
    (he : a.Ended rest) (n : Nat) : Reads attachmentReference n a.text rest () :=
  reads_attachment_of ha h (ended_fails he).1 (ended_fails he).2 n

end HunLaw.Grammar
