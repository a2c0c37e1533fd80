import Verif.Lemmas.Amending
import Verif.Spec.Provisions

/-! Sentences which amend provisions: the levels of references before and after "a következő". -/

set_option autoImplicit false

namespace HunLaw.Grammar

open HunLaw P Spec Semantic

variable {α β : Type} {G : St → Prop} {known : List Str}

/-! ### the beginning of a level -/

/-- The text begins with a level of a reference: with a digit, with "(" or with a letter and ")". -/
def LevelText (s : Str) : Prop :=
  (∃ c r, s = c :: r ∧ (isDigit c = true ∨ c = '(')) ∨
  ∃ x r, s = x ++ ')' :: r ∧ x ≠ [] ∧ x.length ≤ 2 ∧ ∀ c ∈ x, lowerAz c = true

theorem prefix_of_mark {w x r : Str} (hw : ')' ∉ w) (h : w <+: x ++ ')' :: r) : w <+: x := by
  induction x generalizing w with
  | nil =>
    cases w with
    | nil => exact List.nil_prefix
    | cons c w =>
      rw [List.nil_append, List.cons_prefix_cons] at h
      exact absurd (by simp [h.1]) hw
  | cons d x ih =>
    cases w with
    | nil => exact List.nil_prefix
    | cons c w =>
      rw [List.cons_append, List.cons_prefix_cons] at h
      obtain ⟨rfl, h⟩ := h
      exact List.cons_prefix_cons.2 ⟨rfl, ih (fun hc => hw (List.mem_cons_of_mem _ hc)) h⟩

/-- A word is not the beginning of a level. -/
theorem LevelText.not_prefix {s w : Str} (h : LevelText s) (hd : ∀ c, w.head? = some c → isDigit c = false ∧ c ≠ '(') (hne : w ≠ [])
    (hw : ')' ∉ w) (hl : 3 ≤ w.length ∨ ∃ c ∈ w, lowerAz c = false) : ¬ w <+: s := by
  rcases h with ⟨c, r, rfl, hc⟩ | ⟨x, r, rfl, h1, h2, h3⟩
  · cases w with
    | nil => exact absurd rfl hne
    | cons d w =>
      rw [List.cons_prefix_cons]
      rintro ⟨rfl, -⟩
      obtain ⟨g1, g2⟩ := hd d rfl
      rcases hc with hc | hc
      · rw [g1] at hc; cases hc
      · exact g2 hc
  · intro hp
    have := prefix_of_mark hw hp
    rcases hl with hl | ⟨c, hc, hl⟩
    · have := this.length_le; omega
    · rw [h3 c (this.subset hc)] at hl; cases hl

theorem LevelText.head {s : Str} (h : LevelText s) : ∃ c r, s = c :: r ∧ LevelHead c := by
  rcases h with ⟨c, r, e, hc | hc⟩ | ⟨x, r, e, h1, h2, h3⟩
  · exact ⟨c, r, e, .inl hc⟩
  · exact ⟨c, r, e, .inr (.inl hc)⟩
  · cases x with
    | nil => exact absurd rfl h1
    | cons c x => exact ⟨c, x ++ ')' :: r, e, .inr (.inr (h3 c (by simp)))⟩

theorem LevelText.noWs {s : Str} (h : LevelText s) : NoWs s := by
  obtain ⟨c, r, rfl, hc⟩ := h.head
  exact noWs_cons hc.noWs

theorem LevelText.next {s : Str} (h : LevelText s) : Next (' ' :: s) := by
  obtain ⟨c, r, rfl, hc⟩ := h.head
  exact next_level hc

theorem levelText_article (l : Listing ArticleId) (r : Str) : LevelText ((l.words articleSpan str!" §").text ++ r) := by
  obtain ⟨c, t, h, hc⟩ := article_words l str!" §" r
  exact .inl ⟨c, t, h, .inl hc⟩

theorem levelText_paragraph (l : Listing NumericId) (r : Str) : LevelText ((l.words paragraphSpan str!" bekezdés").text ++ r) := by
  obtain ⟨t, h⟩ := paragraph_words l str!" bekezdés" r
  exact .inl ⟨'(', t, h, .inr rfl⟩

theorem levelText_dotted (l : Listing NumericId) (word r : Str) : LevelText ((l.words dottedSpan word).text ++ r) := by
  obtain ⟨c, t, h, hc⟩ := dotted_words l word r
  exact .inl ⟨c, t, h, .inl hc⟩

theorem levelText_letter (l : Listing HunChar) (word r : Str) : LevelText ((l.words letterSpan word).text ++ r) := by
  rw [words_text]
  cases h : l.first with
  | one a =>
    exact .inr ⟨a.display, othersText letterSpan l.others ++ (word ++ l.ending) ++ r, by simp [letterSpan], letter_display.2.1, letter_display.2.2, letter_display.1⟩
  | upTo d a b =>
    exact .inr ⟨a.display, d :: b.display ++ str!")" ++ othersText letterSpan l.others ++ (word ++ l.ending) ++ r, by simp [letterSpan],
      letter_display.2.1, letter_display.2.2, letter_display.1⟩

theorem levelText_prefixed {l : Listing PrefixedId} (hl : l.Fits (Span.Fits PrefixedUsual)) (word r : Str) :
    LevelText ((l.words prefixedSpan word).text ++ r) := by
  rw [words_text]
  have h1 := hl.1
  cases h : l.first with
  | one a =>
    rw [h] at h1
    obtain ⟨g1, g2, g3⟩ := display_prefixed h1
    exact .inr ⟨a.display, othersText prefixedSpan l.others ++ (word ++ l.ending) ++ r, by simp [prefixedSpan], g2, g3, g1⟩
  | upTo d a b =>
    rw [h] at h1
    obtain ⟨g1, g2, g3⟩ := display_prefixed h1.2.1
    exact .inr ⟨a.display, d :: b.display ++ str!")" ++ othersText prefixedSpan l.others ++ (word ++ l.ending) ++ r, by simp [prefixedSpan],
      g2, g3, g1⟩

theorem levelText_point {w : Phrase} {x : Words} (hx : x ∈ pointWords w) (r : Str) : LevelText (x.text ++ r) := by
  simp only [pointWords, List.mem_append, List.mem_map] at hx
  rcases hx with ⟨l, -, rfl⟩ | ⟨l, -, rfl⟩
  · exact levelText_dotted l _ _
  · exact levelText_letter l _ _

theorem levelText_subpoint {w : Phrase} (hw : w.Usual) {x : Words} (hx : x ∈ subpointWords w) (r : Str) : LevelText (x.text ++ r) := by
  simp only [subpointWords, List.mem_append, List.mem_map] at hx
  rcases hx with ⟨l, hl, rfl⟩ | ⟨l, hl, rfl⟩
  · exact levelText_dotted l _ _
  · exact levelText_prefixed (hw.alphabeticSubpoint l (by simpa using hl)).1 _ _

/-! ### what is not a level -/

theorem LevelText.noAz {s : Str} (h : LevelText s) : ¬ str!"a " <+: s ∧ ¬ str!"az " <+: s :=
  ⟨h.not_prefix (by decide) (by decide) (by decide) (.inr (by decide)), h.not_prefix (by decide) (by decide) (by decide) (.inr (by decide))⟩

/-- A level is not "a következő". -/
theorem LevelText.noInsertion {s : Str} (h : LevelText s) {n : Nat} : Fails (call insertionToken) n s := by
  refine Fails.call_noWs h.noWs fun n => Fails.bind_of (t := []) (rest := s) (a := ()) ?_ ?_
  · refine Reads.call h.noWs ((Reads.many_nil (Fails.toks ?_)).map (g := fun _ => ()))
    rw [skipWs_noWs h.noWs]
    intro w hw
    have hw' := (by decide : ∀ w ∈ [str!"és", str!"valamint", str!"ezzel", str!"egyidejűleg"], (∀ c, w.head? = some c → isDigit c = false ∧ c ≠ '(') ∧ w ≠ [] ∧ ')' ∉ w ∧
      (3 ≤ w.length ∨ ∃ c ∈ w, lowerAz c = false)) w hw
    exact h.not_prefix hw'.1 hw'.2.1 hw'.2.2.1 hw'.2.2.2
  · refine Fails.call_noWs h.noWs fun n => Fails.bind_of (t := []) (rest := s) (a := none) (Reads.opt_none (Fails.lits ?_)) (Fails.alt (Fails.lit ?_) (Fails.bind (Fails.lit ?_)))
    · intro w hw
      simp only [List.mem_cons, List.not_mem_nil, or_false] at hw
      rcases hw with rfl | rfl
      · exact h.noAz.1
      · exact h.noAz.2
    · exact h.not_prefix (by decide) (by decide) (by decide) (.inl (by decide))
    · exact h.not_prefix (by decide) (by decide) (by decide) (.inl (by decide))

/-- "a következő (2) bekezdéssel" is not the end of a replacement. -/
theorem LevelText.noSuffix {f s : Str} (hf : Following f) (h : LevelText s) {n : Nat} : Fails (call amendmentSuffix) n (' ' :: f ++ (' ' :: s)) := by
  have hn := following_noWs hf (' ' :: s)
  have hfo : ∀ n, Reads (call theFollowing) n f (' ' :: s) () := fun n => Reads.call hn (reads_following hf (space_notLower _))
  refine Fails.call_space (s := f ++ (' ' :: s)) hn fun n => Fails.alt (Fails.bind (Fails.call_noWs hn fun n => Fails.lit ?_)) (Fails.alt ?_ ?_)
  · exact not_prefix_of_head (by decide) fun e => by have := following_head hf _ _ e.symm; cases this
  · exact Fails.bind_of (hfo _) (fails_tok_space h.noWs (h.not_prefix (by decide) (by decide) (by decide) (.inl (by decide))))
  · exact Fails.bind_of (hfo _) (fails_tok_space h.noWs (h.not_prefix (by decide) (by decide) (by decide) (.inl (by decide))))

/-! ### articles are not parts of the structure -/

theorem articleText_cases {l : Listing ArticleId} (hl : l.Fits ArticleUsual) (he : SignEnding l.ending) {rest : Str} (h : Next rest) :
    (∃ x R, SlashedUsual x ∧ (l.words articleSpan str!" §").text ++ rest = slashedSpan x ++ R ∧
      Head (fun c => isDashChar c = false ∧ c ≠ 'a') (skipWs R)) ∨
    ∃ k R, (l.words articleSpan str!" §").text ++ rest = dec k ++ ':' :: R := by
  rw [words_text, List.append_assoc, List.append_assoc]
  have hR : Head (fun c => isDashChar c = false ∧ c ≠ 'a') (skipWs (othersText articleSpan l.others ++ (str!" §" ++ l.ending ++ rest))) := by
    rcases joined_or articleSpan (fun x hx => (hl.2 x hx).1) (str!" §" ++ l.ending ++ rest) with hj | e
    · exact joined_head hj (by decide)
    · rw [e]
      exact Head.cons (f := fun c => isDashChar c = false ∧ c ≠ 'a') (by decide)
  have h1 := hl.1
  cases hf : l.first with
  | one a =>
    rw [hf] at h1
    cases hb : a.book with
    | none =>
      refine .inl ⟨.one a.identifier, _, h1, ?_, hR⟩
      simp [slashedSpan, articleSpan, display_article, hb, bookText]
    | some b =>
      refine .inr ⟨b.val, a.identifier.displaySlash ++ str!"." ++ (othersText articleSpan l.others ++ (str!" §" ++ l.ending ++ rest)), ?_⟩
      simp [articleSpan, display_article, hb, bookText]
  | upTo d a b =>
    rw [hf] at h1
    obtain ⟨g1, g2, g3, g4⟩ := h1
    cases hb : a.book with
    | none =>
      refine .inl ⟨.upTo d a.identifier b.identifier, _, ⟨g1, g3, g4⟩, ?_, hR⟩
      simp [slashedSpan, articleSpan, display_article, hb, ← g2, bookText]
    | some k =>
      refine .inr ⟨k.val, a.identifier.displaySlash ++ d :: b.display ++ str!"." ++ (othersText articleSpan l.others ++ (str!" §" ++ l.ending ++ rest)), ?_⟩
      simp [articleSpan, display_article, hb, bookText]

theorem fails_structural_article {l : Listing ArticleId} (hl : l.Fits ArticleUsual) (he : SignEnding l.ending) {rest : Str} (h : Next rest) {n : Nat} :
    Fails structuralReference n ((l.words articleSpan str!" §").text ++ rest) := by
  obtain ⟨c, t, e, hc⟩ := article_words l str!" §" rest
  generalize hs : (l.words articleSpan str!" §").text ++ rest = s at e
  have hd : Head (fun c => isHunUpper c = false ∧ isRomanChar c = false ∧ c ≠ '„' ∧ isWs c = false) s := by
    rw [e]
    refine Head.cons (f := fun c => isHunUpper c = false ∧ isRomanChar c = false ∧ c ≠ '„' ∧ isWs c = false) ?_
    exact ⟨(timeChar_digit hc).upper, (timeChar_digit hc).roman, by rintro rfl; revert hc; decide, digit_noWs hc⟩
  have hws : NoWs s := hd.mono fun c hc => hc.2.2.2
  have hcap : ∀ n, Fails (call hungarianOrdinalCapital) n s := fun n => Fails.call_noWs hws fun n => fails_capital (hd.mono fun c hc => hc.1)
  have hrom : ∀ n, Fails (call romanId) n s := fun n => Fails.call_noWs hws fun n =>
    Fails.slice (Fails.bind (Fails.call_noWs hws fun n => fails_roman (hd.mono fun c hc => hc.2.1)))
  refine Fails.bind_of (t := []) (rest := s) (a := none) (Reads.opt_none (Fails.call_noWs hws fun n => Fails.bind (hcap _))) (Fails.bind ?_)
  refine Fails.alt (Fails.bind (Fails.call_noWs hws fun n => Fails.bind (hrom _))) <|
    Fails.alt (Fails.bind (Fails.call_noWs hws fun n => Fails.bind (hcap _))) <|
    Fails.alt (Fails.bind (Fails.call_noWs hws fun n => Fails.bind (hrom _))) <|
    Fails.alt ?_ (Fails.bind (Fails.call_noWs hws fun n => Fails.bind (Fails.alt ?_ ?_)))
  · rcases articleText_cases hl he h with ⟨x, R, hx, e2, hR⟩ | ⟨k, R, e2⟩
    · rw [← hs, e2] at hws ⊢
      refine Fails.bind_of (Reads.call hws (reads_subtitlePart hx (hR.mono fun c hc => hc.1))) (Fails.bind (Fails.call fun n => ?_))
      exact Fails.bind (Fails.lit (not_prefix_of_head (by decide) fun e => (hR _ e.symm).2 rfl))
    · rw [← hs, e2] at hws ⊢
      have hid : ∀ n, Reads (call subtitleId) n (dec k) (':' :: R) (dec k) := fun n => by
        refine Reads.call hws (Reads.slice (a := ()) (Reads.bind_last (Reads.call hws (reads_number (Head.cons (f := (isDigit · = false)) (by decide)))) (Reads.map (a := none) (Reads.opt_none ?_))))
        refine Fails.bind_of (t := []) (a := none) (rest := ':' :: R) (Reads.opt_none (Fails.tok (by decide) ?_))
          (Fails.call_noWs (noWs_cons (by decide)) fun _ => Fails.char (Head.cons (f := (upperAz · = false)) (by decide)))
        rw [skipWs_cons (by decide)]
        simp
      refine Fails.bind (Fails.call_noWs hws fun n => Fails.alt (Fails.bind_of (hid _) ?_) (Fails.bind_of (hid _) (Fails.bind (Fails.tok (by decide) ?_))))
      · refine Fails.bind_of (t := []) (rest := ':' :: R) (a := none) (Reads.opt_none (Fails.tok (by decide) ?_)) (Fails.bind (fails_call_dash ?_))
        · rw [skipWs_cons (by decide)]; simp
        · rw [skipWs_cons (by decide)]; exact .cons (by decide)
      · rw [skipWs_cons (by decide)]; simp
  · refine Fails.call_noWs hws fun n => fails_quote ?_
    rw [skipWs_noWs hws]; exact hd.mono fun c hc => hc.2.2.1
  · exact Fails.call_noWs hws fun n => Fails.slice (Fails.bind (Fails.call_noWs hws fun n => Fails.bind (Fails.char (hd.mono fun c hc => hc.1))))

/-! ### the levels of an insertion -/

theorem reads_articles {l : Listing ArticleId} (hl : l.Fits ArticleUsual) (he : SignEnding l.ending) {rest sp : Str} (h : Next rest)
    (hsp : sp = [] ∨ sp = [' ']) {n : Nat} :
    Reads (call articleReference) n (sp ++ (l.words articleSpan str!" §").text) rest (itemsAt articleSpan articleAt (n + byteLen sp) l) :=
  reads_call_sp hsp (levelText_article l rest).noWs (reads_articleReference hl he h)

theorem reads_paragraphs {l : Listing NumericId} (hl : l.Fits (Span.Fits fun _ => True)) (he : Ending l.ending) {rest : Str} (h : Next rest) {n : Nat} :
    Reads (call paragraphReference) n (' ' :: (l.words paragraphSpan str!" bekezdés").text) rest
      (itemsAt paragraphSpan (partAt NumericId.display paragraphSpan) (n + byteLen [' ']) l) :=
  reads_call_sp (.inr rfl) (levelText_paragraph l rest).noWs (reads_paragraphReference hl he h)

/-- The points at a position. -/
def onlyPoints (w : Phrase) (n : Nat) : Tail :=
  { alphabeticPoint := w.alphabeticPoint.map (itemsAt letterSpan (partAt HunChar.display letterSpan) n)
    numericPoint := w.numericPoint.map (itemsAt dottedSpan (partAt NumericId.display dottedSpan) n) }

theorem reads_points {w : Phrase} (hw : w.Usual) {n : Nat} {rest : Str} (h : Next rest) {x : Words} (hx : pointWords w = [x]) :
    Reads pointTail n (' ' :: x.text) rest (onlyPoints w (n + byteLen [' '])) := by
  have hsp : ([' '] : Str) = [] ∨ ([' '] : Str) = [' '] := .inr rfl
  rcases point_cases hw with ⟨h1, h2⟩ | ⟨l, h1, h2⟩ | ⟨l, h1, h2⟩
  · simp [pointWords, h1, h2] at hx
  · simp only [pointWords, h1, h2, Option.toList_some, Option.toList_none, List.map_cons, List.map_nil,
      List.append_nil, List.cons.injEq, and_true] at hx
    subst hx
    obtain ⟨c, t, e, hc⟩ := dotted_words l str!" pont" rest
    have hws : NoWs ((l.words dottedSpan str!" pont").text ++ rest) := by rw [e]; exact noWs_cons (digit_noWs hc)
    have := reads_numericPoint_of (n := n) (rest := rest) ?_ (reads_call_sp hsp hws
      (reads_numericPointReference (n := n + byteLen [' ']) (hw.numericPoint l h1).1 (hw.numericPoint l h1).2 h))
    · simpa only [onlyPoints, h1, h2, Option.map_some, Option.map_none, List.cons_append, List.nil_append] using this
    · rw [List.append_assoc]
      refine fails_alphabeticPointReference (noMark_head ?_)
      rw [skipWs_sp hsp hws, e]; exact .cons (digit_not hc).1
  · simp only [pointWords, h1, h2, Option.toList_some, Option.toList_none, List.map_cons, List.map_nil,
      List.nil_append, List.cons.injEq, and_true] at hx
    subst hx
    obtain ⟨c, t, e, hc⟩ := letter_words l str!" pont" rest
    have hws : NoWs ((l.words letterSpan str!" pont").text ++ rest) := by rw [e]; exact noWs_cons (lowerAz_noWs hc)
    have := reads_alphabeticPoint_of (reads_call_sp hsp hws (reads_alphabeticPointReference (n := n + byteLen [' '])
      (hw.alphabeticPoint l h2).1 (hw.alphabeticPoint l h2).2 h))
    simpa only [onlyPoints, h1, h2, Option.map_some, Option.map_none, List.cons_append, List.nil_append] using this

theorem reads_azArticle {l : Listing ArticleId} (hl : l.Fits ArticleUsual) (he : SignEnding l.ending) {rest : Str} (h : Next rest) {n : Nat} :
    Reads azArticle n (l.words articleSpan str!" §").text rest (itemsAt articleSpan articleAt n l) := by
  have hs := levelText_article l rest
  have h1 : Reads optAz n [] ((l.words articleSpan str!" §").text ++ rest) () :=
    (Reads.opt_none (Fails.call_noWs hs.noWs fun n => fails_az hs.noAz.1 hs.noAz.2)).map (g := fun _ => ())
  exact Reads.bind_first h1 (reads_articles hl he h (sp := []) (.inl rfl))

theorem reads_theFollowing {f : Str} (hf : Following f) {s : Str} {n : Nat} : Reads (call insertionToken) n (' ' :: f) (' ' :: s) () :=
  Reads.before (following_noWs hf _) (reads_insertionToken hf (space_notLower _))

/-- The levels which are read. -/
structure InsertionAt (w : Phrase) (x : InsertionReference) : Prop where
  article : ∃ n, x.article = w.article.toList.map (itemsAt articleSpan articleAt n)
  paragraph : ∃ n, x.paragraph = w.paragraph.map (itemsAt paragraphSpan (partAt NumericId.display paragraphSpan) n)
  numericPoint : ∃ n, x.numericPoint = w.numericPoint.map (itemsAt dottedSpan (partAt NumericId.display dottedSpan) n)
  alphabeticPoint : ∃ n, x.alphabeticPoint = w.alphabeticPoint.map (itemsAt letterSpan (partAt HunChar.display letterSpan) n)
  numericSubpoint : ∃ n, x.numericSubpoint = w.numericSubpoint.map (itemsAt dottedSpan (partAt NumericId.display dottedSpan) n)
  alphabeticSubpoint : ∃ n, x.alphabeticSubpoint = w.alphabeticSubpoint.map (itemsAt prefixedSpan (partAt PrefixedId.display prefixedSpan) n)

attribute [local irreducible] insertion1 insertion2 insertion3 insertion4 insertion5 in
theorem reads_insertion_of {n : Nat} {t rest : Str} {r : List (List ArticlePart) × Tail}
    (h : Reads (insertion1 <|> insertion2 <|> insertion3 <|> insertion4 <|> insertion5) n t rest r) :
    Reads insertionReference n t rest (r.2.insertion r.1 ⟨n, n + byteLen t⟩) :=
  Reads.positioned (h.map (g := fun r p => r.2.insertion r.1 p))

/-- Articles, or paragraphs with their article, inserted into the act. -/
theorem reads_insertion_article {a : Listing ArticleId} {p : Option (Listing NumericId)} (hw : Phrase.Usual ⟨some a, p, none, none, none, none⟩)
    {f : Str} (hf : Following f) {rest : Str} (h : After rest) (hs : ∀ n, Fails (call listSeparator >>= fun _ => call articleReference) n rest) (n : Nat) :
    ∃ x, Reads insertionReference n (f ++ ' ' :: (Phrase.mk (some a) p none none none none).text) rest x ∧
      InsertionAt ⟨some a, p, none, none, none, none⟩ x := by
  obtain ⟨g1, g2⟩ := hw.article a rfl
  cases p with
  | some p =>
    obtain ⟨q1, q2⟩ := hw.paragraph p rfl
    have e : (Phrase.mk (some a) (some p) none none none none).text = (a.words articleSpan str!" §").text ++ ' ' :: (p.words paragraphSpan str!" bekezdés").text := by
      rw [text_glue (w := Phrase.mk (some a) (some p) none none none none) (x := a.words articleSpan str!" §") (l := [p.words paragraphSpan str!" bekezdés"]) rfl, glue_one]
    rw [e]
    refine ⟨_, reads_insertion_of (Reads.left (Reads.bind (t := f) (a := ()) (reads_insertionToken hf (space_notLower _))
      (Reads.bind (t := ' ' :: (a.words articleSpan str!" §").text) (reads_articles g1 g2 (sp := [' ']) ?_ (.inr rfl))
        ((reads_paragraphs q1 q2 h.next).map (g := fun p => (_, _)))))), ?_⟩
    · exact (levelText_paragraph p rest).next
    · exact ⟨⟨_, rfl⟩, ⟨_, rfl⟩, ⟨0, rfl⟩, ⟨0, rfl⟩, ⟨0, rfl⟩, ⟨0, rfl⟩⟩
  | none =>
    have e : (Phrase.mk (some a) none none none none none).text = (a.words articleSpan str!" §").text := by
      rw [text_glue (w := Phrase.mk (some a) none none none none none) (x := a.words articleSpan str!" §") (l := []) rfl, glue_nil, List.append_nil]
    rw [e]
    refine ⟨_, reads_insertion_of (Reads.right ?_ (Reads.left (Reads.bind (t := f) (a := ()) (reads_insertionToken hf (space_notLower _))
      (Reads.bind_last (a := _) (reads_articles g1 g2 (sp := [' ']) h.next (.inr rfl))
        ((Reads.opt_none (hs _)).map (g := fun b => (_ :: b.toList, _))))))), ?_⟩
    · rw [List.append_assoc]
      refine Fails.bind_of (a := ()) (reads_insertionToken hf (space_notLower _)) (Fails.bind_of (t := ' ' :: (a.words articleSpan str!" §").text) (rest := rest) (reads_articles g1 g2 (sp := [' ']) h.next (.inr rfl))
        (Fails.bind (fails_paragraphReference h.none.paragraph)))
    · exact ⟨⟨_, rfl⟩, ⟨0, rfl⟩, ⟨0, rfl⟩, ⟨0, rfl⟩, ⟨0, rfl⟩, ⟨0, rfl⟩⟩

/-- The paragraphs after an article, if there are any. -/
theorem reads_optParagraphs {w : Phrase} (hw : w.Usual) {rest : Str} (h : Next rest) (h2 : Head (· ≠ '(') (skipWs rest)) {n : Nat} :
    Reads (opt (call paragraphReference)) n (glue (paragraphWords w)) rest
      (w.paragraph.map (itemsAt paragraphSpan (partAt NumericId.display paragraphSpan) (n + byteLen [' ']))) := by
  rcases paragraphWords_cases w with ⟨e, h1⟩ | ⟨l, h1, e⟩
  · rw [e, h1, glue_nil]
    exact Reads.opt_none (fails_paragraphReference h2.noBracket)
  · rw [e, h1, glue_one]
    exact Reads.opt_some (reads_paragraphs (hw.paragraph l h1).1 (hw.paragraph l h1).2 h)

theorem paragraph_next {w : Phrase} {rest : Str} (h : Next rest) : Next (glue (paragraphWords w) ++ rest) := by
  rcases paragraphWords_cases w with ⟨e, h1⟩ | ⟨l, h1, e⟩
  · rw [e, glue_nil]; exact h
  · rw [e, glue_one]; exact (levelText_paragraph l rest).next

theorem following_next {f : Str} (hf : Following f) (s : Str) : Next (' ' :: f ++ s) := by
  refine ⟨space_notLower _, ?_⟩
  show Head _ (skipWs (f ++ s))
  rw [skipWs_noWs (following_noWs hf s)]
  exact (following_head hf s).mono fun c hc => by subst hc; decide

theorem following_noParagraph {f : Str} (hf : Following f) (s : Str) : Head (· ≠ '(') (skipWs (' ' :: f ++ s)) := by
  show Head _ (skipWs (f ++ s))
  rw [skipWs_noWs (following_noWs hf s)]
  exact (following_head hf s).mono fun c hc => by subst hc; decide

theorem text_articleParagraph (a : Listing ArticleId) (p : Option (Listing NumericId)) (n : Option (Listing NumericId)) (c : Option (Listing HunChar))
    (m : Option (Listing NumericId)) (d : Option (Listing PrefixedId)) :
    (Phrase.mk (some a) p n c m d).text = (a.words articleSpan str!" §").text ++
      (glue (paragraphWords ⟨some a, p, n, c, m, d⟩) ++ glue (pointWords ⟨some a, p, n, c, m, d⟩ ++ subpointWords ⟨some a, p, n, c, m, d⟩)) := by
  rw [← glue_append]
  exact text_glue (words_eq _)

attribute [local irreducible] insertion1 insertion2 in
theorem fails_insertion12 {s : Str} (h : ∀ n, Fails insertion1 n s) (h2 : ∀ n, Fails insertion2 n s) {n : Nat} {t rest : Str}
    {r : List (List ArticlePart) × Tail} (e : s = t ++ rest) (hr : Reads (insertion3 <|> insertion4 <|> insertion5) n t rest r) :
    Reads (insertion1 <|> insertion2 <|> insertion3 <|> insertion4 <|> insertion5) n t rest r :=
  Reads.right (e ▸ h n) (Reads.right (e ▸ h2 n) hr)

theorem LevelText.noInsertion12 {s : Str} (h : LevelText s) : (∀ n, Fails insertion1 n s) ∧ ∀ n, Fails insertion2 n s :=
  ⟨fun _ => Fails.bind h.noInsertion, fun _ => Fails.bind h.noInsertion⟩

/-- Paragraphs inserted into an article. -/
theorem reads_insertion_paragraph {a : Listing ArticleId} {p : Listing NumericId} (ho : Phrase.Usual ⟨some a, none, none, none, none, none⟩)
    (hw : Phrase.Usual ⟨none, some p, none, none, none, none⟩) {f : Str} (hf : Following f) {rest : Str} (h : After rest) (n : Nat) :
    ∃ x, Reads insertionReference n ((Phrase.mk (some a) none none none none none).text ++ (' ' :: f ++ ' ' :: (Phrase.mk none (some p) none none none none).text)) rest x ∧
      InsertionAt ⟨some a, some p, none, none, none, none⟩ x := by
  obtain ⟨g1, g2⟩ := ho.article a rfl
  obtain ⟨q1, q2⟩ := hw.paragraph p rfl
  have e1 : (Phrase.mk (some a) none none none none none).text = (a.words articleSpan str!" §").text := by
    rw [text_glue (w := Phrase.mk (some a) none none none none none) (x := a.words articleSpan str!" §") (l := []) rfl, glue_nil, List.append_nil]
  have e2 : (Phrase.mk none (some p) none none none none).text = (p.words paragraphSpan str!" bekezdés").text := by
    rw [text_glue (w := Phrase.mk none (some p) none none none none) (x := p.words paragraphSpan str!" bekezdés") (l := []) rfl, glue_nil, List.append_nil]
  rw [e1, e2]
  have hl := levelText_article a ((' ' :: f ++ ' ' :: (p.words paragraphSpan str!" bekezdés").text) ++ rest)
  refine ⟨_, reads_insertion_of (fails_insertion12 hl.noInsertion12.1 hl.noInsertion12.2 (by simp) (Reads.left
    (Reads.bind (Reads.opt_some (Reads.left ((reads_azArticle g1 g2 ?_).map (g := fun a => [a]))))
      (Reads.bind (t := ' ' :: f) (a := ()) (reads_theFollowing hf)
        ((reads_paragraphs q1 q2 h.next).map (g := fun p => (_, _))))))), ?_⟩
  · rw [List.append_assoc]; exact following_next hf _
  · exact ⟨⟨_, rfl⟩, ⟨_, rfl⟩, ⟨0, rfl⟩, ⟨0, rfl⟩, ⟨0, rfl⟩, ⟨0, rfl⟩⟩

/-- The article and perhaps the paragraph of an insertion are read by the fourth alternative. -/
theorem reads_outer {a : Listing ArticleId} {p : Option (Listing NumericId)} {n : Option (Listing NumericId)} {c : Option (Listing HunChar)}
    {m : Option (Listing NumericId)} {d : Option (Listing PrefixedId)} (ho : Phrase.Usual ⟨some a, p, n, c, m, d⟩) {R : Str} (h : Next R)
    (h2 : Head (· ≠ '(') (skipWs R)) (k : Nat) :
    Reads (opt ((azArticle >>= fun a => opt (call paragraphReference) >>= fun p => pure ([a], p))
      <|> (tok str!"a §" >>= fun _ => pure ([], none)) <|> (tok str!"a bekezdés" >>= fun _ => pure ([], none)))) k
      ((a.words articleSpan str!" §").text ++ glue (paragraphWords ⟨some a, p, n, c, m, d⟩)) R
      (some ([itemsAt articleSpan articleAt k a], p.map (itemsAt paragraphSpan (partAt NumericId.display paragraphSpan)
        (k + byteLen (a.words articleSpan str!" §").text + byteLen [' '])))) := by
  obtain ⟨g1, g2⟩ := ho.article a rfl
  refine Reads.opt_some (Reads.left (Reads.bind (reads_azArticle g1 g2 (paragraph_next h)) ?_))
  exact (reads_optParagraphs ho h h2).map (g := fun p => ([itemsAt articleSpan articleAt k a], p))

/-- The third alternative does not read what is not a paragraph. -/
theorem fails_insertion3 {a : Listing ArticleId} (g1 : a.Fits ArticleUsual) (g2 : SignEnding a.ending) {R : Str} (h : Next R)
    (hR : (∀ n, Fails (call insertionToken) n R) ∨ ∃ t u, R = t ++ u ∧ (∀ n, Reads (call insertionToken) n t u ()) ∧ ∀ n, Fails (call paragraphReference) n u)
    {k : Nat} : Fails insertion3 k ((a.words articleSpan str!" §").text ++ R) := by
  refine Fails.bind_of (Reads.opt_some (Reads.left ((reads_azArticle g1 g2 h).map (g := fun a => [a])))) ?_
  rcases hR with hR | ⟨t, u, rfl, h1, h2⟩
  · exact Fails.bind (hR _)
  · exact Fails.bind_of (h1 _) (Fails.bind (h2 _))

theorem one_point {w : Phrase} (hw : w.Usual) (h : w.numericPoint ≠ none ∨ w.alphabeticPoint ≠ none) : ∃ x, pointWords w = [x] ∧ x ∈ pointWords w := by
  rcases pointWords_cases hw with ⟨-, h1, h2⟩ | ⟨x, e, -⟩
  · rcases h with h | h
    · exact absurd h1 h
    · exact absurd h2 h
  · exact ⟨x, e, by rw [e]; simp⟩

/-- Points inserted into an article or a paragraph. -/
theorem reads_insertion_point {a : Listing ArticleId} {p : Option (Listing NumericId)} {i : Option (Listing NumericId)} {c : Option (Listing HunChar)}
    (ho : Phrase.Usual ⟨some a, p, none, none, none, none⟩)
    (hw : Phrase.Usual ⟨none, none, i, c, none, none⟩) {f : Str} (hf : Following f) {rest : Str} (h : After rest) (n : Nat) :
    ∃ x, Reads insertionReference n ((Phrase.mk (some a) p none none none none).text ++ (' ' :: f ++ ' ' :: (Phrase.mk none none i c none none).text)) rest x ∧
      InsertionAt ⟨some a, p, i, c, none, none⟩ x := by
  obtain ⟨g1, g2⟩ := ho.article a rfl
  obtain ⟨x, ex, hx⟩ : ∃ x, pointWords ⟨none, none, i, c, none, none⟩ = [x] ∧ x ∈ pointWords ⟨none, none, i, c, none, none⟩ := by
    refine one_point hw ?_
    have := hw.named
    cases i <;> cases c <;> simp_all [Phrase.words]
  have e1 := text_articleParagraph a p none none none none
  have e3 : glue (pointWords ⟨some a, p, none, none, none, none⟩ ++ subpointWords ⟨some a, p, none, none, none, none⟩) = [] := rfl
  rw [e3, List.append_nil] at e1
  have e2 : (Phrase.mk none none i c none none).text = x.text := by
    rw [text_glue (w := Phrase.mk none none i c none none) (x := x) (l := []) (by rw [words_eq, ex]; rfl), glue_nil, List.append_nil]
  rw [e1, e2]
  have hxl := levelText_point hx rest
  have hl := levelText_article a (glue (paragraphWords ⟨some a, p, none, none, none, none⟩) ++ ((' ' :: f ++ ' ' :: x.text) ++ rest))
  have hfn : Next ((' ' :: f ++ ' ' :: x.text) ++ rest) := by rw [List.append_assoc]; exact following_next hf _
  have hfp : Head (· ≠ '(') (skipWs ((' ' :: f ++ ' ' :: x.text) ++ rest)) := by rw [List.append_assoc]; exact following_noParagraph hf _
  refine ⟨_, reads_insertion_of (fails_insertion12 hl.noInsertion12.1 hl.noInsertion12.2 (by simp) (Reads.right ?_ (Reads.left
    (Reads.bind (reads_outer ho hfn hfp _)
      (Reads.bind (t := ' ' :: f) (a := ()) (reads_theFollowing hf)
        (Reads.map (reads_points hw h.next ex))))))), ?_⟩
  · rw [List.append_assoc, List.append_assoc]
    refine fails_insertion3 g1 g2 (paragraph_next hfn) ?_
    rcases paragraphWords_cases ⟨some a, p, none, none, none, none⟩ with ⟨e, h1⟩ | ⟨l, h1, e⟩
    · rw [e, glue_nil, List.nil_append]
      refine .inr ⟨' ' :: f, ' ' :: (x.text ++ rest), by simp, fun n => reads_theFollowing hf, fun n => fails_paragraphReference ?_⟩
      show NoBracket (skipWs (x.text ++ rest))
      rw [skipWs_noWs hxl.noWs]
      rcases pointWords_cases hw with ⟨e', -⟩ | ⟨y, e', hy⟩
      · rw [e'] at ex; cases ex
      · rw [e', List.cons.injEq] at ex
        obtain ⟨c, t, e4, -, e5⟩ := hy rest
        rw [← ex.1, e4]
        exact .cons e5
    · rw [e, glue_one]
      exact .inl fun n => Fails.before (s := (l.words paragraphSpan str!" bekezdés").text ++ ((' ' :: f ++ ' ' :: x.text) ++ rest)) (levelText_paragraph l _).noWs fun n => (levelText_paragraph l _).noInsertion
  · exact ⟨⟨_, rfl⟩, ⟨_, rfl⟩, ⟨_, rfl⟩, ⟨_, rfl⟩, ⟨0, rfl⟩, ⟨0, rfl⟩⟩

/-- Subpoints inserted into a point. -/
theorem reads_insertion_subpoint {a : Listing ArticleId} {p : Option (Listing NumericId)} {i : Option (Listing NumericId)} {c : Option (Listing HunChar)}
    {j : Option (Listing NumericId)} {d : Option (Listing PrefixedId)}
    (ho : Phrase.Usual ⟨some a, p, i, c, none, none⟩) (hpt : i ≠ none ∨ c ≠ none)
    (hw : Phrase.Usual ⟨none, none, none, none, j, d⟩) {f : Str} (hf : Following f) {rest : Str} (h : After rest) (n : Nat) :
    ∃ x, Reads insertionReference n ((Phrase.mk (some a) p i c none none).text ++ (' ' :: f ++ ' ' :: (Phrase.mk none none none none j d).text)) rest x ∧
      InsertionAt ⟨some a, p, i, c, j, d⟩ x := by
  obtain ⟨g1, g2⟩ := ho.article a rfl
  obtain ⟨x, ex, hx⟩ := one_point ho hpt
  obtain ⟨y, ey, hy⟩ : ∃ x, subpointWords ⟨none, none, none, none, j, d⟩ = [x] ∧ x ∈ subpointWords ⟨none, none, none, none, j, d⟩ := by
    rcases subpointWords_cases hw with ⟨e, -⟩ | ⟨y, e, -⟩
    · have := hw.named
      rw [words_eq, e] at this
      exact absurd rfl this
    · exact ⟨y, e, by rw [e]; simp⟩
  have e1 := text_articleParagraph a p i c none none
  have e3 : subpointWords ⟨some a, p, i, c, none, none⟩ = [] := rfl
  rw [e3, List.append_nil, ex, glue_one] at e1
  have e2 : (Phrase.mk none none none none j d).text = y.text := by
    rw [text_glue (w := Phrase.mk none none none none j d) (x := y) (l := []) (by rw [words_eq, ey]; rfl), glue_nil, List.append_nil]
  rw [e1, e2]
  have hyl := levelText_subpoint hw hy rest
  have hxl := fun r => levelText_point hx r
  have hl := levelText_article a (glue (paragraphWords ⟨some a, p, i, c, none, none⟩) ++ ((' ' :: x.text) ++ ((' ' :: f ++ ' ' :: y.text) ++ rest)))
  have hxn : Next ((' ' :: x.text) ++ ((' ' :: f ++ ' ' :: y.text) ++ rest)) := (hxl _).next
  have hxp : Head (· ≠ '(') (skipWs ((' ' :: x.text) ++ ((' ' :: f ++ ' ' :: y.text) ++ rest))) := by
    show Head _ (skipWs (x.text ++ _))
    rw [skipWs_noWs (hxl _).noWs]
    rcases pointWords_cases ho with ⟨e', -⟩ | ⟨y', e', hy⟩
    · rw [e'] at ex; cases ex
    · rw [e', List.cons.injEq] at ex
      obtain ⟨c, t, e4, -, e5⟩ := hy ((' ' :: f ++ ' ' :: y.text) ++ rest)
      rw [← ex.1, e4]
      exact .cons e5
  have hfn : Next ((' ' :: f ++ ' ' :: y.text) ++ rest) := by rw [List.append_assoc]; exact following_next hf _
  have hnx : ∀ n, Fails (call insertionToken) n ((' ' :: x.text) ++ ((' ' :: f ++ ' ' :: y.text) ++ rest)) := fun n =>
    Fails.before (s := x.text ++ ((' ' :: f ++ ' ' :: y.text) ++ rest)) (hxl _).noWs fun n => (hxl _).noInsertion
  have key : ∀ k, ∃ r, Reads insertion5 k ((a.words articleSpan str!" §").text ++ (glue (paragraphWords ⟨some a, p, i, c, none, none⟩) ++
      ((' ' :: x.text) ++ (' ' :: f ++ ' ' :: y.text)))) rest r ∧ ∀ q, InsertionAt ⟨some a, p, i, c, j, d⟩ (r.2.insertion r.1 q) := fun k => by
    refine ⟨_, Reads.bind (reads_azArticle g1 g2 ?_) (Reads.bind (reads_optParagraphs ho ?_ ?_) (Reads.bind (reads_points ho ?_ ex)
      (Reads.bind (t := ' ' :: f) (a := ()) (reads_theFollowing hf) (Reads.map (reads_withSubpoint (sp := [' ']) hw (.inr rfl) h.next ey))))), ?_⟩
    · simp only [List.append_assoc, List.cons_append] at hxn ⊢
      exact paragraph_next hxn
    · simp only [List.append_assoc, List.cons_append] at hxn ⊢
      exact hxn
    · simp only [List.append_assoc, List.cons_append] at hxp ⊢
      exact hxp
    · simp only [List.append_assoc, List.cons_append] at hfn ⊢
      exact hfn
    · exact fun q => ⟨⟨_, rfl⟩, ⟨_, rfl⟩, ⟨_, rfl⟩, ⟨_, rfl⟩, ⟨_, rfl⟩, ⟨_, rfl⟩⟩
  obtain ⟨r, hr, hr2⟩ := key n
  have ecast : (a.words articleSpan str!" §").text ++ (glue (paragraphWords ⟨some a, p, i, c, none, none⟩) ++ ((' ' :: x.text) ++ (' ' :: f ++ ' ' :: y.text))) =
    (a.words articleSpan str!" §").text ++ (glue (paragraphWords ⟨some a, p, i, c, none, none⟩) ++ ' ' :: x.text) ++ (' ' :: f ++ ' ' :: y.text) := by simp
  have ecast2 : (a.words articleSpan str!" §").text ++ (glue (paragraphWords ⟨some a, p, i, c, none, none⟩) ++ ((' ' :: x.text) ++ (' ' :: f ++ ' ' :: y.text))) ++ rest =
    (a.words articleSpan str!" §").text ++ (glue (paragraphWords ⟨some a, p, i, c, none, none⟩) ++ ((' ' :: x.text) ++ ((' ' :: f ++ ' ' :: y.text) ++ rest))) := by simp
  refine ⟨_, Reads.cast (reads_insertion_of (fails_insertion12 hl.noInsertion12.1 hl.noInsertion12.2 ecast2.symm (Reads.right ?_ (Reads.right ?_ hr)))) ecast, hr2 _⟩
  · rw [ecast2]
    refine fails_insertion3 g1 g2 (paragraph_next hxn) (.inl ?_)
    rcases paragraphWords_cases ⟨some a, p, i, c, none, none⟩ with ⟨e, h1⟩ | ⟨l, h1, e⟩
    · rw [e, glue_nil, List.nil_append]
      exact hnx
    · rw [e, glue_one]
      exact fun n => Fails.before (s := (l.words paragraphSpan str!" bekezdés").text ++ _) (levelText_paragraph l _).noWs fun n => (levelText_paragraph l _).noInsertion
  · rw [ecast2, ← List.append_assoc]
    exact Fails.bind_of (reads_outer ho hxn hxp _) (Fails.bind (hnx _))

/-! ### the levels which are meant -/

theorem InsertionAt.levels {w : Phrase} (hw : w.Usual) {x : InsertionReference} (h : InsertionAt w x) : insertionLevels x = some w.levels := by
  obtain ⟨⟨n1, e1⟩, ⟨n2, e2⟩, ⟨n3, e3⟩, ⟨n4, e4⟩, ⟨n5, e5⟩, n6, e6⟩ := h
  have h1 := fun m => readParts_opt (read := readArticle) (span := articleSpan) (value := articleAt) (f := .article) w.article
    (fun l hl s hs n => by
      rw [readArticle, convertArticle_at (fits_span (hw.article l hl).1 s hs)]; rfl) m
  have h2 := fun m => readParts_opt (read := readParagraph) (span := paragraphSpan)
    (value := partAt NumericId.display paragraphSpan) (f := .paragraph) w.paragraph
    (fun l hl s hs n => by
      rw [readParagraph, partAt, partRange_idPart (p := fun _ => True) (fun a _ => NumericId.parse_display a)
        (fits_span (hw.paragraph l hl).1 s hs)]; rfl) m
  have h3 := fun m => readParts_opt (read := readNumericPoint) (span := dottedSpan)
    (value := partAt NumericId.display dottedSpan) (f := fun r => .point (.numeric r)) w.numericPoint
    (fun l hl s hs n => by
      rw [readNumericPoint, partAt, partRange_idPart (p := fun _ => True) (fun a _ => NumericId.parse_display a)
        (fits_span (hw.numericPoint l hl).1 s hs)]; rfl) m
  have h4 := fun m => readParts_opt (read := readAlphabeticPoint) (span := letterSpan)
    (value := partAt HunChar.display letterSpan) (f := fun r => .point (.alphabetic r)) w.alphabeticPoint
    (fun l hl s hs n => by
      rw [readAlphabeticPoint, partAt, partRange_idPart (p := fun _ => True) (fun a _ => HunChar.parse_display a)
        (fits_span (hw.alphabeticPoint l hl).1 s hs)]; rfl) m
  have h5 := fun m => readParts_opt (read := readNumericSubpoint) (span := dottedSpan)
    (value := partAt NumericId.display dottedSpan) (f := fun r => .subpoint (.numeric r)) w.numericSubpoint
    (fun l hl s hs n => by
      rw [readNumericSubpoint, partAt, partRange_idPart (p := fun i => i.suffix = none) (fun a _ => NumericId.parse_display a)
        (fits_span (hw.numericSubpoint l hl).1 s hs)]; rfl) m
  have h6 := fun m => readParts_opt (read := readAlphabeticSubpoint) (span := prefixedSpan)
    (value := partAt PrefixedId.display prefixedSpan) (f := fun r => .subpoint (.alphabetic r)) w.alphabeticSubpoint
    (fun l hl s hs n => by
      rw [readAlphabeticSubpoint, partAt, partRange_idPart (p := PrefixedUsual) (fun a ha => PrefixedId.parse_display ha.1 ha.2)
        (fits_span (hw.alphabeticSubpoint l hl).1 s hs)]; rfl) m
  have ea : x.article.flatten = (w.article.map (itemsAt articleSpan articleAt n1)).getD [] := by
    rw [e1]; cases w.article <;> simp
  rw [insertionLevels, ea, e2, e3, e4, e5, e6]
  simp only [levelsOf, h1, h2, h3, h4, h5, h6]
  rfl

/-- The same levels: those which are not named do not matter. -/
theorem alternatives_skip (m : List (List AnyReferencePart)) (r : Ref) : alternatives r ([] :: m) = alternatives r m := rfl

theorem listed_none {γ : Type} (f : IdRange γ → AnyReferencePart) : listed f none = [] := rfl

theorem levels_alternatives (l : List (List AnyReferencePart)) : ∀ (r : Ref), alternatives r l = alternatives r (l.filter fun x => !x.isEmpty) := by
  induction l with
  | nil => intro r; rfl
  | cons x l ih =>
    intro r
    cases x with
    | nil => rw [alternatives_skip, ih]; rfl
    | cons p x =>
      have : (p :: x).getLast? ≠ none := by simp
      rw [List.filter_cons_of_pos (by simp)]
      unfold alternatives
      cases h : (p :: x).getLast? with
      | none => exact absurd h this
      | some q => simp only [ih]

/-- The levels of the article and so on and those which are inserted are the levels of the whole. -/
theorem inserted_levels {w : Phrase} {o : Option Phrase} {x : Phrase}
    (h : ((o.map Phrase.levels).getD [] ++ x.levels).filter (fun l => !l.isEmpty) = w.levels.filter fun l => !l.isEmpty) (r : Ref) :
    alternatives r w.levels = alternatives r ((o.map Phrase.levels).getD [] ++ x.levels) := by
  rw [levels_alternatives, ← h, ← levels_alternatives]

/-! ### the end of an insertion -/

theorem insertionEnd_after {e : Str} (he : e ∈ insertionEnds) : After (' ' :: e ++ str!":") ∧ ∀ n, Fails (call listSeparator) n (' ' :: e ++ str!":") := by
  have hh := insertionEnd_head he str!":"
  have hws : NoWs (e ++ str!":") := hh.mono fun c hc => (by decide : ∀ c ∈ str!"ek", isWs c = false) c hc
  have hsk : skipWs (' ' :: e ++ str!":") = e ++ str!":" := skipWs_noWs hws
  refine ⟨⟨⟨space_notLower _, ?_⟩, NoLevel.space ?_⟩, fun n => fails_listSeparator ?_⟩
  · rw [hsk]
    exact hh.mono fun c hc => (by decide : ∀ c ∈ str!"ek", isDashChar c = false) c hc
  · simp only [insertionEnds, List.mem_cons, List.not_mem_nil, or_false] at he
    rcases he with rfl | rfl
    · exact noLevel_words (by unfold Ordinary; decide) (by decide) (.cons (by decide)) (.cons (by decide))
    · exact noLevel_words (by unfold Ordinary; decide) (by decide) (.cons (by decide)) (.cons (by decide))
  · rw [hsk]
    exact hh.mono fun c hc => (by decide : ∀ c ∈ str!"ek", c ≠ ',' ∧ c ≠ ';' ∧ c ≠ 'é' ∧ c ≠ 'v' ∧ c ≠ 'i') c hc

theorem provision_replacement {e : Str} (he : ProvisionEnd e) : ReplacementEnd e := by
  cases he with
  | provision hf hw => exact .provision hf hw
  | changes hf hw => exact .changes hf hw

theorem replacement_after {e : Str} (he : ReplacementEnd e) : After (' ' :: e ++ str!":") := by
  have hh := replacement_head he str!":"
  have hws : NoWs (e ++ str!":") := hh.mono fun c hc => (by decide : ∀ c ∈ str!"ah", isWs c = false) c hc
  have hsk : skipWs (' ' :: e ++ str!":") = e ++ str!":" := skipWs_noWs hws
  refine ⟨⟨space_notLower _, ?_⟩, NoLevel.space (replacement_noLevel he)⟩
  rw [hsk]
  exact hh.mono fun c hc => (by decide : ∀ c ∈ str!"ah", isDashChar c = false) c hc

theorem reads_provisionEnd {e : Str} (he : ProvisionEnd e) {n : Nat} {rest : Str} : Reads (call amendmentSuffix) n (' ' :: e) rest () := by
  cases he with
  | provision hf hw =>
    refine Reads.before (noWs_cons (by decide)) (Reads.call (noWs_cons (by decide)) ?_)
    simpa using reads_provision hf hw
  | changes hf hw =>
    have hn : ∀ r, NoWs (_ ++ r) := fun r => following_noWs hf r
    refine Reads.before (by simpa using hn _) (Reads.call (by simpa using hn _) ?_)
    simpa using reads_changes hf hw

/-! ### whole phrases -/

theorem levelText_phrase {w : Phrase} (hw : w.Usual) (R : Str) : LevelText (w.text ++ R) := by
  have hn := hw.named
  rw [words_eq] at hn
  cases ha : w.article with
  | some a =>
    rw [text_glue (w := w) (x := a.words articleSpan str!" §") (l := paragraphWords w ++ (pointWords w ++ subpointWords w)) (by rw [words_eq, articleWords, ha]; rfl), List.append_assoc]
    exact levelText_article a _
  | none =>
    have ea : articleWords w = [] := by rw [articleWords, ha]; rfl
    rcases paragraphWords_cases w with ⟨ep, -⟩ | ⟨l, -, ep⟩
    · rcases pointWords_cases hw with ⟨eq, -⟩ | ⟨x, eq, -⟩
      · rcases subpointWords_cases hw with ⟨es, -⟩ | ⟨x, es, -⟩
        · rw [ea, ep, eq, es] at hn
          exact absurd rfl hn
        · rw [text_glue (w := w) (x := x) (l := []) (by rw [words_eq, ea, ep, eq, es]; rfl), List.append_assoc]
          exact levelText_subpoint hw (by rw [es]; simp) _
      · rw [text_glue (w := w) (x := x) (l := subpointWords w) (by rw [words_eq, ea, ep, eq]; rfl), List.append_assoc]
        exact levelText_point (w := w) (by rw [eq]; simp) _
    · rw [text_glue (w := w) (x := _) (l := pointWords w ++ subpointWords w) (by rw [words_eq, ea, ep]; rfl), List.append_assoc]
      exact levelText_paragraph l _

theorem following_noLevel {f s : Str} (hf : Following f) (h : LevelText s) : NoLevel (f ++ (' ' :: s)) := by
  refine noLevel_words (following_ordinary hf).1 (following_ordinary hf).2 ?_ ?_
  · have := following_head hf []
    rw [List.append_nil] at this
    exact this.mono fun c hc => by subst hc; decide
  · show Head _ (skipWs s)
    rw [skipWs_noWs h.noWs]
    obtain ⟨c, r, rfl, hc⟩ := h.head
    refine Head.cons (f := fun c => c ≠ ')' ∧ isDashChar c = false) ⟨?_, hc.noDash⟩
    rintro rfl
    rcases hc with hc | hc | hc <;> revert hc <;> decide

/-- The text before "a következő". -/
def outerText (o : Option Phrase) : Str := ((o.map fun x => ' ' :: x.text).getD [])

/-- An insertion is read. -/
theorem reads_inserted {o : Option Phrase} {f e : Str} {w : Phrase} (ho : ∀ x, o = some x → x.Usual) (hw : w.Usual) (hi : Inserts o w)
    (hf : Following f) (he : e ∈ insertionEnds) (n : Nat) :
    ∃ x, Reads (call insertionReference) n (outerText o ++ (' ' :: f ++ ' ' :: w.text)) (' ' :: e ++ str!":") x ∧
      ∃ m, insertionLevels x = some m ∧ ∀ r, alternatives r m = alternatives r ((o.map Phrase.levels).getD [] ++ w.levels) := by
  obtain ⟨h1, h2⟩ := insertionEnd_after he
  cases hi with
  | article a p =>
    obtain ⟨x, hx, hx2⟩ := reads_insertion_article hw hf h1 (fun n => Fails.bind (h2 n)) (n + byteLen [' '])
    refine ⟨x, reads_call_sp (sp := [' ']) (.inr rfl) ?_ hx, _, hx2.levels hw, fun r => rfl⟩
    show NoWs ((f ++ ' ' :: Phrase.text _) ++ _)
    rw [List.append_assoc]
    exact following_noWs hf _
  | paragraph a p =>
    have hm : Phrase.Usual ⟨some a, some p, none, none, none, none⟩ :=
      ⟨(ho _ rfl).article, hw.paragraph, hw.numericPoint, hw.alphabeticPoint, hw.numericSubpoint, hw.alphabeticSubpoint, .inl rfl, .inl rfl,
        fun h => by simp at h, by simp [Phrase.words]⟩
    obtain ⟨x, hx, hx2⟩ := reads_insertion_paragraph (ho _ rfl) hw hf h1 (n + byteLen [' '])
    refine ⟨x, reads_call_sp (sp := [' ']) (.inr rfl) ?_ hx, _, hx2.levels hm, inserted_levels rfl⟩
    show NoWs ((Phrase.text _ ++ (' ' :: f ++ ' ' :: Phrase.text _)) ++ _)
    rw [List.append_assoc]
    exact (levelText_phrase (ho _ rfl) _).noWs
  | point a p i c =>
    have hm : Phrase.Usual ⟨some a, p, i, c, none, none⟩ :=
      ⟨(ho _ rfl).article, (ho _ rfl).paragraph, hw.numericPoint, hw.alphabeticPoint, hw.numericSubpoint, hw.alphabeticSubpoint, hw.onePoint, .inl rfl,
        fun h => by simp at h, by simp [Phrase.words]⟩
    obtain ⟨x, hx, hx2⟩ := reads_insertion_point (ho _ rfl) hw hf h1 (n + byteLen [' '])
    refine ⟨x, reads_call_sp (sp := [' ']) (.inr rfl) ?_ hx, _, hx2.levels hm, inserted_levels ?_⟩
    · show NoWs ((Phrase.text _ ++ (' ' :: f ++ ' ' :: Phrase.text _)) ++ _)
      rw [List.append_assoc]
      exact (levelText_phrase (ho _ rfl) _).noWs
    · simp [Phrase.levels, listed_none, List.filter_cons]
  | subpoint a p i c j d hpt =>
    have hm : Phrase.Usual ⟨some a, p, i, c, j, d⟩ :=
      ⟨(ho _ rfl).article, (ho _ rfl).paragraph, (ho _ rfl).numericPoint, (ho _ rfl).alphabeticPoint, hw.numericSubpoint, hw.alphabeticSubpoint,
        (ho _ rfl).onePoint, hw.oneSubpoint, fun _ _ => hpt, by simp [Phrase.words]⟩
    obtain ⟨x, hx, hx2⟩ := reads_insertion_subpoint (ho _ rfl) hpt hw hf h1 (n + byteLen [' '])
    refine ⟨x, reads_call_sp (sp := [' ']) (.inr rfl) ?_ hx, _, hx2.levels hm, inserted_levels ?_⟩
    · show NoWs ((Phrase.text _ ++ (' ' :: f ++ ' ' :: Phrase.text _)) ++ _)
      rw [List.append_assoc]
      exact (levelText_phrase (ho _ rfl) _).noWs
    · simp [Phrase.levels, listed_none, List.filter_cons]


/-! ### the sentence -/

section

variable {G : St → Prop}

theorem reads_referenceSp {w : Phrase} (hw : w.Usual) {rest : Str} (h : After rest) (n : Nat) :
    Reads (call reference) n (' ' :: w.text) rest (phraseAt w (n + byteLen [' '])) :=
  reads_call_sp (sp := [' ']) (.inr rfl) (levelText_phrase hw rest).noWs (reads_reference hw h)

/-- "… 3. §-a helyébe a következő rendelkezés lép:" -/
theorem reads_replacedBody {w : Phrase} {e : Str} (hw : w.Usual) (he : ProvisionEnd e) (n : Nat) :
    ReadsG G (amendedOnly <|> insertedOnly <|> amendedAndInserted) n (' ' :: w.text ++ (' ' :: e ++ str!":")) []
      (some (phraseAt w (n + byteLen [' '])), none) := by
  refine ReadsG.left (ReadsG.bind (a := phraseAt w (n + byteLen [' '])) (ReadsG.lift ?_) (ReadsG.bind (a := ()) (ReadsG.lift ?_)
    (ReadsG.map (a := ()) (ReadsG.lift ?_))))
  · rw [List.append_nil]
    exact reads_referenceSp hw (replacement_after (provision_replacement he)) n
  · exact reads_provisionEnd he
  · exact reads_colon

/-- "… 3. §-a a következő (2) bekezdéssel egészül ki:" -/
theorem reads_insertedBody {o : Option Phrase} {f e : Str} {w : Phrase} (ho : ∀ x, o = some x → x.Usual) (hw : w.Usual) (hi : Inserts o w)
    (hf : Following f) (he : e ∈ insertionEnds) (n : Nat) :
    ∃ x, ReadsG G (amendedOnly <|> insertedOnly <|> amendedAndInserted) n
        (outerText o ++ (' ' :: f ++ ' ' :: w.text) ++ (' ' :: e ++ str!":")) [] (none, some x) ∧
      ∃ m, insertionLevels x = some m ∧ ∀ r, alternatives r m = alternatives r ((o.map Phrase.levels).getD [] ++ w.levels) := by
  obtain ⟨x, h1, h2⟩ := reads_inserted ho hw hi hf he n
  refine ⟨x, ReadsG.right ?_ (ReadsG.left ?_), h2⟩
  · rw [List.append_nil]
    have hl : LevelText (w.text ++ (' ' :: e ++ str!":")) := levelText_phrase hw _
    have hn := (following_noLevel hf hl).space
    have es : ' ' :: f ++ ' ' :: w.text ++ (' ' :: e ++ str!":") = ' ' :: (f ++ (' ' :: (w.text ++ (' ' :: e ++ str!":")))) := by simp
    cases o with
    | none =>
      refine FailsG.bind (FailsG.lift (fails_call_reference ?_))
      show NoLevel (' ' :: f ++ ' ' :: w.text ++ (' ' :: e ++ str!":"))
      rw [es]
      exact hn
    | some y =>
      show FailsG G _ n (' ' :: y.text ++ (' ' :: f ++ ' ' :: w.text) ++ (' ' :: e ++ str!":"))
      rw [List.append_assoc, es]
      refine FailsG.bind_of (ReadsG.lift (reads_referenceSp (ho _ rfl) ⟨following_next hf _, hn⟩ n)) (FailsG.bind (FailsG.lift ?_))
      exact LevelText.noSuffix hf hl
  · refine ReadsG.bind (a := x) (ReadsG.lift ?_) (ReadsG.bind (a := ()) (ReadsG.lift ?_) (ReadsG.map (a := ()) (ReadsG.lift ?_)))
    · rw [List.append_nil]
      exact h1
    · exact reads_insertionSuffix he
    · exact reads_colon

theorem words_next {l : List Words} (hl : ∀ x ∈ l, ∀ r, LevelText (x.text ++ r)) {R : Str} (h : Next R) : Next (glue l ++ R) := by
  cases l with
  | nil => exact h
  | cons x l =>
    show Next (' ' :: (x.text ++ glue l) ++ R)
    rw [List.cons_append, List.append_assoc]
    exact (hl x (List.mem_cons_self ..) _).next

/-- The article is the first of the levels. -/
theorem phrase_article {w : Phrase} (hw : w.Usual) (ha : w.article ≠ none) {R : Str} (h : Next R) :
    ∃ (a : Listing ArticleId) (S : Str), w.text ++ R = (a.words articleSpan str!" §").text ++ S ∧ a.Fits ArticleUsual ∧ SignEnding a.ending ∧ Next S := by
  obtain ⟨a, p, i, c, j, d⟩ := w
  cases a with
  | none => exact absurd rfl ha
  | some a =>
    rw [text_articleParagraph, List.append_assoc]
    obtain ⟨g1, g2⟩ := hw.article a rfl
    refine ⟨a, _, rfl, g1, g2, ?_⟩
    rw [List.append_assoc]
    refine paragraph_next (words_next (fun x hx r => ?_) h)
    rcases List.mem_append.1 hx with hx | hx
    · exact levelText_point hx r
    · exact levelText_subpoint hw hx r

/-- What is after the act and the part of the structure. -/
def changeText (x : Change) : Str := x.texts.flatMap (fun x => ' ' :: x) ++ str!":"

/-- It begins with an article or with "a következő". -/
theorem change_begins {x : Change} (hx : x.Usual) :
    (∃ (a : Listing ArticleId) (S : Str), changeText x = ' ' :: ((a.words articleSpan str!" §").text ++ S) ∧
      a.Fits ArticleUsual ∧ SignEnding a.ending ∧ Next S) ∨
    ∃ f S, changeText x = ' ' :: (f ++ S) ∧ Following f := by
  have outer : ∀ {w : Phrase} {e f : Str} {y : Phrase}, y.Usual → y.article ≠ none → Following f →
      ∃ (a : Listing ArticleId) (S : Str), changeText (.inserted (some y) f w e) = ' ' :: ((a.words articleSpan str!" §").text ++ S) ∧
      a.Fits ArticleUsual ∧ SignEnding a.ending ∧ Next S := by
    intro w e f y hy ha hf
    obtain ⟨a, S, h1, h2⟩ := phrase_article hy ha (following_next hf (' ' :: w.text ++ (' ' :: e ++ str!":")))
    exact ⟨a, S, by rw [← h1]; simp [changeText, Change.texts], h2⟩
  cases hx with
  | @replaced w e hw ha he =>
    obtain ⟨a, S, h1, h2⟩ := phrase_article hw ha (replacement_after (provision_replacement he)).next
    exact .inl ⟨a, S, by rw [← h1]; simp [changeText, Change.texts], h2⟩
  | @inserted o f w e ho hw hi hf he =>
    cases hi with
    | article a p => exact .inr ⟨f, _, by simp only [changeText, Change.texts, Option.toList_none, List.map_nil, List.nil_append, List.flatMap_cons, List.cons_append, List.append_assoc]; rfl, hf⟩
    | paragraph a p => exact .inl (outer (ho _ rfl) (by simp) hf)
    | point a p i c => exact .inl (outer (ho _ rfl) (by simp) hf)
    | subpoint a p i c j d hpt => exact .inl (outer (ho _ rfl) (by simp) hf)

/-- No part of the structure. -/
theorem reads_noContainer {x : Change} (hx : x.Usual) (n : Nat) : Reads (opt (call structuralReference)) n [] (changeText x) none := by
  refine Reads.opt_none ?_
  rcases change_begins hx with ⟨a, S, e, h1, h2, h3⟩ | ⟨f, S, e, hf⟩
  · rw [e]
    exact Fails.before (levelText_article a S).noWs fun n => Fails.call_noWs (levelText_article a S).noWs fun _ => fails_structural_article h1 h2 h3
  · rw [e]
    exact Fails.before (following_noWs hf S) fun n => Fails.call_noWs (following_noWs hf S) fun _ => fails_structural (endLetter_unnamed (following_after hf S))

theorem levelText_digit (l : Listing ArticleId) (r : Str) : Head (isDigit · = true) ((l.words articleSpan str!" §").text ++ r) := by
  obtain ⟨c, t, h, hc⟩ := article_words l str!" §" r
  rw [h]
  exact .cons hc

/-- What may be before it. -/
theorem change_head {x : Change} (hx : x.Usual) : ∃ s, changeText x = ' ' :: s ∧ NoWs s ∧ Head (fun c => isDigit c = true ∨ c = 'a') s := by
  rcases change_begins hx with ⟨a, S, e, -, -, -⟩ | ⟨f, S, e, hf⟩
  · exact ⟨_, e, (levelText_article a S).noWs, (levelText_digit a S).mono fun c hc => .inl hc⟩
  · exact ⟨_, e, following_noWs hf S, (following_head hf S).mono fun c hc => .inr hc⟩

/-- A part of the structure. -/
theorem reads_container {x : Change} (hx : x.Usual) {q : Place} {b : Option NumericId} {d : StructuralRefParent} (hq : q.Means b d false) (n : Nat) :
    Reads (opt (call structuralReference)) n (' ' :: q.text) (changeText x) (some (placeAt q)) := by
  obtain ⟨s, e, h1, h2⟩ := change_head hx
  rw [e]
  refine Reads.opt_some (reads_place hq h1 (h2.mono fun c hc => ?_))
  rcases hc with hc | rfl
  · refine ⟨by rintro rfl; revert hc; decide, ?_⟩
    exact LevelHead.noDash (.inl hc)
  · decide

/-- The rest of the sentence is read. -/
theorem reads_change {x : Change} (hx : x.Usual) (n : Nat) :
    ∃ r : Option Reference × Option InsertionReference,
      ReadsG G (amendedOnly <|> insertedOnly <|> amendedAndInserted) n (changeText x) [] r ∧ r.1.isNone = x.isInsertion ∧
      ∃ m, (∀ c, (r.1.toList.map Mention.reference ++ r.2.toList.map Mention.insertion).mapM (Mention.levels c) = some [m]) ∧
        ∀ r, alternatives r m = alternatives r x.levels := by
  cases hx with
  | @replaced w e hw ha he =>
    refine ⟨(some (phraseAt w (n + byteLen [' '])), none), ?_, rfl, w.levels, fun c => ?_, fun _ => rfl⟩
    · have := reads_replacedBody (G := G) hw he n
      rwa [show ' ' :: w.text ++ (' ' :: e ++ str!":") = changeText (.replaced w e) by simp [changeText, Change.texts]] at this
    · simp only [Option.toList_some, Option.toList_none, List.map_cons, List.map_nil, List.append_nil, List.mapM_cons, List.mapM_nil, Mention.levels,
        phraseAt_levels hw]
      rfl
  | @inserted o f w e ho hw hi hf he =>
    obtain ⟨x, h1, m, h2, h3⟩ := reads_insertedBody (G := G) ho hw hi hf he n
    refine ⟨(none, some x), ?_, rfl, m, fun c => ?_, h3⟩
    · rwa [show outerText o ++ (' ' :: f ++ ' ' :: w.text) ++ (' ' :: e ++ str!":") = changeText (.inserted o f w e) by
        cases o <;> simp [changeText, Change.texts, outerText]] at h1
    · simp only [Option.toList_some, Option.toList_none, List.map_cons, List.map_nil, List.nil_append, List.mapM_cons, List.mapM_nil, Mention.levels, h2]
      rfl

end

/-- How a sentence which amends provisions is parsed. -/
theorem parse_change {A I t : Str} {a : ActReference} {x : Change} {q : Option StructuralReference} (hG : G ⟨known, []⟩) (hA : A ∈ articles)
    (hi : ReadsG G titledActReference (byteLen A) I (t ++ changeText x) a)
    (h1 : ∀ n, Reads (opt (call structuralReference)) n t (changeText x) q) {r : Option Reference × Option InsertionReference}
    (h2 : ReadsG G (amendedOnly <|> insertedOnly <|> amendedAndInserted)
      (0 + byteLen A + byteLen I + byteLen t) (changeText x) [] r) :
    parse (A ++ (I ++ (t ++ changeText x))) known = some (.blockAmendment ⟨a, q, r.1, r.2⟩) := by
  refine parse_of_root hG (ReadsG.left (reads_entire (article_noWs hA _) ?_))
  refine ReadsG.bind (ReadsG.lift (reads_azAny hA)) (ReadsG.bind (a := a) ?_ (ReadsG.bind (a := q) (ReadsG.lift ?_) (ReadsG.map h2)))
  · rw [List.append_nil, Nat.zero_add]
    exact hi
  · rw [List.append_nil]
    exact h1 _

end HunLaw.Grammar
