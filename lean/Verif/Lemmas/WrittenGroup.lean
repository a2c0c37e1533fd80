import Verif.Lemmas.WrittenRef
import Verif.Lemmas.Roman
import Verif.Lemmas.Identifiers
import Verif.Model.Outgoing

/-! The grammar recognises a group of references in the usual form: lists of references, and the act before them. -/

set_option autoImplicit false

namespace HunLaw.Grammar

open HunLaw P Spec

variable {α β : Type}

/-! ### no letters of a point -/

theorem skipWs_append {v y : Str} {f : Char → Prop} (hv : ∀ c ∈ v, f c) (hy : Head f (skipWs y)) :
    Head f (skipWs (v ++ y)) := by
  induction v with
  | nil => exact hy
  | cons c v ih =>
    by_cases hc : isWs c = true
    · have : skipWs (c :: v ++ y) = skipWs (v ++ y) := by
        unfold skipWs; rw [List.cons_append, List.dropWhile_cons, if_pos hc]
      rw [this]; exact ih fun c hc => hv c (List.mem_cons_of_mem _ hc)
    · rw [List.cons_append, skipWs_cons (by simpa using hc)]
      exact .cons (hv c (List.mem_cons_self ..))

theorem skipWs_append_of {s r : Str} (h : skipWs s ≠ []) : skipWs (s ++ r) = skipWs s ++ r := by
  obtain ⟨w, hw, e⟩ := skipWs_split s
  have h1 : skipWs (s ++ r) = skipWs (skipWs s ++ r) := by
    rw [e, List.append_assoc]
    have h2 : skipWs (w ++ skipWs s) = skipWs s := by rw [← e]
    rw [h2]
    unfold skipWs
    rw [List.dropWhile_append_of_pos hw]
  rw [h1, skipWs_noWs (noWs_append h (noWs_skipWs s))]

/-- Letters of a point do not begin in a text with something else in it before the next mark. -/
theorem noMark_text {x y : Str} (hx : ∀ c ∈ x, c ≠ ')' ∧ isDashChar c = false) (hl : y = [] ∨ ∃ c ∈ x, lowerAz c = false)
    (hy : Head (fun c => c ≠ ')' ∧ isDashChar c = false) (skipWs y)) : NoMark (x ++ y) := by
  intro t u e _ _ ht
  have hp : ∃ v, x = t ++ v ∧ u = v ++ y := by
    rcases List.append_eq_append_iff.1 e with ⟨v, h1, h2⟩ | ⟨v, h1, h2⟩
    · rcases hl with rfl | ⟨c, hc, hlc⟩
      · simp only [List.nil_eq, List.append_eq_nil_iff] at h2
        exact ⟨[], by simp [h1, h2.1], by simp [h2.2]⟩
      · have := ht c (by rw [h1]; exact List.mem_append_left _ hc)
        rw [this] at hlc; cases hlc
    · exact ⟨v, h1, h2⟩
  obtain ⟨v, rfl, rfl⟩ := hp
  exact skipWs_append (fun c hc => hx c (List.mem_append_right _ hc)) hy

/-! ### ordinary text -/

theorem ordinary_char {c : Char} (h : c ∈ lowerLetters ∨ c ∈ upperLetters ∨ c ∈ str!" .,;!?") :
    (c ≠ ')' ∧ isDashChar c = false) ∧ c ≠ '(' ∧ isDigit c = false ∧ c ≠ '„' ∧ c ≠ ':' ∧ c ≠ '/' := by
  rcases h with h | h | h <;> revert h <;> revert c <;> decide

theorem _root_.HunLaw.Spec.Ordinary.tail {a b : Str} (h : Ordinary (a ++ b)) : Ordinary b := fun c hc => h c (List.mem_append_right _ hc)

theorem _root_.HunLaw.Spec.Ordinary.skip {s : Str} (h : Ordinary s) : Ordinary (skipWs s) := by
  obtain ⟨w, -, e⟩ := skipWs_split s
  rw [e] at h; exact h.tail

theorem _root_.HunLaw.Spec.Ordinary.noLevel {s : Str} (h : Ordinary s) : NoLevel s := by
  have h := h.skip
  refine .of_head (Head.of_all fun c hc => (ordinary_char (h c hc)).2.1)
    (Head.of_all fun c hc => (ordinary_char (h c hc)).2.2.1) ?_
  have := noMark_text (x := skipWs s) (y := []) (fun c hc => (ordinary_char (h c hc)).1) (.inl rfl) (by exact .nil)
  simpa using this

/-- What is after a group does not belong to it. -/
structure Tailing (s : Str) : Prop where
  after : After s
  stop : ∀ n, Fails (do call listSeparator; call reference) n s

/-! ### separators -/

theorem separator_noLevel {sep r : Str} (hsep : sep ∈ separators)
    (hr : Head (fun c => c ≠ ')' ∧ isDashChar c = false) (skipWs r)) : After (sep ++ r) := by
  have hj : Joined (sep ++ r) := ⟨sep, hsep, r, rfl⟩
  have hall : ∀ sep ∈ separators, (∀ c ∈ sep, c ≠ ')' ∧ isDashChar c = false) ∧ (∃ c ∈ sep.head?, isHunLower c = false) ∧
      ∃ c ∈ skipWs sep, lowerAz c = false := by decide +kernel
  obtain ⟨h1, ⟨c, hc, hlc⟩, d, hd, hld⟩ := hall sep hsep
  refine ⟨⟨?_, joined_head hj (by decide)⟩, .of_head (joined_head hj (by decide)) (joined_head hj (by decide)) ?_⟩
  · cases sep with
    | nil => simp at hc
    | cons e sep => simp at hc; subst hc; exact .cons hlc
  · have hne : skipWs sep ≠ [] := by intro e; rw [e] at hd; simp at hd
    rw [skipWs_append_of hne]
    have hsub : ∀ c ∈ skipWs sep, c ∈ sep := fun c hc => (List.dropWhile_suffix _).subset hc
    exact noMark_text (fun c hc => h1 c (hsub c hc)) (.inr ⟨d, hd, hld⟩) hr

/-! ### the beginning of a reference -/

/-- Not the rest of the number of a year before "évi". -/
def NotYear (x : Str) : Prop :=
  Head (isDigit · = false) x ∧ (Head (· ≠ '.') (skipWs x) ∨ ∃ y, x = '.' :: y ∧ ¬ str!"évi" <+: skipWs y)

/-- How a reference begins. -/
inductive PhraseStart (s : Str) : Prop
  | number (k : Nat) (x : Str) (hx : NotYear x) (e : s = dec k ++ x)
  | paragraph (k : Nat) (x : Str) (e : s = '(' :: (dec k ++ x))
  | letter (h : Head (lowerAz · = true) s) (h2 : ItemStart s) (h3 : s ≠ [])

theorem PhraseStart.itemStart {s : Str} (h : PhraseStart s) : ItemStart s := by
  cases h with
  | number k x hx e => rw [e]; exact itemStart_dec _ _
  | paragraph k x e => rw [e]; exact itemStart_of_head rfl (by decide) (by decide)
  | letter h h2 h3 => exact h2

theorem PhraseStart.head {s : Str} (h : PhraseStart s) : ∃ c t, s = c :: t ∧ LevelHead c := by
  cases h with
  | number k x hx e => obtain ⟨c, t, h1, h2⟩ := dec_head k x; exact ⟨c, t, e.trans h1, .inl h2⟩
  | paragraph k x e => exact ⟨_, _, e, .inr (.inl rfl)⟩
  | letter h h2 h3 =>
    cases s with
    | nil => exact absurd rfl h3
    | cons c s => exact ⟨c, s, rfl, .inr (.inr (h c rfl))⟩

theorem LevelHead.noMark {c : Char} (h : LevelHead c) : c ≠ ')' ∧ isDashChar c = false := by
  refine ⟨?_, h.noDash⟩
  rcases h with h | rfl | h
  · rintro rfl; revert h; decide
  · decide
  · rintro rfl; revert h; decide

theorem PhraseStart.noMark {s : Str} (h : PhraseStart s) : Head (fun c => c ≠ ')' ∧ isDashChar c = false) (skipWs s) := by
  obtain ⟨c, t, rfl, hc⟩ := h.head
  rw [skipWs_cons hc.noWs]; exact .cons hc.noMark

theorem joined_evi {r : Str} (h : Joined r) : ¬ str!"évi" <+: skipWs r := by
  obtain ⟨sep, hsep, r, rfl⟩ := h
  have hall : ∀ sep ∈ separators, ∃ i ∈ [0, 1, 2], ∃ c ∈ (skipWs sep)[i]?, (str!"évi")[i]? ≠ some c := by decide +kernel
  obtain ⟨i, hi, c, hc, hne⟩ := hall sep hsep
  have hne' : skipWs sep ≠ [] := by intro e; rw [e] at hc; simp at hc
  rw [skipWs_append_of hne']
  rintro ⟨x, e⟩
  have h3 : i < 3 := by simp at hi; omega
  have := congrArg (·[i]?) e
  rw [List.getElem?_append_left (by simpa using h3), List.getElem?_append_left
    (by have := List.getElem?_eq_some_iff.1 hc; exact this.1)] at this
  rw [hc] at this
  exact hne this

theorem notYear_dot {r w r' : Str} (hw : NoWs w) (hw' : w ≠ []) (h2 : Head (· ≠ 'é') w)
    (h : Joined r ∨ r = ' ' :: w ++ r') : NotYear ('.' :: r) := by
  refine ⟨.cons (by decide), .inr ⟨r, rfl, ?_⟩⟩
  rcases h with h | rfl
  · exact joined_evi h
  · have : skipWs (' ' :: w ++ r') = w ++ r' := by
      unfold skipWs; rw [List.cons_append, List.dropWhile_cons]; exact skipWs_noWs (noWs_append hw' hw)
    rw [this]
    refine not_prefix_of_head (by decide) fun e => ?_
    have h3 : Head (· ≠ 'é') (w ++ r') := h2.append hw'
    exact h3 _ e.symm rfl

theorem notYear_head {c : Char} {r : Str} (h1 : isDigit c = false) (h2 : c ≠ '.') (h3 : isWs c = false) : NotYear (c :: r) :=
  ⟨.cons h1, .inl (by rw [skipWs_cons h3]; exact .cons h2)⟩

theorem article_start {s : Span ArticleId} (hs : ArticleUsual s) {w r r' : Str} (hw : NoWs w) (hw' : w ≠ [])
    (h2 : Head (· ≠ 'é') w) (h : Joined r ∨ r = ' ' :: w ++ r') : PhraseStart (articleSpan s ++ r) := by
  have key : ∀ (a : ArticleId) (x : Str), NotYear x → PhraseStart (a.display ++ x) := by
    intro a x hx
    rw [display_article, displaySlash_eq]
    cases hb : a.book with
    | none =>
      cases hsuf : a.identifier.suffix with
      | none => exact .number a.identifier.num.val _ hx (by simp [bookText, slashed])
      | some c =>
        exact .number a.identifier.num.val ('/' :: c.displayUpper ++ x) (notYear_head (by decide) (by decide) (by decide))
          (by simp [bookText, slashed])
    | some b =>
      exact .number b.val (':' :: (dec a.identifier.num.val ++ slashed a.identifier.suffix ++ x))
        (notYear_head (by decide) (by decide) (by decide)) (by simp [bookText])
  cases s with
  | one a =>
    simp only [articleSpan, List.append_assoc]
    exact key a _ (notYear_dot hw hw' h2 h)
  | upTo d a b =>
    simp only [articleSpan, List.append_assoc]
    have := dashes_not hs.1
    exact key a _ (notYear_head this.1 this.2.2.2.1 (dashes_noWs hs.1))

theorem dotted_start {p : NumericId → Prop} {s : Span NumericId} (hs : s.Fits p) {w r r' : Str} (hw : NoWs w)
    (hw' : w ≠ []) (h2 : Head (· ≠ 'é') w) (h : Joined r ∨ r = ' ' :: w ++ r') : PhraseStart (dottedSpan s ++ r) := by
  have key : ∀ (a : NumericId) (x : Str), NotYear x → PhraseStart (a.display ++ x) := by
    intro a x hx
    rw [display_numeric]
    cases hsuf : a.suffix with
    | none => exact .number a.num.val _ hx (by simp [lettered])
    | some c =>
      obtain ⟨d, t, e, hd⟩ := letters_head (s := x) (letter_display (c := c)).2.1 letter_display.1
      refine .number a.num.val (d :: t) (notYear_head (lower_not hd).1 ?_ (lowerAz_noWs hd)) (by simp [lettered, ← e])
      rintro rfl; revert hd; decide
  cases s with
  | one a =>
    simp only [dottedSpan, List.append_assoc]
    exact key a _ (notYear_dot hw hw' h2 h)
  | upTo d a b =>
    simp only [dottedSpan, List.append_assoc]
    have := dashes_not hs.1
    exact key a _ (notYear_head this.1 this.2.2.2.1 (dashes_noWs hs.1))

theorem paragraph_start (s : Span NumericId) (r : Str) : PhraseStart (paragraphSpan s ++ r) := by
  cases s <;> simp only [paragraphSpan, display_numeric, List.append_assoc, List.cons_append] <;>
    exact .paragraph _ _ rfl

theorem words_others {span : Span α → Str} {word : Str} {l : Listing α} {p : Span α → Prop} (hl : l.Fits p) (r : Str) :
    ∃ r', (l.words span word).text ++ r = span l.first ++ r' ∧ (Joined r' ∨ ∃ r'', r' = word ++ r'') := by
  rw [words_text]
  refine ⟨othersText span l.others ++ ((word ++ l.ending) ++ r), by simp, ?_⟩
  rcases joined_or span (fun x hx => (hl.2 x hx).1) ((word ++ l.ending) ++ r) with h | h
  · exact .inl h
  · exact .inr ⟨l.ending ++ r, by rw [h]; simp⟩

/-- How a reference begins. -/
theorem phrase_start {w : Phrase} (hw : w.Usual) (r : Str) : PhraseStart (w.text ++ r) := by
  have hwords := words_eq w
  rcases hx : w.words with _ | ⟨x, l⟩
  · exact absurd hx hw.named
  rw [text_glue hx, List.append_assoc]
  rw [hx] at hwords
  cases ha : w.article with
  | some a =>
    simp only [articleWords, ha, Option.toList_some, List.map_cons, List.map_nil, List.cons_append, List.nil_append,
      List.cons.injEq] at hwords
    rw [hwords.1]
    obtain ⟨r', e, h⟩ := words_others (span := articleSpan) (word := str!" §") (hw.article a ha).1 (glue l ++ r)
    rw [e]
    rcases h with h | ⟨r'', h⟩
    · exact article_start (hw.article a ha).1.1 (w := ['§']) (r' := []) (noWs_cons (by decide)) (by decide)
        (.cons (by decide)) (.inl h)
    · exact article_start (hw.article a ha).1.1 (w := ['§']) (noWs_cons (by decide)) (by decide)
        (.cons (by decide)) (.inr h)
  | none =>
  simp only [articleWords, ha, Option.toList_none, List.map_nil, List.nil_append] at hwords
  cases hp : w.paragraph with
  | some p =>
    simp only [paragraphWords, hp, Option.toList_some, List.map_cons, List.map_nil, List.cons_append, List.nil_append,
      List.cons.injEq] at hwords
    rw [hwords.1]
    obtain ⟨r', e, -⟩ := words_others (span := paragraphSpan) (word := str!" bekezdés") (hw.paragraph p hp).1 (glue l ++ r)
    rw [e]; exact paragraph_start _ _
  | none =>
  simp only [paragraphWords, hp, Option.toList_none, List.map_nil, List.nil_append] at hwords
  cases hn : w.numericPoint with
  | some p =>
    simp only [pointWords, hn, Option.toList_some, List.map_cons, List.map_nil, List.cons_append, List.nil_append,
      List.cons.injEq] at hwords
    rw [hwords.1]
    obtain ⟨r', e, h⟩ := words_others (span := dottedSpan) (word := str!" pont") (hw.numericPoint p hn).1 (glue l ++ r)
    rw [e]
    rcases h with h | ⟨r'', h⟩
    · exact dotted_start (hw.numericPoint p hn).1.1 (w := str!"pont") (r' := []) (noWs_cons (by decide)) (by decide)
        (.cons (by decide)) (.inl h)
    · exact dotted_start (hw.numericPoint p hn).1.1 (w := str!"pont") (noWs_cons (by decide)) (by decide)
        (.cons (by decide)) (.inr h)
  | none =>
  cases hb : w.alphabeticPoint with
  | some p =>
    simp only [pointWords, hn, hb, Option.toList_some, Option.toList_none, List.map_cons, List.map_nil, List.cons_append,
      List.nil_append, List.cons.injEq] at hwords
    rw [hwords.1]
    obtain ⟨r', e, h⟩ := words_others (span := letterSpan) (word := str!" pont") (hw.alphabeticPoint p hb).1 (glue l ++ r)
    rw [e]
    obtain ⟨c, t, e2, hc⟩ := letter_head p.first
    exact .letter (by rw [e2]; exact .cons hc) (itemStart_letter _) (by rw [e2]; simp)
  | none =>
  simp only [pointWords, hn, hb, Option.toList_none, List.map_nil, List.nil_append] at hwords
  cases hm : w.numericSubpoint with
  | some p =>
    simp only [subpointWords, hm, Option.toList_some, List.map_cons, List.map_nil, List.cons_append, List.nil_append,
      List.cons.injEq] at hwords
    rw [hwords.1]
    obtain ⟨r', e, h⟩ := words_others (span := dottedSpan) (word := str!" alpont") (hw.numericSubpoint p hm).1 (glue l ++ r)
    rw [e]
    rcases h with h | ⟨r'', h⟩
    · exact dotted_start (hw.numericSubpoint p hm).1.1 (w := str!"alpont") (r' := []) (noWs_cons (by decide)) (by decide)
        (.cons (by decide)) (.inl h)
    · exact dotted_start (hw.numericSubpoint p hm).1.1 (w := str!"alpont") (noWs_cons (by decide)) (by decide)
        (.cons (by decide)) (.inr h)
  | none =>
  cases hs : w.alphabeticSubpoint with
  | some p =>
    simp only [subpointWords, hm, hs, Option.toList_some, Option.toList_none, List.map_cons, List.map_nil, List.cons_append,
      List.nil_append, List.cons.injEq] at hwords
    rw [hwords.1]
    obtain ⟨r', e, h⟩ := words_others (span := prefixedSpan) (word := str!" alpont") (hw.alphabeticSubpoint p hs).1 (glue l ++ r)
    rw [e]
    obtain ⟨c, t, e2, hc⟩ := prefixed_head (hw.alphabeticSubpoint p hs).1.1
    exact .letter (by rw [e2]; exact .cons hc) (itemStart_prefixed (hw.alphabeticSubpoint p hs).1.1 _) (by rw [e2]; simp)
  | none => simp [subpointWords, hm, hs] at hwords

/-! ### lists of references -/

/-- The references with what is before each. -/
def refsText (l : List (Str × Phrase)) : Str := l.flatMap fun x => x.1 ++ x.2.text

/-- The results for references with something before each. -/
def refsAt : Nat → List (Str × Phrase) → List Reference
  | _, [] => []
  | n, (sep, w) :: l => phraseAt w (n + byteLen sep) :: refsAt (n + byteLen sep + byteLen w.text) l

theorem refsText_cons (sep : Str) (w : Phrase) (l : List (Str × Phrase)) :
    refsText ((sep, w) :: l) = sep ++ (w.text ++ refsText l) := by simp [refsText]

theorem after_refs {l : List (Str × Phrase)} (hl : ∀ x ∈ l, x.1 ∈ separators ∧ x.2.Usual) {rest : Str}
    (h : After rest) : After (refsText l ++ rest) := by
  cases l with
  | nil => exact h
  | cons x l =>
    obtain ⟨sep, w⟩ := x
    have := hl _ (List.mem_cons_self ..)
    rw [refsText_cons, List.append_assoc, List.append_assoc]
    exact separator_noLevel this.1 (phrase_start this.2 _).noMark

theorem fails_more {n : Nat} {rest : Str} (h : Ordinary rest) :
    Fails (do call listSeparator; call reference) n rest := by
  rcases hp : (call listSeparator).run ⟨n, rest⟩ with _ | ⟨a, j⟩
  · exact Fails.bind hp
  · obtain ⟨c, h1, h2⟩ := (call listSeparator).adv _ _ _ hp
    have h1 : rest = c ++ j.rest := h1
    have h3 : Reads (call listSeparator) n c j.rest a := by
      unfold Reads; rw [← h1, hp]; congr 2; cases j; simp_all
    rw [h1] at h ⊢
    exact Fails.bind_of h3 (fails_call_reference h.tail.noLevel)

/-- Ordinary text which does not begin with a letter. -/
theorem tailing_ordinary {s : Str} (h : Ordinary s) (h2 : Head (isHunLower · = false) s) : Tailing s :=
  ⟨⟨⟨h2, Head.of_all fun c hc => (ordinary_char (h.skip c hc)).1.2⟩, h.noLevel⟩, fun _ => fails_more h⟩

theorem reads_refs {l : List (Str × Phrase)} (hl : ∀ x ∈ l, x.1 ∈ separators ∧ x.2.Usual) {n : Nat} {rest : Str}
    (h : Tailing rest) :
    Reads (many (do call listSeparator; call reference)) n (refsText l) rest (refsAt n l) := by
  induction l generalizing n with
  | nil => exact .many_nil (h.stop n)
  | cons x l ih =>
    obtain ⟨sep, w⟩ := x
    have hx := hl _ (List.mem_cons_self ..)
    have hl' := fun x hx => hl x (List.mem_cons_of_mem _ hx)
    rw [refsText_cons, ← List.append_assoc]
    refine Reads.many_cons ?_ (reads_separated hx.1 (phrase_start hx.2 _).itemStart (reads_reference hx.2 (after_refs hl' h.after))) ?_
    · intro e
      obtain ⟨c, t, e2, -⟩ := (phrase_start hx.2 []).head
      simp at e2
      simp [e2] at e
    · rw [byteLen_append', ← Nat.add_assoc]
      exact ih hl'

/-! ### acts -/

theorem decInt_nonneg {i : Int} (h : 0 ≤ i) : decInt i = dec i.toNat := by
  unfold decInt
  rw [if_neg (by omega)]
  congr 1
  omega

theorem roman_chars {n : Nat} (h1 : 1 ≤ n) (h2 : n ≤ 3999) :
    ∃ s, romanTo n = some s ∧ romanFrom s = some n ∧ (∀ c ∈ s, isRomanChar c = true) ∧ s ≠ [] := by
  obtain ⟨s, h1, h2, h3, h4⟩ := roman_roundtrip h1 h2
  refine ⟨s, h1, h2, fun c hc => ?_, h4⟩
  have := h3 c hc
  simp only [isRomanDigit, Bool.or_eq_true, beq_iff_eq] at this
  rcases this with (((((rfl | rfl) | rfl) | rfl) | rfl) | rfl) | rfl <;> decide

theorem roman_noWs {c : Char} (h : isRomanChar c = true) : isWs c = false := by
  simp only [isRomanChar, List.contains_iff_mem, List.mem_cons, List.not_mem_nil, or_false] at h
  rcases h with rfl | rfl | rfl | rfl | rfl | rfl | rfl <;> decide

/-- The result for the number of an act. -/
def actIdAt (a : ActId) (e : Str) (n : Nat) : GActId :=
  ⟨decInt a.year.val, (romanTo a.number.val.toNat).getD [], ⟨n, n + byteLen (ActName.number a e).text⟩⟩

theorem reads_actId {a : ActId} {e : Str} (ha : (ActName.number a e).Usual) {n : Nat} {rest : Str}
    (h : Head (isHunLower · = false) rest) : Reads actId n (ActName.number a e).text rest (actIdAt a e n) := by
  obtain ⟨h1, h2, h3, hword⟩ := ha
  obtain ⟨s, hs, -, hs2, hs3⟩ := roman_chars (n := a.number.val.toNat) (by omega) (by omega)
  have ht : (ActName.number a e).text = dec a.year.val.toNat ++ (str!"." ++ (str!" évi" ++ ((' ' :: s) ++
      (str!"." ++ (' ' :: e))))) := by
    simp [ActName.text, decInt_nonneg h1, hs]
  have hpos : Reads (do
      let y ← call number
      tok str!"."
      tok str!"évi"
      let n ← call roman
      tok str!"."
      call actSuffix
      pure fun p => (⟨y, n, p⟩ : GActId)) n (ActName.number a e).text rest
      (fun p => ⟨dec a.year.val.toNat, s, p⟩) := by
    rw [ht]
    refine Reads.bind (Reads.call (noWs_dec _ _) (reads_number (.cons (by decide)))) ?_
    refine Reads.bind (Reads.tok (s := ['.']) (noWs_cons (by decide))) ?_
    refine Reads.bind (Reads.tok_space (s := str!"évi") (noWs_cons (by decide))) ?_
    refine Reads.bind (Reads.call_space (noWs_append hs3 (Head.of_all fun c hc => roman_noWs (hs2 c hc)))
      (Reads.slice (Reads.many1_chars hs3 hs2 ?_))) ?_
    · intro c hc; simp at hc; subst hc; decide
    refine Reads.bind (Reads.tok (s := ['.']) (noWs_cons (by decide))) ?_
    refine Reads.map (g := fun _ => fun p => (⟨dec a.year.val.toNat, s, p⟩ : GActId)) (a := ()) ?_
    rcases hword with ⟨e, rfl, h4, h5⟩ | rfl
    · refine Reads.call_space (noWs_cons (by decide)) (Reads.left ?_)
      exact Reads.bind (Reads.lit str!"törvén") (Reads.many1_chars h5 (ending_lower h4) h).map
    · exact Reads.call_space (noWs_cons (by decide)) (Reads.right (Fails.bind (Fails.lit (by
        rintro ⟨u, h⟩; simp at h))) (Reads.lit str!"tv."))
  have := Reads.positioned hpos
  simp only [actIdAt, decInt_nonneg h1, hs, Option.getD_some]
  exact this

theorem fails_actId_head {n : Nat} {s : Str} (h : Head (isDigit · = false) (skipWs s)) : Fails (call actId) n s :=
  Fails.call fun _ => Fails.positioned (Fails.bind (Fails.call_noWs (noWs_skipWs s) fun _ => fails_number h))

theorem fails_actId_start {n : Nat} {s : Str} (h : PhraseStart s) : Fails (call actId) n s := by
  have hd : ∀ c t, s = c :: t → isDigit c = false → isWs c = false → Fails (call actId) n s := by
    rintro c t rfl h1 h2
    refine fails_actId_head ?_
    rw [skipWs_cons h2]; exact .cons h1
  cases h with
  | paragraph k x e => exact hd _ _ e (by decide) (by decide)
  | letter h h2 h3 =>
    cases s with
    | nil => exact absurd rfl h3
    | cons c s => have : lowerAz c = true := h c rfl; exact hd _ _ rfl (lower_not this).1 (lowerAz_noWs this)
  | number k x hx e =>
    subst e
    refine Fails.call_noWs (noWs_dec _ _) fun n => Fails.positioned ?_
    refine Fails.bind_of (Reads.call (noWs_dec _ _) (reads_number hx.1)) ?_
    rcases hx.2 with h | ⟨y, rfl, h⟩
    · exact Fails.bind (Fails.tok (by decide) fun e => h _ e.symm rfl)
    · exact Fails.bind_of (t := ['.']) (rest := y) (Reads.tok (noWs_cons (by decide)))
        (Fails.bind (Fails.call fun _ => Fails.lit h))

theorem fails_fromNowOn {n : Nat} {s : Str} (h : NoBracket (skipWs s) ∨ PhraseStart (skipWs s)) : Fails fromNowOn n s := by
  have hd : Head (· ≠ '(') (skipWs s) → Fails fromNowOn n s := fun h =>
    Fails.bind (Fails.tok (by decide) fun e => h _ e.symm rfl)
  rcases h with h | h
  · by_cases hb : (skipWs s).head? = some '('
    · obtain ⟨w, hw, es⟩ := skipWs_split s
      cases hs : skipWs s with
      | nil => rw [hs] at hb; cases hb
      | cons c r =>
        rw [hs] at hb; cases hb
        have ha := (h r hs).short
        rw [es, hs, show w ++ '(' :: r = (w ++ ['(']) ++ r by simp]
        refine Fails.bind_of (Reads.call_ws hw (noWs_cons (by decide)) (Reads.lit ['('])) ?_
        by_cases hc : (skipWs r).head? = some 'a'
        · obtain ⟨v, hv, er⟩ := skipWs_split r
          cases hr : skipWs r with
          | nil => rw [hr] at hc; cases hc
          | cons d u =>
            rw [hr] at hc; cases hc
            rw [er, hr, show v ++ 'a' :: u = (v ++ ['a']) ++ u by simp]
            refine Fails.bind_of (Reads.call_ws hv (noWs_cons (by decide)) (Reads.lit ['a'])) ?_
            exact Fails.bind (Fails.call fun _ => Fails.lit (ha u hr))
        · exact Fails.bind (Fails.tok (by decide) fun e => hc e.symm)
    · exact hd fun c hc e => hb (by rw [hc, e])
  · cases h with
    | paragraph k x e =>
      obtain ⟨w, hw, es⟩ := skipWs_split s
      rw [e] at es
      rw [es, show w ++ '(' :: (dec k ++ x) = (w ++ ['(']) ++ (dec k ++ x) by simp]
      refine Fails.bind_of (Reads.call_ws hw (noWs_cons (by decide)) (Reads.lit ['('])) ?_
      refine Fails.bind (Fails.tok (by decide) ?_)
      rw [skipWs_noWs (noWs_dec _ _)]
      obtain ⟨c, t, e, hc⟩ := dec_head k x
      rw [e]
      intro he
      simp at he
      subst he
      revert hc; decide
    | number k x hx e =>
      refine hd ?_
      rw [e]
      obtain ⟨c, t, e, hc⟩ := dec_head k x
      rw [e]; exact .cons (digit_not hc).2
    | letter h h2 h3 => exact hd (h.mono fun c hc => (lower_not hc).2)

/-! ### rules with the context -/

/-- The rule with these abbreviations takes the text and does not change the context. -/
def ReadsS (known : List Str) (p : PS α) (n : Nat) (t rest : Str) (a : α) : Prop :=
  ∀ s : St, s.known = known → p.run ⟨n, t ++ rest⟩ s = (some (a, ⟨n + byteLen t, rest⟩), s)

/-- The rule with these abbreviations does not fit and does not change the context. -/
def FailsS (known : List Str) (p : PS α) (n : Nat) (r : Str) : Prop :=
  ∀ s : St, s.known = known → p.run ⟨n, r⟩ s = (none, s)

variable {known : List Str}

theorem ps_bind_run (p : PS α) (f : α → PS β) (i : Inp) (s : St) :
    (p >>= f).run i s = match p.run i s with
      | (some (a, j), t) => (f a).run j t
      | (none, t) => (none, t) := rfl

theorem ps_alt_run (p q : PS α) (i : Inp) (s : St) :
    (p <|> q).run i s = match p.run i s with
      | (some r, t) => (some r, t)
      | (none, t) => q.run i t := rfl

theorem ReadsS.lift {p : P α} {n : Nat} {t rest : Str} {a : α} (h : Reads p n t rest a) :
    ReadsS known (PS.lift p) n t rest a := fun s _ => by
  unfold Reads at h; simp only [PS.lift, h]

theorem FailsS.lift {p : P α} {n : Nat} {r : Str} (h : Fails p n r) : FailsS known (PS.lift p) n r := fun s _ => by
  unfold Fails at h; simp only [PS.lift, h]

theorem ReadsS.pure {n : Nat} {rest : Str} (a : α) : ReadsS known (Pure.pure a : PS α) n [] rest a := fun s _ => by
  show (some (a, _), s) = _
  simp [byteLen]

theorem ReadsS.bind {p : PS α} {f : α → PS β} {n : Nat} {t u rest : Str} {a : α} {b : β}
    (h1 : ReadsS known p n t (u ++ rest) a) (h2 : ReadsS known (f a) (n + byteLen t) u rest b) :
    ReadsS known (p >>= f) n (t ++ u) rest b := fun s hs => by
  rw [ps_bind_run, List.append_assoc, h1 s hs]
  simp only
  rw [h2 s hs, byteLen_append', Nat.add_assoc]

theorem ReadsS.map {p : PS α} {g : α → β} {n : Nat} {t rest : Str} {a : α} (h : ReadsS known p n t rest a) :
    ReadsS known (p >>= fun x => Pure.pure (g x)) n t rest (g a) := by
  have := ReadsS.bind (f := fun x => Pure.pure (g x)) (u := []) (rest := rest) h (ReadsS.pure (g a))
  simpa using this

theorem FailsS.bind {p : PS α} {f : α → PS β} {n : Nat} {r : Str} (h : FailsS known p n r) :
    FailsS known (p >>= f) n r := fun s hs => by rw [ps_bind_run, h s hs]

theorem FailsS.bind_of {p : PS α} {f : α → PS β} {n : Nat} {t rest : Str} {a : α} (h1 : ReadsS known p n t rest a)
    (h2 : FailsS known (f a) (n + byteLen t) rest) : FailsS known (p >>= f) n (t ++ rest) := fun s hs => by
  rw [ps_bind_run, h1 s hs]; exact h2 s hs

theorem ReadsS.left {p q : PS α} {n : Nat} {t rest : Str} {a : α} (h : ReadsS known p n t rest a) :
    ReadsS known (p <|> q) n t rest a := fun s hs => by rw [ps_alt_run, h s hs]

theorem ReadsS.right {p q : PS α} {n : Nat} {t rest : Str} {a : α} (h : FailsS known p n (t ++ rest))
    (h2 : ReadsS known q n t rest a) : ReadsS known (p <|> q) n t rest a := fun s hs => by
  rw [ps_alt_run, h s hs]; exact h2 s hs

theorem FailsS.alt {p q : PS α} {n : Nat} {r : Str} (h : FailsS known p n r) (h2 : FailsS known q n r) :
    FailsS known (p <|> q) n r := fun s hs => by rw [ps_alt_run, h s hs]; exact h2 s hs

theorem ReadsS.opt_some {p : PS α} {n : Nat} {t rest : Str} {a : α} (h : ReadsS known p n t rest a) :
    ReadsS known (PS.opt p) n t rest (some a) := fun s hs => by
  simp only [PS.opt, PS.optRun, h s hs]

theorem ReadsS.opt_none {p : PS α} {n : Nat} {rest : Str} (h : FailsS known p n rest) :
    ReadsS known (PS.opt p) n [] rest none := fun s hs => by
  simp only [PS.opt, PS.optRun, List.nil_append, h s hs]; simp [byteLen]

theorem ReadsS.call_ws {p : PS α} {n : Nat} {w t rest : Str} {a : α} (hw : ∀ c ∈ w, isWs c = true)
    (h : NoWs (t ++ rest)) (h2 : ReadsS known p (n + byteLen w) t rest a) : ReadsS known (PS.call p) n (w ++ t) rest a :=
  ReadsS.bind (ReadsS.lift (Reads.ws hw h)) h2

theorem ReadsS.call {p : PS α} {n : Nat} {t rest : Str} {a : α} (h : NoWs (t ++ rest))
    (h2 : ReadsS known p n t rest a) : ReadsS known (PS.call p) n t rest a :=
  ReadsS.call_ws (w := []) (by simp) h (by simpa [byteLen] using h2)

theorem FailsS.call {p : PS α} {n : Nat} {r : Str} (h : ∀ n, FailsS known p n (skipWs r)) :
    FailsS known (PS.call p) n r := by
  obtain ⟨w, hw, e⟩ := skipWs_split r
  have := FailsS.bind_of (f := fun _ => p) (ReadsS.lift (Reads.ws (n := n) hw (noWs_skipWs r))) (h _)
  rw [← e] at this
  exact this

theorem FailsS.call_noWs {p : PS α} {n : Nat} {r : Str} (hr : NoWs r) (h : ∀ n, FailsS known p n r) :
    FailsS known (PS.call p) n r := FailsS.call fun n => by rw [skipWs_noWs hr]; exact h n

/-! ### the act of a group -/

/-- The result for the name of an act. -/
def actAt (n : Nat) : ActName → ActReference
  | .number a e => .actId (actIdAt a e n) none
  | .short s _ => .abbreviation s ⟨n, n + byteLen s⟩

theorem fails_checkedActId {n : Nat} {s : Str} (h : ∀ n, Fails (call actId) n s) : FailsS known checkedActId n s := by
  intro st _
  have : actIdWithFromNowOn.run ⟨n, s⟩ = none := Fails.bind (h n)
  show checkedRun _ _ = _
  simp only [checkedRun, this]

theorem fails_abbreviation {n : Nat} {s : Str} (h : parseAbbreviation known (skipWs s) = none) :
    FailsS known (PS.call abbreviation) n s := by
  refine FailsS.call fun n st hst => ?_
  have : FailsS known (PS.call abbreviationContent) n (skipWs s) := by
    refine FailsS.call_noWs (noWs_skipWs s) fun n st hst => ?_
    show abbreviationRun _ _ = _
    simp only [abbreviationRun, hst, h]
  show positionedAbbreviationRun _ _ = _
  simp only [positionedAbbreviationRun, this st hst]

theorem reads_abbreviation {n : Nat} {s rest : Str} (hs : NoWs (s ++ rest)) (h : parseAbbreviation known (s ++ rest) = some s) :
    ReadsS known (PS.call abbreviation) n s rest (.abbreviation s ⟨n, n + byteLen s⟩) := by
  refine ReadsS.call hs fun st hst => ?_
  have : ReadsS known (PS.call abbreviationContent) n s rest s := by
    refine ReadsS.call hs fun st hst => ?_
    show abbreviationRun _ _ = _
    simp only [abbreviationRun, hst, h, Inp.drop]
    simp
  show positionedAbbreviationRun _ _ = _
  simp only [positionedAbbreviationRun, this st hst]

theorem fails_actReference {n : Nat} {s : Str} (h : ∀ n, Fails (call actId) n (skipWs s))
    (h2 : parseAbbreviation known (skipWs s) = none) : FailsS known (PS.call actReference) n s := by
  refine FailsS.call fun n => FailsS.alt (FailsS.call_noWs (noWs_skipWs s) fun n => fails_checkedActId h) ?_
  refine fails_abbreviation ?_
  rw [skipWs_noWs (noWs_skipWs s)]; exact h2

/-- After the name of an act: nothing that belongs to it. -/
structure AfterAct (s : Str) : Prop where
  lower : Head (isHunLower · = false) s
  bracket : NoBracket (skipWs s) ∨ PhraseStart (skipWs s)

/-- What the abbreviations give at the name of an act. -/
def Shortens (known : List Str) (a : ActName) (rest : Str) : Prop :=
  match a with
  | .number _ _ => True
  | .short s _ => parseAbbreviation known (s ++ rest) = some s

theorem letter_char {c : Char} (h : c ∈ lowerLetters ∨ c ∈ upperLetters) : isWs c = false ∧ isDigit c = false := by
  rcases h with h | h <;> revert h <;> revert c <;> decide +kernel

theorem act_head {a : ActName} (ha : a.Usual) : ∃ c t, a.text = c :: t ∧ isWs c = false ∧
    (c ≠ ')' ∧ isDashChar c = false) ∧ c ≠ '„' := by
  cases a with
  | number a e =>
    obtain ⟨c, t, h, hc⟩ := dec_head a.year.val.toNat (str!". évi " ++ (romanTo a.number.val.toNat).getD [] ++ str!". " ++ e)
    refine ⟨c, t, ?_, digit_noWs hc, (LevelHead.noMark (.inl hc)), ?_⟩
    · rw [← h]; simp [ActName.text, decInt_nonneg ha.1]
    · rintro rfl; revert hc; decide
  | short s x =>
    obtain ⟨ho, c, hc, hl⟩ := ha
    cases s with
    | nil => simp at hc
    | cons d s =>
      simp at hc; subst hc
      have := ordinary_char (ho d (List.mem_cons_self ..))
      exact ⟨d, s, rfl, (letter_char hl).1, this.1, this.2.2.2.1⟩

theorem act_noWs {a : ActName} (ha : a.Usual) (r : Str) : NoWs (a.text ++ r) := by
  obtain ⟨c, t, e, h, -⟩ := act_head ha
  rw [e]; exact noWs_cons h

theorem reads_actReference {a : ActName} (ha : a.Usual) {n : Nat} {rest : Str} (h : AfterAct rest)
    (h2 : Shortens known a rest) : ReadsS known (PS.call actReference) n a.text rest (actAt n a) := by
  have hw := act_noWs ha rest
  cases a with
  | number a e =>
    refine ReadsS.call hw (ReadsS.left (ReadsS.call hw fun s _ => ?_))
    have h1 : Reads actIdWithFromNowOn n (ActName.number a e).text rest (actIdAt a e n, none) := by
      have := Reads.bind (f := fun i => opt fromNowOn >>= fun a => pure (i, a.join)) (u := [])
        (Reads.call hw (reads_actId ha (n := n) h.lower))
        ((Reads.opt_none (fails_fromNowOn h.bracket)).map (g := fun b : Option (Option Str) => (actIdAt a e n, b.join)))
      rw [List.append_nil] at this
      exact this
    show checkedRun _ _ = _
    unfold Reads at h1
    simp only [checkedRun, h1, St.store, actAt]
  | short s x =>
    obtain ⟨ho, c, hc, hl⟩ := ha
    refine ReadsS.call hw (ReadsS.right ?_ (reads_abbreviation hw h2))
    refine FailsS.call_noWs hw fun n => fails_checkedActId fun n => fails_actId_head ?_
    rw [skipWs_noWs hw]
    cases s with
    | nil => simp at hc
    | cons d s => simp at hc; subst hc; exact .cons (letter_char hl).2

/-! ### groups -/

/-- The text of the name of the act. -/
def actPart (g : PhraseGroup) : Str := (g.act.map ActName.text).getD []

/-- The result for a group at a position. -/
def groupAt (g : PhraseGroup) (n : Nat) : CompoundReference :=
  ⟨g.act.map (actAt n), refsAt (n + byteLen (actPart g)) g.references⟩

theorem reads_compoundWithReferences {n : Nat} {t u v rest : Str} {a : Option ActReference} {r : Reference}
    {l : List Reference} (h1 : ReadsS known (PS.opt (PS.call actReference)) n t (u ++ (v ++ rest)) a)
    (h2 : Reads (call reference) (n + byteLen t) u (v ++ rest) r)
    (h3 : Reads (many (do call listSeparator; call reference)) (n + byteLen t + byteLen u) v rest l) :
    ReadsS known compoundWithReferences n (t ++ (u ++ v)) rest ⟨a, r :: l⟩ := by
  refine ReadsS.bind (by simpa using h1) (ReadsS.bind (ReadsS.lift h2) ?_)
  exact ReadsS.map (g := fun l => (⟨a, r :: l⟩ : CompoundReference)) (ReadsS.lift h3)

theorem reads_group {g : PhraseGroup} (hg : g.Usual) {n : Nat} {rest : Str} (h : Tailing rest)
    (hact : ∀ a, g.act = some a → Shortens known a (refsText g.references ++ rest))
    (hno : g.act = none → parseAbbreviation known (refsText g.references ++ rest) = none) :
    ReadsS known compoundReference n g.text rest (groupAt g n) := by
  have htext : g.text = actPart g ++ refsText g.references := rfl
  obtain ⟨act, refs⟩ := g
  cases refs with
  | nil =>
    cases act with
    | none => exact absurd hg.named (by simp)
    | some a =>
      have ha := hg.act a rfl
      have hr : ReadsS known (PS.call actReference) n a.text rest (actAt n a) := by
        refine reads_actReference ha ⟨h.after.next.lower, .inl h.after.none.paragraph⟩ ?_
        have := hact a rfl
        simpa [refsText] using this
      have htext : PhraseGroup.text ⟨some a, []⟩ = a.text := by simp [PhraseGroup.text]
      rw [htext]
      refine ReadsS.right ?_ ?_
      · exact FailsS.bind_of hr.opt_some (FailsS.bind (FailsS.lift (fails_call_reference h.after.none)))
      · exact hr.map (g := fun a => (⟨some a, []⟩ : CompoundReference))
  | cons x refs =>
    obtain ⟨sep, w⟩ := x
    have hw := hg.references _ (List.mem_cons_self ..)
    have hrest : ∀ x ∈ refs, x.1 ∈ separators ∧ x.2.Usual := fun x hx =>
      ⟨hg.others x hx, hg.references x (List.mem_cons_of_mem _ hx)⟩
    have hafter := after_refs hrest h.after
    have hstart := phrase_start hw (refsText refs ++ rest)
    have hsep : sep = if act = none then [] else str!" " := hg.first (sep, w) rfl
    have hsp : sep = [] ∨ sep = [' '] := by rw [hsep]; split <;> simp
    refine ReadsS.left ?_
    rw [htext, refsText_cons, ← List.append_assoc sep]
    refine reads_compoundWithReferences ?_ (reads_call_sp hsp hstart.itemStart.noWs (reads_reference hw hafter)) ?_
    · cases act with
      | none =>
        have : sep = [] := hsep
        subst this
        refine ReadsS.opt_none (fails_actReference (fun n => ?_) ?_)
        · rw [List.nil_append, skipWs_noWs hstart.itemStart.noWs]; exact fails_actId_start hstart
        · have := hno rfl
          rw [refsText_cons, List.nil_append, List.append_assoc] at this
          rw [List.nil_append, skipWs_noWs hstart.itemStart.noWs]; exact this
      | some a =>
        have : sep = [' '] := hsep
        subst this
        refine ReadsS.opt_some (reads_actReference (hg.act a rfl) ⟨.cons (by decide), .inr ?_⟩ ?_)
        · rw [List.append_assoc, skipWs_sp (.inr rfl) hstart.itemStart.noWs]; exact hstart
        · have := hact a rfl
          rw [refsText_cons] at this
          simpa using this
    · rw [Nat.add_assoc, Nat.add_assoc]
      have := reads_refs hrest h (n := n + byteLen (actPart ⟨act, (sep, w) :: refs⟩) + byteLen sep + byteLen w.text)
      rw [byteLen_append']
      simpa only [Nat.add_assoc] using this

end HunLaw.Grammar
