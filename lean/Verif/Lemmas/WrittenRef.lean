import Verif.Lemmas.WrittenPhrase

/-! The grammar recognises a whole reference in the usual form: putting the levels together. -/

set_option autoImplicit false

namespace HunLaw.Grammar

open HunLaw P Spec

variable {α β : Type}

/-- What is after a reference does not belong to it. -/
structure After (s : Str) : Prop where
  next : Next s
  none : NoLevel s

def articleWords (w : Phrase) : List Words := w.article.toList.map (Listing.words articleSpan str!" §")
def paragraphWords (w : Phrase) : List Words := w.paragraph.toList.map (Listing.words paragraphSpan str!" bekezdés")
def pointWords (w : Phrase) : List Words :=
  w.numericPoint.toList.map (Listing.words dottedSpan str!" pont") ++
  w.alphabeticPoint.toList.map (Listing.words letterSpan str!" pont")
def subpointWords (w : Phrase) : List Words :=
  w.numericSubpoint.toList.map (Listing.words dottedSpan str!" alpont") ++
  w.alphabeticSubpoint.toList.map (Listing.words prefixedSpan str!" alpont")

theorem words_eq (w : Phrase) : w.words = articleWords w ++ (paragraphWords w ++ (pointWords w ++ subpointWords w)) := by
  simp [Phrase.words, articleWords, paragraphWords, pointWords, subpointWords]

/-- The levels with a space before each. -/
def glue (l : List Words) : Str := l.flatMap fun x => ' ' :: x.text

/-- The length of the levels with a space after each. -/
def offset (l : List Words) : Nat := byteLen (glue l)

theorem glue_append (a b : List Words) : glue (a ++ b) = glue a ++ glue b := List.flatMap_append

/-- The first character of a level. -/
def LevelHead (c : Char) : Prop := isDigit c = true ∨ c = '(' ∨ lowerAz c = true

theorem LevelHead.noWs {c : Char} (h : LevelHead c) : isWs c = false := by
  rcases h with h | rfl | h
  · exact digit_noWs h
  · rfl
  · exact lowerAz_noWs h

theorem LevelHead.noDash {c : Char} (h : LevelHead c) : isDashChar c = false := by
  rcases h with h | rfl | h
  · rw [Bool.eq_false_iff]; intro hd
    simp only [isDashChar, List.contains_iff_mem, List.mem_cons, List.not_mem_nil, or_false] at hd
    rcases hd with rfl | rfl | rfl <;> revert h <;> decide
  · rfl
  · exact (Other.of_lower h).dash

theorem head_words {span : Span α → Str} {word : Str} {l : Listing α} {c : Char} {t : Str} (h : span l.first = c :: t)
    (r : Str) : ∃ t', (l.words span word).text ++ r = c :: t' := by
  rw [words_text, h]; exact ⟨_, rfl⟩

theorem dec_head (k : Nat) (s : Str) : ∃ c t, dec k ++ s = c :: t ∧ isDigit c = true := by
  cases hd : dec k with
  | nil => exact absurd hd (dec_ne_nil k)
  | cons c t => exact ⟨c, _, rfl, dec_digits k c (by rw [hd]; exact List.mem_cons_self ..)⟩

theorem dotted_head (s : Span NumericId) : ∃ c t, dottedSpan s = c :: t ∧ isDigit c = true := by
  cases s <;> simp only [dottedSpan, display_numeric, List.append_assoc] <;> exact dec_head _ _

theorem paragraph_head (s : Span NumericId) : ∃ t, paragraphSpan s = '(' :: t := by
  cases s <;> exact ⟨_, rfl⟩

theorem letters_head {x s : Str} (hx : x ≠ []) (h : ∀ c ∈ x, lowerAz c = true) :
    ∃ c t, x ++ s = c :: t ∧ lowerAz c = true := by
  cases x with
  | nil => exact absurd rfl hx
  | cons c x => exact ⟨c, _, rfl, h c (List.mem_cons_self ..)⟩

theorem letter_head (s : Span HunChar) : ∃ c t, letterSpan s = c :: t ∧ lowerAz c = true := by
  cases s <;> simp only [letterSpan, List.append_assoc] <;> exact letters_head letter_display.2.1 letter_display.1

theorem prefixed_head {s : Span PrefixedId} (hs : s.Fits PrefixedUsual) :
    ∃ c t, prefixedSpan s = c :: t ∧ lowerAz c = true := by
  cases s with
  | one a => exact letters_head (display_prefixed hs).2.1 (display_prefixed hs).1
  | upTo d a b =>
    simp only [prefixedSpan, List.append_assoc]
    exact letters_head (display_prefixed hs.2.1).2.1 (display_prefixed hs.2.1).1

theorem dotted_words (l : Listing NumericId) (word r : Str) :
    ∃ c t, (l.words dottedSpan word).text ++ r = c :: t ∧ isDigit c = true := by
  obtain ⟨c, t, h, hc⟩ := dotted_head l.first
  obtain ⟨t', ht⟩ := head_words (word := word) h r
  exact ⟨c, t', ht, hc⟩

theorem letter_words (l : Listing HunChar) (word r : Str) :
    ∃ c t, (l.words letterSpan word).text ++ r = c :: t ∧ lowerAz c = true := by
  obtain ⟨c, t, h, hc⟩ := letter_head l.first
  obtain ⟨t', ht⟩ := head_words (word := word) h r
  exact ⟨c, t', ht, hc⟩

theorem prefixed_words {l : Listing PrefixedId} (hl : l.Fits (Span.Fits PrefixedUsual)) (word r : Str) :
    ∃ c t, (l.words prefixedSpan word).text ++ r = c :: t ∧ lowerAz c = true := by
  obtain ⟨c, t, h, hc⟩ := prefixed_head hl.1
  obtain ⟨t', ht⟩ := head_words (word := word) h r
  exact ⟨c, t', ht, hc⟩

theorem paragraph_words (l : Listing NumericId) (word r : Str) :
    ∃ t, (l.words paragraphSpan word).text ++ r = '(' :: t := by
  obtain ⟨t, h⟩ := paragraph_head l.first
  exact head_words (word := word) h r

theorem next_level {c : Char} {t : Str} (h : LevelHead c) : Next (' ' :: c :: t) := by
  refine ⟨.cons (by decide), ?_⟩
  have : skipWs (' ' :: c :: t) = c :: t := by
    unfold skipWs; rw [List.dropWhile_cons]; exact skipWs_cons h.noWs
  rw [this]
  exact .cons h.noDash

/-- A rule with whitespace or without it before the text. -/
theorem reads_call_sp {p : P α} {n : Nat} {sp t rest : Str} {a : α} (hsp : sp = [] ∨ sp = [' ']) (h : NoWs (t ++ rest))
    (h2 : Reads p (n + byteLen sp) t rest a) : Reads (call p) n (sp ++ t) rest a := by
  refine Reads.call_ws ?_ h h2
  rcases hsp with rfl | rfl <;> simp [isWs]

theorem skipWs_sp {sp t : Str} (hsp : sp = [] ∨ sp = [' ']) (h : NoWs t) : skipWs (sp ++ t) = t := by
  rcases hsp with rfl | rfl
  · exact skipWs_noWs h
  · show skipWs (' ' :: t) = t
    unfold skipWs; rw [List.dropWhile_cons]; exact skipWs_noWs h

theorem fails_call_sp {p : P α} {n : Nat} {sp t : Str} (hsp : sp = [] ∨ sp = [' ']) (h : NoWs t)
    (h2 : ∀ n, Fails p n t) : Fails (call p) n (sp ++ t) :=
  Fails.call fun n => by rw [skipWs_sp hsp h]; exact h2 n

theorem digit_not {c : Char} (h : isDigit c = true) : lowerAz c = false ∧ c ≠ '(' := by
  rw [isDigit_iff] at h
  refine ⟨?_, ?_⟩
  · rw [Bool.eq_false_iff]; intro hl
    simp only [lowerAz, Bool.and_eq_true, decide_eq_true_eq] at hl
    omega
  · rintro rfl; revert h; decide

theorem lower_not {c : Char} (h : lowerAz c = true) : isDigit c = false ∧ c ≠ '(' := by
  refine ⟨(Other.of_lower h).digit, ?_⟩
  rintro rfl; revert h; decide

theorem glue_one (x : Words) : glue [x] = ' ' :: x.text := by simp [glue]

theorem byteLen_space : byteLen [' '] = 1 := by decide

theorem offset_one (x : Words) : offset [x] = byteLen x.text + 1 := by
  rw [offset, glue_one]
  have : utf8Len ' ' = 1 := by decide
  simp [byteLen, this, Nat.add_comm]

/-! ### the rules for the levels -/

theorem reads_optTail_some {p : P Tail} {n : Nat} {t rest : Str} {x : Tail} (h : Reads p n t rest x) :
    Reads (optTail p) n t rest x := h.opt_some.map (g := fun t : Option Tail => t.getD {})

theorem reads_optTail_none {p : P Tail} {n : Nat} {rest : Str} (h : Fails p n rest) :
    Reads (optTail p) n [] rest {} := (Reads.opt_none h).map (g := fun t : Option Tail => t.getD {})

theorem reads_withPoint_of {n : Nat} {t u rest : Str} {a s : Tail} (hp : Reads pointTail n t (u ++ rest) a)
    (hs : Reads (optTail withSubpoint) (n + byteLen t) u rest s) : Reads withPoint n (t ++ u) rest
      { a with alphabeticSubpoint := s.alphabeticSubpoint, numericSubpoint := s.numericSubpoint } :=
  Reads.bind hp (hs.map (g := fun s : Tail =>
    { a with alphabeticSubpoint := s.alphabeticSubpoint, numericSubpoint := s.numericSubpoint }))

theorem reads_withParagraph_of {n : Nat} {t u rest : Str} {l : List Part} {s : Tail}
    (hp : Reads (call paragraphReference) n t (u ++ rest) l)
    (hs : Reads (optTail withPoint) (n + byteLen t) u rest s) : Reads withParagraph n (t ++ u) rest
      { s with paragraph := some l } :=
  Reads.bind hp (hs.map (g := fun s : Tail => { s with paragraph := some l }))

theorem reads_articleWithParagraph_of {n : Nat} {t u rest : Str} {l : List ArticlePart} {s : Tail}
    (hp : Reads (call articleReference) n t (u ++ rest) l)
    (hs : Reads withParagraph (n + byteLen t) u rest s) : Reads articleWithParagraph n (t ++ u) rest (some l, s) :=
  Reads.bind hp (hs.map (g := fun s : Tail => (some l, s)))

theorem reads_articleWithPoint_of {n : Nat} {t u rest : Str} {l : List ArticlePart} {s : Tail}
    (hp : Reads (call articleReference) n t (u ++ rest) l)
    (hs : Reads (optTail withPoint) (n + byteLen t) u rest s) : Reads articleWithPoint n (t ++ u) rest (some l, s) :=
  Reads.bind hp (hs.map (g := fun s : Tail => (some l, s)))

theorem reads_withoutArticle_of {n : Nat} {t rest : Str} {s : Tail}
    (h : Reads (withParagraph <|> withPoint <|> withSubpoint) n t rest s) : Reads withoutArticle n t rest (none, s) :=
  h.map (g := fun s : Tail => (none, s))

theorem fails_articleWithParagraph {n : Nat} {s : Str} (h : Fails (call articleReference) n s) :
    Fails articleWithParagraph n s := Fails.bind h

theorem fails_articleWithPoint {n : Nat} {s : Str} (h : Fails (call articleReference) n s) :
    Fails articleWithPoint n s := Fails.bind h

theorem fails_articleWithParagraph_of {n : Nat} {t u : Str} {l : List ArticlePart}
    (hp : Reads (call articleReference) n t u l) (hs : Fails withParagraph (n + byteLen t) u) :
    Fails articleWithParagraph n (t ++ u) := Fails.bind_of hp (Fails.bind hs)

theorem fails_withParagraph {n : Nat} {s : Str} (h : Fails (call paragraphReference) n s) : Fails withParagraph n s :=
  Fails.bind h

theorem fails_withPoint {n : Nat} {s : Str} (h1 : Fails (call alphabeticPointReference) n s)
    (h2 : Fails (call numericPointReference) n s) : Fails withPoint n s :=
  Fails.bind (Fails.alt (Fails.bind h1) (Fails.bind h2))

theorem reads_numericSubpoint_of {n : Nat} {t rest : Str} {l : List Part}
    (h1 : Fails (call alphabeticSubpointReference) n (t ++ rest)) (h2 : Reads (call numericSubpointReference) n t rest l) :
    Reads withSubpoint n t rest { numericSubpoint := some l } :=
  Reads.right (Fails.bind h1) (h2.map (g := fun l => ({ numericSubpoint := some l } : Tail)))

theorem reads_alphabeticSubpoint_of {n : Nat} {t rest : Str} {l : List Part}
    (h : Reads (call alphabeticSubpointReference) n t rest l) :
    Reads withSubpoint n t rest { alphabeticSubpoint := some l } :=
  Reads.left (h.map (g := fun l => ({ alphabeticSubpoint := some l } : Tail)))

theorem reads_numericPoint_of {n : Nat} {t rest : Str} {l : List Part}
    (h1 : Fails (call alphabeticPointReference) n (t ++ rest)) (h2 : Reads (call numericPointReference) n t rest l) :
    Reads pointTail n t rest { numericPoint := some l } :=
  Reads.right (Fails.bind h1) (h2.map (g := fun l => ({ numericPoint := some l } : Tail)))

theorem reads_alphabeticPoint_of {n : Nat} {t rest : Str} {l : List Part}
    (h : Reads (call alphabeticPointReference) n t rest l) :
    Reads pointTail n t rest { alphabeticPoint := some l } :=
  Reads.left (h.map (g := fun l => ({ alphabeticPoint := some l } : Tail)))

theorem reads_reference_of {n : Nat} {t rest : Str} {r : Option (List ArticlePart) × Tail}
    (h : Reads (articleWithParagraph <|> articleWithPoint <|> withoutArticle) n t rest r) :
    Reads reference n t rest (r.2.reference r.1 ⟨n, n + byteLen t⟩) :=
  Reads.positioned (h.map (g := fun r p => r.2.reference r.1 p))

theorem glue_cons (x : Words) (l : List Words) : glue (x :: l) = ' ' :: x.text ++ glue l := by simp [glue]

theorem glue_nil : glue [] = [] := rfl

theorem offset_nil : offset [] = 0 := rfl

attribute [local irreducible] Reads Fails glue offset

/-! ### subpoints -/

/-- The result for the subpoints at a position. -/
def subpointTail (w : Phrase) (n : Nat) : Tail :=
  { alphabeticSubpoint := w.alphabeticSubpoint.map (itemsAt prefixedSpan (partAt PrefixedId.display prefixedSpan) n)
    numericSubpoint := w.numericSubpoint.map (itemsAt dottedSpan (partAt NumericId.display dottedSpan) n) }

theorem subpoint_cases {w : Phrase} (hw : w.Usual) : (w.numericSubpoint = none ∧ w.alphabeticSubpoint = none) ∨
    (∃ l, w.numericSubpoint = some l ∧ w.alphabeticSubpoint = none) ∨
    ∃ l, w.numericSubpoint = none ∧ w.alphabeticSubpoint = some l := by
  have := hw.oneSubpoint
  cases h1 : w.numericSubpoint <;> cases h2 : w.alphabeticSubpoint <;> simp_all

theorem point_cases {w : Phrase} (hw : w.Usual) : (w.numericPoint = none ∧ w.alphabeticPoint = none) ∨
    (∃ l, w.numericPoint = some l ∧ w.alphabeticPoint = none) ∨
    ∃ l, w.numericPoint = none ∧ w.alphabeticPoint = some l := by
  have := hw.onePoint
  cases h1 : w.numericPoint <;> cases h2 : w.alphabeticPoint <;> simp_all

theorem reads_withSubpoint {w : Phrase} (hw : w.Usual) {n : Nat} {sp rest : Str} (hsp : sp = [] ∨ sp = [' '])
    (h : Next rest) {x : Words} (hx : subpointWords w = [x]) :
    Reads withSubpoint n (sp ++ x.text) rest (subpointTail w (n + byteLen sp)) := by
  rcases subpoint_cases hw with ⟨h1, h2⟩ | ⟨l, h1, h2⟩ | ⟨l, h1, h2⟩
  · simp [subpointWords, h1, h2] at hx
  · simp only [subpointWords, h1, h2, Option.toList_some, Option.toList_none, List.map_cons, List.map_nil,
      List.append_nil, List.cons.injEq, and_true] at hx
    subst hx
    obtain ⟨c, t, e, hc⟩ := dotted_words l str!" alpont" rest
    have hws : NoWs ((l.words dottedSpan str!" alpont").text ++ rest) := by rw [e]; exact noWs_cons (digit_noWs hc)
    have := reads_numericSubpoint_of (n := n) (rest := rest) ?_ (reads_call_sp hsp hws
      (reads_numericSubpointReference (n := n + byteLen sp) (hw.numericSubpoint l h1).1 (hw.numericSubpoint l h1).2 h))
    · simpa only [subpointTail, h1, h2, Option.map_some, Option.map_none] using this
    · rw [List.append_assoc]
      refine fails_alphabeticSubpointReference (noMark_head ?_)
      rw [skipWs_sp hsp hws, e]; exact .cons (digit_not hc).1
  · simp only [subpointWords, h1, h2, Option.toList_some, Option.toList_none, List.map_cons, List.map_nil,
      List.nil_append, List.cons.injEq, and_true] at hx
    subst hx
    obtain ⟨c, t, e, hc⟩ := prefixed_words (hw.alphabeticSubpoint l h2).1 str!" alpont" rest
    have hws : NoWs ((l.words prefixedSpan str!" alpont").text ++ rest) := by rw [e]; exact noWs_cons (lowerAz_noWs hc)
    have := reads_alphabeticSubpoint_of (reads_call_sp hsp hws (reads_alphabeticSubpointReference (n := n + byteLen sp)
      (hw.alphabeticSubpoint l h2).1 (hw.alphabeticSubpoint l h2).2 h))
    simpa only [subpointTail, h1, h2, Option.map_some, Option.map_none] using this

theorem subpointWords_cases {w : Phrase} (hw : w.Usual) :
    (subpointWords w = [] ∧ ∀ n, subpointTail w n = {}) ∨ ∃ x, subpointWords w = [x] ∧
      ∀ r, ∃ c t, x.text ++ r = c :: t ∧ LevelHead c ∧ c ≠ '(' := by
  rcases subpoint_cases hw with ⟨h1, h2⟩ | ⟨l, h1, h2⟩ | ⟨l, h1, h2⟩
  · exact .inl ⟨by simp [subpointWords, h1, h2], fun n => by simp [subpointTail, h1, h2]⟩
  · refine .inr ⟨l.words dottedSpan str!" alpont", by simp [subpointWords, h1, h2], fun r => ?_⟩
    obtain ⟨c, t, e, hc⟩ := dotted_words l str!" alpont" r
    exact ⟨c, t, e, .inl hc, (digit_not hc).2⟩
  · refine .inr ⟨l.words prefixedSpan str!" alpont", by simp [subpointWords, h1, h2], fun r => ?_⟩
    obtain ⟨c, t, e, hc⟩ := prefixed_words (hw.alphabeticSubpoint l h2).1 str!" alpont" r
    exact ⟨c, t, e, .inr (.inr hc), (lower_not hc).2⟩

theorem pointWords_cases {w : Phrase} (hw : w.Usual) :
    (pointWords w = [] ∧ w.numericPoint = none ∧ w.alphabeticPoint = none) ∨ ∃ x, pointWords w = [x] ∧
      ∀ r, ∃ c t, x.text ++ r = c :: t ∧ LevelHead c ∧ c ≠ '(' := by
  rcases point_cases hw with ⟨h1, h2⟩ | ⟨l, h1, h2⟩ | ⟨l, h1, h2⟩
  · exact .inl ⟨by simp [pointWords, h1, h2], h1, h2⟩
  · refine .inr ⟨l.words dottedSpan str!" pont", by simp [pointWords, h1, h2], fun r => ?_⟩
    obtain ⟨c, t, e, hc⟩ := dotted_words l str!" pont" r
    exact ⟨c, t, e, .inl hc, (digit_not hc).2⟩
  · refine .inr ⟨l.words letterSpan str!" pont", by simp [pointWords, h1, h2], fun r => ?_⟩
    obtain ⟨c, t, e, hc⟩ := letter_words l str!" pont" r
    exact ⟨c, t, e, .inr (.inr hc), (lower_not hc).2⟩

theorem paragraphWords_cases (w : Phrase) :
    (paragraphWords w = [] ∧ w.paragraph = none) ∨ ∃ l, w.paragraph = some l ∧
      paragraphWords w = [l.words paragraphSpan str!" bekezdés"] := by
  cases h : w.paragraph with
  | none => exact .inl ⟨by simp [paragraphWords, h], rfl⟩
  | some l => exact .inr ⟨l, rfl, by simp [paragraphWords, h]⟩

/-- After a level comes another one, or what is after the reference. -/
theorem next_glue {l : List Words} {rest : Str} (h : Next rest)
    (hl : ∀ x, l.head? = some x → ∀ r, ∃ c t, x.text ++ r = c :: t ∧ LevelHead c) : Next (glue l ++ rest) := by
  cases l with
  | nil => rw [glue_nil]; exact h
  | cons x l =>
    obtain ⟨c, t, e, hc⟩ := hl x rfl (glue l ++ rest)
    rw [glue_cons, List.append_assoc, List.cons_append, e]
    exact next_level hc

theorem next_subpoint {w : Phrase} (hw : w.Usual) {rest : Str} (h : Next rest) : Next (glue (subpointWords w) ++ rest) := by
  refine next_glue h fun x hx r => ?_
  rcases subpointWords_cases hw with ⟨e, -⟩ | ⟨y, e, hy⟩ <;> rw [e] at hx
  · cases hx
  · cases hx; obtain ⟨c, t, h1, h2, -⟩ := hy r; exact ⟨c, t, h1, h2⟩

theorem next_point {w : Phrase} (hw : w.Usual) {rest : Str} (h : Next rest) :
    Next (glue (pointWords w ++ subpointWords w) ++ rest) := by
  rcases pointWords_cases hw with ⟨e, -⟩ | ⟨y, e, hy⟩
  · rw [e]; exact next_subpoint hw h
  · refine next_glue h fun x hx r => ?_
    rw [e] at hx
    cases hx; obtain ⟨c, t, h1, h2, -⟩ := hy r; exact ⟨c, t, h1, h2⟩

theorem reads_optSubpoint {w : Phrase} (hw : w.Usual) {n : Nat} {rest : Str} (h : After rest) :
    Reads (optTail withSubpoint) n (glue (subpointWords w)) rest (subpointTail w (n + 1)) := by
  rcases subpointWords_cases hw with ⟨e, ht⟩ | ⟨x, e, -⟩
  · rw [e, ht]
    rw [glue_nil]; exact reads_optTail_none h.none.subpoint
  · rw [e, glue_one]
    have := reads_withSubpoint hw (n := n) (sp := [' ']) (.inr rfl) h.next e
    rw [byteLen_space] at this
    exact reads_optTail_some this

/-! ### points -/

/-- The result for the points and the subpoints at a position. -/
def pointAt (w : Phrase) (n : Nat) : Tail :=
  { alphabeticPoint := w.alphabeticPoint.map (itemsAt letterSpan (partAt HunChar.display letterSpan) n)
    numericPoint := w.numericPoint.map (itemsAt dottedSpan (partAt NumericId.display dottedSpan) n)
    alphabeticSubpoint := (subpointTail w (n + offset (pointWords w))).alphabeticSubpoint
    numericSubpoint := (subpointTail w (n + offset (pointWords w))).numericSubpoint }

theorem reads_withPoint {w : Phrase} (hw : w.Usual) {n : Nat} {sp rest : Str} (hsp : sp = [] ∨ sp = [' '])
    (h : After rest) {x : Words} (hx : pointWords w = [x]) :
    Reads withPoint n (sp ++ x.text ++ glue (subpointWords w)) rest (pointAt w (n + byteLen sp)) := by
  have hn := next_subpoint hw h.next
  have hoff : offset (pointWords w) = byteLen x.text + 1 := by
    rw [hx, offset_one]
  have hs := reads_optSubpoint hw (n := n + byteLen (sp ++ x.text)) h
  have hpos : n + byteLen (sp ++ x.text) + 1 = n + byteLen sp + offset (pointWords w) := by
    rw [hoff, byteLen_append']; omega
  rw [hpos] at hs
  rcases point_cases hw with ⟨h1, h2⟩ | ⟨l, h1, h2⟩ | ⟨l, h1, h2⟩
  · simp [pointWords, h1, h2] at hx
  · have hx' := hx
    simp only [pointWords, h1, h2, Option.toList_some, Option.toList_none, List.map_cons, List.map_nil,
      List.append_nil, List.cons.injEq, and_true] at hx'
    subst hx'
    obtain ⟨c, t, e, hc⟩ := dotted_words l str!" pont" (glue (subpointWords w) ++ rest)
    have hws : NoWs ((l.words dottedSpan str!" pont").text ++ (glue (subpointWords w) ++ rest)) := by
      rw [e]; exact noWs_cons (digit_noWs hc)
    have hf : Fails (call alphabeticPointReference) n
        (sp ++ (l.words dottedSpan str!" pont").text ++ (glue (subpointWords w) ++ rest)) := by
      rw [List.append_assoc]
      refine fails_alphabeticPointReference (noMark_head ?_)
      rw [skipWs_sp hsp hws, e]; exact .cons (digit_not hc).1
    have := reads_withPoint_of (reads_numericPoint_of hf (reads_call_sp hsp hws (reads_numericPointReference
      (n := n + byteLen sp) (hw.numericPoint l h1).1 (hw.numericPoint l h1).2 hn))) hs
    simp only [pointAt, h1, h2, Option.map_some, Option.map_none]
    exact this
  · have hx' := hx
    simp only [pointWords, h1, h2, Option.toList_some, Option.toList_none, List.map_cons, List.map_nil,
      List.nil_append, List.cons.injEq, and_true] at hx'
    subst hx'
    obtain ⟨c, t, e, hc⟩ := letter_words l str!" pont" (glue (subpointWords w) ++ rest)
    have hws : NoWs ((l.words letterSpan str!" pont").text ++ (glue (subpointWords w) ++ rest)) := by
      rw [e]; exact noWs_cons (lowerAz_noWs hc)
    have := reads_withPoint_of (reads_alphabeticPoint_of (reads_call_sp hsp hws (reads_alphabeticPointReference
      (n := n + byteLen sp) (hw.alphabeticPoint l h2).1 (hw.alphabeticPoint l h2).2 hn))) hs
    simp only [pointAt, h1, h2, Option.map_some, Option.map_none]
    exact this

theorem no_subpoint {w : Phrase} (hw : w.Usual) (h : w.article ≠ none ∨ w.paragraph ≠ none)
    (h1 : w.numericPoint = none) (h2 : w.alphabeticPoint = none) :
    w.numericSubpoint = none ∧ w.alphabeticSubpoint = none := by
  have := hw.inPoint
  by_cases h3 : w.numericSubpoint = none <;> by_cases h4 : w.alphabeticSubpoint = none <;> simp_all

/-- The points and the subpoints below an article or a paragraph. -/
theorem reads_optPoint {w : Phrase} (hw : w.Usual) (hin : w.article ≠ none ∨ w.paragraph ≠ none) {n : Nat} {rest : Str}
    (h : After rest) :
    Reads (optTail withPoint) n (glue (pointWords w ++ subpointWords w)) rest (pointAt w (n + 1)) := by
  rcases pointWords_cases hw with ⟨e, h1, h2⟩ | ⟨x, e, -⟩
  · obtain ⟨h3, h4⟩ := no_subpoint hw hin h1 h2
    have hs : subpointWords w = [] := by simp [subpointWords, h3, h4]
    have ht : pointAt w (n + 1) = {} := by simp [pointAt, subpointTail, h1, h2, h3, h4]
    rw [e, hs, ht]
    rw [List.append_nil, glue_nil]; exact reads_optTail_none h.none.point
  · have := reads_withPoint hw (n := n) (sp := [' ']) (.inr rfl) h e
    rw [byteLen_space] at this
    rw [glue_append, e, glue_one]
    exact reads_optTail_some this

/-! ### paragraphs -/

theorem reads_withParagraph {w : Phrase} (hw : w.Usual) {n : Nat} {sp rest : Str} (hsp : sp = [] ∨ sp = [' '])
    (h : After rest) {l : Listing NumericId} (hl : w.paragraph = some l) :
    Reads withParagraph n (sp ++ (l.words paragraphSpan str!" bekezdés").text ++ glue (pointWords w ++ subpointWords w))
      rest { pointAt w (n + byteLen sp + offset (paragraphWords w)) with
        paragraph := some (itemsAt paragraphSpan (partAt NumericId.display paragraphSpan) (n + byteLen sp) l) } := by
  have hn := next_point hw h.next
  have hwords : paragraphWords w = [l.words paragraphSpan str!" bekezdés"] := by simp [paragraphWords, hl]
  have hoff : offset (paragraphWords w) = byteLen (l.words paragraphSpan str!" bekezdés").text + 1 := by
    rw [hwords, offset_one]
  obtain ⟨t, e⟩ := paragraph_words l str!" bekezdés" (glue (pointWords w ++ subpointWords w) ++ rest)
  have hws : NoWs ((l.words paragraphSpan str!" bekezdés").text ++ (glue (pointWords w ++ subpointWords w) ++ rest)) := by
    rw [e]; exact noWs_cons (by decide)
  have hp := reads_call_sp hsp hws (reads_paragraphReference (n := n + byteLen sp) (hw.paragraph l hl).1
    (hw.paragraph l hl).2 hn)
  have hs := reads_optPoint hw (.inr (by rw [hl]; simp)) h
    (n := n + byteLen (sp ++ (l.words paragraphSpan str!" bekezdés").text))
  have hpos : n + byteLen (sp ++ (l.words paragraphSpan str!" bekezdés").text) + 1 =
      n + byteLen sp + offset (paragraphWords w) := by
    rw [hoff, byteLen_append']; omega
  rw [hpos] at hs
  exact reads_withParagraph_of hp hs

/-! ### whole references -/

/-- The levels below the article at a position. -/
def belowAt (w : Phrase) (n : Nat) : Tail :=
  { pointAt w (n + offset (paragraphWords w)) with
    paragraph := w.paragraph.map (itemsAt paragraphSpan (partAt NumericId.display paragraphSpan) n) }

/-- The result for a reference at a position. -/
def phraseAt (w : Phrase) (n : Nat) : Reference :=
  (belowAt w (n + offset (articleWords w))).reference (w.article.map (itemsAt articleSpan articleAt n))
    ⟨n, n + byteLen w.text⟩

theorem intercalate_glue (x : Words) (l : List Words) :
    List.intercalate str!" " ((x :: l).map Words.text) = x.text ++ glue l := by
  induction l generalizing x with
  | nil => simp [glue]
  | cons y l ih =>
    have := ih y
    rw [List.map_cons, List.map_cons] at *
    simp only [List.intercalate, List.intersperse, List.flatten_cons] at *
    rw [this, glue_cons]
    simp

theorem text_glue {w : Phrase} {x : Words} {l : List Words} (h : w.words = x :: l) : w.text = x.text ++ glue l := by
  rw [Phrase.text, h, intercalate_glue]

theorem article_head (s : Span ArticleId) : ∃ c t, articleSpan s = c :: t ∧ isDigit c = true := by
  have : ∀ (a : ArticleId) r, ∃ c t, a.display ++ r = c :: t ∧ isDigit c = true := by
    intro a r
    rw [display_article, displaySlash_eq]
    cases a.book with
    | none => simp only [bookText, List.nil_append, List.append_assoc]; exact dec_head _ _
    | some b => simp only [bookText, List.append_assoc]; exact dec_head _ _
  cases s <;> simp only [articleSpan, List.append_assoc] <;> exact this _ _

theorem article_words (l : Listing ArticleId) (word r : Str) :
    ∃ c t, (l.words articleSpan word).text ++ r = c :: t ∧ isDigit c = true := by
  obtain ⟨c, t, h, hc⟩ := article_head l.first
  obtain ⟨t', ht⟩ := head_words (word := word) h r
  exact ⟨c, t', ht, hc⟩

/-- Which parts a reference consists of. -/
theorem reads_parts {w : Phrase} (hw : w.Usual) {n : Nat} {rest : Str} (h : After rest) :
    Reads (articleWithParagraph <|> articleWithPoint <|> withoutArticle) n w.text rest
      (w.article.map (itemsAt articleSpan articleAt n), belowAt w (n + offset (articleWords w))) := by
  have hwords := words_eq w
  cases ha : w.article with
  | some a =>
    have haw : articleWords w = [a.words articleSpan str!" §"] := by simp [articleWords, ha]
    have hoff : offset (articleWords w) = byteLen (a.words articleSpan str!" §").text + 1 := by
      rw [haw, offset_one]
    rw [haw, List.singleton_append] at hwords
    rw [text_glue hwords]
    have hnext : Next (glue (paragraphWords w ++ (pointWords w ++ subpointWords w)) ++ rest) := by
      rcases paragraphWords_cases w with ⟨e, -⟩ | ⟨l, hl, e⟩
      · rw [e]; exact next_point hw h.next
      · refine next_glue h.next fun x hx r => ?_
        rw [e] at hx
        cases hx
        obtain ⟨t, ht⟩ := paragraph_words l str!" bekezdés" r
        exact ⟨_, t, ht, .inr (.inl rfl)⟩
    obtain ⟨c, t, e, hc⟩ := article_words a str!" §" (glue (paragraphWords w ++ (pointWords w ++ subpointWords w)) ++ rest)
    have hart := Reads.call (by rw [e]; exact noWs_cons (digit_noWs hc)) (reads_articleReference (n := n)
      (hw.article a ha).1 (hw.article a ha).2 hnext)
    rcases paragraphWords_cases w with ⟨e, hpar⟩ | ⟨l, hl, e⟩
    · rw [e, List.nil_append] at hart ⊢
      refine Reads.right ?_ (Reads.left ?_)
      · rw [List.append_assoc]
        refine fails_articleWithParagraph_of hart (fails_withParagraph (fails_paragraphReference ?_))
        rcases pointWords_cases hw with ⟨e, h1, h2⟩ | ⟨x, e, hx⟩
        · obtain ⟨h3, h4⟩ := no_subpoint hw (.inl (by rw [ha]; simp)) h1 h2
          have hs : subpointWords w = [] := by simp [subpointWords, h3, h4]
          rw [e, hs, List.append_nil, glue_nil]; exact h.none.paragraph
        · obtain ⟨c, t, h1, h2, h3⟩ := hx (glue (subpointWords w) ++ rest)
          rw [e, List.singleton_append, glue_cons, List.append_assoc, List.cons_append, h1]
          have : skipWs (' ' :: c :: t) = c :: t := skipWs_sp (sp := [' ']) (.inr rfl) (noWs_cons h2.noWs)
          rw [this]; exact .cons h3
      · have hs := reads_optPoint hw (.inl (by rw [ha]; simp)) h (n := n + byteLen (a.words articleSpan str!" §").text)
        have hb : belowAt w (n + offset (articleWords w)) = pointAt w (n + byteLen (a.words articleSpan str!" §").text + 1) := by
          rw [belowAt, hpar, e, hoff, offset_nil, Nat.add_zero, Nat.add_assoc]; rfl
        rw [hb]
        exact reads_articleWithPoint_of hart hs
    · rw [e, List.singleton_append, glue_cons] at hart ⊢
      refine Reads.left ?_
      have hp := reads_withParagraph hw (n := n + byteLen (a.words articleSpan str!" §").text) (.inr rfl) h hl
      have hb : belowAt w (n + offset (articleWords w)) =
          { pointAt w (n + byteLen (a.words articleSpan str!" §").text + byteLen [' '] + offset (paragraphWords w)) with
            paragraph := some (itemsAt paragraphSpan (partAt NumericId.display paragraphSpan)
              (n + byteLen (a.words articleSpan str!" §").text + byteLen [' ']) l) } := by
        rw [belowAt, hl, hoff, byteLen_space, Nat.add_assoc n _ 1]; rfl
      rw [hb]
      exact reads_articleWithParagraph_of hart hp
  | none =>
    have haw : articleWords w = [] := by simp [articleWords, ha]
    have hoff : n + offset (articleWords w) = n := by rw [haw, offset_nil, Nat.add_zero]
    rw [haw, List.nil_append] at hwords
    rw [hoff]
    have key : ∀ {t : Str}, (∀ n, Fails (call articleReference) n (t ++ rest)) →
        Reads (withParagraph <|> withPoint <|> withSubpoint) n t rest (belowAt w n) →
        Reads (articleWithParagraph <|> articleWithPoint <|> withoutArticle) n t rest (none, belowAt w n) :=
      fun hf hr => Reads.right (fails_articleWithParagraph (hf _)) (Reads.right (fails_articleWithPoint (hf _))
        (reads_withoutArticle_of hr))
    rcases paragraphWords_cases w with ⟨e, hpar⟩ | ⟨l, hl, e⟩
    · rw [e, List.nil_append] at hwords
      have hb : belowAt w n = pointAt w n := by rw [belowAt, hpar, e, offset_nil, Nat.add_zero]; rfl
      rcases pointWords_cases hw with ⟨ep, h1, h2⟩ | ⟨x, ep, hx⟩
      · rw [ep, List.nil_append] at hwords
        rcases subpointWords_cases hw with ⟨es, -⟩ | ⟨x, es, hx⟩
        · exact absurd (by rw [hwords, es]) hw.named
        · have htext : w.text = x.text := by rw [text_glue (hwords.trans es), glue_nil, List.append_nil]
          rw [htext]
          obtain ⟨c, t, e1, e2, e3⟩ := hx rest
          have hws : NoWs (x.text ++ rest) := by rw [e1]; exact noWs_cons e2.noWs
          have hb' : pointAt w n = subpointTail w n := by
            simp only [pointAt, h1, h2, ep, offset_nil, Nat.add_zero]; rfl
          refine key (fun n => ?_) (Reads.right (fails_withParagraph (fails_paragraphReference ?_)) (Reads.right ?_ ?_))
          · rcases subpoint_cases hw with ⟨h3, h4⟩ | ⟨l, h3, h4⟩ | ⟨l, h3, h4⟩
            · simp [subpointWords, h3, h4] at es
            · simp only [subpointWords, h3, h4, Option.toList_some, Option.toList_none, List.map_cons, List.map_nil,
                List.append_nil, List.cons.injEq, and_true] at es
              subst es
              have hl := (hw.numericSubpoint l h3).1
              refine Fails.call_noWs hws fun n => fails_article_dotted (w := str!"alpont") (by decide)
                (noWs_cons (by decide)) (.cons (by decide)) ⟨?_, fun x hx => ⟨(hl.2 x hx).1, ?_⟩⟩
              · have := hl.1; revert this; cases l.first <;> simp [Span.Fits]; intro a _ _; exact a
              · have := (hl.2 x hx).2; revert this; cases x.2 <;> simp [Span.Fits]; intro a _ _; exact a
            · simp only [subpointWords, h3, h4, Option.toList_some, Option.toList_none, List.map_cons, List.map_nil,
                List.nil_append, List.cons.injEq, and_true] at es
              subst es
              obtain ⟨c, t, f1, f2⟩ := prefixed_words (hw.alphabeticSubpoint l h4).1 str!" alpont" rest
              refine fails_articleReference ?_
              rw [skipWs_noWs hws, f1]; exact .cons (lower_not f2).1
          · rw [skipWs_noWs hws, e1]; exact .cons e3
          · rcases subpoint_cases hw with ⟨h3, h4⟩ | ⟨l, h3, h4⟩ | ⟨l, h3, h4⟩
            · simp [subpointWords, h3, h4] at es
            · simp only [subpointWords, h3, h4, Option.toList_some, Option.toList_none, List.map_cons, List.map_nil,
                List.append_nil, List.cons.injEq, and_true] at es
              subst es
              obtain ⟨c, t, f1, f2⟩ := dotted_words l str!" alpont" rest
              refine fails_withPoint (fails_alphabeticPointReference (noMark_head ?_))
                (Fails.call_noWs hws fun n => fails_point_dotted (hw.numericSubpoint l h3).1)
              rw [skipWs_noWs hws, f1]; exact .cons (digit_not f2).1
            · simp only [subpointWords, h3, h4, Option.toList_some, Option.toList_none, List.map_cons, List.map_nil,
                List.nil_append, List.cons.injEq, and_true] at es
              subst es
              obtain ⟨c, t, f1, f2⟩ := prefixed_words (hw.alphabeticSubpoint l h4).1 str!" alpont" rest
              refine fails_withPoint (Fails.call_noWs hws fun n => fails_point_prefixed (hw.alphabeticSubpoint l h4).1)
                (fails_numericPointReference ?_)
              rw [skipWs_noWs hws, f1]; exact .cons (lower_not f2).1
          · rw [hb, hb']
            have := reads_withSubpoint hw (n := n) (sp := []) (.inl rfl) h.next es
            simpa [byteLen] using this
      · rw [ep, List.singleton_append] at hwords
        rw [text_glue hwords]
        obtain ⟨c, t, e1, e2, e3⟩ := hx (glue (subpointWords w) ++ rest)
        have hws : NoWs (x.text ++ glue (subpointWords w) ++ rest) := by
          rw [List.append_assoc, e1]; exact noWs_cons e2.noWs
        refine key (fun n => ?_) (Reads.right (fails_withParagraph (fails_paragraphReference ?_)) (Reads.left ?_))
        · rcases point_cases hw with ⟨h3, h4⟩ | ⟨l, h3, h4⟩ | ⟨l, h3, h4⟩
          · simp [pointWords, h3, h4] at ep
          · simp only [pointWords, h3, h4, Option.toList_some, Option.toList_none, List.map_cons, List.map_nil,
              List.append_nil, List.cons.injEq, and_true] at ep
            subst ep
            refine Fails.call_noWs hws fun n => ?_
            rw [List.append_assoc]
            exact fails_article_dotted (w := str!"pont") (by decide)
              (noWs_cons (by decide)) (.cons (by decide)) (hw.numericPoint l h3).1
          · simp only [pointWords, h3, h4, Option.toList_some, Option.toList_none, List.map_cons, List.map_nil,
              List.nil_append, List.cons.injEq, and_true] at ep
            subst ep
            obtain ⟨c, t, f1, f2⟩ := letter_words l str!" pont" (glue (subpointWords w) ++ rest)
            refine fails_articleReference ?_
            rw [skipWs_noWs hws, List.append_assoc, f1]; exact .cons (lower_not f2).1
        · rw [skipWs_noWs hws, List.append_assoc, e1]; exact .cons e3
        · rw [hb]
          have := reads_withPoint hw (n := n) (sp := []) (.inl rfl) h ep
          simpa [byteLen] using this
    · rw [e, List.singleton_append] at hwords
      rw [text_glue hwords]
      obtain ⟨t, ht⟩ := paragraph_words l str!" bekezdés" (glue (pointWords w ++ subpointWords w) ++ rest)
      refine key (fun n => fails_articleReference ?_) (Reads.left ?_)
      · rw [List.append_assoc, ht, skipWs_cons (by decide)]; exact .cons (by decide)
      · have := reads_withParagraph hw (n := n) (sp := []) (.inl rfl) h hl
        have hb : belowAt w n = { pointAt w (n + offset (paragraphWords w)) with
            paragraph := some (itemsAt paragraphSpan (partAt NumericId.display paragraphSpan) n l) } := by
          rw [belowAt, hl]; rfl
        rw [hb]
        simpa [byteLen] using this

theorem reads_reference {w : Phrase} (hw : w.Usual) {n : Nat} {rest : Str} (h : After rest) :
    Reads reference n w.text rest (phraseAt w n) :=
  reads_reference_of (reads_parts hw h)

end HunLaw.Grammar
