import Verif.Lemmas.Reads
import Verif.Lemmas.Identifiers
import Verif.Spec.Written

/-! The grammar recognises the references in the usual form. -/

set_option autoImplicit false

namespace HunLaw.Grammar

open HunLaw P Spec

variable {α β : Type}

/-- The first character, if there is one, has the property. -/
def Head (f : Char → Prop) (s : Str) : Prop := ∀ c, s.head? = some c → f c

theorem Head.cons {f : Char → Prop} {c : Char} {s : Str} (h : f c) : Head f (c :: s) := by
  intro d hd; simp at hd; subst hd; exact h

theorem Head.nil {f : Char → Prop} : Head f [] := by intro d hd; simp at hd

theorem Head.append {f : Char → Prop} {s t : Str} (h : Head f s) (hs : s ≠ []) : Head f (s ++ t) := by
  cases s with
  | nil => exact absurd rfl hs
  | cons c s => exact .cons (h c rfl)

theorem Head.of_all {f : Char → Prop} {s : Str} (h : ∀ c ∈ s, f c) : Head f s := by
  intro c hc
  cases s with
  | nil => simp at hc
  | cons d s => simp at hc; subst hc; exact h _ (List.mem_cons_self ..)

theorem Head.mono {f g : Char → Prop} {s : Str} (h : Head f s) (hfg : ∀ c, f c → g c) : Head g s :=
  fun c hc => hfg c (h c hc)

theorem noWs_cons {c : Char} {s : Str} (h : isWs c = false) : NoWs (c :: s) := Head.cons (f := fun c => isWs c = false) h

theorem noWs_append {s t : Str} (hs : s ≠ []) (h : NoWs s) : NoWs (s ++ t) := Head.append h hs

theorem Reads.cast {p : P α} {n : Nat} {t u rest : Str} {a : α} (h : Reads p n t rest a) (e : t = u) :
    Reads p n u rest a := e ▸ h

theorem Fails.cast {p : P α} {n : Nat} {t u : Str} (h : Fails p n t) (e : t = u) : Fails p n u := e ▸ h

theorem digit_noWs {c : Char} (h : isDigit c = true) : isWs c = false := by
  rw [isDigit_iff] at h
  simp only [isWs, Bool.or_eq_false_iff, beq_eq_false_iff_ne, ne_eq]
  refine ⟨⟨⟨⟨?_, ?_⟩, ?_⟩, ?_⟩, ?_⟩ <;> rintro rfl <;> revert h <;> decide

theorem noWs_dec (k : Nat) (s : Str) : NoWs (dec k ++ s) :=
  noWs_append (dec_ne_nil k) (Head.of_all fun c hc => digit_noWs (dec_digits k c hc))

theorem reads_number {n k : Nat} {rest : Str} (h : Head (isDigit · = false) rest) :
    Reads number n (dec k) rest (dec k) :=
  (Reads.many1_chars (dec_ne_nil k) (dec_digits k) h).slice

theorem fails_number {n : Nat} {s : Str} (h : Head (isDigit · = false) s) : Fails number n s :=
  Fails.slice (Fails.many1 (.char h))

theorem fails_dash {n : Nat} {s : Str} (h : Head (isDashChar · = false) s) : Fails dash n s :=
  Fails.bind (.char h)

theorem reads_dash {n : Nat} {d : Char} {rest : Str} (h : isDashChar d = true) : Reads dash n [d] rest () :=
  Reads.map (Reads.char h)

theorem dashes_dash {d : Char} (h : d ∈ dashes) : isDashChar d = true := by
  revert d; decide

theorem dashes_noWs {d : Char} (h : d ∈ dashes) : isWs d = false := by
  revert d; decide

theorem dashes_not {d : Char} (h : d ∈ dashes) : isDigit d = false ∧ d ≠ '/' ∧ d ≠ ':' ∧ d ≠ '.' ∧ d ≠ ')' ∧
    lowerAz d = false ∧ isHunLower d = false := by
  revert d; decide

/-! ### article numbers -/

/-- What is after the number of an article. -/
def slashed : Option HunChar → Str
  | some c => '/' :: c.displayUpper
  | none => []

theorem displaySlash_eq (i : NumericId) : i.displaySlash = dec i.num.val ++ slashed i.suffix := by
  unfold NumericId.displaySlash slashed
  cases i.suffix <;> simp

theorem plain_upper {c : HunChar} (h : Plain c) : ∃ x, c.displayUpper = [x] ∧ upperAz x = true := by
  obtain ⟨i, rfl⟩ := h
  have : ∀ i : Fin 26, ∃ x ∈ (HunChar.latin i).displayUpper, (HunChar.latin i).displayUpper = [x] ∧ upperAz x = true := by
    decide +kernel
  obtain ⟨x, -, h⟩ := this i
  exact ⟨x, h⟩

theorem slashed_head (o : Option HunChar) : Head (· = '/') (slashed o) := by
  cases o with
  | none => exact .nil
  | some c => exact .cons rfl

theorem reads_articleId {n : Nat} {i : NumericId} {rest : Str} (hi : ∀ c, i.suffix = some c → Plain c)
    (h : Head (fun c => isDigit c = false ∧ c ≠ '/') rest) :
    Reads articleId n i.displaySlash rest i.displaySlash := by
  rw [displaySlash_eq]
  refine Reads.slice (a := ()) ?_
  refine Reads.bind (reads_number ?_) ?_
  · cases hs : i.suffix with
    | none => exact h.mono fun c hc => hc.1
    | some c => exact .cons (by decide)
  · cases hs : i.suffix with
    | none =>
      exact (Reads.opt_none (Fails.bind (Fails.lit_head (s := ['/']) (by decide) (fun e => by
        have := (h '/' e.symm).2; exact this rfl)))).map
    | some c =>
      obtain ⟨x, hx, hu⟩ := plain_upper (hi c hs)
      simp only [slashed, hx]
      exact (Reads.opt_some (Reads.bind (f := fun _ => P.char upperAz) (Reads.lit ['/']) (Reads.char hu))).map

theorem noWs_slash (i : NumericId) (s : Str) : NoWs (i.displaySlash ++ s) := by
  rw [displaySlash_eq, List.append_assoc]; exact noWs_dec _ _

/-- The number of a book. -/
def bookText : Option U8 → Str
  | some b => dec b.val ++ [':']
  | none => []

theorem display_article (a : ArticleId) : a.display = bookText a.book ++ a.identifier.displaySlash := rfl

theorem skipWs_cons {c : Char} {s : Str} (h : isWs c = false) : skipWs (c :: s) = c :: s := skipWs_noWs (noWs_cons h)

/-- There is no book before the number of an article. -/
theorem no_book {n : Nat} {i : NumericId} {rest : Str} {f : Str → P β}
    (hf : ∀ b m s, Fails (tok str!":") m s → Fails (f b) m s)
    (h : Head (fun c => isDigit c = false ∧ c ≠ ':' ∧ isWs c = false) rest) :
    Fails (call number >>= f) n (i.displaySlash ++ rest) := by
  rw [displaySlash_eq, List.append_assoc]
  have hh : Head (fun c => isDigit c = false ∧ c ≠ ':' ∧ isWs c = false) (slashed i.suffix ++ rest) := by
    cases hs : i.suffix with
    | none => exact h
    | some c => exact .cons (by decide)
  refine Fails.bind_of (Reads.call (noWs_dec _ _) (reads_number (hh.mono fun c hc => hc.1))) (hf _ _ _ ?_)
  refine Fails.tok (by decide) ?_
  rw [skipWs_noWs (hh.mono fun c hc => hc.2.2)]
  exact fun e => (hh ':' e.symm).2.1 rfl

theorem reads_book {n : Nat} {b : U8} {rest : Str} (h : NoWs rest) :
    Reads (do let b ← call number; tok str!":"; pure b) n (dec b.val ++ [':']) rest (dec b.val) :=
  Reads.bind (Reads.call (noWs_dec _ _) (reads_number (.cons (by decide))))
    ((Reads.tok (s := [':']) (noWs_cons (by decide))).map)

theorem reads_articleBook {n : Nat} {a : ArticleId} {rest : Str}
    (h : Head (fun c => isDigit c = false ∧ c ≠ ':' ∧ isWs c = false) rest) :
    Reads articleBook n (bookText a.book) (a.identifier.displaySlash ++ rest) (a.book.map fun b => dec b.val) := by
  cases hb : a.book with
  | none => exact Reads.opt_none (no_book (fun _ _ _ h => h.bind) h)
  | some b => exact Reads.opt_some (reads_book (noWs_slash _ _))

/-- There is no range after the number of an article. -/
def NoRange (rest : Str) : Prop :=
  ∀ n, ∃ t u, '.' :: rest = t ++ u ∧ (∃ x, Reads (opt (do tok str!"."; call articleSuffix)) n t u x) ∧
    ∀ m, Fails (call dash) m u

theorem reads_articleSingle {n : Nat} {i : NumericId} {rest : Str} (hi : ∀ c, i.suffix = some c → Plain c) :
    Reads articleSingle n (i.displaySlash ++ str!".") rest (.single i.displaySlash) :=
  Reads.bind (Reads.call (noWs_slash _ _) (reads_articleId hi (.cons (by decide))))
    ((Reads.tok (s := ['.']) (noWs_cons (by decide))).map)

theorem fails_articleRange {n : Nat} {i : NumericId} {rest : Str} (hi : ∀ c, i.suffix = some c → Plain c)
    (h : NoRange rest) : Fails articleRange n (i.displaySlash ++ '.' :: rest) := by
  refine Fails.bind_of (Reads.call (noWs_slash _ _) (reads_articleId hi (.cons (by decide)))) ?_
  obtain ⟨t, u, e, ⟨x, hx⟩, hu⟩ := h (n + byteLen i.displaySlash)
  rw [e]
  exact Fails.bind_of hx (Fails.bind (hu _))

theorem reads_articlePart_one {n : Nat} {a : ArticleId} {rest : Str} (ha : ArticleUsual (.one a)) (h : NoRange rest) :
    Reads articlePart n (articleSpan (.one a)) rest
      ⟨a.book.map fun b => dec b.val, .single a.identifier.displaySlash, ⟨n, n + byteLen (articleSpan (.one a))⟩⟩ := by
  have : Reads (articleBook >>= fun book => (articleRange <|> articleSingle) >>= fun id =>
      (pure fun p => (⟨book, id, p⟩ : ArticlePart))) n (articleSpan (.one a)) rest
      (fun p => ⟨a.book.map fun b => dec b.val, .single a.identifier.displaySlash, p⟩) := by
    simp only [articleSpan, display_article, List.append_assoc]
    refine Reads.bind (Reads.cast ?_ rfl) (Reads.map (g := fun id p => (⟨_, id, p⟩ : ArticlePart))
      (Reads.right ?_ (reads_articleSingle ha)))
    · rw [List.append_assoc]; exact reads_articleBook (.cons (by decide))
    · rw [List.append_assoc]; exact fails_articleRange ha h
  exact this.positioned

theorem reads_articlePart_upTo {n : Nat} {d : Char} {a b : ArticleId} {rest : Str}
    (ha : ArticleUsual (.upTo d a b)) :
    Reads articlePart n (articleSpan (.upTo d a b)) rest
      ⟨a.book.map fun b => dec b.val, .range a.identifier.displaySlash b.identifier.displaySlash,
        ⟨n, n + byteLen (articleSpan (.upTo d a b))⟩⟩ := by
  obtain ⟨hd, hb, h1, h2⟩ := ha
  have hn := dashes_not hd
  have h3 : Reads articleRange (n + byteLen (bookText a.book))
      (a.identifier.displaySlash ++ ([d] ++ (bookText b.book ++ (b.identifier.displaySlash ++ str!"."))))
      rest (.range a.identifier.displaySlash b.identifier.displaySlash) := by
    refine Reads.bind (Reads.call (noWs_slash _ _) (reads_articleId h1 (.cons ⟨hn.1, hn.2.1⟩))) ?_
    refine Reads.bind_first (a := none) (Reads.opt_none (Fails.bind (Fails.tok (by decide) ?_))) ?_
    · rw [List.append_assoc, List.singleton_append, skipWs_cons (dashes_noWs hd)]
      simpa using fun e => hn.2.2.2.1 e.symm
    refine Reads.bind (Reads.call (noWs_cons (dashes_noWs hd)) (reads_dash (dashes_dash hd))) ?_
    refine Reads.bind (a := b.book.map fun _ => ()) ?_ ?_
    · cases hb : b.book with
      | none =>
        refine Reads.opt_none ?_
        rw [List.append_assoc]
        exact no_book (fun _ _ _ h => h) (.cons (by decide))
      | some b =>
        refine Reads.opt_some ?_
        rw [List.append_assoc]
        exact Reads.bind (Reads.call (noWs_dec _ _) (reads_number (.cons (by decide))))
          (Reads.tok (s := [':']) (noWs_cons (by decide)))
    · refine Reads.bind (Reads.call (noWs_slash _ _) (reads_articleId h2 (.cons (by decide)))) ?_
      exact (Reads.tok (s := ['.']) (noWs_cons (by decide))).map
  have : Reads (articleBook >>= fun book => (articleRange <|> articleSingle) >>= fun id =>
      (pure fun p => (⟨book, id, p⟩ : ArticlePart))) n (articleSpan (.upTo d a b)) rest
      (fun p => ⟨a.book.map fun b => dec b.val, .range a.identifier.displaySlash b.identifier.displaySlash, p⟩) := by
    refine Reads.cast (Reads.bind (t := bookText a.book) ?_ (Reads.map (g := fun id p => (⟨_, id, p⟩ : ArticlePart))
      (Reads.left h3))) ?_
    · rw [List.append_assoc]; exact reads_articleBook (.cons ⟨hn.1, hn.2.2.1, dashes_noWs hd⟩)
    · simp [articleSpan, display_article]
  exact this.positioned

/-! ### lists -/

/-- The words between the elements of lists. -/
def sepWords : List Str := [str!"és", str!"valamint", str!"illetve", str!"vagy"]
/-- The marks between them. -/
def sepMarks : List Str := [str!",", str!";"]

/-- The beginning of an element: it is not a separator, nor a noun article. -/
structure ItemStart (s : Str) : Prop where
  noWs : NoWs s
  noWord : ∀ w ∈ sepWords, ¬ w <+: s
  noAz : ¬ str!"a " <+: s ∧ ¬ str!"az " <+: s

theorem fails_az {n : Nat} {s : Str} (h1 : ¬ str!"a " <+: s) (h2 : ¬ str!"az " <+: s) : Fails az n s := by
  rcases s with _ | ⟨c, s⟩
  · rfl
  by_cases hc : c = 'a'
  · subst hc
    refine Fails.bind_of (t := ['a']) (Reads.lit ['a']) ?_
    rcases s with _ | ⟨d, s⟩
    · exact Fails.bind_of (t := []) (Reads.opt_none (Fails.lit_head (by decide) (by decide)))
        (Fails.lit_head (by decide) (by decide))
    by_cases hd : d = 'z'
    · subst hd
      refine Fails.bind_of (t := ['z']) (Reads.opt_some (Reads.lit ['z'])) (Fails.lit ?_)
      rintro ⟨x, rfl⟩
      exact h2 ⟨x, rfl⟩
    · refine Fails.bind_of (t := []) (Reads.opt_none (Fails.lit_head (by decide) ?_)) (Fails.lit ?_)
      · simpa using fun e => hd e.symm
      · rintro ⟨x, hx⟩
        simp only [List.cons_append, List.nil_append, List.cons.injEq] at hx
        obtain ⟨rfl, rfl⟩ := hx
        exact h1 ⟨_, rfl⟩
  · exact Fails.bind (Fails.lit_head (by decide) (by simpa using fun e => hc e.symm))

/-- A noun article after the separator, with the space before the next element if that is not taken. -/
theorem reads_optAz {u s : Str} (hu : u ∈ [str!" ", str!" a ", str!" az "]) (h : ItemStart s) :
    ∃ t v, u = t ++ v ∧ (∀ n, Reads optAz n t (v ++ s) ()) ∧ (v = [] ∨ v = [' ']) := by
  simp only [List.mem_cons, List.not_mem_nil, or_false] at hu
  rcases hu with rfl | rfl | rfl
  · refine ⟨[], [' '], rfl, fun n => ?_, .inr rfl⟩
    exact (Reads.opt_none (Fails.call_space h.noWs fun n => fails_az h.noAz.1 h.noAz.2)).map
  · refine ⟨_, [], (List.append_nil _).symm, fun n => ?_, .inl rfl⟩
    refine (Reads.opt_some (Reads.call_space (a := ()) (t := str!"a ") (noWs_cons (by decide)) ?_)).map
    exact Reads.bind (t := ['a']) (Reads.lit _)
      (Reads.bind_first (Reads.opt_none (Fails.lit_head (by decide) (by simp))) (Reads.lit [' ']))
  · refine ⟨_, [], (List.append_nil _).symm, fun n => ?_, .inl rfl⟩
    refine (Reads.opt_some (Reads.call_space (a := ()) (t := str!"az ") (noWs_cons (by decide)) ?_)).map
    exact Reads.bind (t := ['a']) (Reads.lit _)
      (Reads.bind (t := ['z']) (Reads.opt_some (Reads.lit _)) (Reads.lit [' ']))

theorem reads_sepWords {n : Nat} {w rest : Str} (hw : w ∈ sepWords) :
    Reads (toks sepWords) n w rest () ∧ Reads (toks sepWords) n (' ' :: w) rest () := by
  have h : NoWs (w ++ rest) ∧ ∀ n, Reads (lits sepWords) n w rest () := by
    simp only [sepWords, List.mem_cons, List.not_mem_nil, or_false] at hw
    rcases hw with rfl | rfl | rfl | rfl
    · exact ⟨noWs_cons (by decide), fun n => Reads.lits (l := []) (by simp)⟩
    · exact ⟨noWs_cons (by decide), fun n => Reads.lits (l := [str!"és"]) (by simp)⟩
    · exact ⟨noWs_cons (by decide), fun n => Reads.lits (l := [str!"és", str!"valamint"]) (by simp)⟩
    · exact ⟨noWs_cons (by decide), fun n => Reads.lits (l := [str!"és", str!"valamint", str!"illetve"]) (by simp)⟩
  exact ⟨Reads.call h.1 (h.2 _), Reads.call_space h.1 (h.2 _)⟩

theorem reads_sepMarks {n : Nat} {m rest : Str} (hm : m ∈ sepMarks) : Reads (toks sepMarks) n m rest () := by
  simp only [sepMarks, List.mem_cons, List.not_mem_nil, or_false] at hm
  rcases hm with rfl | rfl
  · exact Reads.call (noWs_cons (by decide)) (Reads.lits (l := []) (by simp))
  · exact Reads.call (noWs_cons (by decide)) (Reads.lits (l := [str!","]) (by simp))

theorem sepWord_noWs {w rest : Str} (hw : w ∈ sepWords) : NoWs (w ++ rest) := by
  simp only [sepWords, List.mem_cons, List.not_mem_nil, or_false] at hw
  rcases hw with rfl | rfl | rfl | rfl <;> exact noWs_cons (by decide)

theorem sepMark_noWs {m rest : Str} (hm : m ∈ sepMarks) : NoWs (m ++ rest) := by
  simp only [sepMarks, List.mem_cons, List.not_mem_nil, or_false] at hm
  rcases hm with rfl | rfl <;> exact noWs_cons (by decide)

theorem fails_sepMarks_word {n : Nat} {w rest : Str} (hw : w ∈ sepWords) : Fails (toks sepMarks) n (w ++ rest) := by
  refine Fails.call_noWs (sepWord_noWs hw) fun n => ?_
  simp only [sepWords, List.mem_cons, List.not_mem_nil, or_false] at hw
  rcases hw with rfl | rfl | rfl | rfl <;> exact Fails.lits (by simp [sepMarks])

theorem fails_sepWords {n : Nat} {u s : Str} (hu : u ∈ [str!" ", str!" a ", str!" az "]) (h : ItemStart s) :
    Fails (toks sepWords) n (u ++ s) := by
  simp only [List.mem_cons, List.not_mem_nil, or_false] at hu
  rcases hu with rfl | rfl | rfl
  · exact Fails.call_space h.noWs fun n => Fails.lits h.noWord
  · exact Fails.call_space (noWs_cons (by decide)) fun n => Fails.lits (by simp [sepWords])
  · exact Fails.call_space (noWs_cons (by decide)) fun n => Fails.lits (by simp [sepWords])

theorem mem_separators {s : Str} (h : s ∈ separators) : ∃ j u, s = j ++ u ∧ u ∈ [str!" ", str!" a ", str!" az "] ∧
    (j ∈ sepMarks ∨ (∃ w ∈ sepWords, j = ' ' :: w) ∨ ∃ m ∈ sepMarks, ∃ w ∈ sepWords, j = m ++ ' ' :: w) := by
  obtain ⟨j, hj, hs⟩ := List.mem_flatMap.1 h
  have hall : ∀ j ∈ joints, j ∈ sepMarks ∨ (∃ w ∈ sepWords, j = ' ' :: w) ∨
      ∃ m ∈ sepMarks, ∃ w ∈ sepWords, j = m ++ ' ' :: w := by decide +kernel
  simp only [List.mem_cons, List.not_mem_nil, or_false] at hs
  rcases hs with rfl | rfl | rfl
  · exact ⟨j, _, rfl, by simp, hall j hj⟩
  · exact ⟨j, _, rfl, by simp, hall j hj⟩
  · exact ⟨j, _, rfl, by simp, hall j hj⟩

theorem reads_separator {n : Nat} {sep s : Str} (hsep : sep ∈ separators) (h : ItemStart s) :
    ∃ t v, sep = t ++ v ∧ Reads (call listSeparator) n t (v ++ s) () ∧ (v = [] ∨ v = [' ']) := by
  obtain ⟨j, u, rfl, hu, hj⟩ := mem_separators hsep
  obtain ⟨t, v, rfl, h1, h2⟩ := reads_optAz hu h
  refine ⟨j ++ t, v, (List.append_assoc ..).symm, ?_, h2⟩
  have all : ∀ n j', Reads ((do
      let _ ← opt (toks sepMarks)
      toks sepWords)
    <|> toks sepMarks) n j' (t ++ (v ++ s)) () → Reads optAz (n + byteLen j') t (v ++ s) () →
      Reads listSeparator n (j' ++ t) (v ++ s) () := fun n j' h1 h2 => Reads.bind h1 h2
  rcases hj with hj | ⟨w, hw, rfl⟩ | ⟨m, hm, w, hw, rfl⟩
  · refine Reads.call (by rw [List.append_assoc]; exact sepMark_noWs hj) (all _ _ ?_ (h1 _))
    refine Reads.right ?_ (reads_sepMarks hj)
    refine Fails.bind_of (Reads.opt_some (reads_sepMarks hj)) ?_
    have := fails_sepWords (n := n + byteLen j) hu h
    rwa [List.append_assoc] at this
  · refine Reads.call_space (t := w ++ t) (by rw [List.append_assoc]; exact sepWord_noWs hw) (all _ _ ?_ (h1 _))
    exact Reads.left (Reads.bind_first (Reads.opt_none (fails_sepMarks_word hw)) (reads_sepWords hw).1)
  · refine Reads.call (by rw [List.append_assoc, List.append_assoc]; exact sepMark_noWs hm) (all _ _ ?_ (h1 _))
    exact Reads.left (Reads.bind (Reads.opt_some (reads_sepMarks hm)) (reads_sepWords hw).2)

/-- An element with the separator before it. -/
theorem reads_separated {p : P α} {n : Nat} {sep t rest : Str} {a : α} (hsep : sep ∈ separators)
    (h : ItemStart (t ++ rest)) (hp : Reads p (n + byteLen sep) t rest a) :
    Reads (do call listSeparator; call p) n (sep ++ t) rest a := by
  obtain ⟨u, v, rfl, h1, h2⟩ := reads_separator (n := n) hsep h
  rw [List.append_assoc]
  rcases h2 with rfl | rfl
  · simp only [List.append_nil, List.nil_append] at *
    exact Reads.bind h1 (Reads.call h.noWs hp)
  · refine Reads.bind h1 (Reads.call_space h.noWs ?_)
    rwa [byteLen_append', ← Nat.add_assoc] at hp

theorem fails_listSeparator {n : Nat} {s : Str}
    (h : Head (fun c => c ≠ ',' ∧ c ≠ ';' ∧ c ≠ 'é' ∧ c ≠ 'v' ∧ c ≠ 'i') (skipWs s)) :
    Fails (call listSeparator) n s := by
  have hm : ∀ w ∈ sepMarks, ¬ w <+: skipWs s := by
    intro w hw
    simp only [sepMarks, List.mem_cons, List.not_mem_nil, or_false] at hw
    rcases hw with rfl | rfl <;> refine not_prefix_of_head (by decide) fun e => ?_
    · exact (h _ e.symm).1 rfl
    · exact (h _ e.symm).2.1 rfl
  have hw : ∀ w ∈ sepWords, ¬ w <+: skipWs s := by
    intro w hw
    simp only [sepWords, List.mem_cons, List.not_mem_nil, or_false] at hw
    rcases hw with rfl | rfl | rfl | rfl <;> refine not_prefix_of_head (by decide) fun e => ?_
    · exact (h _ e.symm).2.2.1 rfl
    · exact (h _ e.symm).2.2.2.1 rfl
    · exact (h _ e.symm).2.2.2.2 rfl
    · exact (h _ e.symm).2.2.2.1 rfl
  refine Fails.call fun n => ?_
  refine Fails.bind (Fails.alt ?_ (Fails.call_noWs (noWs_skipWs s) fun n => Fails.lits hm))
  exact Fails.bind_of (t := []) (Reads.opt_none (Fails.call_noWs (noWs_skipWs s) fun n => Fails.lits hm))
    (Fails.call_noWs (noWs_skipWs s) fun n => Fails.lits hw)

/-- A separator is next. -/
def Joined (s : Str) : Prop := ∃ sep ∈ separators, ∃ r, s = sep ++ r

/-- The results for the elements of a list but the first. -/
def othersAt (span : Span α → Str) (value : Span α → Nat → β) : Nat → List (Str × Span α) → List β
  | _, [] => []
  | n, (sep, x) :: l => value x (n + byteLen sep) :: othersAt span value (n + byteLen sep + byteLen (span x)) l

/-- The text of the elements but the first. -/
def othersText (span : Span α → Str) (l : List (Str × Span α)) : Str := l.flatMap fun x => x.1 ++ span x.2

theorem joined_or (span : Span α → Str) {l : List (Str × Span α)} (hsep : ∀ x ∈ l, x.1 ∈ separators) (rest : Str) :
    Joined (othersText span l ++ rest) ∨ othersText span l ++ rest = rest := by
  cases l with
  | nil => exact .inr rfl
  | cons y l =>
    exact .inl ⟨y.1, hsep y (by simp), span y.2 ++ othersText span l ++ rest, by simp [othersText]⟩

theorem reads_others {part : P β} {span : Span α → Str} {value : Span α → Nat → β} {rest : Str}
    (l : List (Str × Span α)) (hsep : ∀ x ∈ l, x.1 ∈ separators)
    (hstart : ∀ x ∈ l, ∀ r, ItemStart (span x.2 ++ r))
    (hpart : ∀ x ∈ l, ∀ n r, (Joined r ∨ r = rest) → Reads part n (span x.2) r (value x.2 n))
    (hend : ∀ n, Fails (call listSeparator) n rest) : ∀ n,
    Reads (many (do call listSeparator; call part)) n (othersText span l) rest (othersAt span value n l) := by
  induction l with
  | nil => exact fun n => Reads.many_nil (Fails.bind (hend n))
  | cons x l ih =>
    intro n
    obtain ⟨sep, x⟩ := x
    have hs := hsep _ (List.mem_cons_self ..)
    have h1 := hpart _ (List.mem_cons_self ..) (n + byteLen sep) _
      (joined_or span (fun x hx => hsep x (List.mem_cons_of_mem _ hx)) rest)
    have := reads_separated (n := n) hs (hstart _ (List.mem_cons_self ..) _) h1
    refine Reads.many_cons (u := othersText span l) ?_ this ?_
    · intro e
      have : sep ≠ [] := by
        rintro rfl
        exact absurd hs (by decide : ([] : Str) ∉ separators)
      exact this (List.append_eq_nil_iff.1 e).1
    · rw [byteLen_append', ← Nat.add_assoc]
      exact ih (fun x hx => hsep x (List.mem_cons_of_mem _ hx)) (fun x hx => hstart x (List.mem_cons_of_mem _ hx))
        (fun x hx => hpart x (List.mem_cons_of_mem _ hx)) _

/-- The results for the elements of a list. -/
def itemsAt (span : Span α → Str) (value : Span α → Nat → β) (n : Nat) (l : Listing α) : List β :=
  value l.first n :: othersAt span value (n + byteLen (span l.first)) l.others

theorem reads_listOf {part : P β} {span : Span α → Str} {value : Span α → Nat → β} {rest : Str} {n : Nat}
    {f : Span α → Prop} (l : Listing α) (hl : l.Fits f)
    (hstart : ∀ x, f x → ∀ r, ItemStart (span x ++ r))
    (hpart : ∀ x, f x → ∀ n r, (Joined r ∨ r = rest) → Reads part n (span x) r (value x n))
    (hend : ∀ n, Fails (call listSeparator) n rest) :
    Reads (listOf part) n (span l.first ++ othersText span l.others) rest (itemsAt span value n l) := by
  refine Reads.bind (Reads.call ?_ (hpart _ hl.1 n _ (joined_or span (fun x hx => (hl.2 x hx).1) rest))) ?_
  · exact (hstart _ hl.1 _).noWs
  · exact (reads_others l.others (fun x hx => (hl.2 x hx).1) (fun x hx => hstart _ (hl.2 x hx).2)
      (fun x hx => hpart _ (hl.2 x hx).2) hend _).map

/-! ### the elements of the levels -/

theorem itemStart_of_head {s : Str} {c : Char} (h : s.head? = some c) (h1 : isWs c = false)
    (h2 : c ≠ 'é' ∧ c ≠ 'v' ∧ c ≠ 'i' ∧ c ≠ 'a') : ItemStart s := by
  cases s with
  | nil => simp at h
  | cons d s =>
    simp only [List.head?_cons, Option.some.injEq] at h
    subst h
    refine ⟨noWs_cons h1, ?_, ?_, ?_⟩
    · intro w hw
      simp only [sepWords, List.mem_cons, List.not_mem_nil, or_false] at hw
      rcases hw with rfl | rfl | rfl | rfl <;> refine not_prefix_of_head (by decide) ?_
      · simpa using fun e => h2.1 e.symm
      · simpa using fun e => h2.2.1 e.symm
      · simpa using fun e => h2.2.2.1 e.symm
      · simpa using fun e => h2.2.1 e.symm
    · exact not_prefix_of_head (by decide) (by simpa using fun e => h2.2.2.2 e.symm)
    · exact not_prefix_of_head (by decide) (by simpa using fun e => h2.2.2.2 e.symm)

theorem itemStart_dec (k : Nat) (s : Str) : ItemStart (dec k ++ s) := by
  cases hd : dec k with
  | nil => exact absurd hd (dec_ne_nil k)
  | cons c t =>
    have := dec_digits k c (by rw [hd]; exact List.mem_cons_self ..)
    refine itemStart_of_head (c := c) rfl (digit_noWs this) ?_
    refine ⟨?_, ?_, ?_, ?_⟩ <;> rintro rfl <;> revert this <;> decide

theorem lowerAz_noWs {c : Char} (h : lowerAz c = true) : isWs c = false := by
  simp only [lowerAz, Bool.and_eq_true, decide_eq_true_eq] at h
  simp only [isWs, Bool.or_eq_false_iff, beq_eq_false_iff_ne, ne_eq]
  refine ⟨⟨⟨⟨?_, ?_⟩, ?_⟩, ?_⟩, ?_⟩ <;> rintro rfl <;> revert h <;> decide

theorem itemStart_letters {x s : Str} (hx : x ≠ []) (h2 : x.length ≤ 2) (h : ∀ c ∈ x, lowerAz c = true) :
    ItemStart (x ++ ')' :: s) := by
  have key : ∀ w : Str, (w.length ≤ 2 → ∃ c ∈ w, lowerAz c = false) → ')' ∉ w → ¬ w <+: x ++ ')' :: s := by
    intro w hw hb hp
    rcases Nat.lt_or_ge x.length w.length with hl | hl
    · have : x ++ [')'] <+: w := by
        refine List.prefix_of_prefix_length_le (l₃ := x ++ ')' :: s) ⟨s, by simp⟩ hp (by simp; omega)
      exact hb (this.subset (by simp))
    · have : w <+: x := List.prefix_of_prefix_length_le hp (List.prefix_append ..) hl
      obtain ⟨c, hc, hf⟩ := hw (by omega)
      have := h c (this.subset hc)
      rw [hf] at this; cases this
  refine ⟨noWs_append hx (Head.of_all fun c hc => lowerAz_noWs (h c hc)), ?_, key _ (by decide) (by decide),
    key _ (by decide) (by decide)⟩
  intro w hw
  simp only [sepWords, List.mem_cons, List.not_mem_nil, or_false] at hw
  rcases hw with rfl | rfl | rfl | rfl <;> exact key _ (by decide) (by decide)

theorem joined_skip {r : Str} (h : Joined r) : ∃ c r', skipWs r = c :: r' ∧ c ∈ str!",;évi" := by
  obtain ⟨sep, hs, r, rfl⟩ := h
  obtain ⟨j, u, rfl, -, hj⟩ := mem_separators hs
  have hm : ∀ m ∈ sepMarks, ∀ r, ∃ c r', skipWs (m ++ r) = c :: r' ∧ c ∈ str!",;évi" := by
    intro m hm r
    rw [skipWs_noWs (sepMark_noWs hm)]
    simp only [sepMarks, List.mem_cons, List.not_mem_nil, or_false] at hm
    rcases hm with rfl | rfl <;> exact ⟨_, _, rfl, by decide⟩
  rcases hj with hj | ⟨w, hw, rfl⟩ | ⟨m, hm', w, hw, rfl⟩
  · rw [List.append_assoc]; exact hm _ hj _
  · have : skipWs (' ' :: w ++ u ++ r) = w ++ (u ++ r) := by
      rw [List.cons_append, List.cons_append, List.append_assoc]
      unfold skipWs
      rw [List.dropWhile_cons]
      exact skipWs_noWs (sepWord_noWs hw)
    rw [this]
    simp only [sepWords, List.mem_cons, List.not_mem_nil, or_false] at hw
    rcases hw with rfl | rfl | rfl | rfl <;> exact ⟨_, _, rfl, by decide⟩
  · rw [List.append_assoc, List.append_assoc]; exact hm _ hm' _

theorem joined_head {r : Str} {f : Char → Prop} (h : Joined r) (hf : ∀ c ∈ str!",;évi", f c) : Head f (skipWs r) := by
  obtain ⟨c, r', e, hc⟩ := joined_skip h
  rw [e]; exact .cons (hf c hc)

theorem fails_call_dash {n : Nat} {s : Str} (h : Head (isDashChar · = false) (skipWs s)) : Fails (call dash) n s :=
  Fails.call fun _ => fails_dash h

/-- A part of a letter or of a number in brackets. -/
def idPart (f : α → Str) : Span α → IdPart
  | .one a => .single (f a)
  | .upTo _ a b => .range (f a) (f b)

/-- The result for an element. -/
def partAt (f : α → Str) (span : Span α → Str) (s : Span α) (n : Nat) : Part := ⟨idPart f s, ⟨n, n + byteLen (span s)⟩⟩

/-- The result for an article. -/
def articleAt (s : Span ArticleId) (n : Nat) : ArticlePart :=
  ⟨(s.range.start.book).map fun b => dec b.val, idPart (fun a => a.identifier.displaySlash) s,
    ⟨n, n + byteLen (articleSpan s)⟩⟩

theorem reads_articlePart {n : Nat} {s : Span ArticleId} {rest : Str} (hs : ArticleUsual s) (h : NoRange rest) :
    Reads articlePart n (articleSpan s) rest (articleAt s n) := by
  cases s with
  | one a => exact reads_articlePart_one hs h
  | upTo d a b => exact reads_articlePart_upTo hs

theorem letter_display {c : HunChar} : (∀ x ∈ c.display, lowerAz x = true) ∧ c.display ≠ [] ∧ c.display.length ≤ 2 := by
  refine ⟨fun x hx => ?_, (HunChar.display_letters c).1, ?_⟩
  · have := HunChar.display_mem hx
    simp [lowerAz, this]
  · revert c; decide +kernel

/-- The digraphs of `SuffixChar`. -/
def digraphs : List Str := [str!"cs", str!"dz", str!"gy", str!"ly", str!"ny", str!"sz", str!"ty", str!"zs"]

theorem reads_suffixChar {n : Nat} {c : HunChar} {rest : Str} (h : Head (lowerAz · = false) rest) :
    Reads suffixChar n c.display rest () := by
  cases c with
  | latin i =>
    have hd : (HunChar.latin i).display = [Char.ofNat (HunChar.code i)] := rfl
    have hl : lowerAz (Char.ofNat (HunChar.code i)) = true := letter_display.1 _ (by rw [hd]; simp)
    rw [hd]
    refine Reads.right (Fails.lits ?_) (Reads.char hl).map
    intro w hw hp
    have hw' : ∃ a b, w = [a, b] ∧ lowerAz b = true := by
      revert hw
      have : ∀ w ∈ digraphs, ∃ a ∈ w, ∃ b ∈ w, w = [a, b] ∧ lowerAz b = true := by decide +kernel
      intro hw
      obtain ⟨a, -, b, -, h⟩ := this w hw
      exact ⟨a, b, h⟩
    obtain ⟨a, b, rfl, hb⟩ := hw'
    obtain ⟨r, hr⟩ := hp
    simp only [List.cons_append, List.nil_append, List.cons.injEq] at hr
    have : lowerAz b = false := h b (by rw [← hr.2]; rfl)
    rw [hb] at this; cases this
  | cs => exact Reads.left (Reads.lits (l := digraphs.take 0) (by simp [digraphs]))
  | dz => exact Reads.left (Reads.lits (l := digraphs.take 1) (by simp [digraphs]))
  | gy => exact Reads.left (Reads.lits (l := digraphs.take 2) (by simp [digraphs]))
  | ly => exact Reads.left (Reads.lits (l := digraphs.take 3) (by simp [digraphs]))
  | ny => exact Reads.left (Reads.lits (l := digraphs.take 4) (by simp [digraphs]))
  | sz => exact Reads.left (Reads.lits (l := digraphs.take 5) (by simp [digraphs]))
  | ty => exact Reads.left (Reads.lits (l := digraphs.take 6) (by simp [digraphs]))
  | zs => exact Reads.left (Reads.lits (l := digraphs.take 7) (by simp [digraphs]))

theorem fails_suffixChar {n : Nat} {s : Str} (h : Head (lowerAz · = false) s) : Fails suffixChar n s := by
  refine Fails.alt (Fails.lits ?_) (Fails.bind (Fails.char h))
  intro w hw
  refine not_prefix_of_head ?_ fun e => ?_
  · rintro rfl; exact absurd hw (by decide : ([] : Str) ∉ digraphs)
  · have : ∀ w ∈ digraphs, ∃ c ∈ w, w.head? = some c ∧ lowerAz c = true := by decide +kernel
    obtain ⟨c, -, h1, h2⟩ := this w hw
    have : lowerAz c = false := h c (by rw [← e, h1])
    rw [h2] at this; cases this

/-- The letters after a number. -/
def lettered : Option HunChar → Str
  | some c => c.display
  | none => []

theorem display_numeric (i : NumericId) : i.display = dec i.num.val ++ lettered i.suffix := by
  unfold NumericId.display lettered
  cases i.suffix <;> simp

theorem noWs_numeric (i : NumericId) (s : Str) : NoWs (i.display ++ s) := by
  rw [display_numeric, List.append_assoc]; exact noWs_dec _ _

theorem lettered_head (o : Option HunChar) {s : Str} (h : Head (isDigit · = false) s) :
    Head (isDigit · = false) (lettered o ++ s) := by
  cases o with
  | none => exact h
  | some c =>
    exact Head.append (Head.of_all fun x hx => not_isDigit_of_display hx) letter_display.2.1

theorem reads_paragraphId {n : Nat} {i : NumericId} {rest : Str}
    (h : Head (fun c => isDigit c = false ∧ lowerAz c = false) rest) :
    Reads paragraphId n i.display rest i.display := by
  rw [display_numeric]
  refine Reads.slice (a := ()) (Reads.bind (reads_number (lettered_head _ (h.mono fun c hc => hc.1))) ?_)
  cases hs : i.suffix with
  | none => exact (Reads.opt_none (fails_suffixChar (h.mono fun c hc => hc.2))).map
  | some c => exact (Reads.opt_some (reads_suffixChar (h.mono fun c hc => hc.2))).map

theorem reads_numericPointId {n : Nat} {i : NumericId} {rest : Str}
    (h : Head (fun c => isDigit c = false ∧ lowerAz c = false ∧ c ≠ '/') rest) :
    Reads numericPointId n i.display rest i.display := by
  rw [display_numeric]
  refine Reads.slice (a := ()) (Reads.bind (reads_number (lettered_head _ (h.mono fun c hc => hc.1))) ?_)
  have noSlash : ∀ n s, Head (· ≠ '/') s → Reads (opt (lit str!"/")) n [] s none := fun n s h =>
    Reads.opt_none (Fails.lit_head (by decide) (fun e => h _ e.symm rfl))
  cases hs : i.suffix with
  | none =>
    refine (Reads.opt_none ?_).map
    exact Fails.bind_of (t := []) (noSlash _ _ (h.mono fun c hc => hc.2.2)) (fails_suffixChar (h.mono fun c hc => hc.2.1))
  | some c =>
    refine (Reads.opt_some (a := ()) ?_).map
    refine Reads.bind_first (noSlash _ _ ?_) (reads_suffixChar (h.mono fun c hc => hc.2.1))
    refine Head.append (Head.of_all fun x hx => ?_) letter_display.2.1
    have := HunChar.display_mem hx
    rintro rfl; revert this; decide

theorem reads_alphabeticSubpointId {n : Nat} {i : PrefixedId} {rest : Str} (hi : PrefixedUsual i)
    (h : Head (lowerAz · = false) rest) : Reads alphabeticSubpointId n i.display rest i.display := by
  obtain ⟨p, c⟩ := i
  obtain ⟨h1, ⟨k, rfl⟩⟩ := hi
  have hl : ∀ k, lowerAz (Char.ofNat (HunChar.code k)) = true := fun k =>
    (letter_display (c := .latin k)).1 _ (List.mem_singleton.2 rfl)
  cases p with
  | none =>
    refine Reads.slice (a := none) (Reads.bind_last (Reads.char (hl k)) ?_)
    exact Reads.opt_none (.char h)
  | some q =>
    obtain ⟨j, rfl⟩ := h1 q rfl
    refine Reads.slice (a := some (Char.ofNat (HunChar.code k))) (Reads.bind (t := [Char.ofNat (HunChar.code j)]) (Reads.char (hl j)) ?_)
    exact Reads.opt_some (Reads.char (hl k))

theorem display_prefixed {i : PrefixedId} (hi : PrefixedUsual i) :
    (∀ c ∈ i.display, lowerAz c = true) ∧ i.display ≠ [] ∧ i.display.length ≤ 2 := by
  refine ⟨fun c hc => ?_, i.display_ne_nil, ?_⟩
  · have := i.display_chars c hc
    simp [lowerAz, this]
  · obtain ⟨p, c⟩ := i
    obtain ⟨h1, ⟨k, rfl⟩⟩ := hi
    cases p with
    | none => exact Nat.le_succ 1
    | some q => obtain ⟨j, rfl⟩ := h1 q rfl; exact Nat.le_refl 2

theorem reads_call_dash {n : Nat} {d : Char} {t : Str} (h : d ∈ dashes) : Reads (call dash) n [d] t () :=
  Reads.call (noWs_cons (dashes_noWs h)) (reads_dash (dashes_dash h))

theorem reads_part {p : P IdPart} {n : Nat} {t rest : Str} {i : IdPart} (h : Reads p n t rest i) :
    Reads (positioned (p >>= fun id => pure fun p => (⟨id, p⟩ : Part))) n t rest ⟨i, ⟨n, n + byteLen t⟩⟩ :=
  Reads.positioned (Reads.map (g := fun id p => (⟨id, p⟩ : Part)) h)

theorem reads_paragraphPart {n : Nat} {s : Span NumericId} {rest : Str} (hs : s.Fits fun _ => True)
    (h : ∀ n, Fails (call dash) n rest) :
    Reads paragraphPart n (paragraphSpan s) rest (partAt NumericId.display paragraphSpan s n) := by
  have open' : ∀ n t, Reads (tok str!"(") n str!"(" t () := fun n t => Reads.tok (noWs_cons (by decide))
  have close' : ∀ n t, Reads (tok str!")") n str!")" t () := fun n t => Reads.tok (noWs_cons (by decide))
  have id' : ∀ n (i : NumericId) t, Reads (call paragraphId) n i.display (str!")" ++ t) i.display := fun n i t =>
    Reads.call (noWs_numeric _ _) (reads_paragraphId (.cons (by decide)))
  refine reads_part (i := idPart NumericId.display s) ?_
  cases s with
  | one a =>
    refine Reads.right ?_ ?_
    · have : paragraphSpan (.one a) ++ rest = str!"(" ++ (a.display ++ (str!")" ++ rest)) := by simp [paragraphSpan]
      rw [this]
      refine Fails.bind_of (open' _ _) (Fails.bind_of (id' _ _ _) (Fails.bind_of (close' _ _) (Fails.bind (h _))))
    · refine Reads.cast (t := str!"(" ++ (a.display ++ str!")")) ?_ (by simp [paragraphSpan])
      exact Reads.bind (open' _ _) (Reads.bind (id' _ _ _) (close' _ _).map)
  | upTo d a b =>
    refine Reads.left ?_
    refine Reads.cast (t := str!"(" ++ (a.display ++ (str!")" ++ ([d] ++ (str!"(" ++ (b.display ++ str!")")))))) ?_
      (by simp [paragraphSpan])
    refine Reads.bind (open' _ _) (Reads.bind (id' _ _ _) (Reads.bind (close' _ _) (Reads.bind (reads_call_dash hs.1)
      (Reads.bind (open' _ _) (Reads.bind (id' _ _ _) (close' _ _).map)))))

theorem reads_alphabeticPointPart {n : Nat} {s : Span HunChar} {rest : Str} (hs : s.Fits fun _ => True)
    (h : ∀ n, Fails (call dash) n rest) :
    Reads alphabeticPointPart n (letterSpan s) rest (partAt HunChar.display letterSpan s n) := by
  have close' : ∀ n t, Reads (tok str!")") n str!")" t () := fun n t => Reads.tok (noWs_cons (by decide))
  have id' : ∀ n (i : HunChar) t, Reads (call alphabeticPointId) n i.display (str!")" ++ t) i.display := fun n i t =>
    Reads.call (noWs_append letter_display.2.1 (Head.of_all fun c hc => lowerAz_noWs (letter_display.1 c hc)))
      (Reads.slice (reads_suffixChar (.cons (by decide))))
  refine reads_part (i := idPart HunChar.display s) ?_
  cases s with
  | one a =>
    refine Reads.right ?_ ?_
    · have : letterSpan (.one a) ++ rest = a.display ++ (str!")" ++ rest) := by simp [letterSpan]
      rw [this]
      exact Fails.bind_of (id' _ _ _) (Fails.bind_of (close' _ _).opt_some (Fails.bind (h _)))
    · exact Reads.bind (id' _ _ _) (close' _ _).map
  | upTo d a b =>
    refine Reads.left ?_
    refine Reads.cast (t := a.display ++ (str!")" ++ ([d] ++ (b.display ++ str!")")))) ?_ (by simp [letterSpan])
    refine Reads.bind (id' _ _ _) (Reads.bind (close' _ _).opt_some (Reads.bind (reads_call_dash hs.1)
      (Reads.bind (id' _ _ _) (close' _ _).map)))

theorem reads_alphabeticSubpointPart {n : Nat} {s : Span PrefixedId} {rest : Str} (hs : s.Fits PrefixedUsual)
    (h : ∀ n, Fails (call dash) n rest) :
    Reads alphabeticSubpointPart n (prefixedSpan s) rest (partAt PrefixedId.display prefixedSpan s n) := by
  have close' : ∀ n t, Reads (tok str!")") n str!")" t () := fun n t => Reads.tok (noWs_cons (by decide))
  have id' : ∀ n (i : PrefixedId) t, PrefixedUsual i →
      Reads (call alphabeticSubpointId) n i.display (str!")" ++ t) i.display := fun n i t hi =>
    Reads.call (noWs_append i.display_ne_nil (Head.of_all fun c hc => lowerAz_noWs ((display_prefixed hi).1 c hc)))
      (reads_alphabeticSubpointId hi (.cons (by decide)))
  refine reads_part (i := idPart PrefixedId.display s) ?_
  cases s with
  | one a =>
    refine Reads.right ?_ ?_
    · have : prefixedSpan (.one a) ++ rest = a.display ++ (str!")" ++ rest) := by simp [prefixedSpan]
      rw [this]
      exact Fails.bind_of (id' _ _ _ hs) (Fails.bind_of (close' _ _) (Fails.bind (h _)))
    · exact Reads.bind (id' _ _ _ hs) (close' _ _).map
  | upTo d a b =>
    refine Reads.left ?_
    refine Reads.cast (t := a.display ++ (str!")" ++ ([d] ++ (b.display ++ str!")")))) ?_ (by simp [prefixedSpan])
    refine Reads.bind (id' _ _ _ hs.2.1) (Reads.bind (close' _ _) (Reads.bind (reads_call_dash hs.1)
      (Reads.bind (id' _ _ _ hs.2.2) (close' _ _).map)))

/-- Points and subpoints of numbers. -/
theorem reads_dottedPart {p : P Str} {f : NumericId → Prop} {n : Nat} {s : Span NumericId} {rest : Str} (hs : s.Fits f)
    (hp : ∀ n i t, f i → Head (fun c => c = '.' ∨ c ∈ dashes) t → Reads p n i.display t i.display) :
    Reads (dottedPart p) n (dottedSpan s) rest (partAt NumericId.display dottedSpan s n) := by
  have dot : ∀ n t, Reads (tok str!".") n str!"." t () := fun n t => Reads.tok (noWs_cons (by decide))
  refine reads_part (i := idPart NumericId.display s) ?_
  cases s with
  | one a =>
    have id' : ∀ n t, Reads (call p) n a.display (str!"." ++ t) a.display := fun n t =>
      Reads.call (noWs_numeric _ _) (hp _ _ _ hs (.cons (.inl rfl)))
    refine Reads.right ?_ ?_
    · have : dottedSpan (.one a) ++ rest = a.display ++ (str!"." ++ rest) := by simp [dottedSpan]
      rw [this]
      exact Fails.bind_of (id' _ _) (Fails.bind (fails_call_dash (by
        rw [List.cons_append, skipWs_cons (by decide)]; exact .cons (by decide))))
    · exact Reads.bind (id' _ _) (dot _ _).map
  | upTo d a b =>
    refine Reads.left ?_
    refine Reads.cast (t := a.display ++ ([d] ++ (b.display ++ str!"."))) ?_ (by simp [dottedSpan])
    refine Reads.bind (Reads.call (noWs_numeric _ _) (hp _ _ _ hs.2.1 (.cons (.inr hs.1)))) (Reads.bind (reads_call_dash hs.1)
      (Reads.bind (Reads.call (noWs_numeric _ _) (hp _ _ _ hs.2.2 (.cons (.inl rfl)))) (dot _ _).map))

/-! ### the levels -/

theorem ending_lower {e : Str} (h : Ending e) : ∀ c ∈ e, isHunLower c = true := by
  have : ∀ c ∈ lowerLetters, isHunLower c = true := by decide +kernel
  exact fun c hc => this c (h c hc)

/-- What follows does not belong to the word before it, and does not make it the beginning of a range. -/
structure Next (rest : Str) : Prop where
  lower : Head (isHunLower · = false) rest
  dash : Head (isDashChar · = false) (skipWs rest)

theorem reads_partSuffix {n : Nat} {w e rest : Str} (he : Ending e) (h : Next rest) :
    Reads (partSuffix w) n (w ++ e) rest () :=
  Reads.bind (Reads.lit w) (Reads.many_chars (ending_lower he) h.lower).map

theorem reads_call_partSuffix {n : Nat} {w e rest : Str} (hw : w ≠ []) (hw' : NoWs w) (he : Ending e) (h : Next rest) :
    Reads (call (partSuffix w)) n (' ' :: w ++ e) rest () :=
  Reads.call_space (t := w ++ e) (by rw [List.append_assoc]; exact noWs_append hw hw') (reads_partSuffix he h)

/-- The ending of "§". -/
def SignEnding (e : Str) : Prop := e = [] ∨ ∃ x, e = '-' :: x ∧ x ≠ [] ∧ Ending x

theorem reads_articleSuffix {n : Nat} {e rest : Str} (he : SignEnding e) (h : Next rest) :
    Reads articleSuffix n ('§' :: e) rest () := by
  rcases he with rfl | ⟨x, rfl, hx, he⟩
  · refine Reads.right (Fails.bind (Fails.lit ?_)) (Reads.lit str!"§")
    rintro ⟨r, hr⟩
    simp only [List.cons_append, List.nil_append, List.cons.injEq, true_and] at hr
    have hd := h.dash
    rw [← hr, skipWs_cons (by decide)] at hd
    have := hd '-' rfl
    revert this; decide
  · exact Reads.left (Reads.bind (Reads.lit str!"§-") (Reads.many1_chars hx (ending_lower he) h.lower).map)

theorem reads_call_articleSuffix {n : Nat} {e rest : Str} (he : SignEnding e) (h : Next rest) :
    Reads (call articleSuffix) n (str!" §" ++ e) rest () :=
  Reads.call_space (t := '§' :: e) (noWs_cons (by decide)) (reads_articleSuffix he h)

theorem fails_articleSuffix {n : Nat} {s : Str} (h : Head (· ≠ '§') s) : Fails articleSuffix n s :=
  Fails.alt (Fails.bind (Fails.lit_head (by decide) fun e => h _ e.symm rfl))
    (Fails.lit_head (by decide) fun e => h _ e.symm rfl)

theorem noRange_of_head {rest : Str} (h : Head (· ≠ '§') (skipWs rest)) : NoRange rest := by
  intro n
  refine ⟨[], _, rfl, ⟨none, Reads.opt_none ?_⟩, fun m => fails_call_dash ?_⟩
  · exact Fails.bind_of (t := ['.']) (Reads.tok (s := ['.']) (noWs_cons (by decide)))
      (Fails.call fun _ => fails_articleSuffix h)
  · rw [skipWs_cons (by decide)]; exact .cons (by decide)

theorem noRange_sign {e rest : Str} (he : SignEnding e) (h : Next rest) : NoRange (str!" §" ++ e ++ rest) := by
  intro n
  refine ⟨str!"." ++ (str!" §" ++ e), rest, by simp, ⟨some (), Reads.opt_some ?_⟩, fun m => fails_call_dash h.dash⟩
  exact Reads.bind (Reads.tok (s := ['.']) (noWs_cons (by decide))) (reads_call_articleSuffix he h)

theorem words_text (span : Span α → Str) (word : Str) (l : Listing α) :
    (l.words span word).text = span l.first ++ othersText span l.others ++ (word ++ l.ending) := by
  simp [Words.text, Listing.words, othersText, List.flatMap_map]

theorem itemStart_article (s : Span ArticleId) (r : Str) : ItemStart (articleSpan s ++ r) := by
  have : ∀ (a : ArticleId) r, ItemStart (a.display ++ r) := by
    intro a r
    rw [display_article, displaySlash_eq]
    cases a.book with
    | none => simp only [bookText, List.nil_append, List.append_assoc]; exact itemStart_dec _ _
    | some b => simp only [bookText, List.append_assoc]; exact itemStart_dec _ _
  cases s <;> simp only [articleSpan, List.append_assoc] <;> exact this _ _

theorem reads_articleReference {n : Nat} {l : Listing ArticleId} {rest : Str} (hl : l.Fits ArticleUsual)
    (he : SignEnding l.ending) (h : Next rest) :
    Reads articleReference n (l.words articleSpan str!" §").text rest (itemsAt articleSpan articleAt n l) := by
  rw [words_text]
  refine Reads.bind (reads_listOf l hl (fun s _ r => itemStart_article s r) (fun s hs n r hr => ?_) fun n => ?_)
    (reads_call_articleSuffix he h).map
  · refine reads_articlePart hs ?_
    rcases hr with hr | rfl
    · exact noRange_of_head (joined_head hr (by decide))
    · exact noRange_sign he h
  · exact fails_listSeparator (.cons (by decide))

theorem itemStart_numeric (i : NumericId) (r : Str) : ItemStart (i.display ++ r) := by
  rw [display_numeric, List.append_assoc]; exact itemStart_dec _ _

/-- No dash after an element. -/
theorem no_dash {w e r rest : Str} (hw : w ≠ []) (hw1 : NoWs w) (hw2 : Head (isDashChar · = false) w)
    (hr : Joined r ∨ r = ' ' :: w ++ e ++ rest) (n : Nat) : Fails (call dash) n r := by
  refine fails_call_dash ?_
  rcases hr with hr | rfl
  · exact joined_head hr (by decide)
  · have : skipWs (' ' :: w ++ e ++ rest) = w ++ (e ++ rest) := by
      rw [List.cons_append, List.cons_append, List.append_assoc]
      unfold skipWs
      rw [List.dropWhile_cons]
      exact skipWs_noWs (noWs_append hw hw1)
    rw [this]; exact hw2.append hw

theorem no_separator {w e rest : Str} (hw : w ≠ []) (hw1 : NoWs w)
    (hw2 : Head (fun c => c ≠ ',' ∧ c ≠ ';' ∧ c ≠ 'é' ∧ c ≠ 'v' ∧ c ≠ 'i') w) (n : Nat) :
    Fails (call listSeparator) n (' ' :: w ++ e ++ rest) := by
  refine fails_listSeparator ?_
  have : skipWs (' ' :: w ++ e ++ rest) = w ++ (e ++ rest) := by
    rw [List.cons_append, List.cons_append, List.append_assoc]
    unfold skipWs
    rw [List.dropWhile_cons]
    exact skipWs_noWs (noWs_append hw hw1)
  rw [this]; exact hw2.append hw

theorem reads_paragraphReference {n : Nat} {l : Listing NumericId} {rest : Str} (hl : l.Fits (Span.Fits fun _ => True))
    (he : Ending l.ending) (h : Next rest) :
    Reads paragraphReference n (l.words paragraphSpan str!" bekezdés").text rest
      (itemsAt paragraphSpan (partAt NumericId.display paragraphSpan) n l) := by
  rw [words_text]
  refine Reads.bind (reads_listOf l hl (fun s _ r => ?_) (fun s hs n r hr => reads_paragraphPart hs ?_) fun n => ?_)
    (reads_call_partSuffix (w := str!"bekezdés") (by decide) (noWs_cons (by decide)) he h).map
  · cases s <;> exact itemStart_of_head rfl (by decide) (by decide)
  · exact no_dash (w := str!"bekezdés") (by decide) (noWs_cons (by decide)) (.cons (by decide)) hr
  · exact no_separator (w := str!"bekezdés") (by decide) (noWs_cons (by decide)) (.cons (by decide)) n

theorem itemStart_letter {s : Span HunChar} (r : Str) : ItemStart (letterSpan s ++ r) := by
  have : ∀ (a : HunChar) r, ItemStart (a.display ++ ')' :: r) := fun a r =>
    itemStart_letters letter_display.2.1 letter_display.2.2 letter_display.1
  cases s <;> simp only [letterSpan, List.append_assoc] <;> exact this _ _

theorem reads_alphabeticPointReference {n : Nat} {l : Listing HunChar} {rest : Str}
    (hl : l.Fits (Span.Fits fun _ => True)) (he : Ending l.ending) (h : Next rest) :
    Reads alphabeticPointReference n (l.words letterSpan str!" pont").text rest
      (itemsAt letterSpan (partAt HunChar.display letterSpan) n l) := by
  rw [words_text]
  refine Reads.bind (reads_listOf l hl (fun s _ r => itemStart_letter r)
    (fun s hs n r hr => reads_alphabeticPointPart hs ?_) fun n => ?_)
    (reads_call_partSuffix (w := str!"pont") (by decide) (noWs_cons (by decide)) he h).map
  · exact no_dash (w := str!"pont") (by decide) (noWs_cons (by decide)) (.cons (by decide)) hr
  · exact no_separator (w := str!"pont") (by decide) (noWs_cons (by decide)) (.cons (by decide)) n

theorem itemStart_dotted {s : Span NumericId} (r : Str) : ItemStart (dottedSpan s ++ r) := by
  cases s <;> simp only [dottedSpan, List.append_assoc] <;> exact itemStart_numeric _ _

theorem reads_numericPointReference {n : Nat} {l : Listing NumericId} {rest : Str}
    (hl : l.Fits (Span.Fits fun _ => True)) (he : Ending l.ending) (h : Next rest) :
    Reads numericPointReference n (l.words dottedSpan str!" pont").text rest
      (itemsAt dottedSpan (partAt NumericId.display dottedSpan) n l) := by
  rw [words_text]
  refine Reads.bind (reads_listOf l hl (fun s _ r => itemStart_dotted r)
    (fun s hs n r hr => reads_dottedPart hs fun n i t _ ht => reads_numericPointId (ht.mono ?_)) fun n => ?_)
    (reads_call_partSuffix (w := str!"pont") (by decide) (noWs_cons (by decide)) he h).map
  · rintro c (rfl | hc)
    · decide
    · have := dashes_not hc; exact ⟨this.1, this.2.2.2.2.2.1, this.2.1⟩
  · exact no_separator (w := str!"pont") (by decide) (noWs_cons (by decide)) (.cons (by decide)) n

theorem itemStart_prefixed {s : Span PrefixedId} (hs : s.Fits PrefixedUsual) (r : Str) :
    ItemStart (prefixedSpan s ++ r) := by
  have : ∀ (a : PrefixedId) r, PrefixedUsual a → ItemStart (a.display ++ ')' :: r) := fun a r ha =>
    itemStart_letters (display_prefixed ha).2.1 (display_prefixed ha).2.2 (display_prefixed ha).1
  cases s with
  | one a => simp only [prefixedSpan, List.append_assoc]; exact this _ _ hs
  | upTo d a b => simp only [prefixedSpan, List.append_assoc]; exact this _ _ hs.2.1

theorem reads_alphabeticSubpointReference {n : Nat} {l : Listing PrefixedId} {rest : Str}
    (hl : l.Fits (Span.Fits PrefixedUsual)) (he : Ending l.ending) (h : Next rest) :
    Reads alphabeticSubpointReference n (l.words prefixedSpan str!" alpont").text rest
      (itemsAt prefixedSpan (partAt PrefixedId.display prefixedSpan) n l) := by
  rw [words_text]
  refine Reads.bind (reads_listOf l hl (fun s hs r => itemStart_prefixed hs r)
    (fun s hs n r hr => reads_alphabeticSubpointPart hs ?_) fun n => ?_)
    (reads_call_partSuffix (w := str!"alpont") (by decide) (noWs_cons (by decide)) he h).map
  · exact no_dash (w := str!"alpont") (by decide) (noWs_cons (by decide)) (.cons (by decide)) hr
  · exact no_separator (w := str!"alpont") (by decide) (noWs_cons (by decide)) (.cons (by decide)) n

theorem reads_dec {n : Nat} {i : NumericId} {t : Str} (hi : i.suffix = none) (ht : Head (isDigit · = false) t) :
    Reads number n i.display t i.display := by
  rw [display_numeric, hi]; simp only [lettered, List.append_nil]; exact reads_number ht

theorem reads_numericSubpointReference {n : Nat} {l : Listing NumericId} {rest : Str}
    (hl : l.Fits (Span.Fits fun i => i.suffix = none)) (he : Ending l.ending) (h : Next rest) :
    Reads numericSubpointReference n (l.words dottedSpan str!" alpont").text rest
      (itemsAt dottedSpan (partAt NumericId.display dottedSpan) n l) := by
  rw [words_text]
  refine Reads.bind (reads_listOf l hl (fun s _ r => itemStart_dotted r)
    (fun s hs n r hr => reads_dottedPart hs fun n i t hi ht => reads_dec hi (ht.mono ?_)) fun n => ?_)
    (reads_call_partSuffix (w := str!"alpont") (by decide) (noWs_cons (by decide)) he h).map
  · rintro c (rfl | hc)
    · decide
    · exact (dashes_not hc).1
  · exact no_separator (w := str!"alpont") (by decide) (noWs_cons (by decide)) (.cons (by decide)) n

end HunLaw.Grammar
