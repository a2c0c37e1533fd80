import Verif.Lemmas.EnforcementSentence
import Verif.Spec.Places

/-! The grammar recognises the places of the structure of an act. -/

set_option autoImplicit false

namespace HunLaw.Grammar

open HunLaw P Spec

variable {α β : Type}

/-! ### numbers -/

theorem capital_free : ∀ w ∈ capitalNumbers.map Prod.fst, ∀ u ∈ capitalNumbers.map Prod.fst, u ≠ w → ¬ u <+: w ∧ ¬ w <+: u := by
  decide +kernel

/-- The first characters of the numbers of books and parts. -/
theorem capital_head : ∀ w ∈ capitalNumbers.map Prod.fst, ∃ c x r, w = c :: x :: r ∧ isHunUpper c = true ∧ isWs c = false ∧
    (isRomanChar c = true → isRomanChar x = false ∧ upperAz x = false ∧ x ≠ '/' ∧ x ≠ '.' ∧ isWs x = false) := by
  have h : ∀ w ∈ capitalNumbers.map Prod.fst, ∃ c ∈ w, ∃ x ∈ w, w = c :: x :: w.drop 2 ∧ isHunUpper c = true ∧ isWs c = false ∧
    (isRomanChar c = true → isRomanChar x = false ∧ upperAz x = false ∧ x ≠ '/' ∧ x ≠ '.' ∧ isWs x = false) := by decide +kernel
  intro w hw
  obtain ⟨c, -, x, -, e, h⟩ := h w hw
  exact ⟨c, x, _, e, h⟩

theorem capital_noWs {w : Str} (hw : w ∈ capitalNumbers.map Prod.fst) (r : Str) : NoWs (w ++ r) := by
  obtain ⟨c, x, t, rfl, -, h, -⟩ := capital_head w hw
  exact noWs_cons h

theorem reads_capital {w : Str} (hw : w ∈ capitalNumbers.map Prod.fst) {n : Nat} {rest : Str} :
    Reads hungarianOrdinalCapital n w rest w :=
  (reads_one (l := capitalNumbers.map Prod.fst) hw (capital_free w hw)).slice

theorem prefix_roman {w r : Str} {c : Char} {s : Str} (h : w <+: r ++ c :: s) (hr : ∀ x ∈ r, isRomanChar x = true) :
    (∀ x ∈ w, isRomanChar x = true) ∨ ∃ a b, w = a ++ c :: b ∧ ∀ x ∈ a, isRomanChar x = true := by
  rcases prefix_cases h with h | ⟨t, rfl⟩
  · exact .inl fun x hx => hr x (h.mem hx)
  · cases t with
    | nil => exact .inl (by simpa using hr)
    | cons d t =>
      refine .inr ⟨r, t, ?_, hr⟩
      have := (List.prefix_append_right_inj r).1 h
      obtain ⟨z, hz⟩ := this
      simp at hz
      rw [hz.1]

theorem capital_not_roman {r s : Str} {c : Char} (hr : ∀ x ∈ r, isRomanChar x = true) (hc : c = '.' ∨ c = '/') {w : Str}
    (hw : w ∈ capitalNumbers.map Prod.fst) : ¬ w <+: r ++ c :: s := by
  intro h
  obtain ⟨d, x, t, rfl, hu, -, h2⟩ := capital_head w hw
  have hcu : isHunUpper c = false ∧ isRomanChar c = false := by rcases hc with rfl | rfl <;> decide
  rcases prefix_roman h hr with h | ⟨a, b, e, ha⟩
  · have := (h2 (h d (by simp))).1
    rw [h x (by simp)] at this; cases this
  · cases a with
    | nil => simp at e; rw [e.1, hcu.1] at hu; cases hu
    | cons y a =>
      simp at e
      have hd := h2 (by rw [e.1]; exact ha y (by simp))
      cases a with
      | nil =>
        simp at e
        rcases hc with rfl | rfl
        · exact hd.2.2.2.1 e.2.1
        · exact hd.2.2.1 e.2.1
      | cons z a =>
        simp at e
        have := hd.1
        rw [e.2.1, ha z (by simp)] at this; cases this

/-! ### Roman numbers -/

theorem romanText_eq {i : NumericId} (h : RomanUsual i) : ∃ r, r ≠ [] ∧ (∀ c ∈ r, isRomanChar c = true) ∧
    romanText i = r ++ slashed i.suffix := by
  obtain ⟨r, h1, -, h3, h4⟩ := roman_chars h.1.1 h.1.2
  refine ⟨r, h4, h3, ?_⟩
  unfold romanText slashed
  rw [h1]
  cases i.suffix <;> rfl

theorem roman_head {r : Str} (hr : r ≠ []) (h : ∀ c ∈ r, isRomanChar c = true) (s : Str) :
    ∃ c t, r ++ s = c :: t ∧ isRomanChar c = true := by
  cases r with
  | nil => exact absurd rfl hr
  | cons c r => exact ⟨c, r ++ s, rfl, h c (List.mem_cons_self ..)⟩

theorem romanText_head {i : NumericId} (h : RomanUsual i) (s : Str) : ∃ c t, romanText i ++ s = c :: t ∧ isRomanChar c = true := by
  obtain ⟨r, h1, h2, e⟩ := romanText_eq h
  rw [e, List.append_assoc]
  exact roman_head h1 h2 _

theorem romanText_noWs {i : NumericId} (h : RomanUsual i) (s : Str) : NoWs (romanText i ++ s) := by
  obtain ⟨c, t, e, hc⟩ := romanText_head h s
  rw [e]; exact noWs_cons (roman_noWs hc)

/-- A letter after the number, or nothing. -/
theorem reads_letter {o : Option HunChar} (ho : ∀ c, o = some c → Plain c) {n : Nat} {s : Str} :
    ∃ x, Reads (opt (do let _ ← opt (tok str!"/"); call (char upperAz))) n (slashed o) (str!"." ++ s) x := by
  cases o with
  | none =>
    refine ⟨none, Reads.opt_none ?_⟩
    refine Fails.bind_of (t := []) (a := none) (Reads.opt_none (Fails.tok (by decide) ?_))
      (Fails.call_noWs (noWs_cons (by decide)) fun _ => Fails.char (Head.cons (f := (upperAz · = false)) (by decide)))
    show _ ≠ (skipWs ('.' :: s)).head?
    rw [skipWs_cons (by decide)]; simp
  | some c =>
    obtain ⟨x, hx, hu⟩ := plain_upper (ho c rfl)
    have hw : isWs x = false := by
      cases hs : isWs x with
      | false => rfl
      | true =>
        simp only [isWs, Bool.or_eq_true, beq_iff_eq] at hs
        rcases hs with (((rfl | rfl) | rfl) | rfl) | rfl <;> revert hu <;> decide
    simp only [slashed, hx]
    exact ⟨some x, Reads.opt_some (Reads.bind (t := str!"/") (a := some ()) (Reads.opt_some (Reads.tok (s := str!"/") (noWs_cons (by decide))))
      (Reads.call (noWs_cons hw) (Reads.char hu)))⟩

theorem reads_romanId {i : NumericId} (h : RomanUsual i) {n : Nat} {s : Str} :
    Reads romanId n (romanText i) (str!"." ++ s) (romanText i) := by
  obtain ⟨r, h1, h2, e⟩ := romanText_eq h
  rw [e]
  have hw : NoWs (r ++ (slashed i.suffix ++ (str!"." ++ s))) := by
    obtain ⟨c, t, e, hc⟩ := roman_head h1 h2 (slashed i.suffix ++ (str!"." ++ s))
    rw [e]; exact noWs_cons (roman_noWs hc)
  obtain ⟨x, hx⟩ := reads_letter h.2 (n := n + byteLen r) (s := s)
  refine Reads.slice (a := ()) (Reads.bind (Reads.call hw ((Reads.many1_chars h1 h2 ?_).slice)) (Reads.map (g := fun _ => ()) hx))
  show Head (isRomanChar · = false) _
  cases hs : i.suffix with
  | none => exact .cons (by decide)
  | some c => exact .cons (by decide)

/-! ### words after the number -/

theorem reads_levelSuffix {l : List Str} {w : Inflected} (hw : w.Of l) (hl : ∀ u ∈ l, ∀ v ∈ l, v ≠ u → ¬ v <+: u ∧ ¬ u <+: v)
    {n : Nat} {rest : Str} (h : Head (isHunAny · = false) rest) : Reads (levelSuffix l) n w.text rest () := by
  refine Reads.bind (reads_one hw.1 (hl _ hw.1)) (Reads.many_chars ?_ h).map
  intro c hc
  simp only [isHunAny, ending_lower hw.2 c hc, Bool.true_or]

theorem fails_levelSuffix {l k : List Str} {w : Inflected} (hw : w.Of k) (hl : ∀ u ∈ k, ∀ v ∈ l, ¬ v <+: u ∧ ¬ u <+: v)
    {n : Nat} {rest : Str} : Fails (levelSuffix l) n (w.text ++ rest) := by
  refine Fails.bind (Fails.lits fun v hv => ?_)
  rw [Inflected.text, List.append_assoc]
  exact not_prefix_words (hl _ hw.1 v hv).1 (hl _ hw.1 v hv).2

theorem inflected_noWs {l : List Str} {w : Inflected} (hw : w.Of l) (hl : ∀ u ∈ l, u ≠ [] ∧ NoWs u) (r : Str) :
    NoWs (w.text ++ r) := by
  rw [Inflected.text, List.append_assoc]
  exact noWs_append (hl _ hw.1).1 (hl _ hw.1).2

def bookNames : List Str := [str!"könyv", str!"Könyv", str!"KÖNYV"]
def chapterNames : List Str := [str!"fejezet", str!"Fejezet", str!"FEJEZET"]
def partNames : List Str := [str!"rész", str!"Rész", str!"RÉSZ"]
def titleNames : List Str := [str!"cím", str!"Cím", str!"CÍM"]

theorem noWs_of {w : Str} (h : ∃ c ∈ w.head?, isWs c = false) : w ≠ [] ∧ NoWs w := by
  obtain ⟨c, hc, h⟩ := h
  cases w with
  | nil => cases hc
  | cons d w => simp at hc; subst hc; exact ⟨by simp, noWs_cons h⟩

theorem level_noWs : ∀ u ∈ bookNames ++ chapterNames ++ partNames ++ titleNames ++ [str!"alcím"], u ≠ [] ∧ NoWs u := fun u hu =>
  noWs_of ((by decide : ∀ u ∈ bookNames ++ chapterNames ++ partNames ++ titleNames ++ [str!"alcím"], ∃ c ∈ u.head?, isWs c = false) u hu)

theorem levels_free : ∀ u ∈ bookNames ++ chapterNames ++ partNames ++ titleNames,
    ∀ v ∈ bookNames ++ chapterNames ++ partNames ++ titleNames, v ≠ u → ¬ v <+: u ∧ ¬ u <+: v := by decide +kernel

/-! ### chapters, parts, titles -/

theorem reads_romanRef {l : List Str} {i : NumericId} {w : Inflected} (hi : RomanUsual i) (hw : w.Of l)
    (hl : ∀ u ∈ l, ∀ v ∈ l, v ≠ u → ¬ v <+: u ∧ ¬ u <+: v) (hs : ∀ u ∈ l, u ≠ [] ∧ NoWs u) {n : Nat} {rest : Str}
    (h : Head (isHunAny · = false) rest) :
    Reads (call romanId >>= fun id => tok str!"." >>= fun _ => call (levelSuffix l) >>= fun _ => pure id) n
      (romanText i ++ (str!"." ++ (' ' :: w.text))) rest (romanText i) := by
  refine Reads.bind (Reads.call (romanText_noWs hi _) (reads_romanId hi)) (Reads.bind reads_dot ?_)
  exact Reads.map (g := fun _ => romanText i) (Reads.call_space (inflected_noWs hw hs _) (reads_levelSuffix hw hl h))

theorem fails_romanRef {l k : List Str} {i : NumericId} {w : Inflected} (hi : RomanUsual i) (hw : w.Of k)
    (hl : ∀ u ∈ k, ∀ v ∈ l, ¬ v <+: u ∧ ¬ u <+: v) (hs : ∀ u ∈ k, u ≠ [] ∧ NoWs u) {n : Nat} {rest : Str} :
    Fails (call romanId >>= fun id => tok str!"." >>= fun _ => call (levelSuffix l) >>= fun _ => pure id) n
      (romanText i ++ (str!"." ++ (' ' :: w.text ++ rest))) := by
  refine Fails.bind_of (Reads.call (romanText_noWs hi _) (reads_romanId hi)) (Fails.bind_of reads_dot (Fails.bind ?_))
  exact Fails.call_space (inflected_noWs hw hs _) fun _ => fails_levelSuffix hw hl

theorem reads_capitalRef {l : List Str} {s : Str} {w : Inflected} (hi : s ∈ capitalNumbers.map Prod.fst) (hw : w.Of l)
    (hl : ∀ u ∈ l, ∀ v ∈ l, v ≠ u → ¬ v <+: u ∧ ¬ u <+: v) (hs : ∀ u ∈ l, u ≠ [] ∧ NoWs u) {n : Nat} {rest : Str}
    (h : Head (isHunAny · = false) rest) :
    Reads (call hungarianOrdinalCapital >>= fun id => call (levelSuffix l) >>= fun _ => pure id) n
      (s ++ (' ' :: w.text)) rest s := by
  refine Reads.bind (Reads.call (capital_noWs hi _) (reads_capital hi)) ?_
  exact Reads.map (g := fun _ => s) (Reads.call_space (inflected_noWs hw hs _) (reads_levelSuffix hw hl h))

theorem fails_capitalRef {l k : List Str} {s : Str} {w : Inflected} (hi : s ∈ capitalNumbers.map Prod.fst) (hw : w.Of k)
    (hl : ∀ u ∈ k, ∀ v ∈ l, ¬ v <+: u ∧ ¬ u <+: v) (hs : ∀ u ∈ k, u ≠ [] ∧ NoWs u) {n : Nat} {rest : Str} :
    Fails (call hungarianOrdinalCapital >>= fun id => call (levelSuffix l) >>= fun _ => pure id) n
      (s ++ (' ' :: w.text ++ rest)) := by
  refine Fails.bind_of (Reads.call (capital_noWs hi _) (reads_capital hi)) (Fails.bind ?_)
  exact Fails.call_space (inflected_noWs hw hs _) fun _ => fails_levelSuffix hw hl

/-- A number of a book or a part is not a Roman number. -/
theorem fails_romanRef_capital {s rest : Str} {f : Str → P β} (hi : s ∈ capitalNumbers.map Prod.fst) (hf : ∀ a n r, Fails (tok str!".") n r → Fails (f a) n r)
    {n : Nat} : Fails (call romanId >>= f) n (s ++ rest) := by
  obtain ⟨c, x, r, rfl, hu, hw, h⟩ := capital_head s hi
  by_cases hc : isRomanChar c = true
  · obtain ⟨h1, h2, h3, h4, h5⟩ := h hc
    have hsk : skipWs (x :: (r ++ rest)) = x :: (r ++ rest) := skipWs_cons h5
    have hid : ∀ n, Reads romanId n [c] (x :: (r ++ rest)) [c] := fun n => by
      refine Reads.slice (a := ()) (Reads.bind_last (Reads.call (t := [c]) (noWs_cons hw) ((Reads.many1_chars (by simp) (by simpa using hc) (Head.cons h1)).slice))
        (Reads.map (g := fun _ => ()) (a := none) (Reads.opt_none ?_)))
      refine Fails.bind_of (t := []) (a := none) (Reads.opt_none (Fails.tok (by decide) ?_))
        (Fails.call_noWs (noWs_cons h5) fun _ => Fails.char (Head.cons (f := (upperAz · = false)) h2))
      rw [hsk]; simpa using fun e => h3 e.symm
    have := Fails.bind_of (f := f) (Reads.call (n := n) (t := [c]) (rest := x :: (r ++ rest)) (noWs_cons hw) (hid n)) (hf [c] _ _ (Fails.tok (by decide) (by rw [hsk]; simpa using fun e => h4 e.symm)))
    simpa using this
  · exact Fails.bind (Fails.call_noWs (noWs_cons hw) fun _ => Fails.slice (Fails.bind (Fails.call_noWs (noWs_cons hw) fun _ =>
      fails_roman (.cons (by simpa using hc)))))

theorem fails_capital_roman {i : NumericId} (hi : RomanUsual i) {n : Nat} {s : Str} :
    Fails hungarianOrdinalCapital n (romanText i ++ (str!"." ++ s)) := by
  obtain ⟨r, h1, h2, e⟩ := romanText_eq hi
  rw [e]
  refine Fails.slice (Fails.lits (l := capitalNumbers.map Prod.fst) fun w hw => ?_)
  cases i.suffix with
  | none => simpa [slashed] using capital_not_roman (s := s) h2 (.inl rfl) hw
  | some c => simpa [slashed] using capital_not_roman (s := c.displayUpper ++ '.' :: s) h2 (.inr rfl) hw

/-! ### subtitles -/

/-- The usual numbers of subtitles. -/
def SlashedUsual : Span NumericId → Prop
  | .one i => ∀ c, i.suffix = some c → Plain c
  | .upTo d i j => d ∈ dashes ∧ (∀ c, i.suffix = some c → Plain c) ∧ ∀ c, j.suffix = some c → Plain c

theorem slashedSpan_article (s : Span NumericId) : slashedSpan s = articleSpan (match s with
    | .one i => .one ⟨none, i⟩
    | .upTo d i j => .upTo d ⟨none, i⟩ ⟨none, j⟩) := by
  cases s <;> rfl

theorem slashed_noWs (s : Span NumericId) (r : Str) : NoWs (slashedSpan s ++ r) := by
  cases s with
  | one i => rw [slashedSpan, List.append_assoc]; exact noWs_slash _ _
  | upTo d i j => simp only [slashedSpan, List.append_assoc]; exact noWs_slash _ _

theorem slashed_digit (s : Span NumericId) (r : Str) : Head (isDigit · = true) (slashedSpan s ++ r) := by
  cases s with
  | one i => rw [slashedSpan, displaySlash_eq, List.append_assoc, List.append_assoc]; exact dec_start _ _
  | upTo d i j => simp only [slashedSpan, displaySlash_eq, List.append_assoc]; exact dec_start _ _

/-- A letter after the number, and then something. -/
theorem reads_letter_before {o : Option HunChar} (ho : ∀ c, o = some c → Plain c) {n : Nat} {s : Str}
    (hs : ∀ c, s.head? = some c → c ≠ '/' ∧ upperAz c = false ∧ isWs c = false) :
    ∃ x, Reads (opt (do let _ ← opt (tok str!"/"); call (char upperAz))) n (slashed o) s x := by
  have hw : NoWs s := fun c hc => (hs c hc).2.2
  cases o with
  | none =>
    refine ⟨none, Reads.opt_none ?_⟩
    refine Fails.bind_of (t := []) (a := none) (Reads.opt_none (Fails.tok (by decide) ?_))
      (Fails.call_noWs hw fun _ => Fails.char fun c hc => (hs c hc).2.1)
    rw [skipWs_noWs hw]
    intro e
    exact (hs _ e.symm).1 rfl
  | some c =>
    obtain ⟨x, hx, hu⟩ := plain_upper (ho c rfl)
    have hw : isWs x = false := by
      cases hs : isWs x with
      | false => rfl
      | true =>
        simp only [isWs, Bool.or_eq_true, beq_iff_eq] at hs
        rcases hs with (((rfl | rfl) | rfl) | rfl) | rfl <;> revert hu <;> decide
    simp only [slashed, hx]
    exact ⟨some x, Reads.opt_some (Reads.bind (t := str!"/") (a := some ()) (Reads.opt_some (Reads.tok (s := str!"/") (noWs_cons (by decide))))
      (Reads.call (noWs_cons hw) (Reads.char hu)))⟩

theorem reads_subtitleId {i : NumericId} (hi : ∀ c, i.suffix = some c → Plain c) {n : Nat} {s : Str}
    (hs : ∀ c, s.head? = some c → c ≠ '/' ∧ upperAz c = false ∧ isWs c = false ∧ isDigit c = false) :
    Reads subtitleId n i.displaySlash s i.displaySlash := by
  rw [displaySlash_eq]
  obtain ⟨x, hx⟩ := reads_letter_before hi (n := n + byteLen (dec i.num.val)) (s := s) fun c hc => ⟨(hs c hc).1, (hs c hc).2.1, (hs c hc).2.2.1⟩
  refine Reads.slice (a := ()) (Reads.bind (Reads.call (noWs_dec _ _) (reads_number ?_)) (Reads.map (g := fun _ => ()) hx))
  cases i.suffix with
  | none => exact fun c hc => (hs c hc).2.2.2
  | some c => exact .cons (by decide)

theorem dash_head {d : Char} (h : d ∈ dashes) : d ≠ '/' ∧ upperAz d = false ∧ isWs d = false ∧ isDigit d = false := by
  revert d; decide

theorem reads_subtitlePart {x : Span NumericId} (hx : SlashedUsual x) {n : Nat} {rest : Str}
    (h : Head (isDashChar · = false) (skipWs rest)) :
    Reads subtitlePart n (slashedSpan x) rest (idPart NumericId.displaySlash x) := by
  cases x with
  | one i =>
    have hid : ∀ n r, Reads subtitleId n i.displaySlash (str!"." ++ r) i.displaySlash := fun n r =>
      reads_subtitleId hx (Head.cons (f := fun c => c ≠ '/' ∧ upperAz c = false ∧ isWs c = false ∧ isDigit c = false) (by decide))
    refine Reads.right ?_ (Reads.bind (Reads.call (noWs_slash _ _) (hid _ _)) (Reads.map (g := fun _ => IdPart.single i.displaySlash) reads_dot))
    rw [slashedSpan, List.append_assoc]
    refine Fails.bind_of (Reads.call (noWs_slash _ _) (hid _ _)) (Fails.bind_of (a := some ()) (Reads.opt_some reads_dot) ?_)
    exact Fails.bind (fails_call_dash h)
  | upTo d i j =>
    have hd := dashes_not hx.1
    have h1 : ∀ n r, Reads subtitleId n i.displaySlash ([d] ++ r) i.displaySlash := fun n r =>
      reads_subtitleId hx.2.1 (Head.cons (f := fun c => c ≠ '/' ∧ upperAz c = false ∧ isWs c = false ∧ isDigit c = false) (dash_head hx.1))
    have h2 : ∀ n r, Reads subtitleId n j.displaySlash (str!"." ++ r) j.displaySlash := fun n r =>
      reads_subtitleId hx.2.2 (Head.cons (f := fun c => c ≠ '/' ∧ upperAz c = false ∧ isWs c = false ∧ isDigit c = false) (by decide))
    have e : slashedSpan (.upTo d i j) = i.displaySlash ++ ([d] ++ (j.displaySlash ++ str!".")) := by simp [slashedSpan]
    rw [e]
    refine Reads.left (Reads.bind (Reads.call (noWs_slash _ _) ?_) (Reads.bind_first (a := none) (Reads.opt_none (Fails.tok (by decide) ?_))
      (Reads.bind (reads_call_dash hx.1) (Reads.bind (Reads.call (noWs_slash _ _) (h2 _ _)) (Reads.map (g := fun _ => IdPart.range i.displaySlash j.displaySlash) reads_dot)))))
    · rw [List.append_assoc]; exact h1 _ _
    · rw [List.append_assoc, List.singleton_append, skipWs_cons (dashes_noWs hx.1)]
      simpa using fun e => hd.2.2.2.1 e.symm

/-! ### titles in quotes -/

theorem Reads.not {p : P α} {n : Nat} {s : Str} (h : Fails p n s) : Reads (P.not p) n [] s () := by
  show P.notRun p ⟨n, s⟩ = _
  have h : p.run ⟨n, s⟩ = none := h
  simp [P.notRun, h, byteLen]

theorem Fails.not {p : P α} {n : Nat} {t s : Str} {a : α} (h : Reads p n t s a) : Fails (P.not p) n (t ++ s) := by
  show P.notRun p ⟨n, t ++ s⟩ = _
  have h : p.run ⟨n, t ++ s⟩ = _ := h
  simp [P.notRun, h]

theorem ws_mem {c : Char} : isWs c = true ↔ c ∈ str!" \t\n\r\x0c" := by
  simp only [isWs, Bool.or_eq_true, beq_iff_eq, List.mem_cons, List.not_mem_nil, or_false]
  constructor
  · rintro ((((h | h) | h) | h) | h) <;> simp [h]
  · rintro (h | h | h | h | h) <;> simp [h]

theorem reads_quoteChar {w : Str} {c : Char} (hw : ∀ x ∈ w, isWs x = true) (hc : isWs c = false) (h1 : c ≠ '„') (h2 : c ≠ '”')
    {n : Nat} {rest : Str} : Reads quoteChar n (w ++ [c]) rest () := by
  have hsk : skipWs (w ++ [c] ++ rest) = c :: rest := by
    rw [List.append_assoc]
    unfold skipWs
    rw [List.dropWhile_append_of_pos (by simpa using hw)]
    exact skipWs_cons hc
  refine Reads.bind_first (a := ()) (Reads.not (Fails.toks ?_)) (Reads.call_ws hw (noWs_cons hc) (Reads.char rfl).map)
  rw [hsk]
  intro u hu
  simp only [List.mem_cons, List.not_mem_nil, or_false] at hu
  rcases hu with rfl | rfl
  · exact not_prefix_of_head (by decide) (by simpa using fun e => h1 e.symm)
  · exact not_prefix_of_head (by decide) (by simpa using fun e => h2 e.symm)

theorem fails_quoteChar {n : Nat} {rest : Str} : Fails quoteChar n (str!"”" ++ rest) := by
  refine Fails.bind (Fails.not (a := ()) (Reads.call (noWs_cons (by decide)) ?_))
  exact reads_one (l := [str!"„", str!"”"]) (by simp) (by decide)

theorem reads_quoteChars : ∀ (k : Nat) (t : Str), t.length ≤ k → '„' ∉ t → '”' ∉ t → (∀ c, t.getLast? = some c → isWs c = false) →
    ∀ (n : Nat) (rest : Str), ∃ l, Reads (many quoteChar) n t (str!"”" ++ rest) l := by
  intro k
  induction k with
  | zero =>
    intro t hk _ _ _ n rest
    rw [List.length_eq_zero_iff.1 (by omega : t.length = 0)]
    exact ⟨[], Reads.many_nil fails_quoteChar⟩
  | succ k ih =>
    intro t hk h1 h2 hl n rest
    obtain ⟨w, hw, e⟩ := skipWs_split t
    rcases hs : skipWs t with _ | ⟨c, x⟩
    · rw [hs, List.append_nil] at e
      rcases List.eq_nil_or_concat t with rfl | ⟨z, d, rfl⟩
      · exact ⟨[], Reads.many_nil fails_quoteChar⟩
      · have := hl d (by simp)
        rw [hw d (by rw [← e]; simp)] at this
        cases this
    · rw [hs] at e
      have hc : isWs c = false := by
        have := noWs_skipWs t; rw [hs] at this; exact this c rfl
      have e2 : t = (w ++ [c]) ++ x := by rw [e]; simp
      obtain ⟨l, hr⟩ := ih x (by rw [e] at hk; simp at hk; omega) (fun h => h1 (by rw [e]; simp [h])) (fun h => h2 (by rw [e]; simp [h]))
        (fun d hd => hl d (by
          rw [e2, List.getLast?_append, hd]; rfl)) (n + byteLen (w ++ [c])) rest
      rw [e2]
      refine ⟨() :: l, Reads.many_cons (by simp) (reads_quoteChar hw hc ?_ ?_) hr⟩
      · rintro rfl; exact h1 (by rw [e]; simp)
      · rintro rfl; exact h2 (by rw [e]; simp)

theorem Reads.fuel {f : Nat → P α} {n : Nat} {t rest : Str} {a : α} (h : Reads (f ((t ++ rest).length + 1)) n t rest a) :
    Reads (P.fuel f) n t rest a := h

theorem reads_quoteInner {t : Str} (ht : QuotedUsual t) {n : Nat} {rest : Str} :
    Reads quoteInner n t (str!"”" ++ rest) t := by
  refine Reads.slice (a := ()) (Reads.fuel ?_)
  obtain ⟨l, hl⟩ := reads_quoteChars _ t (Nat.le_refl _) ht.quotes.1 ht.quotes.2 (fun c hc => by
    have := ht.last c hc
    rw [← ws_mem] at this
    simpa using this) n rest
  refine Reads.bind_last hl (Reads.map (g := fun _ => ()) (Reads.many_nil (Fails.bind (Fails.tok (by decide) ?_))))
  show _ ≠ (skipWs ('”' :: rest)).head?
  rw [skipWs_cons (by decide)]; simp

theorem reads_quote {t : Str} (ht : QuotedUsual t) {n : Nat} {rest : Str} :
    Reads quote n (str!"„" ++ (t ++ str!"”")) rest t := by
  refine Reads.bind (t := str!"„") (Reads.tok (s := str!"„") (noWs_cons (by decide))) (Reads.bind (Reads.call ?_ (reads_quoteInner ht))
    (Reads.map (g := fun _ => t) (Reads.tok (s := str!"”") (noWs_cons (by decide)))))
  cases t with
  | nil => exact noWs_cons (by decide)
  | cons c t =>
    refine noWs_cons ?_
    have := ht.first c rfl
    rw [← ws_mem] at this
    simpa using this

/-! ### places -/

/-- What is read for a part of the structure. -/
def placeId : PlaceText → StructuralId
  | .chapter i _ => .chapter (romanText i)
  | .part s _ => .part s
  | .title i _ => .title (romanText i)
  | .subtitles s _ => .subtitle (idPart NumericId.displaySlash s)
  | .named t _ _ => .subtitleTitle t

/-- What may come after a part of the structure. -/
structure AfterPart (s : Str) : Prop where
  any : Head (isHunAny · = false) s
  dash : Head (isDashChar · = false) (skipWs s)

theorem AfterPart.next {s : Str} (h : AfterPart s) : Next s :=
  ⟨h.any.mono fun c hc => by simp only [isHunAny, Bool.or_eq_false_iff] at hc; exact hc.1, h.dash⟩

theorem slashed_not (x : Span NumericId) (r : Str) : Head (fun c => isHunUpper c = false ∧ isRomanChar c = false) (slashedSpan x ++ r) :=
  (slashed_digit x r).mono fun _ hc => ⟨(timeChar_digit hc).upper, (timeChar_digit hc).roman⟩

theorem alcim_noWs {w : Inflected} (hw : w.Of [str!"alcím"]) (r : Str) : NoWs (w.text ++ r) :=
  inflected_noWs hw (fun u hu => level_noWs u (by simp only [List.mem_append]; exact .inr hu)) r

theorem alcim_text {w : Inflected} (hw : w.Of [str!"alcím"]) : w.text = str!"alcím" ++ w.ending := by
  rw [Inflected.text, List.mem_singleton.1 hw.1]

theorem subtitle_skip {w : Inflected} (hw : w.Of [str!"alcím"]) (r : Str) : skipWs (' ' :: w.text ++ r) = w.text ++ r :=
  skipWs_noWs (alcim_noWs hw r)

theorem reads_call_subtitleSuffix {w : Inflected} (hw : w.Of [str!"alcím"]) {n : Nat} {rest : Str} (h : Next rest) :
    Reads (call subtitleSuffix) n (' ' :: w.text) rest () := by
  rw [alcim_text hw]
  exact reads_call_partSuffix (by decide) (noWs_cons (by decide)) hw.2 h

theorem fails_romanRef_head {l : List Str} {n : Nat} {s : Str} (hs : NoWs s) (h : Head (isRomanChar · = false) s) :
    Fails (call romanId >>= fun id => tok str!"." >>= fun _ => call (levelSuffix l) >>= fun _ => pure id) n s :=
  Fails.bind (Fails.call_noWs hs fun _ => Fails.slice (Fails.bind (Fails.call_noWs hs fun _ => fails_roman h)))

theorem fails_capitalRef_head {l : List Str} {n : Nat} {s : Str} (hs : NoWs s) (h : Head (isHunUpper · = false) s) :
    Fails (call hungarianOrdinalCapital >>= fun id => call (levelSuffix l) >>= fun _ => pure id) n s :=
  Fails.bind (Fails.call_noWs hs fun _ => fails_capital h)

theorem fails_capitalRef_roman {l : List Str} {i : NumericId} (hi : RomanUsual i) {n : Nat} {s : Str} :
    Fails (call hungarianOrdinalCapital >>= fun id => call (levelSuffix l) >>= fun _ => pure id) n (romanText i ++ (str!"." ++ s)) :=
  Fails.bind (Fails.call_noWs (romanText_noWs hi _) fun _ => fails_capital_roman hi)

theorem free_of_levels {l k : List Str} (hl : ∀ u ∈ l, u ∈ bookNames ++ chapterNames ++ partNames ++ titleNames)
    (hk : ∀ u ∈ k, u ∈ bookNames ++ chapterNames ++ partNames ++ titleNames) (hlk : ∀ u ∈ l, u ∉ k) :
    ∀ u ∈ k, ∀ v ∈ l, ¬ v <+: u ∧ ¬ u <+: v := fun u hu v hv =>
  levels_free u (hk u hu) v (hl v hv) (fun e => hlk v hv (e ▸ hu))

theorem names_level : (∀ u ∈ bookNames, u ∈ bookNames ++ chapterNames ++ partNames ++ titleNames) ∧
    (∀ u ∈ chapterNames, u ∈ bookNames ++ chapterNames ++ partNames ++ titleNames) ∧
    (∀ u ∈ partNames, u ∈ bookNames ++ chapterNames ++ partNames ++ titleNames) ∧
    ∀ u ∈ titleNames, u ∈ bookNames ++ chapterNames ++ partNames ++ titleNames := by decide +kernel

theorem names_noWs : (∀ u ∈ bookNames, u ≠ [] ∧ NoWs u) ∧ (∀ u ∈ chapterNames, u ≠ [] ∧ NoWs u) ∧ (∀ u ∈ partNames, u ≠ [] ∧ NoWs u) ∧
    ∀ u ∈ titleNames, u ≠ [] ∧ NoWs u :=
  ⟨fun u hu => level_noWs u (List.mem_append_left _ (names_level.1 u hu)), fun u hu => level_noWs u (List.mem_append_left _ (names_level.2.1 u hu)),
    fun u hu => level_noWs u (List.mem_append_left _ (names_level.2.2.1 u hu)), fun u hu => level_noWs u (List.mem_append_left _ (names_level.2.2.2 u hu))⟩

/-- Titles in quotes. -/
theorem quoted_noWs (s : Str) : NoWs ('„' :: s) := noWs_cons (by decide)

theorem reads_subtitleTitle {t : Str} {called : Bool} {w : Inflected} (ht : QuotedUsual t) (hw : w.Of [str!"alcím"]) {n : Nat} {rest : Str}
    (h : Next rest) : Reads subtitleTitle n (PlaceText.named t called w).text rest t := by
  have e : (PlaceText.named t called w).text =
      (str!"„" ++ (t ++ str!"”")) ++ ((if called then str!" című" else []) ++ (' ' :: w.text)) := by
    cases called <;> simp [PlaceText.text]
  rw [e]
  have hq : ∀ r, Reads (call quote <|> call rawTitle) n (str!"„" ++ (t ++ str!"”")) r t := fun r =>
    Reads.left (Reads.call (quoted_noWs _) (reads_quote ht))
  refine Reads.bind (hq _) ?_
  cases called with
  | true =>
    exact Reads.bind (t := str!" című") (Reads.opt_some (Reads.tok_space (s := str!"című") (noWs_cons (by decide))))
      (Reads.map (g := fun _ => t) (reads_call_subtitleSuffix hw h))
  | false =>
    refine Reads.bind_first (a := none) (Reads.opt_none (Fails.tok (by decide) ?_)) (Reads.map (g := fun _ => t) (reads_call_subtitleSuffix hw h))
    show _ ≠ (skipWs (' ' :: w.text ++ rest)).head?
    rw [subtitle_skip hw, alcim_text hw]
    simp

theorem fails_subtitlePart_head {n : Nat} {s : Str} (hs : NoWs s) (h : Head (isDigit · = false) s) : Fails subtitlePart n s := by
  have : ∀ n, Fails (call subtitleId) n s := fun n =>
    Fails.call_noWs hs fun _ => Fails.slice (Fails.bind (Fails.call_noWs hs fun _ => fails_number h))
  exact Fails.alt (Fails.bind (this _)) (Fails.bind (this _))

theorem reads_structuralId_subtitles {x : Span NumericId} {w : Inflected} (hx : SlashedUsual x) (hw : w.Of [str!"alcím"]) {n : Nat} {rest : Str}
    (h : Next rest) : Reads structuralId n (slashedSpan x ++ (' ' :: w.text)) rest (.subtitle (idPart NumericId.displaySlash x)) := by
  have e2 : slashedSpan x ++ (' ' :: w.text) ++ rest = slashedSpan x ++ (' ' :: w.text ++ rest) := by simp
  have hd := slashed_not x (' ' :: w.text ++ rest)
  have hws := slashed_noWs x (' ' :: w.text ++ rest)
  refine Reads.right ?_ (Reads.right ?_ (Reads.right ?_ (Reads.left ?_)))
  · rw [e2]; exact Fails.bind (Fails.call_noWs hws fun n => fails_romanRef_head hws (hd.mono fun c hc => hc.2))
  · rw [e2]; exact Fails.bind (Fails.call_noWs hws fun n => fails_capitalRef_head hws (hd.mono fun c hc => hc.1))
  · rw [e2]; exact Fails.bind (Fails.call_noWs hws fun n => fails_romanRef_head hws (hd.mono fun c hc => hc.2))
  · refine Reads.bind (Reads.call hws (reads_subtitlePart hx ?_)) (Reads.map (g := fun _ => StructuralId.subtitle _) (reads_call_subtitleSuffix hw h))
    rw [subtitle_skip hw, alcim_text hw]
    exact .cons (by decide)

theorem reads_structuralId {p : PlaceText} {e : StructuralRefParent} (hp : p.Means e) {n : Nat} {rest : Str} (h : AfterPart rest) :
    Reads structuralId n p.text rest (placeId p) := by
  cases hp with
  | @chapter i w hi hw =>
    have e : (PlaceText.chapter i w).text = romanText i ++ (str!"." ++ (' ' :: w.text)) := by simp [PlaceText.text]
    rw [e]
    exact Reads.left (Reads.map (g := StructuralId.chapter) (Reads.call (by rw [List.append_assoc]; exact romanText_noWs hi _)
      (reads_romanRef hi hw (by decide +kernel) names_noWs.2.1 h.any)))
  | @part s k w hs hw =>
    have e : (PlaceText.part s w).text = s ++ (' ' :: w.text) := by simp [PlaceText.text]
    rw [e]
    have hs : s ∈ capitalNumbers.map Prod.fst := List.mem_map.2 ⟨_, hs, rfl⟩
    have hws : ∀ r, NoWs (s ++ r) := fun r => capital_noWs hs r
    refine Reads.right (Fails.bind (Fails.call_noWs ?_ fun n => ?_)) (Reads.left (Reads.map (g := StructuralId.part) (Reads.call ?_
      (reads_capitalRef hs hw (by decide +kernel) names_noWs.2.2.1 h.any))))
    · rw [List.append_assoc]; exact hws _
    · rw [List.append_assoc]; exact fails_romanRef_capital hs fun a n r h => Fails.bind h
    · rw [List.append_assoc]; exact hws _
  | @title i w hi hw =>
    have e : (PlaceText.title i w).text = romanText i ++ (str!"." ++ (' ' :: w.text)) := by simp [PlaceText.text]
    rw [e]
    have e2 : romanText i ++ (str!"." ++ (' ' :: w.text)) ++ rest = romanText i ++ (str!"." ++ (' ' :: w.text ++ rest)) := by simp
    refine Reads.right ?_ (Reads.right ?_ (Reads.left (Reads.map (g := StructuralId.title) (Reads.call ?_
      (reads_romanRef hi hw (by decide +kernel) names_noWs.2.2.2 h.any)))))
    · rw [e2]
      exact Fails.bind (Fails.call_noWs (romanText_noWs hi _) fun n => fails_romanRef hi hw
        (free_of_levels names_level.2.1 names_level.2.2.2 (by decide +kernel)) names_noWs.2.2.2)
    · rw [e2]
      exact Fails.bind (Fails.call_noWs (romanText_noWs hi _) fun n => fails_capitalRef_roman hi)
    · rw [e2]; exact romanText_noWs hi _
  | @subtitle i w hi hw =>
    have e : (PlaceText.subtitles (.one i) w).text = slashedSpan (.one i) ++ (' ' :: w.text) := by simp [PlaceText.text]
    rw [e]
    exact reads_structuralId_subtitles (x := .one i) hi hw h.next
  | @subtitleRange i j d w hd hi hj hw =>
    have e : (PlaceText.subtitles (.upTo d i j) w).text = slashedSpan (.upTo d i j) ++ (' ' :: w.text) := by simp [PlaceText.text]
    rw [e]
    exact reads_structuralId_subtitles (x := .upTo d i j) ⟨hd, hi, hj⟩ hw h.next
  | @named t called w ht hw =>
    have hh : ∃ r, (PlaceText.named t called w).text ++ rest = '„' :: r := ⟨_, by simp [PlaceText.text]; rfl⟩
    obtain ⟨r, hr⟩ := hh
    refine Reads.right ?_ (Reads.right ?_ (Reads.right ?_ (Reads.right ?_ (Reads.map (g := StructuralId.subtitleTitle) (Reads.call ?_
      (reads_subtitleTitle ht hw h.next))))))
    · rw [hr]; exact Fails.bind (Fails.call_noWs (quoted_noWs _) fun n => fails_romanRef_head (quoted_noWs _) (.cons (by decide)))
    · rw [hr]; exact Fails.bind (Fails.call_noWs (quoted_noWs _) fun n => fails_capitalRef_head (quoted_noWs _) (.cons (by decide)))
    · rw [hr]; exact Fails.bind (Fails.call_noWs (quoted_noWs _) fun n => fails_romanRef_head (quoted_noWs _) (.cons (by decide)))
    · rw [hr]; exact Fails.bind (Fails.call_noWs (quoted_noWs _) fun n => fails_subtitlePart_head (quoted_noWs _) (.cons (by decide)))
    · rw [hr]; exact quoted_noWs _

/-! ### a book before it, the title after it -/

/-- What is read for a place. -/
def placeAt (p : Place) : StructuralReference := ⟨p.book.map (·.number), placeId p.part, p.title.isSome⟩

theorem bookText_noWs {b : BookText} {i : NumericId} (hb : b.Means i) (r : Str) : NoWs (b.text ++ r) := by
  rw [BookText.text, List.append_assoc, List.append_assoc]
  exact capital_noWs (List.mem_map.2 ⟨_, hb.2.1, rfl⟩) _

theorem reads_book_ref {b : BookText} {i : NumericId} (hb : b.Means i) {n : Nat} {rest : Str} (h : Head (isHunAny · = false) rest) :
    Reads bookReference n b.text rest b.number := by
  have e : b.text = b.number ++ (' ' :: b.word.text) := by simp [BookText.text]
  rw [e]
  exact reads_capitalRef (List.mem_map.2 ⟨_, hb.2.1, rfl⟩) hb.2.2 (by decide +kernel) names_noWs.1 h

/-- A part of the structure is not a book. -/
theorem fails_bookReference {p : PlaceText} {e : StructuralRefParent} (hp : p.Means e) {n : Nat} {rest : Str} :
    Fails bookReference n (p.text ++ rest) := by
  cases hp with
  | @chapter i w hi hw =>
    have e : (PlaceText.chapter i w).text ++ rest = romanText i ++ (str!"." ++ (' ' :: w.text ++ rest)) := by simp [PlaceText.text]
    rw [e]; exact fails_capitalRef_roman hi
  | @part s k w hs hw =>
    have e : (PlaceText.part s w).text ++ rest = s ++ (' ' :: w.text ++ rest) := by simp [PlaceText.text]
    rw [e]
    exact fails_capitalRef (List.mem_map.2 ⟨_, hs, rfl⟩) hw (free_of_levels names_level.1 names_level.2.2.1 (by decide +kernel)) names_noWs.2.2.1
  | @title i w hi hw =>
    have e : (PlaceText.title i w).text ++ rest = romanText i ++ (str!"." ++ (' ' :: w.text ++ rest)) := by simp [PlaceText.text]
    rw [e]; exact fails_capitalRef_roman hi
  | @subtitle i w hi hw =>
    have e : (PlaceText.subtitles (.one i) w).text ++ rest = slashedSpan (.one i) ++ (' ' :: w.text ++ rest) := by simp [PlaceText.text]
    rw [e]
    exact fails_capitalRef_head (slashed_noWs _ _) ((slashed_not _ _).mono fun c hc => hc.1)
  | @subtitleRange i j d w hd hi hj hw =>
    have e : (PlaceText.subtitles (.upTo d i j) w).text ++ rest = slashedSpan (.upTo d i j) ++ (' ' :: w.text ++ rest) := by simp [PlaceText.text]
    rw [e]
    exact fails_capitalRef_head (slashed_noWs _ _) ((slashed_not _ _).mono fun c hc => hc.1)
  | @named t called w ht hw =>
    have hh : ∃ r, (PlaceText.named t called w).text ++ rest = '„' :: r := ⟨_, by simp [PlaceText.text]; rfl⟩
    obtain ⟨r, hr⟩ := hh
    rw [hr]
    exact fails_capitalRef_head (quoted_noWs _) (.cons (by decide))

/-- How a part of the structure begins. -/
theorem placeText_start {p : PlaceText} {e : StructuralRefParent} (hp : p.Means e) (rest : Str) :
    (∃ c r, p.text ++ rest = c :: r ∧ (isHunUpper c = true ∨ c = '„')) ∨
      ∃ x w, p = .subtitles x w ∧ SlashedUsual x ∧ w.Of [str!"alcím"] := by
  have hroman : ∀ c, isRomanChar c = true → isHunUpper c = true := fun c h => by
    simp only [isRomanChar, List.contains_iff_mem, List.mem_cons, List.not_mem_nil, or_false] at h
    rcases h with rfl | rfl | rfl | rfl | rfl | rfl | rfl <;> decide
  cases hp with
  | @chapter i w hi hw =>
    obtain ⟨c, t, h, hc⟩ := romanText_head hi (str!". " ++ w.text ++ rest)
    exact .inl ⟨c, t, by rw [← h]; simp [PlaceText.text], .inl (hroman c hc)⟩
  | @part s k w hs hw =>
    obtain ⟨c, x, r, rfl, hu, -⟩ := capital_head s (List.mem_map.2 ⟨_, hs, rfl⟩)
    exact .inl ⟨c, _, rfl, .inl hu⟩
  | @title i w hi hw =>
    obtain ⟨c, t, h, hc⟩ := romanText_head hi (str!". " ++ w.text ++ rest)
    exact .inl ⟨c, t, by rw [← h]; simp [PlaceText.text], .inl (hroman c hc)⟩
  | @subtitle i w hi hw => exact .inr ⟨_, _, rfl, hi, hw⟩
  | @subtitleRange i j d w hd hi hj hw => exact .inr ⟨_, _, rfl, ⟨hd, hi, hj⟩, hw⟩
  | @named t called w ht hw => exact .inl ⟨'„', _, by simp [PlaceText.text]; rfl, .inr rfl⟩

theorem placeText_head {p : PlaceText} {e : StructuralRefParent} (hp : p.Means e) (rest : Str) :
    ∃ c r, p.text ++ rest = c :: r ∧ (isHunUpper c = true ∨ c = '„' ∨ isDigit c = true) := by
  rcases placeText_start hp rest with ⟨c, r, h, hc⟩ | ⟨x, w, rfl, -, -⟩
  · exact ⟨c, r, h, hc.imp id .inl⟩
  · have hd := slashed_digit x (' ' :: w.text ++ rest)
    have e : (PlaceText.subtitles x w).text ++ rest = slashedSpan x ++ (' ' :: w.text ++ rest) := by simp [PlaceText.text]
    rw [e]
    rcases h : slashedSpan x ++ (' ' :: w.text ++ rest) with _ | ⟨c, t⟩
    · cases x <;> simp [slashedSpan] at h
    · rw [h] at hd; exact ⟨c, t, rfl, .inr (.inr (hd c rfl))⟩

theorem upper_noWs {c : Char} (h : isHunUpper c = true) : isWs c = false := by
  cases hs : isWs c with
  | false => rfl
  | true =>
    rw [ws_mem] at hs
    have := (by decide : ∀ c ∈ str!" \t\n\r\x0c", isHunUpper c = false) c hs
    rw [h] at this; cases this

theorem placeText_noWs {p : PlaceText} {e : StructuralRefParent} (hp : p.Means e) (rest : Str) : NoWs (p.text ++ rest) := by
  obtain ⟨c, r, h, hc⟩ := placeText_head hp rest
  rw [h]
  rcases hc with hc | rfl | hc
  · exact noWs_cons (upper_noWs hc)
  · exact noWs_cons (by decide)
  · exact noWs_cons (digit_noWs hc)

theorem reads_titleOnly {t : Str} (ht : TitleWord t) {n : Nat} {rest : Str} (h : Head (isHunLower · = false) rest) :
    Reads (call titleOnlyToken) n (' ' :: t) rest () := by
  rcases ht with ht | ⟨x, rfl, hx⟩
  · simp only [List.mem_cons, List.not_mem_nil, or_false] at ht
    rcases ht with rfl | rfl
    · refine Reads.call_space (noWs_cons (by decide)) (Reads.left (Reads.bind_last (Reads.lit str!"címe") (Reads.map (g := fun _ => ()) (a := none)
        (Reads.opt_none (Fails.lit_head (by decide) ?_)))))
      intro e
      have := h 'i' e.symm
      revert this; decide
    · exact Reads.call_space (noWs_cons (by decide)) (Reads.left (Reads.bind (t := str!"címe") (Reads.lit str!"címe") (Reads.map (g := fun _ => ())
        (Reads.opt_some (Reads.lit str!"i")))))
  · refine Reads.call_space (noWs_cons (by decide)) (Reads.right (Fails.bind (Fails.lit ?_)) (Reads.bind (Reads.lit str!"címé")
      (Reads.many_chars (ending_lower hx) h).map))
    simp

/-- What may come after a place. -/
structure AfterPlace (p : Place) (s : Str) : Prop where
  part : AfterPart s
  title : p.title = none → ¬ str!"címe" <+: skipWs s ∧ ¬ str!"címé" <+: skipWs s

theorem place_afterPart {p : Place} {s : Str} (ht : ∀ t, p.title = some t → TitleWord t) (h : AfterPart s) :
    AfterPart ((p.title.map fun t => str!" " ++ t).getD [] ++ s) := by
  cases hp : p.title with
  | none => exact h
  | some t =>
    refine ⟨.cons (by decide), ?_⟩
    have hh : ∃ r, t = 'c' :: r := by
      rcases ht t hp with h | ⟨x, rfl, -⟩
      · simp only [List.mem_cons, List.not_mem_nil, or_false] at h
        rcases h with rfl | rfl <;> exact ⟨_, rfl⟩
      · exact ⟨_, rfl⟩
    obtain ⟨r, rfl⟩ := hh
    show Head _ (skipWs (' ' :: 'c' :: (r ++ s)))
    simp only [skipWs, List.dropWhile, isWs]
    exact .cons (by decide)

theorem reads_titleOpt {p : Place} {s : Str} (ht : ∀ t, p.title = some t → TitleWord t) (h : AfterPlace p s) {n : Nat} :
    ∃ x, x.isSome = p.title.isSome ∧ Reads (opt (call titleOnlyToken)) n ((p.title.map fun t => str!" " ++ t).getD []) s x := by
  cases hp : p.title with
  | none =>
    refine ⟨none, rfl, Reads.opt_none (Fails.call fun n => Fails.alt (Fails.bind (Fails.lit (h.title hp).1)) (Fails.bind (Fails.lit (h.title hp).2)))⟩
  | some t => exact ⟨some (), rfl, Reads.opt_some (reads_titleOnly (ht t hp) h.part.next.lower)⟩

theorem structuralId_space {n : Nat} {s : Str} (h : NoWs s) : structuralId.run ⟨n, ' ' :: s⟩ = structuralId.run ⟨n + 1, s⟩ := by
  simp only [structuralId, alt_run, bind_run, call_space_run _ h]

theorem Reads.space_of {p : P α} {n : Nat} {t rest : Str} {a : α} (h : Reads p (n + 1) t rest a)
    (hs : p.run ⟨n, ' ' :: (t ++ rest)⟩ = p.run ⟨n + 1, t ++ rest⟩) : Reads p n (' ' :: t) rest a := by
  show p.run ⟨n, ' ' :: (t ++ rest)⟩ = _
  rw [hs]
  have h : p.run ⟨n + 1, t ++ rest⟩ = _ := h
  rw [h]
  have : byteLen (' ' :: t) = 1 + byteLen t := rfl
  rw [this, Nat.add_assoc]

/-- The part after the number of the book. -/
theorem reads_structural_part {p : Place} {b : Option NumericId} {e : StructuralRefParent} {o : Bool} (hp : p.Means b e o) {n : Nat} {rest v : Str}
    (h : AfterPlace p rest) (hv : v = [] ∨ v = [' ']) (k : Option Str) :
    Reads (structuralId >>= fun r => opt (call titleOnlyToken) >>= fun t => pure (⟨k, r, t.isSome⟩ : StructuralReference)) n
      ((v ++ p.part.text) ++ (p.title.map fun t => str!" " ++ t).getD []) rest ⟨k, placeId p.part, p.title.isSome⟩ := by
  have hid : ∀ n, Reads structuralId n p.part.text ((p.title.map fun t => str!" " ++ t).getD [] ++ rest) (placeId p.part) := fun n =>
    reads_structuralId hp.part (place_afterPart hp.title h.part)
  have hid2 : Reads structuralId n (v ++ p.part.text) ((p.title.map fun t => str!" " ++ t).getD [] ++ rest) (placeId p.part) := by
    rcases hv with rfl | rfl
    · exact hid n
    · exact Reads.space_of (hid (n + 1)) (structuralId_space (placeText_noWs hp.part _))
  obtain ⟨x, hx, hr⟩ := reads_titleOpt hp.title h (n := n + byteLen (v ++ p.part.text))
  rw [← hx]
  exact Reads.bind hid2 (Reads.map (g := fun t : Option Unit => (⟨k, placeId p.part, t.isSome⟩ : StructuralReference)) hr)

theorem reads_structural {p : Place} {b : Option NumericId} {e : StructuralRefParent} {o : Bool} (hp : p.Means b e o) {n : Nat} {rest : Str}
    (h : AfterPlace p rest) : Reads structuralReference n p.text rest (placeAt p) := by
  cases hb : p.book with
  | none =>
    have e1 : p.text = ([] ++ p.part.text) ++ (p.title.map fun t => str!" " ++ t).getD [] := by simp [Place.text, hb]
    have e2 : placeAt p = ⟨none, placeId p.part, p.title.isSome⟩ := by simp [placeAt, hb]
    rw [e1, e2]
    refine Reads.bind_first (a := none) (Reads.opt_none (Fails.call_noWs ?_ fun n => ?_)) (reads_structural_part hp h (.inl rfl) none)
    · rw [List.append_assoc]; exact placeText_noWs hp.part _
    · rw [List.append_assoc]; exact fails_bookReference hp.part
  | some k =>
    obtain ⟨i, -, hk⟩ := hp.book k hb
    have e1 : p.text = k.text ++ (([' '] ++ p.part.text) ++ (p.title.map fun t => str!" " ++ t).getD []) := by simp [Place.text, hb]
    have e2 : placeAt p = ⟨some k.number, placeId p.part, p.title.isSome⟩ := by simp [placeAt, hb]
    rw [e1, e2]
    exact Reads.bind (a := some k.number) (Reads.opt_some (Reads.call (bookText_noWs hk _) (reads_book_ref hk (.cons (by decide)))))
      (reads_structural_part hp h (.inr rfl) (some k.number))

theorem place_head {p : Place} {b : Option NumericId} {e : StructuralRefParent} {o : Bool} (hp : p.Means b e o) (rest : Str) :
    ∃ c r, p.text ++ rest = c :: r ∧ (isHunUpper c = true ∨ c = '„' ∨ isDigit c = true) := by
  cases hb : p.book with
  | none =>
    obtain ⟨c, r, h, hc⟩ := placeText_head hp.part ((p.title.map fun t => str!" " ++ t).getD [] ++ rest)
    exact ⟨c, r, by rw [← h]; simp [Place.text, hb], hc⟩
  | some k =>
    obtain ⟨i, -, hk⟩ := hp.book k hb
    obtain ⟨c, x, r, e, hu, -⟩ := capital_head k.number (List.mem_map.2 ⟨_, hk.2.1, rfl⟩)
    exact ⟨c, _, by simp only [Place.text, hb, BookText.text, Option.map_some, Option.getD_some, e, List.cons_append]; rfl, .inl hu⟩

theorem place_noWs {p : Place} {b : Option NumericId} {e : StructuralRefParent} {o : Bool} (hp : p.Means b e o) (rest : Str) : NoWs (p.text ++ rest) := by
  obtain ⟨c, r, h, hc⟩ := place_head hp rest
  rw [h]
  rcases hc with hc | rfl | hc
  · exact noWs_cons (upper_noWs hc)
  · exact noWs_cons (by decide)
  · exact noWs_cons (digit_noWs hc)

/-! ### a place is not a reference -/

/-- What is after the first digits of the number of a subtitle. -/
def AfterDigits (r : Str) : Prop := (∃ c r', r = c :: r' ∧ (c = '.' ∨ c ∈ dashes)) ∨ ∃ x r', r = '/' :: x :: r' ∧ upperAz x = true

theorem upper_not_lower {x : Char} (h : upperAz x = true) : lowerAz x = false := by
  simp only [upperAz, lowerAz, Bool.and_eq_true, decide_eq_true_eq, Bool.and_eq_false_iff, decide_eq_false_iff_not] at *
  omega

theorem reads_pointId_digits {n k : Nat} {r : Str} (h : AfterDigits r) : Reads numericPointId n (dec k) r (dec k) := by
  rcases h with ⟨c, r', rfl, hc⟩ | ⟨x, r', rfl, hx⟩
  · have hc' : isDigit c = false ∧ c ≠ '/' ∧ lowerAz c = false := by
      rcases hc with rfl | hc
      · decide
      · have := dashes_not hc; exact ⟨this.1, this.2.1, this.2.2.2.2.2.1⟩
    refine Reads.slice (a := ()) (Reads.bind_last (reads_number (.cons hc'.1)) (Reads.map (a := none) (Reads.opt_none ?_)))
    exact Fails.bind_of (t := []) (a := none) (Reads.opt_none (Fails.lit_head (by decide) (by simpa using fun e => hc'.2.1 e.symm)))
      (fails_suffixChar (.cons hc'.2.2))
  · refine Reads.slice (a := ()) (Reads.bind_last (reads_number (.cons (by decide))) (Reads.map (a := none) (Reads.opt_none ?_)))
    exact Fails.bind_of (t := str!"/") (rest := x :: r') (a := some ()) (Reads.opt_some (Reads.lit str!"/")) (fails_suffixChar (.cons (upper_not_lower hx)))

theorem reads_number_digits {n k : Nat} {r : Str} (h : AfterDigits r) : Reads number n (dec k) r (dec k) := by
  rcases h with ⟨c, r', rfl, hc⟩ | ⟨x, r', rfl, hx⟩
  · refine reads_number (.cons ?_)
    rcases hc with rfl | hc
    · decide
    · exact (dashes_not hc).1
  · exact reads_number (.cons (by decide))

theorem dotted_slashed {p : P Str} (hp : ∀ n k r, AfterDigits r → Reads p n (dec k) r (dec k)) {x : Span NumericId} (hx : SlashedUsual x) (R : Str) :
    (∀ n, ∃ a, Reads (dottedPart p) n (slashedSpan x) R a) ∨ ∀ n, Fails (dottedPart p) n (slashedSpan x ++ R) := by
  have hslash : ∀ {i : NumericId} {c : HunChar}, i.suffix = some c → Plain c → ∀ r, ∃ y, i.displaySlash ++ r = dec i.num.val ++ ('/' :: y :: r) ∧ upperAz y = true := by
    intro i c hs hc r
    obtain ⟨y, hy, hu⟩ := plain_upper hc
    exact ⟨y, by rw [displaySlash_eq, hs]; simp [slashed, hy], hu⟩
  have hnum : ∀ {i : NumericId}, i.suffix = none → i.displaySlash = dec i.num.val := fun {i} hs => by
    rw [displaySlash_eq, hs]; simp [slashed]
  have hbad : ∀ (n k : Nat) (y : Char) (r : Str), upperAz y = true → Fails (dottedPart p) n (dec k ++ ('/' :: y :: r)) := fun n k y r hy => by
    have hr : ∀ n, Reads (call p) n (dec k) ('/' :: y :: r) (dec k) := fun n => Reads.call (noWs_dec _ _) (hp _ _ _ (.inr ⟨y, r, rfl, hy⟩))
    refine Fails.positioned (Fails.bind (Fails.alt (Fails.bind_of (hr _) (Fails.bind (fails_call_dash ?_))) (Fails.bind_of (hr _) (Fails.bind (Fails.tok (by decide) ?_)))))
    · rw [skipWs_cons (by decide)]; exact .cons (by decide)
    · rw [skipWs_cons (by decide)]; simp
  cases x with
  | one i =>
    cases hs : i.suffix with
    | none =>
      left
      intro n
      rw [slashedSpan, hnum hs]
      exact reads_dotted_year (fun n => hp _ _ _ (.inl ⟨_, _, rfl, .inl rfl⟩)) n
    | some c =>
      right
      intro n
      obtain ⟨y, e, hy⟩ := hslash hs (hx c hs) (str!"." ++ R)
      rw [slashedSpan, List.append_assoc, e]
      exact hbad n _ y _ hy
  | upTo d i j =>
    cases hs : i.suffix with
    | some c =>
      right
      intro n
      obtain ⟨y, e, hy⟩ := hslash hs (hx.2.1 c hs) ([d] ++ (j.displaySlash ++ (str!"." ++ R)))
      have e2 : slashedSpan (.upTo d i j) ++ R = i.displaySlash ++ ([d] ++ (j.displaySlash ++ (str!"." ++ R))) := by simp [slashedSpan]
      rw [e2, e]
      exact hbad n _ y _ hy
    | none =>
      have hr : ∀ n r, Reads (call p) n (dec i.num.val) ([d] ++ r) (dec i.num.val) := fun n r =>
        Reads.call (noWs_dec _ _) (hp _ _ _ (.inl ⟨d, r, rfl, .inr hx.1⟩))
      cases hs2 : j.suffix with
      | none =>
        left
        intro n
        have e2 : slashedSpan (.upTo d i j) = dec i.num.val ++ ([d] ++ (dec j.num.val ++ str!".")) := by simp [slashedSpan, hnum hs, hnum hs2]
        rw [e2]
        refine ⟨_, Reads.positioned (Reads.map (g := fun id p => (⟨id, p⟩ : Part)) (Reads.left (Reads.bind (by rw [List.append_assoc]; exact hr _ _)
          (Reads.bind (reads_call_dash hx.1) (Reads.bind (Reads.call (noWs_dec _ _) (hp _ _ _ (.inl ⟨'.', R, rfl, .inl rfl⟩)))
            (Reads.map (g := fun _ => IdPart.range (dec i.num.val) (dec j.num.val)) reads_dot))))))⟩
      | some c =>
        right
        intro n
        obtain ⟨y, e, hy⟩ := hslash hs2 (hx.2.2 c hs2) (str!"." ++ R)
        have e2 : slashedSpan (.upTo d i j) ++ R = dec i.num.val ++ ([d] ++ (dec j.num.val ++ ('/' :: y :: (str!"." ++ R)))) := by
          rw [← e]; simp [slashedSpan, hnum hs]
        rw [e2]
        refine Fails.positioned (Fails.bind (Fails.alt (Fails.bind_of (hr _ _) (Fails.bind_of (reads_call_dash hx.1)
          (Fails.bind_of (Reads.call (noWs_dec _ _) (hp _ _ _ (.inr ⟨y, _, rfl, hy⟩))) (Fails.bind (Fails.tok (by decide) ?_)))))
          (Fails.bind_of (hr _ _) (Fails.bind (Fails.tok (by decide) ?_)))))
        · rw [skipWs_cons (by decide)]; simp
        · rw [List.singleton_append, skipWs_cons (dashes_noWs hx.1)]
          simpa using fun e => (dashes_not hx.1).2.2.2.1 e.symm

theorem fails_list_or {part : P β} {suffix : P Unit} {γ : Type} {g : List β → Unit → P γ} {t u : Str} (ht : NoWs (t ++ u))
    (hp : (∀ n, ∃ a, Reads part n t u a) ∨ ∀ n, Fails part n (t ++ u)) (hb : Bad suffix u) (n : Nat) :
    Fails (listOf part >>= fun l => call suffix >>= g l) n (t ++ u) := by
  rcases hp with hp | hp
  · exact fails_list_one ht hp hb n
  · exact Fails.bind (fails_listOf ht hp)

theorem bad_alcim {suffix : P Unit} {w : Inflected} (hw : w.Of [str!"alcím"]) {R : Str} (hs : ∀ n, Fails suffix n (w.text ++ R)) :
    Bad suffix (' ' :: w.text ++ R) := by
  refine ⟨fun n => fails_listSeparator ?_, fun n => Fails.call_space (alcim_noWs hw R) hs⟩
  rw [subtitle_skip hw, alcim_text hw]
  exact .cons (by decide)

theorem subtitles_noLevel {x : Span NumericId} (hx : SlashedUsual x) {w : Inflected} (hw : w.Of [str!"alcím"]) (R : Str) :
    NoLevel (slashedSpan x ++ (' ' :: w.text ++ R)) := by
  have hws := slashed_noWs x (' ' :: w.text ++ R)
  have hno : ∀ v, ¬ v <+: str!"alcím" → ¬ str!"alcím" <+: v → ¬ v <+: w.text ++ R := fun v h1 h2 => by
    rw [alcim_text hw, List.append_assoc]; exact not_prefix_words h1 h2
  refine ⟨?_, fun n => ?_, fun n => ?_, fun n => ?_, ?_⟩ <;> rw [skipWs_noWs hws]
  · exact Head.noBracket ((slashed_digit x _).mono fun c hc => (digit_not hc).2)
  · refine fails_list_one hws (fun n => ?_) (bad_alcim hw fun n => fails_articleSuffix ?_) n
    · rw [slashedSpan_article]
      cases x with
      | one i => exact ⟨_, reads_articlePart hx (noRange_of_head (by rw [subtitle_skip hw, alcim_text hw]; exact .cons (by decide)))⟩
      | upTo d i j => exact ⟨_, reads_articlePart ⟨hx.1, rfl, hx.2⟩ (noRange_of_head (by rw [subtitle_skip hw, alcim_text hw]; exact .cons (by decide)))⟩
    · rw [alcim_text hw]; exact .cons (by decide)
  · exact fails_list_or hws (dotted_slashed (fun n k r h => reads_pointId_digits h) hx _) (bad_alcim hw fun n => Fails.bind (Fails.lit (hno _ (by decide) (by decide)))) n
  · exact fails_list_or hws (dotted_slashed (fun n k r h => reads_number_digits h) hx _) (bad_alcim hw fun n => Fails.bind (Fails.lit (hno _ (by decide) (by decide)))) n
  · exact noMark_head ((slashed_digit x _).mono fun c hc => (digit_not hc).1)

theorem upper_not {c : Char} (h : isHunUpper c = true) : c ≠ '(' ∧ isDigit c = false ∧ lowerAz c = false ∧ c ≠ '„' := by
  have hl : ∀ c ∈ str!"ÉÁŐÚÖÜÓÍŰ", c ≠ '(' ∧ isDigit c = false ∧ lowerAz c = false ∧ c ≠ '„' := by decide
  simp only [isHunUpper, Bool.or_eq_true, List.contains_iff_mem] at h
  rcases h with h | h
  · refine ⟨?_, ?_, upper_not_lower h, ?_⟩
    · rintro rfl; revert h; decide
    · rw [Bool.eq_false_iff]; intro hd
      rw [isDigit_iff] at hd
      simp only [upperAz, Bool.and_eq_true, decide_eq_true_eq] at h
      omega
    · rintro rfl; revert h; decide
  · exact hl c h

theorem noLevel_upper {c : Char} {r : Str} (h : isHunUpper c = true ∨ c = '„') : NoLevel (c :: r) := by
  have hc : isWs c = false ∧ c ≠ '(' ∧ isDigit c = false ∧ lowerAz c = false := by
    rcases h with h | rfl
    · exact ⟨upper_noWs h, (upper_not h).1, (upper_not h).2.1, (upper_not h).2.2.1⟩
    · decide
  have hsk : skipWs (c :: r) = c :: r := skipWs_cons hc.1
  exact .of_head (by rw [hsk]; exact .cons hc.2.1) (by rw [hsk]; exact .cons hc.2.2.1) (by rw [hsk]; exact noMark_head (.cons hc.2.2.2))

/-- How a place begins. -/
theorem place_start {p : Place} {b : Option NumericId} {e : StructuralRefParent} {o : Bool} (hp : p.Means b e o) (rest : Str) :
    (∃ c r, p.text ++ rest = c :: r ∧ (isHunUpper c = true ∨ c = '„')) ∨
      ∃ x w, p.book = none ∧ p.part = .subtitles x w ∧ SlashedUsual x ∧ w.Of [str!"alcím"] := by
  cases hb : p.book with
  | none =>
    rcases placeText_start hp.part ((p.title.map fun t => str!" " ++ t).getD [] ++ rest) with ⟨c, r, h, hc⟩ | ⟨x, w, h, hx, hw⟩
    · exact .inl ⟨c, r, by rw [← h]; simp [Place.text, hb], hc⟩
    · exact .inr ⟨x, w, rfl, h, hx, hw⟩
  | some k =>
    obtain ⟨i, -, hk⟩ := hp.book k hb
    obtain ⟨c, x, r, e, hu, -⟩ := capital_head k.number (List.mem_map.2 ⟨_, hk.2.1, rfl⟩)
    exact .inl ⟨c, _, by simp only [Place.text, hb, BookText.text, Option.map_some, Option.getD_some, e, List.cons_append]; rfl, .inl hu⟩

theorem place_noLevel {p : Place} {b : Option NumericId} {e : StructuralRefParent} {o : Bool} (hp : p.Means b e o) (rest : Str) :
    NoLevel (p.text ++ rest) := by
  rcases place_start hp rest with ⟨c, r, h, hc⟩ | ⟨x, w, hb, h, hx, hw⟩
  · rw [h]; exact noLevel_upper hc
  · have e : p.text ++ rest = slashedSpan x ++ (' ' :: w.text ++ ((p.title.map fun t => str!" " ++ t).getD [] ++ rest)) := by
      simp [Place.text, hb, h, PlaceText.text]
    rw [e]
    exact subtitles_noLevel hx hw _

end HunLaw.Grammar
