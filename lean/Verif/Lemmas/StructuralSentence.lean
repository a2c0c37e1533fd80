import Verif.Lemmas.Structural

/-! The ends of sentences which amend the structure, and how the grammar reads the whole sentence. -/

set_option autoImplicit false

namespace HunLaw.Grammar

open HunLaw P Spec

variable {α β : Type}

/-! ### ends -/

/-- The first letters of the words after a place. -/
def endLetters : Str := str!"ahekcsrfFlé:"

theorem endLetter_unnamed {s : Str} (h : Head (fun c => c ∈ str!"ahek") s) : Unnamed s :=
  ⟨fun c hc => (by decide : ∀ c ∈ str!"ahek", isWs c = false) c (h c hc),
    h.mono fun c hc => (by decide : ∀ c ∈ str!"ahek", c ≠ '„') c hc,
    h.mono fun c hc => (by decide : ∀ c ∈ str!"ahek", isHunUpper c = false) c hc,
    h.mono fun c hc => (by decide : ∀ c ∈ str!"ahek", isRomanChar c = false) c hc,
    .inl (h.mono fun c hc => (by decide : ∀ c ∈ str!"ahek", isDigit c = false) c hc)⟩

theorem ordinary_append {x y : Str} (hx : Ordinary x) (hy : Ordinary y) : Ordinary (x ++ y) := fun c hc => by
  rcases List.mem_append.1 hc with h | h
  · exact hx c h
  · exact hy c h

theorem replacement_head {e : Str} (he : ReplacementEnd e) (R : Str) : Head (fun c => c ∈ str!"ah") (e ++ R) := by
  cases he with
  | provision hf hw => exact .cons (by decide)
  | changes hf hw =>
    rw [List.append_assoc, List.append_assoc]
    exact (following_head hf _).mono fun c hc => by subst hc; decide
  | named hf hw => exact .cons (by decide)

theorem replacement_unnamed {e : Str} (he : ReplacementEnd e) (R : Str) : Unnamed (e ++ R) :=
  endLetter_unnamed ((replacement_head he R).mono fun c hc => (by decide : ∀ c ∈ str!"ah", c ∈ str!"ahek") c hc)

theorem replacement_ordinary {e : Str} (he : ReplacementEnd e) : Ordinary e ∧ ' ' ∈ e := by
  have hord : ∀ l : List Str, (∀ w ∈ l, ∀ c ∈ w, c ∈ lowerLetters ∨ c ∈ upperLetters ∨ c ∈ str!" .,;!?") → ∀ w ∈ l, Ordinary w :=
    fun l h w hw => h w hw
  have h1 : Ordinary str!" " := by unfold Ordinary; decide
  have h2 : Ordinary str!"helyébe " := by unfold Ordinary; decide
  have h3 : Ordinary str!" lép" := by unfold Ordinary; decide
  cases he with
  | provision hf hw =>
    exact ⟨ordinary_append (ordinary_append (ordinary_append h2 (following_ordinary hf).1) h1) (hord _ (by decide) _ hw), by simp⟩
  | changes hf hw => exact ⟨ordinary_append (ordinary_append (following_ordinary hf).1 h1) (hord _ (by decide) _ hw), by simp⟩
  | named hf hw =>
    exact ⟨ordinary_append (ordinary_append (ordinary_append (ordinary_append h2 (following_ordinary hf).1) h1)
      (hord _ (by decide) _ hw)) h3, by simp⟩

theorem replacement_noLevel {e : Str} (he : ReplacementEnd e) : NoLevel (e ++ str!":") := by
  refine noLevel_words (replacement_ordinary he).1 (replacement_ordinary he).2 ?_ (.cons (by decide))
  have := replacement_head he []
  rw [List.append_nil] at this
  exact this.mono fun c hc => (by decide : ∀ c ∈ str!"ah", isWs c = false) c hc

theorem replacement_noArticle {e : Str} (he : ReplacementEnd e) (R : Str) : NoArticle (e ++ R) := by
  cases he with
  | provision hf hw => exact noArticle_word (noWs_cons (by decide)) (.cons (by decide))
  | changes hf hw => rw [List.append_assoc, List.append_assoc]; exact noArticle_following hf _
  | named hf hw => exact noArticle_word (noWs_cons (by decide)) (.cons (by decide))

theorem space_notLower (r : Str) : Head (isHunLower · = false) (' ' :: r) := .cons (by decide)

theorem replacement_insertion {e : Str} (he : ReplacementEnd e) : (∀ n, Fails (call insertionToken) n (e ++ str!":")) ∨
    ∃ t v, e ++ str!":" = t ++ v ∧ (∀ n, Reads (call insertionToken) n t v ()) ∧ NoLevel v ∧ ∃ w, v = ' ' :: w ∧ Head (· = 's') w := by
  cases he with
  | provision hf hw => exact .inl fun n => fails_insertionToken (noWs_cons (by decide)) (.cons (by decide))
  | named hf hw => exact .inl fun n => fails_insertionToken (noWs_cons (by decide)) (.cons (by decide))
  | @changes f w hf hw =>
    refine .inr ⟨f, ' ' :: w ++ str!":", by simp, fun n => reads_insertionToken hf (space_notLower _), ?_, w ++ str!":", rfl, ?_⟩
    · simp only [List.mem_cons, List.not_mem_nil, or_false] at hw
      rcases hw with rfl | rfl
      · exact NoLevel.space (noLevel_words (x := str!"szöveggel lép hatályba") (by unfold Ordinary; decide) (by decide)
          (.cons (by decide)) (.cons (by decide)))
      · exact NoLevel.space (noLevel_words (x := str!"szerint módosul") (by unfold Ordinary; decide) (by decide)
          (.cons (by decide)) (.cons (by decide)))
    · simp only [List.mem_cons, List.not_mem_nil, or_false] at hw
      rcases hw with rfl | rfl <;> exact .cons rfl

/-- A word of a list after a space. -/
theorem reads_toks_space {l : List Str} {w : Str} (hw : w ∈ l) (hl : ∀ u ∈ l, u ≠ w → ¬ u <+: w ∧ ¬ w <+: u) {n : Nat} {rest : Str}
    (hn : NoWs (w ++ rest)) : Reads (toks l) n (' ' :: w) rest () :=
  Reads.call_space hn (reads_one hw hl)

theorem fails_tok_space {w s : Str} {n : Nat} (hs : NoWs s) (h : ¬ w <+: s) : Fails (tok w) n (' ' :: s) :=
  Fails.call_space hs fun _ => Fails.lit h

theorem helyebe {f : Str} (hf : Following f) {q : Unit → P α} {n : Nat} {t rest : Str} {a : α} (h : ∀ n, Reads (q ()) n (' ' :: t) rest a) :
    Reads (tok str!"helyébe" >>= fun _ => call theFollowing >>= q) n (str!"helyébe" ++ (' ' :: f ++ (' ' :: t))) rest a := by
  refine Reads.bind (Reads.tok (noWs_cons (by decide))) (Reads.bind (Reads.call_space ?_ ?_) (h _))
  · exact following_noWs hf _
  · exact reads_following hf (space_notLower _)

theorem fails_helyebe {f : Str} (hf : Following f) {q : Unit → P α} {n : Nat} {t : Str} (h : ∀ n, Fails (q ()) n (' ' :: t)) :
    Fails (tok str!"helyébe" >>= fun _ => call theFollowing >>= q) n (str!"helyébe" ++ (' ' :: f ++ (' ' :: t))) := by
  refine Fails.bind_of (Reads.tok (noWs_cons (by decide))) (Fails.bind_of (Reads.call_space ?_ ?_) (h _))
  · exact following_noWs hf _
  · exact reads_following hf (space_notLower _)

theorem provisions_free : ∀ w ∈ [str!"rendelkezés lép", str!"rendelkezések lépnek"], ∀ u ∈ [str!"rendelkezés lép", str!"rendelkezések lépnek"],
    u ≠ w → ¬ u <+: w ∧ ¬ w <+: u := by decide

theorem reads_provision {f w : Str} (hf : Following f) (hw : w ∈ [str!"rendelkezés lép", str!"rendelkezések lépnek"]) {n : Nat} {rest : Str} :
    Reads amendmentSuffix n (str!"helyébe" ++ (' ' :: f ++ (' ' :: w))) rest () := by
  refine Reads.left (helyebe hf fun n => reads_toks_space hw (provisions_free w hw) ?_)
  simp only [List.mem_cons, List.not_mem_nil, or_false] at hw
  rcases hw with rfl | rfl <;> exact noWs_cons (by decide)

theorem reads_changes {f w : Str} (hf : Following f) (hw : w ∈ [str!"szöveggel lép hatályba", str!"szerint módosul"]) {n : Nat} {rest : Str} :
    Reads amendmentSuffix n (f ++ (' ' :: w)) rest () := by
  have hh : NoWs (f ++ (' ' :: w ++ rest)) := following_noWs hf _
  have hno : ∀ {β : Type} (q : Unit → P β) n, Fails (tok str!"helyébe" >>= q) n (f ++ (' ' :: w ++ rest)) := fun q n =>
    Fails.bind (Fails.call_noWs hh fun _ => Fails.lit (not_prefix_of_head (by decide) fun e => by
      have := following_head hf (' ' :: w ++ rest) _ e.symm
      cases this))
  have hfo : ∀ n, Reads (call theFollowing) n f (' ' :: w ++ rest) () := fun n => Reads.call hh (reads_following hf (space_notLower _))
  refine Reads.right (by rw [List.append_assoc]; exact hno _ n) ?_
  simp only [List.mem_cons, List.not_mem_nil, or_false] at hw
  rcases hw with rfl | rfl
  · exact Reads.left (Reads.bind (hfo _) (Reads.tok_space (noWs_cons (by decide))))
  · refine Reads.right ?_ (Reads.bind (hfo _) (Reads.tok_space (noWs_cons (by decide))))
    rw [List.append_assoc]
    exact Fails.bind_of (hfo _) (fails_tok_space (noWs_cons (by decide)) (by rintro ⟨x, e⟩; simp at e))

def namedWords : List Str := [str!"alcím", str!"alcímcím", str!"cím", str!"fejezet", str!"Fejezet", str!"rész"]

theorem fails_named {f w : Str} (hf : Following f) (hw : w ∈ namedWords) {n : Nat} {R : Str} :
    Fails amendmentSuffix n (str!"helyébe" ++ (' ' :: f ++ (' ' :: (w ++ R)))) := by
  have hw' : NoWs (w ++ R) ∧ (∀ u ∈ [str!"rendelkezés lép", str!"rendelkezések lépnek"], ¬ u <+: w ++ R) := by
    simp only [namedWords, List.mem_cons, List.not_mem_nil, or_false] at hw
    rcases hw with rfl | rfl | rfl | rfl | rfl | rfl <;>
      exact ⟨noWs_cons (by decide), fun u hu => by
        simp only [List.mem_cons, List.not_mem_nil, or_false] at hu
        rcases hu with rfl | rfl <;> (rintro ⟨x, e⟩; simp at e)⟩
  have hno : ∀ {β : Type} (q : Unit → P β) n, Fails (call theFollowing >>= q) n (str!"helyébe" ++ (' ' :: f ++ (' ' :: (w ++ R)))) := fun q n =>
    Fails.bind (Fails.call_noWs (noWs_cons (by decide)) fun _ => fails_following (.cons (by decide)))
  refine Fails.alt (fails_helyebe hf fun n => ?_) (Fails.alt (hno _ n) (hno _ n))
  exact Fails.call_space hw'.1 fun n => Fails.lits hw'.2

theorem reads_opt_none_tok {w s : Str} {n : Nat} (hs : NoWs s) (h : ¬ w <+: s) : Reads (opt (tok w)) n [] (' ' :: s) none :=
  Reads.opt_none (fails_tok_space hs h)

theorem reads_alcim_word {w R : Str} (hw : w ∈ [str!"alcím", str!"alcímcím"]) {n : Nat} :
    Reads (tok str!"alcím" >>= fun _ => opt (tok str!"cím") >>= fun _ => pure ()) n (' ' :: w) (' ' :: 'l' :: R) () := by
  simp only [List.mem_cons, List.not_mem_nil, or_false] at hw
  rcases hw with rfl | rfl
  · exact Reads.bind_last (Reads.tok_space (noWs_cons (by decide)))
      (Reads.map (g := fun _ => ()) (reads_opt_none_tok (noWs_cons (by decide)) (by rintro ⟨x, e⟩; simp at e)))
  · exact Reads.bind (t := ' ' :: str!"alcím") (Reads.tok_space (noWs_cons (by decide)))
      (Reads.map (g := fun _ => ()) (Reads.opt_some (Reads.tok (noWs_cons (by decide)))))

theorem reads_structuralWord {w R : Str} (hw : w ∈ namedWords) {n : Nat} :
    Reads structuralWord n (' ' :: w) (' ' :: 'l' :: R) () := by
  have h1 : w ∈ [str!"alcím", str!"alcímcím"] ∨ w ∈ [str!"cím", str!"fejezet", str!"Fejezet", str!"rész"] := by
    simpa [namedWords, or_assoc] using hw
  rcases h1 with h1 | h1
  · exact Reads.left (reads_alcim_word h1)
  · refine Reads.right (Fails.bind (Fails.call_space ?_ fun n => Fails.lit ?_)) (reads_toks_space h1
      ((by decide : ∀ w ∈ [str!"cím", str!"fejezet", str!"Fejezet", str!"rész"], ∀ u ∈ [str!"cím", str!"fejezet", str!"Fejezet", str!"rész"],
        u ≠ w → ¬ u <+: w ∧ ¬ w <+: u) w h1) ?_) <;>
    · simp only [List.mem_cons, List.not_mem_nil, or_false] at h1
      rcases h1 with rfl | rfl | rfl | rfl <;> first | exact noWs_cons (by decide) | (rintro ⟨x, e⟩; simp at e)

theorem reads_named {f w : Str} (hf : Following f) (hw : w ∈ namedWords) {n : Nat} {R : Str} :
    Reads amendmentSuffixWithStructural n (str!"helyébe" ++ (' ' :: f ++ (' ' :: (w ++ str!" lép")))) R () := by
  refine helyebe hf fun n => ?_
  exact Reads.bind (t := ' ' :: w) (Reads.opt_some (reads_structuralWord hw)) (Reads.tok_space (noWs_cons (by decide)))

theorem reads_subtitle_named {f w : Str} (hf : Following f) (hw : w ∈ [str!"alcím", str!"alcímcím"]) {n : Nat} {R : Str} :
    Reads amendmentSuffixWithSubtitle n (str!"helyébe" ++ (' ' :: f ++ (' ' :: (w ++ str!" lép")))) R () := by
  refine helyebe hf fun n => ?_
  have h0 : ∀ n, Reads (opt (tok str!"rendelkezés és")) n [] (' ' :: (w ++ str!" lép") ++ R) none := fun n => by
    simp only [List.mem_cons, List.not_mem_nil, or_false] at hw
    rcases hw with rfl | rfl <;> exact reads_opt_none_tok (noWs_cons (by decide)) (by rintro ⟨x, e⟩; simp at e)
  have hend : ∀ n, Reads (opt (tok str!"és rendelkezés") >>= fun _ => toks [str!"lép", str!"lépnek"]) n str!" lép" R () := fun n =>
    Reads.bind_first (reads_opt_none_tok (noWs_cons (by decide)) (by rintro ⟨x, e⟩; simp at e))
      (Reads.call_space (t := str!"lép") (noWs_cons (by decide)) (Reads.left (Reads.lit _)))
  refine Reads.bind_first (h0 _) ?_
  simp only [List.mem_cons, List.not_mem_nil, or_false] at hw
  rcases hw with rfl | rfl
  · exact Reads.bind (t := ' ' :: str!"alcím") (Reads.tok_space (noWs_cons (by decide)))
      (Reads.bind_first (reads_opt_none_tok (noWs_cons (by decide)) (by rintro ⟨x, e⟩; simp at e)) (hend _))
  · exact Reads.bind (t := ' ' :: str!"alcím") (Reads.tok_space (noWs_cons (by decide)))
      (Reads.bind (t := str!"cím") (Reads.opt_some (Reads.tok (noWs_cons (by decide)))) (hend _))

theorem fails_subtitle_named {f w : Str} (hf : Following f) (hw : w ∈ namedWords) (hw2 : w ∉ [str!"alcím", str!"alcímcím"]) {n : Nat} {R : Str} :
    Fails amendmentSuffixWithSubtitle n (str!"helyébe" ++ (' ' :: f ++ (' ' :: (w ++ R)))) := by
  have h1 : w ∈ [str!"cím", str!"fejezet", str!"Fejezet", str!"rész"] := by
    simpa [namedWords, or_assoc, not_or.1 (by simpa using hw2)] using hw
  have h2 : NoWs (w ++ R) ∧ ¬ str!"rendelkezés és" <+: w ++ R ∧ ¬ str!"alcím" <+: w ++ R := by
    simp only [List.mem_cons, List.not_mem_nil, or_false] at h1
    rcases h1 with rfl | rfl | rfl | rfl <;>
      exact ⟨noWs_cons (by decide), by rintro ⟨x, e⟩; simp at e, by rintro ⟨x, e⟩; simp at e⟩
  refine fails_helyebe hf fun n => ?_
  exact Fails.bind_of (t := []) (reads_opt_none_tok h2.1 h2.2.1) (Fails.bind (fails_tok_space h2.1 h2.2.2))

/-- How the ends of replacements are read. -/
theorem suffix_cases {e : Str} (he : ReplacementEnd e) :
    (∀ n rest, Reads (call amendmentSuffix) n (' ' :: e) rest ()) ∨
    ((∀ n rest, Fails (call amendmentSuffix) n (' ' :: e ++ rest)) ∧ (∀ n rest, Reads (call amendmentSuffixWithStructural) n (' ' :: e) rest ()) ∧
      ((∀ n rest, Reads (call amendmentSuffixWithSubtitle) n (' ' :: e) rest ()) ∨
        (EndsOther e ∧ ∀ n rest, Fails (call amendmentSuffixWithSubtitle) n (' ' :: e ++ rest)))) := by
  cases he with
  | @provision f w hf hw =>
    have e : str!"helyébe " ++ f ++ str!" " ++ w = str!"helyébe" ++ (' ' :: f ++ (' ' :: w)) := by simp
    rw [e]
    exact .inl fun n rest => Reads.call_space (noWs_cons (by decide)) (reads_provision hf hw)
  | @changes f w hf hw =>
    have e : f ++ str!" " ++ w = f ++ (' ' :: w) := by simp
    rw [e]
    exact .inl fun n rest => Reads.call_space (by rw [List.append_assoc]; exact following_noWs hf _) (reads_changes hf hw)
  | @named f w hf hw =>
    have e : str!"helyébe " ++ f ++ str!" " ++ w ++ str!" lép" = str!"helyébe" ++ (' ' :: f ++ (' ' :: (w ++ str!" lép"))) := by simp
    have e2 : ∀ rest, str!"helyébe" ++ (' ' :: f ++ (' ' :: (w ++ str!" lép"))) ++ rest =
        str!"helyébe" ++ (' ' :: f ++ (' ' :: (w ++ (str!" lép" ++ rest)))) := fun rest => by simp
    rw [e]
    refine .inr ⟨fun n rest => Fails.call_space (s := _ ++ rest) (noWs_cons (by decide)) fun n => ?_,
      fun n rest => Reads.call_space (noWs_cons (by decide)) (reads_named hf hw), ?_⟩
    · rw [e2]; exact fails_named hf hw
    · by_cases h : w ∈ [str!"alcím", str!"alcímcím"]
      · exact .inl fun n rest => Reads.call_space (noWs_cons (by decide)) (reads_subtitle_named hf h)
      · refine .inr ⟨⟨f, w, hf, ?_, by simp⟩, fun n rest => Fails.call_space (s := _ ++ rest) (noWs_cons (by decide)) fun n => ?_⟩
        · simp only [List.mem_cons, List.not_mem_nil, or_false] at hw h ⊢
          tauto
        · rw [e2]; exact fails_subtitle_named hf hw h

theorem endsOther_fails {e : Str} (h : EndsOther e) : (∀ n rest, Fails (call amendmentSuffix) n (' ' :: e ++ rest)) ∧
    ∀ n rest, Fails (call amendmentSuffixWithSubtitle) n (' ' :: e ++ rest) := by
  obtain ⟨f, w, hf, hw, rfl⟩ := h
  have e : str!"helyébe " ++ f ++ str!" " ++ w ++ str!" lép" = str!"helyébe" ++ (' ' :: f ++ (' ' :: (w ++ str!" lép"))) := by simp
  have e2 : ∀ rest, str!"helyébe" ++ (' ' :: f ++ (' ' :: (w ++ str!" lép"))) ++ rest =
      str!"helyébe" ++ (' ' :: f ++ (' ' :: (w ++ (str!" lép" ++ rest)))) := fun rest => by simp
  have hw' : w ∈ [str!"alcím", str!"alcímcím", str!"cím", str!"fejezet", str!"Fejezet", str!"rész"] := by
    simp only [List.mem_cons, List.not_mem_nil, or_false] at hw ⊢
    tauto
  have hn : w ∉ [str!"alcím", str!"alcímcím"] := by
    simp only [List.mem_cons, List.not_mem_nil, or_false] at hw
    rcases hw with rfl | rfl | rfl | rfl <;> decide
  rw [e]
  refine ⟨fun n rest => Fails.call_space (s := _ ++ rest) (noWs_cons (by decide)) fun n => ?_,
    fun n rest => Fails.call_space (s := _ ++ rest) (noWs_cons (by decide)) fun n => ?_⟩
  · rw [e2]; exact fails_named hf hw'
  · rw [e2]; exact fails_subtitle_named hf hw' hn

theorem reads_colon {n : Nat} {rest : Str} : Reads (tok str!":") n str!":" rest () := Reads.tok (noWs_cons (by decide))

theorem reads_structuralSuffix {e : Str} (he : ReplacementEnd e) {n : Nat} : Reads structuralSuffix n (' ' :: e ++ str!":") [] () := by
  refine Reads.bind (t := ' ' :: e) (a := ()) ?_ reads_colon
  rcases suffix_cases he with h | ⟨h1, h2, -⟩
  · exact Reads.left (h _ _)
  · exact Reads.right (h1 _ _) (h2 _ _)

theorem reads_insertionSuffix {e : Str} (he : e ∈ insertionEnds) {n : Nat} {rest : Str} : Reads (call insertionSuffix) n (' ' :: e) rest () := by
  have hn : NoWs (e ++ rest) := by
    simp only [insertionEnds, List.mem_cons, List.not_mem_nil, or_false] at he
    rcases he with rfl | rfl <;> exact noWs_cons (by decide)
  exact Reads.call_space hn (Reads.call hn (reads_one he ((by decide : ∀ w ∈ insertionEnds, ∀ u ∈ insertionEnds, u ≠ w → ¬ u <+: w ∧ ¬ w <+: u) e he)))

theorem insertionEnd_head {e : Str} (he : e ∈ insertionEnds) (R : Str) : Head (fun c => c ∈ str!"ek") (e ++ R) := by
  simp only [insertionEnds, List.mem_cons, List.not_mem_nil, or_false] at he
  rcases he with rfl | rfl <;> exact .cons (by decide)

/-! ### places -/

theorem afterPlace_space (p : Place) {s : Str} (hs : NoWs s) (h : Head (fun c => c ≠ 'c' ∧ isDashChar c = false) s) : AfterPlace p (' ' :: s) := by
  have e : skipWs (' ' :: s) = s := by
    have : skipWs (' ' :: s) = skipWs s := rfl
    rw [this, skipWs_noWs hs]
  have hc : ∀ w : Str, w.head? = some 'c' → ¬ w <+: s := fun w hw => by
    refine not_prefix_of_head (by rintro rfl; cases hw) fun e => ?_
    rw [hw] at e; exact (h _ e.symm).1 rfl
  exact ⟨⟨.cons (by decide), by rw [e]; exact h.mono fun c hc => hc.2⟩, fun _ => by rw [e]; exact ⟨hc _ rfl, hc _ rfl⟩⟩

theorem reads_place {p : Place} {b : Option NumericId} {e : StructuralRefParent} {o : Bool} (hp : p.Means b e o) {s : Str} (hs : NoWs s)
    (h : Head (fun c => c ≠ 'c' ∧ isDashChar c = false) s) {n : Nat} :
    Reads (call structuralReference) n (' ' :: p.text) (' ' :: s) (placeAt p) :=
  Reads.call_space (place_noWs hp _) (reads_structural hp (afterPlace_space p hs h))

theorem place_after {p : Place} {b : Option NumericId} {e : StructuralRefParent} {o : Bool} (hp : p.Means b e o) (R : Str) :
    Head (fun c => c ≠ 'c' ∧ isDashChar c = false) (p.text ++ R) :=
  (place_not hp R).mono fun c hc => ⟨by rintro rfl; exact hc (by decide), by
    cases hd : isDashChar c
    · rfl
    · exact absurd ((by decide : ∀ c ∈ str!"−–-", c ∈ str!"aáéevkhscmölr(§:,;-–−) \t\n\r\x0c") c (by simpa [isDashChar] using hd)) hc⟩

theorem end_after {s : Str} (h : Head (fun c => c ∈ str!"ahek") s) : Head (fun c => c ≠ 'c' ∧ isDashChar c = false) s :=
  h.mono fun c hc => (by decide : ∀ c ∈ str!"ahek", c ≠ 'c' ∧ isDashChar c = false) c hc

theorem following_after {f : Str} (hf : Following f) (R : Str) : Head (fun c => c ∈ str!"ahek") (f ++ R) :=
  (following_head hf R).mono fun c hc => by subst hc; decide

theorem place_noInsertion {p : Place} {b : Option NumericId} {e : StructuralRefParent} {o : Bool} (hp : p.Means b e o) (R : Str) {n : Nat} :
    Fails (call insertionToken) n (p.text ++ R) :=
  fails_insertionToken (place_noWs hp R) ((place_not hp R).mono fun c hc => by
    refine ⟨?_, ?_, ?_, ?_, ?_⟩ <;> (rintro rfl; exact hc (by decide)))

theorem fails_structuralId {n : Nat} {s : Str} (h : Unnamed s) : Fails structuralId n s := by
  have h1 : Fails structuralReference n s := fails_structural h
  have hcap : ∀ n, Fails (call hungarianOrdinalCapital) n s := fun n => Fails.call_noWs h.noWs fun n => fails_capital h.upper
  have h2 : Fails bookReference n s := Fails.bind (hcap _)
  have h3 : Reads (opt (call bookReference)) n [] s none :=
    Reads.opt_none (Fails.call_noWs h.noWs fun n => Fails.bind (hcap _))
  unfold Fails at h1 ⊢
  unfold Reads at h3
  rcases hr : structuralId.run ⟨n, s⟩ with _ | ⟨x, j⟩
  · rfl
  · exfalso
    unfold structuralReference at h1
    rw [bind_run] at h1
    simp only [List.nil_append, show byteLen ([] : Str) = 0 from rfl, Nat.add_zero] at h3
    rw [h3] at h1
    simp only [bind_run, hr] at h1
    rcases ho : (call titleOnlyToken).run j with _ | ⟨y, k⟩ <;> simp [opt, optRun, ho, pure_run] at h1

/-- A book alone is not a place. -/
theorem fails_book_place {k : BookText} {b : NumericId} (hk : k.Means b) {s : Str} (h : Unnamed s) {n : Nat} :
    Fails structuralReference n (k.text ++ ' ' :: s) := by
  refine Fails.bind_of (Reads.opt_some (Reads.call (bookText_noWs hk _) (reads_book_ref hk (.cons (by decide))))) (Fails.bind ?_)
  show structuralId.run _ = none
  rw [structuralId_space h.noWs]
  exact fails_structuralId h

theorem book_head {k : BookText} {b : NumericId} (hk : k.Means b) (R : Str) : ∃ c r, k.text ++ R = c :: r ∧ isHunUpper c = true := by
  obtain ⟨c, x, r, e, hc, -⟩ := capital_head k.number (List.mem_map.2 ⟨_, hk.2.1, rfl⟩)
  exact ⟨c, x :: r ++ (str!" " ++ k.word.text ++ R), by simp [BookText.text, e], hc⟩

theorem book_not {k : BookText} {b : NumericId} (hk : k.Means b) (R : Str) :
    Head (fun c => c ∉ str!"aáéevkhscmölr(§:,;-–−) \t\n\r\x0c") (k.text ++ R) := by
  obtain ⟨c, r, e, h⟩ := book_head hk R
  rw [e]; exact .cons (placeChar (.inl h))

/-! ### subtitles -/

/-- A place which is a subtitle for the rule of subtitles too. -/
def subtitleAt : Place → Option ReferenceWithSubtitle
  | ⟨none, .subtitles (.one i) _, _⟩ => some ⟨none, some i.displaySlash, none⟩
  | ⟨none, .named t false _, _⟩ => some ⟨none, none, some t⟩
  | _ => none

theorem fails_subtitleName {s : Str} (hs : NoWs s) (h1 : Head (isDigit · = false) s) (h2 : Head (· ≠ '„') s) (h3 : ¬ str!"alcím" <+: s) {n : Nat} :
    Fails subtitleName n s := by
  refine Fails.alt (Fails.bind (Fails.call_noWs hs fun n => Fails.slice (Fails.bind (Fails.call_noWs hs fun n => fails_number h1)))) <|
    Fails.alt (Fails.bind (Fails.call_noWs hs fun n => Fails.bind (Fails.call_noWs hs fun n => Fails.lit (not_prefix_of_head (by decide) fun e => ?_))))
      (Fails.bind (Fails.call_noWs hs fun n => Fails.bind (Fails.lit h3)))
  exact h2 _ e.symm rfl

theorem fails_withSubtitle {s : Str} (ha : NoArticle s) (h1 : ∀ n, Fails subtitleName n s) {n : Nat} : Fails referenceWithSubtitle n s :=
  Fails.alt (Fails.bind (Fails.call_noWs ha.noWs ha.single)) (Fails.bind (h1 n))

theorem end_noSubtitle {s : Str} (ha : NoArticle s) (h : Head (fun c => c ∈ str!"ahek") s) (h3 : ¬ str!"alcím" <+: s) {n : Nat} :
    Fails referenceWithSubtitle n s :=
  fails_withSubtitle ha fun _ => fails_subtitleName ha.noWs (h.mono fun c hc => (by decide : ∀ c ∈ str!"ahek", isDigit c = false) c hc)
    (h.mono fun c hc => (by decide : ∀ c ∈ str!"ahek", c ≠ '„') c hc) h3

theorem following_noAlcim {f : Str} (hf : Following f) (R : Str) : ¬ str!"alcím" <+: f ++ R := by
  rcases hf with rfl | ⟨e, rfl, -⟩ <;> (rintro ⟨x, e⟩; simp at e)

theorem replacement_noAlcim {e : Str} (he : ReplacementEnd e) (R : Str) : ¬ str!"alcím" <+: e ++ R := by
  cases he with
  | provision hf hw => rintro ⟨x, e⟩; simp at e
  | changes hf hw => rw [List.append_assoc, List.append_assoc]; exact following_noAlcim hf _
  | named hf hw => rintro ⟨x, e⟩; simp at e

theorem reads_subtitleToken {w : Inflected} (hw : w.Of [str!"alcím"]) {s : Str} (h : Head (· ≠ 'c') s) {n : Nat} :
    Reads subtitleToken n w.text (' ' :: s) () := by
  rw [alcim_text hw]
  refine Reads.bind (Reads.lit str!"alcím") ?_
  refine Reads.bind_first (a := none) (Reads.opt_none (Fails.lit_head (by decide) ?_)) ?_
  · cases he : w.ending with
    | nil => simp
    | cons c r =>
      have hl := hw.2 c (by rw [he]; exact List.mem_cons_self ..)
      intro e
      simp at e
      subst e
      exact absurd hl (by decide)
  · refine Reads.bind_last (Reads.map (g := fun _ => ()) (Reads.many_chars (ending_lower hw.2) (Head.cons (f := (isHunLower · = false)) (by decide)))) ?_
    refine Reads.map (g := fun _ => ()) (Reads.opt_none ?_)
    exact Fails.bind_of (t := [' ']) (Reads.lit str!" ") (Fails.bind (Fails.lit_head (by decide) fun e => h _ e.symm rfl))

theorem reads_subtitleToken_title {w : Inflected} (hw : w.Of [str!"alcím"]) {t s : Str} (ht : TitleWord t) {n : Nat} :
    Reads subtitleToken n (w.text ++ ' ' :: t) (' ' :: s) () := by
  have hl : ∃ r, t = str!"cím" ++ r ∧ ∀ c ∈ r, isHunLower c = true := by
    rcases ht with ht | ⟨e, rfl, he⟩
    · simp only [List.mem_cons, List.not_mem_nil, or_false] at ht
      rcases ht with rfl | rfl
      exacts [⟨str!"e", rfl, by decide⟩, ⟨str!"ei", rfl, by decide⟩]
    · refine ⟨'é' :: e, rfl, fun c hc => ?_⟩
      rcases List.mem_cons.1 hc with rfl | hc
      exacts [by decide, ending_lower he c hc]
  obtain ⟨r, rfl, hr⟩ := hl
  rw [alcim_text hw, List.append_assoc]
  refine Reads.bind (Reads.lit str!"alcím") ?_
  refine Reads.bind_first (a := none) (Reads.opt_none (Fails.lit_head (by decide) ?_)) ?_
  · cases he : w.ending with
    | nil => simp
    | cons c r =>
      have hl := hw.2 c (by rw [he]; exact List.mem_cons_self ..)
      intro e
      simp at e
      subst e
      exact absurd hl (by decide)
  · refine Reads.bind (Reads.map (g := fun _ => ()) (Reads.many_chars (ending_lower hw.2) (Head.cons (f := (isHunLower · = false)) (by decide)))) ?_
    refine Reads.map (g := fun _ => ()) (Reads.opt_some (a := ()) ?_)
    exact Reads.bind (t := [' ']) (Reads.lit str!" ") (Reads.bind (Reads.lit str!"cím")
      (Reads.map (g := fun _ => ()) (Reads.many_chars hr (Head.cons (f := (isHunLower · = false)) (by decide)))))

theorem reads_subtitleToken_place {w : Inflected} (hw : w.Of [str!"alcím"]) {tl : Option Str} (ht : ∀ t, tl = some t → TitleWord t) {s : Str}
    (h : Head (· ≠ 'c') s) {n : Nat} : Reads subtitleToken n (w.text ++ (tl.map fun t => str!" " ++ t).getD []) (' ' :: s) () := by
  cases tl with
  | none => simpa using reads_subtitleToken hw h
  | some t => exact reads_subtitleToken_title hw (ht t rfl)

theorem reads_noArticle {s : Str} (hs : NoWs s) (h : Head (· ≠ 'é') s) {n : Nat} :
    Reads (opt (tok str!"és" >>= fun _ => call singleArticle)) n [] (' ' :: s) none :=
  Reads.opt_none (Fails.bind (fails_tok_space hs (not_prefix_of_head (by decide) fun e => h _ e.symm rfl)))

theorem place_subtitleBefore {p : Place} {b : Option NumericId} {e : StructuralRefParent} {o : Bool} (hp : p.Means b e o)
    {s : Str} (hs : NoWs s) (h : Head (fun c => c ≠ 'c' ∧ c ≠ 'é') s) :
    (subtitleAt p = none ∧ ∀ n, Fails referenceWithSubtitle n (p.text ++ ' ' :: s)) ∨
      ∃ r, subtitleAt p = some r ∧ ∀ n, Reads referenceWithSubtitle n p.text (' ' :: s) r := by
  have ha := noArticle_place hp (' ' :: s)
  have hno : ∀ n, Fails articleAndSubtitle n (p.text ++ ' ' :: s) := fun n => Fails.bind (Fails.call_noWs ha.noWs ha.single)
  have hup : ∀ c r, p.text ++ ' ' :: s = c :: r → isHunUpper c = true → ∀ n, Fails referenceWithSubtitle n (p.text ++ ' ' :: s) := fun c r e hc n => by
    refine fails_withSubtitle ha fun n => ?_
    rw [e]
    refine fails_subtitleName (noWs_cons (upper_noWs hc)) (.cons (upper_not hc).2.1) (.cons (upper_not hc).2.2.2) ?_
    exact not_prefix_of_head (by decide) (by rintro e; simp at e; subst e; exact absurd hc (by decide))
  have hc' : Head (· ≠ 'c') s := h.mono fun c hc => hc.1
  have he' : Head (· ≠ 'é') s := h.mono fun c hc => hc.2
  obtain ⟨bk, part, tl⟩ := p
  cases bk with
  | some k =>
    obtain ⟨i, -, hk⟩ := hp.book k rfl
    obtain ⟨c, r, e, hc⟩ := book_head hk (str!" " ++ part.text ++ (tl.map fun t => str!" " ++ t).getD [] ++ ' ' :: s)
    exact .inl ⟨rfl, hup c r (by rw [← e]; simp [Place.text]) hc⟩
  | none =>
    have hpart := hp.part
    have etext : (⟨none, part, tl⟩ : Place).text ++ ' ' :: s = part.text ++ ((tl.map fun t => str!" " ++ t).getD [] ++ ' ' :: s) := by
      simp [Place.text]
    cases hpart with
    | @chapter i w hi hw =>
      obtain ⟨c, r, e, hc⟩ := romanText_head hi (str!". " ++ w.text ++ ((tl.map fun t => str!" " ++ t).getD [] ++ ' ' :: s))
      exact .inl ⟨rfl, hup c r (by rw [etext, ← e]; simp [PlaceText.text]) ((by decide : ∀ c ∈ str!"IVXLCDM", isHunUpper c = true) c (by simpa [isRomanChar] using hc))⟩
    | @title i w hi hw =>
      obtain ⟨c, r, e, hc⟩ := romanText_head hi (str!". " ++ w.text ++ ((tl.map fun t => str!" " ++ t).getD [] ++ ' ' :: s))
      exact .inl ⟨rfl, hup c r (by rw [etext, ← e]; simp [PlaceText.text]) ((by decide : ∀ c ∈ str!"IVXLCDM", isHunUpper c = true) c (by simpa [isRomanChar] using hc))⟩
    | @part q n w hq hw =>
      obtain ⟨c, x, r, e, hc, -⟩ := capital_head q (List.mem_map.2 ⟨_, hq, rfl⟩)
      exact .inl ⟨rfl, hup c _ (by rw [etext]; simp only [PlaceText.text, e, List.cons_append]; rfl) hc⟩
    | @subtitle i w hi hw =>
      refine .inr ⟨_, rfl, fun n => Reads.right (hno n) ?_⟩
      have e : (⟨none, .subtitles (.one i) w, tl⟩ : Place).text = i.displaySlash ++ (str!"." ++ (' ' :: (w.text ++ (tl.map fun t => str!" " ++ t).getD []))) := by
        simp [Place.text, PlaceText.text, slashedSpan]
      rw [e]
      refine Reads.bind_last (a := (some i.displaySlash, none)) (Reads.left ?_) ?_
      · refine Reads.bind (Reads.call ?_ (reads_subtitleId hi ?_)) ?_
        · rw [← List.append_assoc]
          have := slashed_noWs (.one i) (' ' :: (w.text ++ (tl.map fun t => str!" " ++ t).getD []) ++ ' ' :: s)
          simpa [slashedSpan] using this
        · rintro c hc; simp at hc; subst hc; decide
        · refine Reads.bind (Reads.tok (noWs_cons (by decide))) ?_
          exact Reads.map (g := fun _ => (some i.displaySlash, none)) (Reads.call_space (by rw [List.append_assoc]; exact alcim_noWs hw _) (reads_subtitleToken_place hw hp.title hc'))
      · exact Reads.map (g := fun a => (⟨a, some i.displaySlash, none⟩ : ReferenceWithSubtitle)) (reads_noArticle hs he')
    | @subtitleRange i j d w hd hi hj hw =>
      refine .inl ⟨rfl, fun n => fails_withSubtitle ha fun n => ?_⟩
      have hws := ha.noWs
      have hdig := slashed_digit (.upTo d i j) (str!" " ++ w.text ++ ((tl.map fun t => str!" " ++ t).getD [] ++ ' ' :: s))
      have e : (⟨none, .subtitles (.upTo d i j) w, tl⟩ : Place).text ++ ' ' :: s =
          i.displaySlash ++ (d :: (j.displaySlash ++ str!"." ++ str!" " ++ w.text ++ (tl.map fun t => str!" " ++ t).getD [] ++ ' ' :: s)) := by
        simp [Place.text, PlaceText.text, slashedSpan]
      have hdig' : Head (isDigit · = true) ((⟨none, .subtitles (.upTo d i j) w, tl⟩ : Place).text ++ ' ' :: s) := by
        rw [e]; simpa [slashedSpan] using hdig
      refine Fails.alt ?_ (Fails.alt (Fails.bind (Fails.call_noWs hws fun n => Fails.bind (Fails.call_noWs hws fun n => Fails.lit ?_)))
        (Fails.bind (Fails.call_noWs hws fun n => Fails.bind (Fails.lit ?_))))
      · rw [e] at hws ⊢
        refine Fails.bind_of (Reads.call hws (reads_subtitleId hi ?_)) (Fails.bind (Fails.call_noWs ?_ fun n => Fails.lit ?_))
        · rintro c hc; simp at hc; subst hc; exact dash_head hd
        · exact noWs_cons (dash_head hd).2.2.1
        · exact not_prefix_of_head (by decide) (by intro e; simp at e; subst e; exact absurd hd (by decide))
      · exact not_prefix_of_head (by decide) fun e => absurd (hdig' _ e.symm) (by decide)
      · exact not_prefix_of_head (by decide) fun e => absurd (hdig' _ e.symm) (by decide)
    | @named t called w hq hw =>
      have hws := ha.noWs
      have hid : ∀ {β : Type} (g : Str → P β) n, Fails (call subtitleId >>= g) n ((⟨none, .named t called w, tl⟩ : Place).text ++ ' ' :: s) := fun g n => by
        refine Fails.bind (Fails.call_noWs hws fun n => Fails.slice (Fails.bind (Fails.call_noWs hws fun n => fails_number ?_)))
        rw [etext]; exact .cons (by decide)
      cases called with
      | false =>
        refine .inr ⟨_, rfl, fun n => Reads.right (hno n) ?_⟩
        have e : (⟨none, .named t false w, tl⟩ : Place).text = str!"„" ++ (t ++ str!"”") ++ (' ' :: (w.text ++ (tl.map fun t => str!" " ++ t).getD [])) := by
          simp [Place.text, PlaceText.text]
        have hid' := fun n => hid (fun i => tok str!"." >>= fun _ => call subtitleToken >>= fun _ => pure ((some i, none) : Option Str × Option Str)) n
        rw [e] at hid' hws ⊢
        refine Reads.bind_last (a := (none, some t)) (Reads.right (hid' _) (Reads.left ?_)) ?_
        · refine Reads.bind (Reads.call ?_ (reads_quote hq)) ?_
          · exact noWs_cons (by decide)
          · exact Reads.map (g := fun _ => (none, some t)) (Reads.call_space (by rw [List.append_assoc]; exact alcim_noWs hw _) (reads_subtitleToken_place hw hp.title hc'))
        · exact Reads.map (g := fun a => (⟨a, none, some t⟩ : ReferenceWithSubtitle)) (reads_noArticle hs he')
      | true =>
        refine .inl ⟨rfl, fun n => fails_withSubtitle ha fun n => Fails.alt (hid _ n) ?_⟩
        have e : (⟨none, .named t true w, tl⟩ : Place).text ++ ' ' :: s = str!"„" ++ (t ++ str!"”") ++
            (' ' :: (str!"című " ++ (w.text ++ ((tl.map fun t => str!" " ++ t).getD [] ++ ' ' :: s)))) := by
          simp [Place.text, PlaceText.text]
        rw [e]
        refine Fails.alt (Fails.bind_of (Reads.call (noWs_cons (by decide)) (reads_quote hq)) (Fails.bind (Fails.call_space (noWs_cons (by decide)) fun n =>
          Fails.bind (Fails.lit (not_prefix_of_head (by decide) (by simp)))))) ?_
        exact Fails.bind (Fails.call_noWs (noWs_cons (by decide)) fun n => Fails.bind (Fails.lit (not_prefix_of_head (by decide) (by simp))))

theorem place_subtitle {p : Place} {b : Option NumericId} {e : StructuralRefParent} {o : Bool} (hp : p.Means b e o)
    {s : Str} (hs : NoWs s) (h : Head (fun c => c ∈ str!"ahek") s) :
    (subtitleAt p = none ∧ ∀ n, Fails referenceWithSubtitle n (p.text ++ ' ' :: s)) ∨
      ∃ r, subtitleAt p = some r ∧ ∀ n, Reads referenceWithSubtitle n p.text (' ' :: s) r :=
  place_subtitleBefore hp hs (h.mono fun c hc => (by decide : ∀ c ∈ str!"ahek", c ≠ 'c' ∧ c ≠ 'é') c hc)

end HunLaw.Grammar
