import Verif.Lemmas.Titled
import Verif.Spec.Structural

/-! The grammar reads amendments of the structure in the usual form. -/

set_option autoImplicit false

namespace HunLaw.Grammar

open HunLaw P Spec

variable {α β : Type}

/-! ### words -/

theorem noLevel_words {x y : Str} (hx : Ordinary x) (hs : ' ' ∈ x) (hh : Head (isWs · = false) x)
    (hy : Head (fun c => c ≠ ')' ∧ isDashChar c = false) (skipWs y)) : NoLevel (x ++ y) := by
  cases x with
  | nil => simp at hs
  | cons c x =>
    have hc : isWs c = false := hh c rfl
    have hcc := ordinary_char (hx c (List.mem_cons_self ..))
    have hsk : skipWs (c :: x ++ y) = c :: x ++ y := skipWs_cons hc
    refine .of_head (by rw [hsk]; exact .cons hcc.2.1) (by rw [hsk]; exact .cons hcc.2.2.1) ?_
    rw [hsk]
    exact noMark_text (fun c hc => (ordinary_char (hx c hc)).1) (.inr ⟨' ', hs, by decide⟩) hy

theorem placeChar {c : Char} (h : isHunUpper c = true ∨ c = '„' ∨ isDigit c = true) : c ∉ str!"aáéevkhscmölr(§:,;-–−) \t\n\r\x0c" := fun hc =>
  (by decide : ∀ d ∈ str!"aáéevkhscmölr(§:,;-–−) \t\n\r\x0c", ¬ (isHunUpper d = true ∨ d = '„' ∨ isDigit d = true)) c hc h

/-- The end of a list of forbidden first letters. -/
theorem not_prefix_char {w s : Str} {c : Char} {r : Str} (hs : s = c :: r) (hw : w.head? ≠ some c) (hw' : w ≠ []) : ¬ w <+: s := by
  rw [hs]; exact not_prefix_of_head hw' (by simpa using hw)

/-! ### "a következő" -/

/-- The two words: the article, and the next one. -/
theorem following_split {f : Str} (hf : Following f) : ∃ a r, f = a ++ r ∧ (a = str!"a " ∨ a = str!"az ") ∧
    (r = str!"következő" ∨ ∃ e, r = str!"alábbi" ++ e ∧ Ending e) ∧ (a = str!"a " → r = str!"következő") := by
  rcases hf with rfl | ⟨e, rfl, he⟩
  · exact ⟨str!"a ", str!"következő", rfl, .inl rfl, .inl rfl, fun _ => rfl⟩
  · exact ⟨str!"az ", str!"alábbi" ++ e, rfl, .inr rfl, .inr ⟨e, rfl, he⟩, fun h => by cases h⟩

theorem following_noWs {f : Str} (hf : Following f) (r : Str) : NoWs (f ++ r) := by
  rcases hf with rfl | ⟨e, rfl, -⟩ <;> exact noWs_cons (by decide)

theorem following_head {f : Str} (hf : Following f) (r : Str) : Head (· = 'a') (f ++ r) := by
  rcases hf with rfl | ⟨e, rfl, -⟩ <;> exact .cons rfl

theorem following_ordinary {f : Str} (hf : Following f) : Ordinary f ∧ ' ' ∈ f := by
  rcases hf with rfl | ⟨e, rfl, he⟩
  · exact ⟨by unfold Ordinary; decide, by decide⟩
  · refine ⟨fun c hc => ?_, by simp⟩
    rcases List.mem_append.1 hc with h | h
    · exact (by decide : ∀ c ∈ str!"az alábbi", c ∈ lowerLetters ∨ c ∈ upperLetters ∨ c ∈ str!" .,;!?") c h
    · exact .inl (he c h)

theorem reads_following {f : Str} (hf : Following f) {n : Nat} {rest : Str} (h : Head (isHunLower · = false) rest) :
    Reads theFollowing n f rest () := by
  obtain ⟨a, r, rfl, ha, hr, har⟩ := following_split hf
  have h1 : Reads (opt (lits [str!"a ", str!"az "])) n a (r ++ rest) (some ()) := by
    refine Reads.opt_some (reads_one (l := [str!"a ", str!"az "]) ?_ ?_)
    · rcases ha with rfl | rfl <;> decide
    · rcases ha with rfl | rfl <;> decide
  refine Reads.bind h1 ?_
  rcases hr with rfl | ⟨e, rfl, he⟩
  · exact Reads.left (Reads.lit _)
  · refine Reads.right (Fails.lit_head (by decide) (by simp)) ?_
    exact Reads.bind (Reads.lit str!"alábbi") (Reads.many_chars (ending_lower he) h).map

theorem fails_following {n : Nat} {s : Str} (h : Head (fun c => c ≠ 'a' ∧ c ≠ 'k') s) : Fails theFollowing n s := by
  have ha : ∀ w : Str, w.head? = some 'a' → ¬ w <+: s := fun w hw => by
    refine not_prefix_of_head (by rintro rfl; cases hw) fun e => ?_
    rw [hw] at e; exact (h _ e.symm).1 rfl
  refine Fails.bind_of (t := []) (rest := s) (Reads.opt_none (Fails.lits (l := [str!"a ", str!"az "]) ?_)) ?_
  · intro w hw
    simp only [List.mem_cons, List.not_mem_nil, or_false] at hw
    rcases hw with rfl | rfl <;> exact ha _ rfl
  · refine Fails.alt (Fails.lit_head (by decide) fun e => ?_) (Fails.bind (Fails.lit (ha _ rfl)))
    exact (h _ e.symm).2 rfl

theorem reads_junk {n : Nat} {s : Str} (h : NoWs s) (h2 : Head (fun c => c ≠ 'é' ∧ c ≠ 'e' ∧ c ≠ 'v') s) :
    Reads (call amendmentCombinatorJunk) n [] s () := by
  refine Reads.call h (Reads.many_nil (Fails.toks fun w hw => ?_)).map
  rw [skipWs_noWs h]
  have hd : w ≠ [] ∧ ∃ c ∈ w.head?, c = 'é' ∨ c = 'e' ∨ c = 'v' :=
    (by decide : ∀ w ∈ [str!"és", str!"valamint", str!"ezzel", str!"egyidejűleg"], w ≠ [] ∧ ∃ c ∈ w.head?, c = 'é' ∨ c = 'e' ∨ c = 'v') w hw
  obtain ⟨hne, c, hc, hcc⟩ := hd
  refine not_prefix_of_head hne fun e => ?_
  rw [show w.head? = some c from hc] at e
  have := h2 c e.symm
  rcases hcc with rfl | rfl | rfl
  · exact this.1 rfl
  · exact this.2.1 rfl
  · exact this.2.2 rfl

theorem reads_insertionToken {f : Str} (hf : Following f) {n : Nat} {rest : Str} (h : Head (isHunLower · = false) rest) :
    Reads (call insertionToken) n f rest () := by
  refine Reads.call (following_noWs hf _) (Reads.bind_first (reads_junk (following_noWs hf _) ?_) ?_)
  · exact (following_head hf _).mono fun c hc => by subst hc; decide
  · exact Reads.call (following_noWs hf _) (reads_following hf h)

theorem fails_insertionToken {n : Nat} {s : Str} (hs : NoWs s)
    (h : Head (fun c => c ≠ 'a' ∧ c ≠ 'k' ∧ c ≠ 'é' ∧ c ≠ 'e' ∧ c ≠ 'v') s) : Fails (call insertionToken) n s := by
  refine Fails.call_noWs hs fun n => Fails.bind_of (t := []) (rest := s) (reads_junk hs (h.mono fun c hc => hc.2.2)) ?_
  exact Fails.call_noWs hs fun n => fails_following (h.mono fun c hc => ⟨hc.1, hc.2.1⟩)

/-! ### no articles -/

theorem fails_optAz {p : P α} {n : Nat} {s : Str} (hs : NoWs s) (h : ¬ str!"a " <+: s ∧ ¬ str!"az " <+: s)
    (hp : ∀ n, Fails p n s) : Fails (optAz >>= fun _ => call p) n s :=
  Fails.bind_of (t := []) (rest := s) (a := ()) ((Reads.opt_none (Fails.call_noWs hs fun n => fails_az h.1 h.2)).map (g := fun _ => ()))
    (Fails.call_noWs hs hp)

theorem fails_optAz' {p : P α} {f : α → P β} {n : Nat} {s : Str} (hs : NoWs s) (h : ¬ str!"a " <+: s ∧ ¬ str!"az " <+: s)
    (hp : ∀ n, Fails p n s) : Fails (optAz >>= fun _ => call p >>= f) n s :=
  Fails.bind_of (t := []) (rest := s) (a := ()) ((Reads.opt_none (Fails.call_noWs hs fun n => fails_az h.1 h.2)).map (g := fun _ => ()))
    (Fails.bind (Fails.call_noWs hs hp))

theorem reads_az {a rest : Str} (ha : a = str!"a " ∨ a = str!"az ") {n : Nat} : Reads az n a rest () := by
  have hz : ∀ n, Reads (opt (lit str!"z")) n [] (' ' :: rest) none := fun n => Reads.opt_none (Fails.lit_head (by decide) (by simp))
  rcases ha with rfl | rfl
  · have := Reads.bind (f := fun _ => (do let _ ← opt (lit str!"z"); lit str!" ")) (Reads.lit (n := n) (rest := [' '] ++ rest) str!"a")
      (Reads.bind_first (hz _) (Reads.lit (rest := rest) [' ']))
    exact this
  · have := Reads.bind (f := fun _ => (do let _ ← opt (lit str!"z"); lit str!" ")) (Reads.lit (n := n) (rest := str!"z " ++ rest) str!"a")
      (Reads.bind (Reads.opt_some (Reads.lit (rest := [' '] ++ rest) ['z'])) (Reads.lit (rest := rest) [' ']))
    exact this

theorem reads_optAz_az {a rest : Str} (ha : a = str!"a " ∨ a = str!"az ") {n : Nat} : Reads optAz n a rest () := by
  have hn : NoWs (a ++ rest) := by rcases ha with rfl | rfl <;> exact noWs_cons (by decide)
  exact (Reads.opt_some (Reads.call hn (reads_az ha))).map (g := fun _ => ())

/-- Neither an article nor the article "a" and an article is next. -/
structure NoArticle (s : Str) : Prop where
  noWs : NoWs s
  list : ∀ n, Fails azArticle n s
  one : ∀ n, Fails (optAz >>= fun _ => call singleArticle) n s
  single : ∀ n, Fails singleArticle n s
  sign : ¬ str!"a §" <+: s
  paragraph : ¬ str!"a bekezdés" <+: s

theorem fails_singleArticle {n : Nat} {s : Str} (h : NoWs s) (h2 : Head (isDigit · = false) s) : Fails singleArticle n s :=
  Fails.positioned (Fails.bind (Fails.call_noWs h fun _ => fails_articlePart h h2))

theorem fails_articleReference_head {n : Nat} {s : Str} (h : NoWs s) (h2 : Head (isDigit · = false) s) : Fails articleReference n s :=
  Fails.bind (fails_listOf h fun _ => fails_articlePart h h2)

theorem noArticle_word {s : Str} (h : NoWs s) (h2 : Head (fun c => isDigit c = false ∧ c ≠ 'a') s) : NoArticle s := by
  have ha : ∀ w : Str, w.head? = some 'a' → ¬ w <+: s := fun w hw => by
    refine not_prefix_of_head (by rintro rfl; cases hw) fun e => ?_
    rw [hw] at e; exact (h2 _ e.symm).2 rfl
  have hd := h2.mono fun c hc => hc.1
  exact ⟨h, fun n => fails_optAz h ⟨ha _ rfl, ha _ rfl⟩ fun n => fails_articleReference_head h hd,
    fun n => fails_optAz h ⟨ha _ rfl, ha _ rfl⟩ fun n => fails_singleArticle h hd, fun n => fails_singleArticle h hd, ha _ rfl, ha _ rfl⟩

theorem noArticle_following {f : Str} (hf : Following f) (R : Str) : NoArticle (f ++ R) := by
  obtain ⟨a, r, rfl, ha, hr, har⟩ := following_split hf
  have hn := following_noWs hf R
  have hd : Head (isDigit · = false) (a ++ r ++ R) := (following_head hf R).mono fun c hc => by subst hc; decide
  have h1 : NoWs (r ++ R) ∧ Head (isDigit · = false) (r ++ R) := by
    rcases hr with rfl | ⟨e, rfl, -⟩ <;> exact ⟨noWs_cons (by decide), .cons (by decide)⟩
  have hno : ∀ w, (∃ x, w = str!"a " ++ x ∧ ∃ c ∈ x.head?, c ≠ 'k') → ¬ w <+: a ++ r ++ R := by
    rintro w ⟨x, rfl, c, hc, hck⟩ ⟨u, e⟩
    rcases ha with rfl | rfl
    · rw [har rfl] at e
      cases x with
      | nil => cases hc
      | cons d x => simp at e hc; exact hck (hc ▸ e.1)
    · simp at e
  refine ⟨hn, fun n => ?_, fun n => ?_, fun n => fails_singleArticle hn hd,
    hno _ ⟨str!"§", rfl, '§', rfl, by decide⟩, hno _ ⟨str!"bekezdés", rfl, 'b', rfl, by decide⟩⟩
  · rw [List.append_assoc]
    exact Fails.bind_of (reads_optAz_az ha) (Fails.call_noWs h1.1 fun n => fails_articleReference_head h1.1 h1.2)
  · rw [List.append_assoc]
    exact Fails.bind_of (reads_optAz_az ha) (Fails.call_noWs h1.1 fun n => fails_singleArticle h1.1 h1.2)

theorem fails_singleArticle_subtitles {x : Span NumericId} (hx : SlashedUsual x) {w : Inflected} (hw : w.Of [str!"alcím"]) (R : Str) (n : Nat) :
    Fails singleArticle n (slashedSpan x ++ (' ' :: w.text ++ R)) := by
  have hws := slashed_noWs x (' ' :: w.text ++ R)
  have h1 : ∀ n, ∃ a, Reads articlePart n (slashedSpan x) (' ' :: w.text ++ R) a := fun n => by
    rw [slashedSpan_article]
    cases x with
    | one i => exact ⟨_, reads_articlePart hx (noRange_of_head (by rw [subtitle_skip hw, alcim_text hw]; exact .cons (by decide)))⟩
    | upTo d i j => exact ⟨_, reads_articlePart ⟨hx.1, rfl, hx.2⟩ (noRange_of_head (by rw [subtitle_skip hw, alcim_text hw]; exact .cons (by decide)))⟩
  obtain ⟨a, h1⟩ := h1 n
  refine Fails.positioned (Fails.bind_of (Reads.call hws h1) (Fails.bind (Fails.call_space (alcim_noWs hw R) fun n => ?_)))
  rw [alcim_text hw]
  exact fails_articleSuffix (.cons (by decide))

theorem place_not {p : Place} {b : Option NumericId} {e : StructuralRefParent} {o : Bool} (hp : p.Means b e o) (R : Str) :
    Head (fun c => c ∉ str!"aáéevkhscmölr(§:,;-–−) \t\n\r\x0c") (p.text ++ R) := by
  obtain ⟨c, r, e, h⟩ := place_head hp R
  rw [e]; exact .cons (placeChar h)

theorem noArticle_place {p : Place} {b : Option NumericId} {e : StructuralRefParent} {o : Bool} (hp : p.Means b e o) (R : Str) :
    NoArticle (p.text ++ R) := by
  have hn := place_noWs hp R
  have ha : ∀ w : Str, w.head? = some 'a' → ¬ w <+: p.text ++ R := fun w hw => by
    refine not_prefix_of_head (by rintro rfl; cases hw) fun e => ?_
    rw [hw] at e; exact (place_not hp R _ e.symm) (by decide)
  have hl := place_noLevel hp R
  have hs : ∀ n, Fails singleArticle n (p.text ++ R) := by
    intro n
    rcases place_start hp R with ⟨c, r, e, h⟩ | ⟨x, w, h1, h2, hx, hw⟩
    · rw [e] at hn ⊢
      refine fails_singleArticle hn (.cons ?_)
      rcases h with h | rfl
      · exact (upper_not h).2.1
      · decide
    · have : p.text ++ R = slashedSpan x ++ (' ' :: w.text ++ ((p.title.map fun t => str!" " ++ t).getD [] ++ R)) := by
        simp [Place.text, h1, h2, PlaceText.text]
      rw [this]
      exact fails_singleArticle_subtitles hx hw _ n
  refine ⟨hn, fun n => fails_optAz hn ⟨ha _ rfl, ha _ rfl⟩ fun n => ?_,
    fun n => fails_optAz hn ⟨ha _ rfl, ha _ rfl⟩ hs, hs, ha _ rfl, ha _ rfl⟩
  have := hl.article n
  rwa [skipWs_noWs hn] at this

theorem NoArticle.bind {s : Str} (h : NoArticle s) {f : SingleArticle → P β} {n : Nat} :
    Fails (optAz >>= fun _ => call singleArticle >>= f) n s := by
  have h1 : Fails ((optAz >>= fun _ => call singleArticle) >>= f) n s := Fails.bind (h.one n)
  unfold Fails at h1 ⊢
  rw [bind_run] at h1 ⊢
  rw [bind_run] at h1
  rcases hp : optAz.run ⟨n, s⟩ with _ | ⟨x, j⟩
  · simp
  · rw [hp] at h1
    simp only [bind_run] at h1 ⊢
    exact h1

theorem NoArticle.relative {s : Str} (h : NoArticle s) {n : Nat} : Fails (call articleRelative) n (' ' :: s) :=
  Fails.call_space h.noWs fun _ =>
    Fails.alt (Fails.bind (Fails.call_noWs h.noWs fun _ => h.bind)) (Fails.bind (Fails.call_noWs h.noWs fun _ => h.bind))

theorem fails_insertionReference {s : Str} (h : NoArticle s)
    (hins : (∀ n, Fails (call insertionToken) n s) ∨
      ∃ t v, s = t ++ v ∧ (∀ n, Reads (call insertionToken) n t v ()) ∧ NoLevel v) (n : Nat) : Fails insertionReference n s := by
  have step : ∀ {γ : Type} (g : Unit → P γ) n, (∀ n v, NoLevel v → Fails (g ()) n v) → Fails (call insertionToken >>= g) n s := by
    intro γ g n hg
    rcases hins with h1 | ⟨t, v, rfl, h1, h2⟩
    · exact Fails.bind (h1 n)
    · exact Fails.bind_of (h1 n) (hg _ v h2)
  have hpoint : ∀ n v, NoLevel v → Fails pointTail n v := fun n v h =>
    Fails.alt (Fails.bind (fails_alphabeticPointReference h.letters)) (Fails.bind (Fails.call h.numericPoint))
  have h3 : ∀ (n : Nat), Fails (azArticle >>= fun a => (pure [a] : P (List (List ArticlePart)))) n s := fun n => Fails.bind (h.list n)
  refine Fails.positioned (Fails.bind (Fails.alt ?_ (Fails.alt ?_ (Fails.alt ?_ (Fails.alt ?_ ?_)))))
  · exact step _ n fun n v hv => Fails.bind (Fails.call hv.article)
  · exact step _ n fun n v hv => Fails.bind (Fails.call hv.article)
  · refine Fails.bind_of (t := []) (rest := s) (Reads.opt_none (Fails.alt (Fails.bind (h.list n))
      (Fails.bind (Fails.call_noWs h.noWs fun n => Fails.lit h.sign)))) ?_
    exact step _ _ fun n v hv => Fails.bind (fails_paragraphReference hv.paragraph)
  · refine Fails.bind_of (t := []) (rest := s) (Reads.opt_none (Fails.alt (Fails.bind (h.list n))
      (Fails.alt (Fails.bind (Fails.call_noWs h.noWs fun n => Fails.lit h.sign))
        (Fails.bind (Fails.call_noWs h.noWs fun n => Fails.lit h.paragraph))))) ?_
    exact step _ _ fun n v hv => Fails.bind (hpoint n v hv)
  · exact Fails.bind (h.list n)

end HunLaw.Grammar
