import Verif.Lemmas.StructuralSentence

/-! How the grammar reads the whole sentence which amends the structure. -/

set_option autoImplicit false

namespace HunLaw.Grammar

open HunLaw P Spec

variable {α β : Type}

theorem Fails.before {p : P α} {n : Nat} {s : Str} (hs : NoWs s) (h : ∀ n, Fails (P.call p) n s) : Fails (P.call p) n (' ' :: s) := by
  unfold Fails
  rw [call_space_run p hs]
  exact h _

theorem Reads.before {p : P α} {n : Nat} {t rest : Str} {a : α} (hs : NoWs (t ++ rest)) (h : Reads (P.call p) (n + 1) t rest a) :
    Reads (P.call p) n (' ' :: t) rest a := Reads.space_of h (call_space_run p hs)

/-! ### subtitles before the ends -/

theorem subtitle_replaced {u s : Str} {p : Place} {b : Option NumericId} {e : StructuralRefParent} {o : Bool} (hp : p.Means b e o)
    (he : ReplacementEnd s) (hu : u = ' ' :: p.text ++ (' ' :: s ++ str!":")) :
    ((subtitleAt p = none ∨ EndsOther s) ∧ ∀ n, Fails subtitleAmendment n u) ∨
      ∃ r, subtitleAt p = some r ∧ ¬ EndsOther s ∧ ∀ n, Reads subtitleAmendment n u [] (r, false) := by
  subst hu
  have hun := replacement_unnamed he str!":"
  have hins : ∀ {γ : Type} (g : Unit → P γ) n, Fails (call insertionToken >>= g) n (' ' :: p.text ++ (' ' :: s ++ str!":")) := fun g n => by
    exact Fails.bind (Fails.before (s := p.text ++ (' ' :: s ++ str!":")) (place_noWs hp _) fun n => place_noInsertion hp _)
  rcases place_subtitle hp hun.noWs ((replacement_head he _).mono fun c hc => (by decide : ∀ c ∈ str!"ah", c ∈ str!"ahek") c hc) with ⟨h0, h⟩ | ⟨r, hr, h⟩
  · refine .inl ⟨.inl h0, fun n => ?_⟩
    have h' : ∀ n, Fails (call referenceWithSubtitle) n (' ' :: p.text ++ (' ' :: s ++ str!":")) := fun n =>
      Fails.call_space (place_noWs hp _) h
    exact Fails.alt (Fails.bind (h' _)) (Fails.alt (Fails.bind (h' _)) (hins _ _))
  · have h' : ∀ n, Reads (call referenceWithSubtitle) n (' ' :: p.text) (' ' :: s ++ str!":") r := fun n =>
      Reads.call_space (place_noWs hp _) (h _)
    have hend : ∀ {q : P Unit} n, (∀ n rest, Reads q n (' ' :: s) rest ()) →
        Reads (call referenceWithSubtitle >>= fun r => q >>= fun _ => tok str!":" >>= fun _ => pure (r, false)) n
          (' ' :: p.text ++ (' ' :: s ++ str!":")) [] (r, false) := fun {q} n hq =>
      Reads.bind (by rw [List.append_nil]; exact h' n) (Reads.bind (hq _ _) (Reads.map (g := fun _ => (r, false)) reads_colon))
    have hbad : ∀ {q : P Unit} n, (∀ n rest, Fails q n (' ' :: s ++ rest)) →
        Fails (call referenceWithSubtitle >>= fun r => q >>= fun _ => tok str!":" >>= fun _ => pure (r, false)) n
          (' ' :: p.text ++ (' ' :: s ++ str!":")) := fun {q} n hq =>
      Fails.bind_of (h' n) (Fails.bind (hq _ _))
    have hnot : ∀ {q : P Unit}, (∀ n rest, Reads q n (' ' :: s) rest ()) → ¬ ∀ n rest, Fails q n (' ' :: s ++ rest) := fun {q} h1 h2 => by
      have h3 := h1 0 []
      have h4 := h2 0 []
      unfold Reads at h3
      unfold Fails at h4
      rw [h3] at h4
      cases h4
    rcases suffix_cases he with h1 | ⟨h1, -, h2 | ⟨h0, h2⟩⟩
    · exact .inr ⟨r, hr, fun ho => hnot h1 (endsOther_fails ho).1, fun n => Reads.left (hend n h1)⟩
    · exact .inr ⟨r, hr, fun ho => hnot h2 (endsOther_fails ho).2, fun n => Reads.right (by rw [List.append_nil]; exact hbad n h1) (Reads.left (hend n h2))⟩
    · exact .inl ⟨.inr h0, fun n => Fails.alt (hbad n h1) (Fails.alt (hbad n h2) (hins _ n))⟩

theorem subtitle_inserted {u f s : Str} {p : Place} {b : Option NumericId} {e : StructuralRefParent} {o : Bool} (hp : p.Means b e o)
    (ht : p.title = none) (hf : Following f) (he : s ∈ insertionEnds) (hu : u = ' ' :: f ++ (' ' :: p.text ++ (' ' :: s ++ str!":"))) :
    (∀ n, Fails subtitleAmendment n u) ∨ ∃ r, subtitleAt p = some r ∧ ∀ n, Reads subtitleAmendment n u [] (r, true) := by
  subst hu
  have hh : Head (fun c => c ∈ str!"ahek") (s ++ str!":") := (insertionEnd_head he _).mono fun c hc => (by decide : ∀ c ∈ str!"ek", c ∈ str!"ahek") c hc
  have hun := endLetter_unnamed hh
  have hno : ∀ n, Fails (call referenceWithSubtitle) n (' ' :: f ++ (' ' :: p.text ++ (' ' :: s ++ str!":"))) := fun n =>
    Fails.call_space (s := f ++ (' ' :: p.text ++ (' ' :: s ++ str!":"))) (following_noWs hf _) fun _ =>
      end_noSubtitle (noArticle_following hf _) (following_after hf _) (following_noAlcim hf _)
  have hins : ∀ n, Reads (call insertionToken) n (' ' :: f) (' ' :: p.text ++ (' ' :: s ++ str!":")) () := fun n =>
    Reads.before (following_noWs hf _) (reads_insertionToken hf (space_notLower _))
  rcases place_subtitle hp hun.noWs hh with ⟨-, h⟩ | ⟨r, hr, h⟩
  · left
    intro n
    refine Fails.alt (Fails.bind (hno _)) (Fails.alt (Fails.bind (hno _)) (Fails.bind_of (hins _) (Fails.bind ?_)))
    exact Fails.call_space (s := p.text ++ (' ' :: s ++ str!":")) (place_noWs hp _) h
  · refine .inr ⟨r, hr, fun n => Reads.right (by rw [List.append_nil]; exact Fails.bind (hno _)) (Reads.right (by rw [List.append_nil]; exact Fails.bind (hno _)) ?_)⟩
    refine Reads.bind (t := ' ' :: f) (by rw [List.append_nil]; exact hins _) (Reads.bind (t := ' ' :: p.text) ?_ (Reads.bind (t := ' ' :: s) (reads_insertionSuffix he)
      (Reads.map (g := fun _ => (r, true)) reads_colon)))
    rw [List.append_nil]
    exact Reads.call_space (place_noWs hp _) (h _)

/-! ### the five forms of the rest of the sentence -/

/-- The rest of the sentence is read as this amendment: either by the rule of structural amendments, or, if it is about
a subtitle, by that of subtitles. The last argument tells if it is read as a change of the title only. -/
def TailReads (T : Str) (p : Place) (par : Option StructuralReference) (book : Option Str) (ins o : Bool) : Prop :=
  ∃ t u q, T = t ++ u ∧ (∀ n, Reads (opt (call structuralReference)) n t u q) ∧
    (∀ n, Fails (call reference) n u) ∧ (∀ n, Fails (call insertionReference) n u) ∧ (∀ n, Fails (call articleRelative) n u) ∧
    (∀ n, Fails (call articleRelative) n T) ∧ (∀ n, Reads structuralAmendment n T [] (par, placeAt p, book, ins)) ∧
    ((o = p.title.isSome ∧ ∀ n, Fails subtitleAmendment n u) ∨
      (book = none ∧ q = par ∧ o = false ∧ ∃ r, subtitleAt p = some r ∧ ∀ n, Reads subtitleAmendment n u [] (r, ins)))

theorem tail_replaced_act {p : Place} {b : Option NumericId} {e : StructuralRefParent} {o : Bool} (hp : p.Means b e o) {s : Str}
    (he : ReplacementEnd s) : TailReads (' ' :: p.text ++ (' ' :: s ++ str!":")) p none none false p.title.isSome := by
  have hun := replacement_unnamed he str!":"
  have hafter := end_after ((replacement_head he str!":").mono fun c hc => (by decide : ∀ c ∈ str!"ah", c ∈ str!"ahek") c hc)
  have hrd : ∀ n, Reads (call structuralReference) n (' ' :: p.text) (' ' :: s ++ str!":") (placeAt p) := fun n => reads_place hp hun.noWs hafter
  have hno : ∀ n, Fails (call structuralReference) n (' ' :: s ++ str!":") := fun n =>
    Fails.call_space (s := s ++ str!":") hun.noWs fun n => fails_structural hun
  have hart := replacement_noArticle he str!":"
  have hinsc := replacement_insertion he
  have hws : ∀ n, Fails (call referenceWithSubtitle) n (' ' :: s ++ str!":") := fun n =>
    Fails.call_space (s := s ++ str!":") hun.noWs fun n => end_noSubtitle hart
      ((replacement_head he str!":").mono fun c hc => (by decide : ∀ c ∈ str!"ah", c ∈ str!"ahek") c hc) (replacement_noAlcim he _)
  refine ⟨_, _, some (placeAt p), rfl, fun n => Reads.opt_some (hrd n), fun n => fails_call_reference (replacement_noLevel he).space,
    fun n => Fails.call_space (s := s ++ str!":") hun.noWs fun n => fails_insertionReference hart ?_ n, fun n => hart.relative,
    fun n => (noArticle_place hp (' ' :: s ++ str!":")).relative, fun n => ?_, .inl ⟨rfl, fun n => ?_⟩⟩
  · rcases hinsc with h | ⟨t, v, h1, h2, h3, -⟩
    · exact .inl h
    · exact .inr ⟨t, v, h1, h2, h3⟩
  · refine Reads.right (by rw [List.append_nil]; exact Fails.bind_of (hrd _) (Fails.bind (hno _))) (Reads.left ?_)
    exact Reads.bind (by rw [List.append_nil]; exact hrd _) (Reads.map (g := fun _ => (none, placeAt p, none, false)) (reads_structuralSuffix he))
  · refine Fails.alt (Fails.bind (hws _)) (Fails.alt (Fails.bind (hws _)) ?_)
    rcases hinsc with h | ⟨t, v, h1, h2, h3, w, rfl, hw⟩
    · exact Fails.bind (Fails.before (s := s ++ str!":") hun.noWs h)
    · have h4 : ∀ n, Reads (call insertionToken) n (' ' :: t) (' ' :: w) () := fun n => Reads.before (h1 ▸ hun.noWs) (h2 _)
      have e : ' ' :: s ++ str!":" = (' ' :: t) ++ (' ' :: w) := by simpa using h1
      rw [e]
      have hww : NoWs w := fun c hc => by rw [hw c hc]; decide
      refine Fails.bind_of (h4 _) (Fails.bind (Fails.call_space hww fun n => fails_withSubtitle
        (noArticle_word hww (hw.mono fun c hc => by subst hc; decide)) fun n => fails_subtitleName hww (hw.mono fun c hc => by subst hc; decide)
          (hw.mono fun c hc => by subst hc; decide) (not_prefix_of_head (by decide) fun e => by have := hw _ e.symm; cases this)))

theorem tail_replaced_place {p q : Place} {b b' : Option NumericId} {e d : StructuralRefParent} {t o o' : Bool} (hp : p.Means b e t)
    (hq : q.Means b' d o') {s : Str} (he : ReplacementEnd s) (ho1 : subtitleAt p ≠ none → ¬ EndsOther s → o = false)
    (ho2 : subtitleAt p = none ∨ EndsOther s → o = p.title.isSome) :
    TailReads (' ' :: q.text ++ (' ' :: p.text ++ (' ' :: s ++ str!":"))) p (some (placeAt q)) none false o := by
  have hun := replacement_unnamed he str!":"
  have hafter := end_after ((replacement_head he str!":").mono fun c hc => (by decide : ∀ c ∈ str!"ah", c ∈ str!"ahek") c hc)
  have hrd : ∀ n, Reads (call structuralReference) n (' ' :: p.text) (' ' :: s ++ str!":") (placeAt p) := fun n => reads_place hp hun.noWs hafter
  have hrq : ∀ n, Reads (call structuralReference) n (' ' :: q.text) (' ' :: p.text ++ (' ' :: s ++ str!":")) (placeAt q) := fun n =>
    reads_place hq (place_noWs hp _) (place_after hp _)
  have hart := noArticle_place hp (' ' :: s ++ str!":")
  refine ⟨_, _, some (placeAt q), rfl, fun n => Reads.opt_some (hrq n), fun n => fails_call_reference (place_noLevel hp _).space,
    fun n => Fails.call_space (s := p.text ++ (' ' :: s ++ str!":")) hart.noWs fun n => fails_insertionReference hart (.inl fun n => place_noInsertion hp _) n,
    fun n => hart.relative, fun n => (noArticle_place hq _).relative, fun n => ?_, ?_⟩
  · refine Reads.left (Reads.bind (by rw [List.append_nil]; exact hrq _) (Reads.bind (by rw [List.append_nil]; exact hrd _) ?_))
    exact Reads.map (g := fun _ => (some (placeAt q), placeAt p, none, false)) (reads_structuralSuffix he)
  · rcases subtitle_replaced hp he rfl with ⟨h0, h⟩ | ⟨r, hr, h0, h⟩
    · exact .inl ⟨ho2 h0, h⟩
    · exact .inr ⟨rfl, rfl, ho1 (by rw [hr]; simp) h0, r, hr, h⟩

/-- What follows the container in an insertion. -/
theorem inserted_facts {p : Place} {b : Option NumericId} {e : StructuralRefParent} {o : Bool} (hp : p.Means b e o) {f s : Str}
    (hf : Following f) (he : s ∈ insertionEnds) (ht : p.title = none) :
    Unnamed (f ++ (' ' :: p.text ++ (' ' :: s ++ str!":"))) ∧ NoArticle (f ++ (' ' :: p.text ++ (' ' :: s ++ str!":"))) ∧
    (∀ n, Fails (call reference) n (' ' :: f ++ (' ' :: p.text ++ (' ' :: s ++ str!":")))) ∧
    (∀ n, Fails (call insertionReference) n (' ' :: f ++ (' ' :: p.text ++ (' ' :: s ++ str!":")))) ∧
    (∀ n, Fails (call structuralReference) n (' ' :: f ++ (' ' :: p.text ++ (' ' :: s ++ str!":")))) ∧
    (∀ n, Fails structuralSuffix n (' ' :: f ++ (' ' :: p.text ++ (' ' :: s ++ str!":")))) ∧
    (∀ {γ : Type} (n : Nat) (g : StructuralReference → γ), Reads (call insertionToken >>= fun _ => call structuralReference >>= fun r =>
      call insertionSuffix >>= fun _ => tok str!":" >>= fun _ => pure (g r)) n
      (' ' :: f ++ (' ' :: p.text ++ (' ' :: s ++ str!":"))) [] (g (placeAt p))) := by
  have hun : Unnamed (f ++ (' ' :: p.text ++ (' ' :: s ++ str!":"))) := endLetter_unnamed (following_after hf _)
  have hart := noArticle_following hf (' ' :: p.text ++ (' ' :: s ++ str!":"))
  have hpl := place_noLevel hp (' ' :: s ++ str!":")
  have hh : Head (fun c => c ∈ str!"ahek") (s ++ str!":") := (insertionEnd_head he _).mono fun c hc => (by decide : ∀ c ∈ str!"ek", c ∈ str!"ahek") c hc
  have hlev : NoLevel (f ++ (' ' :: p.text ++ (' ' :: s ++ str!":"))) := by
    refine noLevel_words (following_ordinary hf).1 (following_ordinary hf).2 ?_ ?_
    · have := following_head hf []
      rw [List.append_nil] at this
      exact this.mono fun c hc => by subst hc; decide
    · show Head _ (skipWs (p.text ++ (' ' :: s ++ str!":")))
      rw [skipWs_noWs (place_noWs hp _)]
      exact (place_not hp _).mono fun c hc => ⟨by rintro rfl; exact hc (by decide), by
        cases hd : isDashChar c
        · rfl
        · exact absurd ((by decide : ∀ c ∈ str!"−–-", c ∈ str!"aáéevkhscmölr(§:,;-–−) \t\n\r\x0c") c (by simpa [isDashChar] using hd)) hc⟩
  refine ⟨hun, hart, fun n => fails_call_reference hlev.space, fun n => ?_, fun n => ?_, fun n => ?_, fun n g => ?_⟩
  · refine Fails.call_space (s := f ++ (' ' :: p.text ++ (' ' :: s ++ str!":"))) hun.noWs fun n => fails_insertionReference hart (.inr ?_) n
    exact ⟨f, _, rfl, fun n => reads_insertionToken hf (space_notLower _), hpl.space⟩
  · exact Fails.call_space (s := f ++ (' ' :: p.text ++ (' ' :: s ++ str!":"))) hun.noWs fun n => fails_structural hun
  · have hhe : ∀ {γ : Type} (g : Unit → P γ) n, Fails (tok str!"helyébe" >>= g) n (f ++ (' ' :: p.text ++ (' ' :: s ++ str!":"))) := fun g n =>
      Fails.bind (Fails.call_noWs hun.noWs fun n => Fails.lit (not_prefix_of_head (by decide) fun e => by
        have := following_head hf _ _ e.symm; cases this))
    have hfo : ∀ n, Reads (call theFollowing) n f (' ' :: p.text ++ (' ' :: s ++ str!":")) () := fun n =>
      Reads.call hun.noWs (reads_following hf (space_notLower _))
    have hpn : ∀ w : Str, w.head? = some 's' → ∀ n, Fails (tok w) n (' ' :: p.text ++ (' ' :: s ++ str!":")) := fun w hw n =>
      fails_tok_space (s := p.text ++ (' ' :: s ++ str!":")) (place_noWs hp _) (not_prefix_of_head (by rintro rfl; cases hw) fun e => by
        rw [hw] at e; exact (place_not hp _ _ e.symm) (by decide))
    refine Fails.bind (Fails.alt (Fails.call_space (s := f ++ (' ' :: p.text ++ (' ' :: s ++ str!":"))) hun.noWs fun n => ?_)
      (Fails.call_space (s := f ++ (' ' :: p.text ++ (' ' :: s ++ str!":"))) hun.noWs fun n => hhe _ n))
    exact Fails.alt (hhe _ n) (Fails.alt (Fails.bind_of (hfo _) (hpn _ rfl _)) (Fails.bind_of (hfo _) (hpn _ rfl _)))
  · refine Reads.bind (by rw [List.append_nil]; exact Reads.before (following_noWs hf _) (reads_insertionToken hf (space_notLower _))) ?_
    refine Reads.bind (by rw [List.append_nil]; exact reads_place hp (endLetter_unnamed hh).noWs (end_after hh)) ?_
    exact Reads.bind (reads_insertionSuffix he) (Reads.map (g := fun _ => g (placeAt p)) reads_colon)

theorem tail_inserted_act {p : Place} {b : Option NumericId} {e : StructuralRefParent} {o : Bool} (hp : p.Means b e o) {f s : Str}
    (hf : Following f) (he : s ∈ insertionEnds) (ht : p.title = none) :
    TailReads (' ' :: f ++ (' ' :: p.text ++ (' ' :: s ++ str!":"))) p none none true false := by
  obtain ⟨hun, hart, h1, h2, h3, h4, h5⟩ := inserted_facts hp hf he ht
  refine ⟨[], _, none, rfl, fun n => Reads.opt_none (h3 n), h1, h2, fun n => hart.relative, fun n => hart.relative, fun n => ?_, ?_⟩
  · refine Reads.right (by rw [List.append_nil]; exact Fails.bind (h3 _)) (Reads.right (by rw [List.append_nil]; exact Fails.bind (h3 _))
      (Reads.right (by rw [List.append_nil]; exact Fails.bind (h3 _)) ?_))
    refine Reads.bind_first (a := none) (Reads.opt_none ?_) (h5 n fun r => (none, r, none, true))
    rw [List.append_nil]
    exact Fails.call_space (s := f ++ (' ' :: p.text ++ (' ' :: s ++ str!":"))) hun.noWs fun n =>
      Fails.bind (Fails.call_noWs hun.noWs fun n => fails_capital hun.upper)
  · rcases subtitle_inserted hp ht hf he rfl with h | h
    · exact .inl ⟨by rw [ht]; rfl, h⟩
    · exact .inr ⟨rfl, rfl, rfl, h⟩

theorem tail_inserted_place {p q : Place} {b b' : Option NumericId} {e d : StructuralRefParent} {o o' : Bool} (hp : p.Means b e o)
    (hq : q.Means b' d o') {f s : Str} (hf : Following f) (he : s ∈ insertionEnds) (ht : p.title = none) :
    TailReads (' ' :: q.text ++ (' ' :: f ++ (' ' :: p.text ++ (' ' :: s ++ str!":")))) p (some (placeAt q)) none true false := by
  obtain ⟨hun, hart, h1, h2, h3, h4, h5⟩ := inserted_facts hp hf he ht
  have hrq : ∀ n, Reads (call structuralReference) n (' ' :: q.text) (' ' :: f ++ (' ' :: p.text ++ (' ' :: s ++ str!":"))) (placeAt q) := fun n =>
    reads_place hq hun.noWs (end_after (following_after hf _))
  refine ⟨_, _, some (placeAt q), rfl, fun n => Reads.opt_some (hrq n), h1, h2, fun n => hart.relative, fun n => (noArticle_place hq _).relative, fun n => ?_, ?_⟩
  · refine Reads.right (by rw [List.append_nil]; exact Fails.bind_of (hrq _) (Fails.bind (h3 _))) (Reads.right
      (by rw [List.append_nil]; exact Fails.bind_of (hrq _) (Fails.bind (h4 _))) (Reads.left ?_))
    exact Reads.bind (by rw [List.append_nil]; exact hrq _) (h5 _ fun r => (some (placeAt q), r, none, true))
  · rcases subtitle_inserted hp ht hf he rfl with h | h
    · exact .inl ⟨by rw [ht]; rfl, h⟩
    · exact .inr ⟨rfl, rfl, rfl, h⟩

theorem tail_inserted_book {p : Place} {k : BookText} {i : NumericId} {b : Option NumericId} {e : StructuralRefParent} {o : Bool} (hp : p.Means b e o)
    (hk : k.Means i) {f s : Str} (hf : Following f) (he : s ∈ insertionEnds) (ht : p.title = none) :
    TailReads (' ' :: k.text ++ (' ' :: f ++ (' ' :: p.text ++ (' ' :: s ++ str!":")))) p none (some k.number) true false := by
  obtain ⟨hun, -, -, -, -, -, h5⟩ := inserted_facts hp hf he ht
  have hkw := bookText_noWs hk (' ' :: f ++ (' ' :: p.text ++ (' ' :: s ++ str!":")))
  obtain ⟨c, r, ec, hc⟩ := book_head hk (' ' :: f ++ (' ' :: p.text ++ (' ' :: s ++ str!":")))
  have hno : ∀ n, Fails (call structuralReference) n (' ' :: k.text ++ (' ' :: f ++ (' ' :: p.text ++ (' ' :: s ++ str!":")))) := fun n =>
    Fails.call_space (s := k.text ++ (' ' :: f ++ (' ' :: p.text ++ (' ' :: s ++ str!":")))) hkw fun n => fails_book_place hk hun
  have hart : NoArticle (k.text ++ (' ' :: f ++ (' ' :: p.text ++ (' ' :: s ++ str!":")))) := by
    rw [ec]
    exact noArticle_word (noWs_cons (upper_noWs hc)) (.cons ⟨(upper_not hc).2.1, by rintro rfl; exact absurd hc (by decide)⟩)
  have hins : ∀ n, Fails (call insertionToken) n (k.text ++ (' ' :: f ++ (' ' :: p.text ++ (' ' :: s ++ str!":")))) := fun n =>
    fails_insertionToken hkw ((book_not hk _).mono fun c hc => by
      refine ⟨?_, ?_, ?_, ?_, ?_⟩ <;> (rintro rfl; exact hc (by decide)))
  have hws : ∀ n, Fails (call referenceWithSubtitle) n (' ' :: k.text ++ (' ' :: f ++ (' ' :: p.text ++ (' ' :: s ++ str!":")))) := fun n =>
    Fails.call_space (s := k.text ++ (' ' :: f ++ (' ' :: p.text ++ (' ' :: s ++ str!":")))) hkw fun n => fails_withSubtitle hart fun n => by
      rw [ec]
      exact fails_subtitleName (noWs_cons (upper_noWs hc)) (.cons (upper_not hc).2.1) (.cons (upper_not hc).2.2.2)
        (not_prefix_of_head (by decide) (by rintro e; simp at e; subst e; exact absurd hc (by decide)))
  refine ⟨[], _, none, rfl, fun n => Reads.opt_none (hno n), fun n => fails_call_reference ?_, fun n => ?_, fun n => hart.relative,
    fun n => hart.relative, fun n => ?_, .inl ⟨by rw [ht]; rfl, fun n => ?_⟩⟩
  · show NoLevel (' ' :: (k.text ++ _))
    rw [ec]
    exact (noLevel_upper (.inl hc)).space
  · exact Fails.call_space (s := k.text ++ (' ' :: f ++ (' ' :: p.text ++ (' ' :: s ++ str!":")))) hkw fun n => fails_insertionReference hart (.inl hins) n
  · refine Reads.right (by rw [List.append_nil]; exact Fails.bind (hno _)) (Reads.right (by rw [List.append_nil]; exact Fails.bind (hno _))
      (Reads.right (by rw [List.append_nil]; exact Fails.bind (hno _)) ?_))
    refine Reads.bind (Reads.opt_some (by rw [List.append_nil]; exact Reads.call_space hkw (reads_book_ref hk (.cons (by decide))))) ?_
    exact h5 _ fun r => (none, r, some k.number, true)
  · exact Fails.alt (Fails.bind (hws _)) (Fails.alt (Fails.bind (hws _)) (Fails.bind (Fails.before
      (s := k.text ++ (' ' :: f ++ (' ' :: p.text ++ (' ' :: s ++ str!":")))) hkw hins)))

end HunLaw.Grammar
