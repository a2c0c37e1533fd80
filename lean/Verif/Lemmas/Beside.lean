import Verif.Spec.Subtitles
import Verif.Lemmas.StructuralTail
import Verif.Lemmas.Provisions

/-! Places beside an article are read. -/

set_option autoImplicit false

namespace HunLaw.Grammar

open HunLaw P Spec

variable {α β : Type}

/-! ### one article -/

/-- The list of it alone. -/
def oneList (a : NamedArticle) : Listing ArticleId := ⟨a.span, [], a.sign⟩

theorem oneList_text (a : NamedArticle) : ((oneList a).words articleSpan str!" §").text = a.text := by
  rw [words_text]
  simp [oneList, NamedArticle.text, othersText]

theorem oneList_fits {a : NamedArticle} (h : a.Usual) : (oneList a).Fits ArticleUsual ∧ SignEnding (oneList a).ending :=
  ⟨⟨h.span, fun x hx => by cases hx⟩, h.sign⟩

theorem onePhrase_usual {a : NamedArticle} (h : a.Usual) : Phrase.Usual ⟨some (oneList a), none, none, none, none, none⟩ where
  article l hl := by cases hl; exact oneList_fits h
  paragraph _ h := by cases h
  numericPoint _ h := by cases h
  alphabeticPoint _ h := by cases h
  numericSubpoint _ h := by cases h
  alphabeticSubpoint _ h := by cases h
  onePoint := .inl rfl
  oneSubpoint := .inl rfl
  inPoint := by simp
  named := by simp [Phrase.words]

theorem onePhrase_text (a : NamedArticle) : (Phrase.mk (some (oneList a)) none none none none none).text = a.text := by
  rw [text_glue (w := Phrase.mk (some (oneList a)) none none none none none) (x := (oneList a).words articleSpan str!" §") (l := []) rfl, glue_nil,
    List.append_nil, oneList_text]

theorem levelText_one (a : NamedArticle) (R : Str) : LevelText (a.text ++ R) := by
  rw [← oneList_text]; exact levelText_article _ _

theorem one_digit (a : NamedArticle) (R : Str) : Head (isDigit · = true) (a.text ++ R) := by
  rw [← oneList_text]; exact levelText_digit _ _

/-- The result for an article. -/
def ArticleIs (a : NamedArticle) (x : SingleArticle) : Prop := ∃ k q, x = ⟨articleAt a.span k, q⟩

theorem reads_single {a : NamedArticle} (h : a.Usual) {rest : Str} (hr : Next rest) (n : Nat) :
    ∃ x, ArticleIs a x ∧ Reads singleArticle n a.text rest x := by
  refine ⟨⟨articleAt a.span n, ⟨n, n + byteLen a.text⟩⟩, ⟨_, _, rfl⟩, ?_⟩
  have e : a.text = articleSpan a.span ++ (str!" §" ++ a.sign) := by simp [NamedArticle.text]
  rw [e]
  refine Reads.positioned (f := fun p => (⟨articleAt a.span n, p⟩ : SingleArticle)) (Reads.bind (Reads.call ?_ (reads_articlePart h.span ?_))
      (Reads.map (g := fun _ p => (⟨articleAt a.span n, p⟩ : SingleArticle)) (reads_call_articleSuffix h.sign hr)))
  · exact (itemStart_article _ _).noWs
  · exact noRange_sign h.sign hr

/-! ### a place beside an article -/

theorem the_cases {t : Str} (h : t ∈ [[], str!"a ", str!"az "]) : t = [] ∨ (t = str!"a " ∨ t = str!"az ") := by
  simpa only [List.mem_cons, List.not_mem_nil, or_false] using h

theorem reads_the {t s : Str} (h : t ∈ [[], str!"a ", str!"az "]) (hs : LevelText s) {n : Nat} : Reads optAz n t s () := by
  rcases the_cases h with rfl | h
  · exact (Reads.opt_none (Fails.call_noWs hs.noWs fun n => fails_az hs.noAz.1 hs.noAz.2)).map (g := fun _ => ())
  · exact reads_optAz_az h

theorem the_noWs {t s : Str} (h : t ∈ [[], str!"a ", str!"az "]) (hs : NoWs s) : NoWs (t ++ s) := by
  rcases the_cases h with rfl | rfl | rfl
  · exact hs
  · exact noWs_cons (by decide)
  · exact noWs_cons (by decide)

/-- The result for a place beside an article. -/
def BesideIs (b : Beside) (x : ArticleRelative) : Prop :=
  ∃ y, ArticleIs b.article y ∧ x = if b.before then .before y else .after y

theorem beside_next {b : Beside} (hb : b.Usual) (S : Str) : Next (' ' :: b.word ++ S) ∧ NoWs (b.word ++ S) := by
  have h : NoWs (b.word ++ S) ∧ Head (isDashChar · = false) (b.word ++ S) := by
    have := hb.word
    cases hbf : b.before <;> rw [hbf] at this <;> simp only [besideWords, List.mem_cons, List.not_mem_nil, or_false] at this
    · rcases this with e | e <;> rw [e] <;> exact ⟨noWs_cons (by decide), .cons (by decide)⟩
    · rcases this with e | e | e <;> rw [e] <;> exact ⟨noWs_cons (by decide), .cons (by decide)⟩
  refine ⟨⟨space_notLower _, ?_⟩, h.1⟩
  show Head _ (skipWs (b.word ++ S))
  rw [skipWs_noWs h.1]; exact h.2

theorem beside_noWs {b : Beside} (hb : b.Usual) (R : Str) : NoWs (b.text ++ R) := by
  have e : b.text ++ R = b.the ++ (b.article.text ++ (' ' :: b.word ++ R)) := by simp [Beside.text]
  rw [e]
  exact the_noWs hb.the (levelText_one _ _).noWs

theorem reads_besideAt {b : Beside} (hb : b.Usual) {S : Str} (n : Nat) :
    ∃ x, BesideIs b x ∧ Reads articleRelative n b.text (' ' :: S) x := by
  have hN := beside_next hb (' ' :: S)
  have hlev := levelText_one b.article (' ' :: b.word ++ ' ' :: S)
  obtain ⟨y, hy, hy2⟩ := reads_single hb.article hN.1 (n + byteLen b.the)
  have e : b.text = b.the ++ (b.article.text ++ (' ' :: b.word)) := by simp [Beside.text]
  have hws : NoWs (b.the ++ (b.article.text ++ (' ' :: b.word)) ++ ' ' :: S) := by
    rw [List.append_assoc]; refine the_noWs hb.the ?_; rw [List.append_assoc]; exact hlev.noWs
  refine ⟨if b.before then .before y else .after y, ⟨y, hy, rfl⟩, ?_⟩
  rw [e]
  have ok : ∀ l, (∀ n, Reads (toks l) n (' ' :: b.word) (' ' :: S) ()) →
      Reads (optAz >>= fun _ => call singleArticle >>= fun a => toks l >>= fun _ => (pure a : P SingleArticle)) n
        (b.the ++ (b.article.text ++ (' ' :: b.word))) (' ' :: S) y := by
    intro l hl
    refine Reads.bind (reads_the hb.the ?_) (Reads.bind (Reads.call ?_ hy2) (Reads.map (g := fun _ => y) (hl _)))
    · rw [List.append_assoc]; exact hlev
    · exact hlev.noWs
  have bad : ∀ l, (∀ w ∈ l, ¬ w <+: b.word ++ ' ' :: S) → ∀ n,
      Fails (optAz >>= fun _ => call singleArticle >>= fun a => toks l >>= fun _ => (pure a : P SingleArticle)) n
        (b.the ++ (b.article.text ++ (' ' :: b.word)) ++ ' ' :: S) := by
    intro l hl n
    obtain ⟨y, -, hy2⟩ := reads_single hb.article hN.1 (n + byteLen b.the)
    rw [List.append_assoc, List.append_assoc]
    refine Fails.bind_of (reads_the hb.the hlev) (Fails.bind_of (Reads.call hlev.noWs hy2) (Fails.bind (Fails.toks fun w hw => ?_)))
    show ¬ w <+: skipWs (b.word ++ ' ' :: S)
    rw [skipWs_noWs hN.2]
    exact hl w hw
  have hword := hb.word
  cases hbf : b.before with
  | true =>
    rw [hbf] at hword
    refine Reads.left (Reads.map (g := fun a => ArticleRelative.before a) (Reads.call hws (ok _ fun n => ?_)))
    refine Reads.call_space hN.2 ?_
    simp only [besideWords, List.mem_cons, List.not_mem_nil, or_false] at hword
    rcases hword with e | e | e <;> rw [e]
    · exact Reads.left (Reads.lit _)
    · exact Reads.right (Fails.lit (by rintro ⟨x, e⟩; simp at e)) (Reads.left (Reads.lit _))
    · exact Reads.right (Fails.lit (by rintro ⟨x, e⟩; simp at e)) (Reads.right (Fails.lit (by rintro ⟨x, e⟩; simp at e)) (Reads.left (Reads.lit _)))
  | false =>
    rw [hbf] at hword
    refine Reads.right (Fails.bind (Fails.call_noWs hws fun _ => ?_)) (Reads.map (g := fun a => ArticleRelative.after a) (Reads.call hws (ok _ fun n => ?_)))
    · refine bad _ (fun w hw => ?_) _
      simp only [List.mem_cons, List.not_mem_nil, or_false] at hw
      simp only [besideWords, List.mem_cons, List.not_mem_nil, or_false] at hword
      rcases hword with e | e <;> rw [e] <;> rcases hw with rfl | rfl | rfl <;> exact not_prefix_of_head (by decide) (by simp)
    · refine Reads.call_space hN.2 ?_
      simp only [besideWords, List.mem_cons, List.not_mem_nil, or_false] at hword
      rcases hword with e | e <;> rw [e]
      · exact Reads.left (Reads.lit _)
      · exact Reads.right (Fails.lit (by rintro ⟨x, e⟩; simp at e)) (Reads.left (Reads.lit _))

theorem reads_beside {b : Beside} (hb : b.Usual) {S : Str} (n : Nat) :
    ∃ x, BesideIs b x ∧ Reads (call articleRelative) n (' ' :: b.text) (' ' :: S) x := by
  obtain ⟨x, hx, h⟩ := reads_besideAt hb (S := S) (n + 1)
  exact ⟨x, hx, Reads.call_space (beside_noWs hb _) h⟩

theorem fails_structuralOneAt {the T : Str} {a : NamedArticle} (ht : the ∈ [[], str!"a ", str!"az "]) (ha : a.Usual) (hT : Next T) (n : Nat) :
    Fails structuralReference n (the ++ (a.text ++ T)) := by
  have hlev := levelText_one a T
  have hws : NoWs (the ++ (a.text ++ T)) := the_noWs ht hlev.noWs
  rcases the_cases ht with rfl | h
  · have hf := oneList_fits ha
    have := fails_structural_article hf.1 hf.2 hT (n := n)
    rw [oneList_text] at this
    exact this
  · refine fails_structural (endLetter_unnamed ?_)
    rcases h with rfl | rfl <;> exact Head.cons (f := fun c => c ∈ str!"ahek") (by decide)

theorem fails_structuralOne {the T : Str} {a : NamedArticle} (ht : the ∈ [[], str!"a ", str!"az "]) (ha : a.Usual) (hT : Next T) (n : Nat) :
    Fails (call structuralReference) n (' ' :: (the ++ (a.text ++ T))) :=
  Fails.call_space (the_noWs ht (levelText_one a T).noWs) (fails_structuralOneAt ht ha hT)

end HunLaw.Grammar
