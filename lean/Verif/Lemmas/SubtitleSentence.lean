import Verif.Lemmas.TextTargets
import Verif.Lemmas.TextSentence
import Verif.Spec.Subtitles

/-! Sentences which amend subtitles by their place among the articles. -/

set_option autoImplicit false

namespace HunLaw.Grammar

open HunLaw P Spec

variable {α β : Type} {G : St → Prop} {known : List Str}

/-! ### the subtitle -/

/-- The two fields of the name of a subtitle. -/
def nameAt : SubtitleName → Option Str × Option Str
  | .number i => (some i.displaySlash, none)
  | .title t => (none, some t)
  | .unnamed => (none, none)

/-- The place with this name. -/
def namePlace (w : Inflected) : SubtitleName → Option Place
  | .number i => some ⟨none, .subtitles (.one i) w, none⟩
  | .title t => some ⟨none, .named t false w, none⟩
  | .unnamed => none

theorem namePlace_means {n : SubtitleName} (hn : n.Usual) {w : Inflected} (hw : w.Of [str!"alcím"]) {p : Place} (hp : namePlace w n = some p) :
    (∃ b e o, p.Means b e o) ∧ p.text = n.text ++ w.text := by
  cases n with
  | number i =>
    cases hp
    exact ⟨⟨none, _, false, ⟨fun _ => rfl, fun _ h => (by cases h), .subtitle hn hw, fun _ h => (by cases h), rfl⟩⟩,
      by simp [Place.text, PlaceText.text, slashedSpan, SubtitleName.text]⟩
  | title t =>
    cases hp
    exact ⟨⟨none, _, false, ⟨fun _ => rfl, fun _ h => (by cases h), .named hn hw, fun _ h => (by cases h), rfl⟩⟩,
      by simp [Place.text, PlaceText.text, SubtitleName.text]⟩
  | unnamed => cases hp

theorem noArticle_alcim {w : Inflected} (hw : w.Of [str!"alcím"]) (R : Str) : NoArticle (w.text ++ R) := by
  have e := alcim_text hw
  have hn := alcim_noWs hw R
  have hd : Head (isDigit · = false) (w.text ++ R) := by rw [e]; exact .cons (by decide)
  have haz : ¬ str!"a " <+: w.text ++ R ∧ ¬ str!"az " <+: w.text ++ R := by
    rw [e]; constructor <;> (rintro ⟨x, h⟩; simp at h)
  refine ⟨hn, fun n => fails_optAz hn haz fun n => fails_articleReference_head hn hd, fun n => fails_optAz hn haz fun n => fails_singleArticle hn hd,
    fun n => fails_singleArticle hn hd, ?_, ?_⟩ <;> (rw [e]; rintro ⟨x, h⟩; simp at h)

theorem name_noArticle {n : SubtitleName} (hn : n.Usual) {w : Inflected} (hw : w.Of [str!"alcím"]) (R : Str) : NoArticle (n.text ++ w.text ++ R) := by
  cases hp : namePlace w n with
  | some p =>
    obtain ⟨⟨b, e, o, h⟩, h2⟩ := namePlace_means hn hw hp
    rw [← h2]; exact noArticle_place h R
  | none =>
    cases n with
    | unnamed => exact noArticle_alcim hw R
    | _ => cases hp

theorem alcim_noLevel {w : Inflected} (hw : w.Of [str!"alcím"]) (R : Str) : NoLevel (w.text ++ ' ' :: R) := by
  have e := alcim_text hw
  have hsk := skipWs_noWs (alcim_noWs hw (' ' :: R))
  refine .of_head ?_ ?_ ?_ <;> rw [hsk]
  · rw [e]; exact .cons (by decide)
  · rw [e]; exact .cons (by decide)
  · rw [e, List.append_assoc, show str!"alcím" = str!"alcí" ++ str!"m" from rfl, List.append_assoc]
    exact noMark_text (by decide) (.inr ⟨'í', by decide, by decide⟩) (by
      rw [List.singleton_append, skipWs_noWs (noWs_cons (by decide))]
      exact Head.cons (f := fun c => c ≠ ')' ∧ isDashChar c = false) (by decide))

theorem name_noLevel {n : SubtitleName} (hn : n.Usual) {w : Inflected} (hw : w.Of [str!"alcím"]) (R : Str) : NoLevel (n.text ++ w.text ++ ' ' :: R) := by
  cases hp : namePlace w n with
  | some p =>
    obtain ⟨⟨b, e, o, h⟩, h2⟩ := namePlace_means hn hw hp
    rw [← h2]; exact place_noLevel h _
  | none =>
    cases n with
    | unnamed => exact alcim_noLevel hw R
    | _ => cases hp

theorem name_head {n : SubtitleName} (hn : n.Usual) {w : Inflected} (hw : w.Of [str!"alcím"]) (R : Str) :
    Head (fun c => c ≠ ')' ∧ isDashChar c = false) (n.text ++ w.text ++ R) := by
  cases hp : namePlace w n with
  | some p =>
    obtain ⟨⟨b, e, o, h⟩, h2⟩ := namePlace_means hn hw hp
    rw [← h2]
    exact (place_not h _).mono fun c hc => ⟨by rintro rfl; exact hc (by decide), by
      cases hd : isDashChar c
      · rfl
      · exact absurd ((by decide : ∀ c ∈ str!"−–-", c ∈ str!"aáéevkhscmölr(§:,;-–−) \t\n\r\x0c") c (by simpa [isDashChar] using hd)) hc⟩
  | none =>
    cases n with
    | unnamed =>
      show Head _ (w.text ++ R)
      rw [alcim_text hw]
      exact Head.cons (f := fun c => c ≠ ')' ∧ isDashChar c = false) (by decide)
    | _ => cases hp

/-- The name and the word "alcím" are read. -/
theorem reads_name {n : SubtitleName} (hn : n.Usual) {w : Inflected} (hw : w.Of [str!"alcím"]) {S : Str} (hS : Head (· ≠ 'c') S) (k : Nat) :
    Reads subtitleName k (n.text ++ w.text) (' ' :: S) (nameAt n) := by
  have hws := (name_noArticle hn hw (' ' :: S)).noWs
  have hid : ∀ s, NoWs s → Head (isDigit · = false) s → ∀ k, Fails (call subtitleId >>= fun i => tok str!"." >>= fun _ => call subtitleToken >>= fun _ =>
      (pure (some i, none) : P (Option Str × Option Str))) k s := fun s h1 h2 k =>
    Fails.bind (Fails.call_noWs h1 fun n => Fails.slice (Fails.bind (Fails.call_noWs h1 fun n => fails_number h2)))
  cases n with
  | number i =>
    have e : (SubtitleName.number i).text ++ w.text = i.displaySlash ++ (str!"." ++ (' ' :: w.text)) := by simp [SubtitleName.text]
    rw [e] at hws ⊢
    refine Reads.left (Reads.bind (Reads.call ?_ (reads_subtitleId hn ?_)) (Reads.bind (Reads.tok (noWs_cons (by decide))) ?_))
    · rw [← List.append_assoc]; exact hws
    · rintro c hc; simp at hc; subst hc; decide
    · exact Reads.map (g := fun _ => (some i.displaySlash, none)) (Reads.call_space (alcim_noWs hw _) (reads_subtitleToken hw hS))
  | title t =>
    have e : (SubtitleName.title t).text ++ w.text = str!"„" ++ (t ++ str!"”") ++ (' ' :: w.text) := by simp [SubtitleName.text]
    rw [e] at hws ⊢
    refine Reads.right (hid _ hws (.cons (by decide)) _) (Reads.left (Reads.bind (Reads.call (noWs_cons (by decide)) (reads_quote hn)) ?_))
    exact Reads.map (g := fun _ => (none, some t)) (Reads.call_space (alcim_noWs hw _) (reads_subtitleToken hw hS))
  | unnamed =>
    have e : SubtitleName.unnamed.text ++ w.text = w.text := rfl
    rw [e] at hws ⊢
    refine Reads.right (hid _ hws (by rw [alcim_text hw]; exact .cons (by decide)) _) (Reads.right (Fails.bind (Fails.call_noWs hws fun n =>
      Fails.bind (Fails.call_noWs hws fun n => Fails.lit ?_))) ?_)
    · rw [alcim_text hw]; exact not_prefix_of_head (by decide) (by simp)
    · exact Reads.map (g := fun _ => (none, none)) (Reads.call hws (reads_subtitleToken hw hS))

/-! ### what is amended -/

/-- The result for what is amended. -/
def WhatIs : SubtitleWhat → ReferenceWithSubtitle → Prop
  | .articleFirst a _ _ _, r => ∃ x, ArticleIs a x ∧ r = ⟨some x, none, none⟩
  | .subtitleFirst n _ (some a), r => ∃ x, ArticleIs a x ∧ r = ⟨some x, (nameAt n).1, (nameAt n).2⟩
  | .subtitleFirst n _ none, r => r = ⟨none, (nameAt n).1, (nameAt n).2⟩

/-- The text after the article, from "és". -/
def andText (the : Str) (which : Option Str) (w : Inflected) : Str :=
  str!" és" ++ (' ' :: the ++ ((which.map fun x => x ++ str!" ").getD [] ++ str!"megelőző" ++ (' ' :: w.text)))

theorem articleFirst_text (a : NamedArticle) (the : Str) (which : Option Str) (w : Inflected) :
    (SubtitleWhat.articleFirst a the which w).text = a.text ++ andText the which w := by
  simp [SubtitleWhat.text, andText]

theorem and_next (the : Str) (which : Option Str) (w : Inflected) (S : Str) : Next (andText the which w ++ S) :=
  ⟨.cons (by decide), Head.cons (f := (isDashChar · = false)) (by decide)⟩

theorem reads_articleFirst {a : NamedArticle} {the : Str} {which : Option Str} {w : Inflected} (h : (SubtitleWhat.articleFirst a the which w).Usual)
    {S : Str} (hS : Head (· ≠ 'c') S) (k : Nat) :
    ∃ r, WhatIs (.articleFirst a the which w) r ∧ Reads referenceWithSubtitle k (SubtitleWhat.articleFirst a the which w).text (' ' :: S) r := by
  cases h with
  | articleFirst ha hone ht hx hw =>
    obtain ⟨x, hx1, hx2⟩ := reads_single ha (and_next the which w (' ' :: S)) k
    refine ⟨_, ⟨x, hx1, rfl⟩, Reads.left ?_⟩
    rw [articleFirst_text]
    have ht' : the = str!"a " ∨ the = str!"az " := by simpa using ht
    refine Reads.bind (Reads.call (levelText_one _ _).noWs hx2) (Reads.bind (Reads.tok_space (noWs_cons (by decide))) (Reads.bind (t := ' ' :: the)
      (a := ()) (Reads.call_space ?_ (reads_az ht')) ?_))
    · rcases ht' with rfl | rfl <;> exact noWs_cons (by decide)
    · have hlast : ∀ n, Reads (call subtitleToken >>= fun _ => (pure ⟨some x, none, none⟩ : P ReferenceWithSubtitle)) n (' ' :: w.text) (' ' :: S)
          ⟨some x, none, none⟩ := fun n =>
        Reads.map (g := fun _ => (⟨some x, none, none⟩ : ReferenceWithSubtitle)) (Reads.call_space (alcim_noWs hw _) (reads_subtitleToken hw hS))
      have hmeg : ∀ n, Reads (tok str!"megelőző" >>= fun _ => call subtitleToken >>= fun _ => (pure ⟨some x, none, none⟩ : P ReferenceWithSubtitle)) n
          (str!"megelőző" ++ (' ' :: w.text)) (' ' :: S) ⟨some x, none, none⟩ := fun n =>
        Reads.bind (Reads.tok (noWs_cons (by decide))) (hlast _)
      have hmeg' : ∀ n, Reads (tok str!"megelőző" >>= fun _ => call subtitleToken >>= fun _ => (pure ⟨some x, none, none⟩ : P ReferenceWithSubtitle)) n
          ((' ' :: str!"megelőző") ++ (' ' :: w.text)) (' ' :: S) ⟨some x, none, none⟩ := fun n =>
        Reads.bind (Reads.tok_space (noWs_cons (by decide))) (hlast _)
      simp only [List.mem_cons, List.not_mem_nil, or_false] at hx
      rcases hx with rfl | rfl | rfl | rfl
      · refine Reads.bind_first (a := none) (Reads.opt_none (Fails.toks fun w hw => ?_)) (hmeg _)
        simp only [List.mem_cons, List.not_mem_nil, or_false] at hw
        rcases hw with rfl | rfl | rfl <;> exact not_prefix_of_head (by decide) (by simp [skipWs_cons (c := 'm') (by decide)])
      · refine Reads.bind (t := str!"azt") (Reads.opt_some (Reads.call (noWs_cons (by decide)) (Reads.left (Reads.lit _)))) (hmeg' _)
      · refine Reads.bind (t := str!"azokat") (Reads.opt_some (Reads.call (noWs_cons (by decide)) (Reads.right ?_ (Reads.left (Reads.lit _))))) (hmeg' _)
        exact Fails.lit (by rintro ⟨x, e⟩; simp at e)
      · refine Reads.bind (t := str!"§-t") (Reads.opt_some (Reads.call (noWs_cons (by decide)) (Reads.right ?_ (Reads.right ?_ (Reads.left (Reads.lit _)))))) (hmeg' _)
        all_goals exact Fails.lit (by rintro ⟨x, e⟩; simp at e)

theorem reads_subtitleFirst {n : SubtitleName} {w : Inflected} {a : Option NamedArticle} (h : (SubtitleWhat.subtitleFirst n w a).Usual)
    {S : Str} (hn : NoWs S) (hS : Head (fun c => c ∈ str!"ahek") S) (k : Nat) :
    ∃ r, WhatIs (.subtitleFirst n w a) r ∧ Reads referenceWithSubtitle k (SubtitleWhat.subtitleFirst n w a).text (' ' :: S) r := by
  cases h with
  | subtitleFirst hnm hw ha =>
    have hno : ∀ R k, Fails articleAndSubtitle k (n.text ++ w.text ++ R) := fun R k =>
      Fails.bind (Fails.call_noWs (name_noArticle hnm hw R).noWs (name_noArticle hnm hw R).single)
    have hc : Head (· ≠ 'c') S := hS.mono fun c hc => (by decide : ∀ c ∈ str!"ahek", c ≠ 'c') c hc
    cases a with
    | none =>
      refine ⟨_, rfl, Reads.right ?_ ?_⟩
      · simpa [SubtitleWhat.text] using hno (' ' :: S) k
      · have e : (SubtitleWhat.subtitleFirst n w none).text = n.text ++ w.text := by simp [SubtitleWhat.text]
        rw [e]
        refine Reads.bind_last (reads_name hnm hw hc k) (Reads.map (g := fun a => (⟨a, (nameAt n).1, (nameAt n).2⟩ : ReferenceWithSubtitle)) ?_)
        exact reads_noArticle hn (hS.mono fun c hc => (by decide : ∀ c ∈ str!"ahek", c ≠ 'é') c hc)
    | some a =>
      have e : (SubtitleWhat.subtitleFirst n w (some a)).text = (n.text ++ w.text) ++ (' ' :: str!"és" ++ (' ' :: a.text)) := by simp [SubtitleWhat.text]
      have hN : Next (' ' :: S) := ⟨space_notLower _, by
        show Head _ (skipWs S)
        rw [skipWs_noWs hn]
        exact hS.mono fun c hc => (by decide : ∀ c ∈ str!"ahek", isDashChar c = false) c hc⟩
      obtain ⟨x, hx1, hx2⟩ := reads_single (ha a rfl).1 hN (k + byteLen (n.text ++ w.text) + byteLen (' ' :: str!"és") + 1)
      refine ⟨_, ⟨x, hx1, rfl⟩, Reads.right ?_ ?_⟩
      · rw [e, List.append_assoc]; exact hno _ k
      · rw [e]
        refine Reads.bind (reads_name hnm hw (.cons (by decide)) k) ?_
        refine Reads.map (g := fun a => (⟨a, (nameAt n).1, (nameAt n).2⟩ : ReferenceWithSubtitle)) (a := some x) (Reads.opt_some ?_)
        exact Reads.bind (Reads.tok_space (noWs_cons (by decide))) (Reads.call_space (levelText_one _ _).noWs hx2)

/-! ### the text after an article -/

theorem which_cases {which : Option Str} (h : which ∈ [none, some str!"azt", some str!"azokat", some str!"§-t"]) (R : Str) :
    ∃ X, ((which.map fun x => x ++ str!" ").getD [] ++ str!"megelőző" ++ R) = X ∧ ItemStart X ∧ Head (isDigit · = false) X ∧
      ¬ str!"következő" <+: X ∧ ¬ str!"alábbi" <+: X := by
  refine ⟨_, rfl, ?_⟩
  have : ∀ X : Str, NoWs X → (∀ w ∈ [str!"és", str!"valamint", str!"illetve", str!"vagy"], ¬ w <+: X) → ¬ str!"a " <+: X → ¬ str!"az " <+: X → Head (isDigit · = false) X →
     ¬ str!"következő" <+: X → ¬ str!"alábbi" <+: X → ItemStart X ∧ Head (isDigit · = false) X ∧ ¬ str!"következő" <+: X ∧ ¬ str!"alábbi" <+: X :=
    fun X h1 h2 h3 h4 h5 h6 h7 => ⟨⟨h1, h2, h3, h4⟩, h5, h6, h7⟩
  simp only [List.mem_cons, List.not_mem_nil, or_false] at h
  rcases h with rfl | rfl | rfl | rfl <;> refine this _ (noWs_cons (by decide)) ?_ ?_ ?_ (.cons (by decide)) ?_ ?_ <;>
    first
    | (rintro ⟨x, h⟩; simp at h; done)
    | (intro w hw; simp only [List.mem_cons, List.not_mem_nil, or_false] at hw; rcases hw with rfl | rfl | rfl | rfl <;> rintro ⟨x, h⟩ <;> simp at h)

theorem tells_and {a : NamedArticle} {the : Str} {which : Option Str} {w : Inflected} (h : (SubtitleWhat.articleFirst a the which w).Usual) (S : Str) :
    Tells (andText the which w ++ S) := by
  cases h with
  | articleFirst ha hone ht hx hw =>
    have ht' : the = str!"a " ∨ the = str!"az " := by simpa using ht
    have hsk : skipWs (andText the which w ++ S) = 'é' :: 's' :: (' ' :: the ++ ((which.map fun x => x ++ str!" ").getD [] ++ str!"megelőző" ++ (' ' :: w.text)) ++ S) :=
      rfl
    obtain ⟨X, e, hX, hd, hk, hal⟩ := which_cases hx ((' ' :: w.text) ++ S)
    refine ⟨⟨and_next .., .of_head ?_ ?_ ?_⟩, noSuffix_head ?_, fun n => ?_⟩
    · rw [hsk]; exact .cons (by decide)
    · rw [hsk]; exact .cons (by decide)
    · rw [hsk]; exact noMark_head (.cons (by decide))
    · rw [hsk]; exact Head.cons (f := fun c => c ≠ 'a' ∧ c ≠ 'k' ∧ c ≠ 'h') (by decide)
    · have e2 : andText the which w ++ S = ' ' :: (str!"és" ++ (' ' :: (the ++ X))) := by rw [← e]; simp [andText]
      have hthe : NoWs (the ++ X) := by rcases ht' with rfl | rfl <;> exact noWs_cons (by decide)
      have hjunk : ∀ n, Reads (call amendmentCombinatorJunk) n str!"és" (' ' :: (the ++ X)) () := fun n => by
        refine Reads.call (noWs_cons (by decide)) ((Reads.many_cons (t := str!"és") (u := []) (by decide) (p := toks [str!"és", str!"valamint", str!"ezzel", str!"egyidejűleg"])
          (Reads.call (noWs_cons (by decide)) (Reads.left (Reads.lit _))) (Reads.many_nil (Fails.toks fun w hw => ?_))).map (g := fun _ => ()))
        show ¬ w <+: skipWs (the ++ X)
        rw [skipWs_noWs hthe]
        simp only [List.mem_cons, List.not_mem_nil, or_false] at hw
        rcases ht' with rfl | rfl <;> rcases hw with rfl | rfl | rfl | rfl <;> exact not_prefix_of_head (by decide) (by simp)
      rw [e2]
      refine Fails.call_space (noWs_cons (by decide)) fun n => Fails.bind_of (hjunk _) ?_
      exact Fails.call_space hthe fun n => fails_the ht' hk hal

/-- No second article is after "és az". -/
theorem and_noArticle {a : NamedArticle} {the : Str} {which : Option Str} {w : Inflected} (h : (SubtitleWhat.articleFirst a the which w).Usual) (S : Str)
    (n : Nat) : Fails (call listSeparator >>= fun _ => call articleReference) n (andText the which w ++ S) := by
  cases h with
  | articleFirst ha hone ht hx hw =>
    obtain ⟨X, e, hX, hd, -, -⟩ := which_cases hx ((' ' :: w.text) ++ S)
    have e2 : andText the which w ++ S = (str!" és " ++ the) ++ X := by rw [← e]; simp [andText]
    rw [e2]
    refine fails_separated ?_ hX fun n => fails_articleReference_head hX.noWs hd
    simp only [List.mem_cons, List.not_mem_nil, or_false] at ht
    rcases ht with rfl | rfl <;> decide

/-- An article, perhaps after "a", which is not that of an amendment of provisions. -/
theorem fails_bodyArticle {the T : Str} {a : NamedArticle} (ht : the ∈ [[], str!"a ", str!"az "]) (ha : a.Usual) (hT : Tells T) (n : Nat) :
    FailsG G (amendedOnly <|> insertedOnly <|> amendedAndInserted) n (' ' :: (the ++ (a.text ++ T))) := by
  have hlev := levelText_one a T
  have hws : NoWs (the ++ (a.text ++ T)) := the_noWs ht hlev.noWs
  have hf := oneList_fits ha
  have haz : ∀ n, ∃ l, Reads azArticle n (the ++ a.text) T l := fun n => by
    have := reads_articles hf.1 hf.2 (sp := []) hT.after.next (.inl rfl) (n := n + byteLen the)
    rw [oneList_text] at this
    exact ⟨_, Reads.bind (reads_the ht hlev) this⟩
  have hopt : ∀ n, Reads (opt (call paragraphReference)) n [] T none := fun n => Reads.opt_none (fails_paragraphReference hT.after.none.paragraph)
  have hins : ∀ n, Fails (call insertionToken) n (the ++ (a.text ++ T)) := fun n => by
    rcases the_cases ht with rfl | h
    · exact hlev.noInsertion
    · refine Fails.call_noWs hws fun n => Fails.bind_of (t := []) (a := ()) (reads_junk hws ?_) (Fails.call_noWs hws fun n => fails_the h ?_ ?_)
      · rcases h with rfl | rfl <;> exact Head.cons (f := fun c => c ≠ 'é' ∧ c ≠ 'e' ∧ c ≠ 'v') (by decide)
      · exact hlev.not_prefix (by decide) (by decide) (by decide) (.inl (by decide))
      · exact hlev.not_prefix (by decide) (by decide) (by decide) (.inl (by decide))
  have hinsRef : ∀ n, Fails (call insertionReference) n (' ' :: (the ++ (a.text ++ T))) := fun n => by
    refine Fails.call_space hws fun n => Fails.positioned (Fails.bind (Fails.alt (Fails.bind (hins _)) (Fails.alt (Fails.bind (hins _)) ?_)))
    rw [← List.append_assoc]
    refine Fails.alt ?_ (Fails.alt ?_ ?_)
    · obtain ⟨l, hl⟩ := haz n
      exact Fails.bind_of (Reads.opt_some (Reads.left (hl.map (g := fun a => [a])))) (Fails.bind (hT.insertion _))
    · obtain ⟨l, hl⟩ := haz n
      exact Fails.bind_of (Reads.opt_some (Reads.left (Reads.bind_last hl ((hopt _).map (g := fun p => ([l], p)))))) (Fails.bind (hT.insertion _))
    · obtain ⟨l, hl⟩ := haz n
      refine Fails.bind_of hl (Fails.bind_of (t := []) (rest := T) (hopt _) (Fails.bind ?_))
      exact Fails.alt (Fails.bind (fails_alphabeticPointReference hT.after.none.letters)) (Fails.bind (Fails.call hT.after.none.numericPoint))
  have href := fun n => reference_one ht ha hT n
  have hfirst : ∀ n, FailsG G amendedOnly n (' ' :: (the ++ (a.text ++ T))) := fun n => by
    rcases href n with h | ⟨t, u, r, e, h1, h2⟩
    · exact FailsG.bind (FailsG.lift h)
    · rw [e]; exact FailsG.bind_of (ReadsG.lift h1) (FailsG.bind (FailsG.lift (h2 _)))
  exact FailsG.alt (hfirst n) (FailsG.alt (FailsG.bind (FailsG.lift (hinsRef _))) (fails_third (href n)))

/-- An article which is not before or after the subtitle. -/
theorem fails_relativeAnd {a : NamedArticle} {the : Str} {which : Option Str} {w : Inflected} (h : (SubtitleWhat.articleFirst a the which w).Usual) (S : Str)
    (n : Nat) : Fails (call articleRelative) n (' ' :: ((SubtitleWhat.articleFirst a the which w).text ++ S)) := by
  rw [articleFirst_text, List.append_assoc]
  have hlev := levelText_one a (andText the which w ++ S)
  have ha : a.Usual := by cases h; assumption
  have : ∀ l, (∀ w ∈ l, w.head? ≠ some 'é' ∧ w ≠ []) → ∀ n, Fails (optAz >>= fun _ => call singleArticle >>= fun a => toks l >>= fun _ => (pure a : P SingleArticle)) n
      (a.text ++ (andText the which w ++ S)) := by
    intro l hl n
    obtain ⟨y, -, hy⟩ := reads_single ha (and_next the which w S) n
    refine Fails.bind_of (t := []) (a := ()) (reads_the (by simp) hlev) (Fails.bind_of (a := y) (Reads.call hlev.noWs (by simpa [byteLen] using hy)) (Fails.bind (Fails.toks fun w' hw' => ?_)))
    exact not_prefix_of_head (hl w' hw').2 (hl w' hw').1
  refine Fails.call_space hlev.noWs fun n => Fails.alt (Fails.bind (Fails.call_noWs hlev.noWs fun n => ?_)) (Fails.bind (Fails.call_noWs hlev.noWs fun n => ?_))
  · exact this _ (by decide) _
  · exact this _ (by decide) _

/-! ### the end of the sentence -/

theorem fails_subtitleSuffix {f w : Str} (hf : Following f) (hw : w ∈ [str!"alcím", str!"alcímcím", str!"rendelkezés és alcím", str!"alcím és rendelkezés"])
    {n : Nat} {R : Str} : Fails amendmentSuffix n (str!"helyébe" ++ (' ' :: f ++ (' ' :: (w ++ R)))) := by
  have hw' : NoWs (w ++ R) ∧ (∀ u ∈ [str!"rendelkezés lép", str!"rendelkezések lépnek"], ¬ u <+: w ++ R) := by
    simp only [List.mem_cons, List.not_mem_nil, or_false] at hw
    rcases hw with rfl | rfl | rfl | rfl <;>
      exact ⟨noWs_cons (by decide), fun u hu => by
        simp only [List.mem_cons, List.not_mem_nil, or_false] at hu
        rcases hu with rfl | rfl <;> (rintro ⟨x, e⟩; simp at e)⟩
  have hno : ∀ {β : Type} (q : Unit → P β) n, Fails (call theFollowing >>= q) n (str!"helyébe" ++ (' ' :: f ++ (' ' :: (w ++ R)))) := fun q n =>
    Fails.bind (Fails.call_noWs (noWs_cons (by decide)) fun _ => fails_following (.cons (by decide)))
  refine Fails.alt (fails_helyebe hf fun n => ?_) (Fails.alt (hno _ n) (hno _ n))
  exact Fails.call_space hw'.1 fun n => Fails.lits hw'.2

theorem reads_subtitleSuffix {f w : Str} (hf : Following f) (hw : w ∈ [str!"alcím", str!"alcímcím", str!"rendelkezés és alcím", str!"alcím és rendelkezés"])
    {n : Nat} {R : Str} : Reads amendmentSuffixWithSubtitle n (str!"helyébe" ++ (' ' :: f ++ (' ' :: (w ++ str!" lép")))) R () := by
  have hlep : ∀ n, Reads (toks [str!"lép", str!"lépnek"]) n str!" lép" R () := fun n =>
    Reads.call_space (t := str!"lép") (noWs_cons (by decide)) (Reads.left (Reads.lit _))
  have hend : ∀ n, Reads (opt (tok str!"és rendelkezés") >>= fun _ => toks [str!"lép", str!"lépnek"]) n str!" lép" R () := fun n =>
    Reads.bind_first (reads_opt_none_tok (noWs_cons (by decide)) (by rintro ⟨x, e⟩; simp at e)) (hlep _)
  simp only [List.mem_cons, List.not_mem_nil, or_false] at hw
  rcases hw with rfl | rfl | rfl | rfl
  · exact reads_subtitle_named hf (by simp)
  · exact reads_subtitle_named hf (by simp)
  · refine helyebe hf fun n => Reads.bind (t := ' ' :: str!"rendelkezés és") (Reads.opt_some (Reads.tok_space (noWs_cons (by decide)))) ?_
    exact Reads.bind (t := ' ' :: str!"alcím") (Reads.tok_space (noWs_cons (by decide)))
      (Reads.bind_first (reads_opt_none_tok (noWs_cons (by decide)) (by rintro ⟨x, e⟩; simp at e)) (hend _))
  · refine helyebe hf fun n => Reads.bind_first (reads_opt_none_tok (noWs_cons (by decide)) (by rintro ⟨x, e⟩; simp at e)) ?_
    refine Reads.bind (t := ' ' :: str!"alcím") (Reads.tok_space (noWs_cons (by decide)))
      (Reads.bind_first (reads_opt_none_tok (noWs_cons (by decide)) (by rintro ⟨x, e⟩; simp at e)) ?_)
    exact Reads.bind (t := ' ' :: str!"és rendelkezés") (Reads.opt_some (Reads.tok_space (noWs_cons (by decide)))) (hlep _)

theorem subtitleEnd_cases {e : Str} (he : SubtitleEnd [str!"lép"] e) :
    (∀ n rest, Reads (call amendmentSuffix) n (' ' :: e) rest ()) ∨
    ((∀ n rest, Fails (call amendmentSuffix) n (' ' :: e ++ rest)) ∧ ∀ n rest, Reads (call amendmentSuffixWithSubtitle) n (' ' :: e) rest ()) := by
  cases he with
  | provision he => exact .inl fun n rest => reads_provisionEnd he
  | @named f w v hf hw hv =>
    rw [List.mem_singleton.1 hv]
    have e1 : str!"helyébe " ++ f ++ str!" " ++ w ++ str!" " ++ str!"lép" = str!"helyébe" ++ (' ' :: f ++ (' ' :: (w ++ str!" lép"))) := by simp
    rw [e1]
    refine .inr ⟨fun n rest => ?_, fun n rest => Reads.call_space (noWs_cons (by decide)) (reads_subtitleSuffix hf hw)⟩
    have e2 : ' ' :: (str!"helyébe" ++ (' ' :: f ++ (' ' :: (w ++ str!" lép")))) ++ rest = ' ' :: (str!"helyébe" ++ (' ' :: f ++ (' ' :: (w ++ (str!" lép" ++ rest))))) := by simp
    rw [e2]
    exact Fails.call_space (noWs_cons (by decide)) fun n => fails_subtitleSuffix hf hw

theorem subtitleEnd_head {verbs : List Str} {e : Str} (he : SubtitleEnd verbs e) (R : Str) : Head (fun c => c ∈ str!"ahek") (e ++ R) := by
  cases he with
  | provision he =>
    exact (replacement_head (provision_replacement he) R).mono fun c hc => (by decide : ∀ c ∈ str!"ah", c ∈ str!"ahek") c hc
  | named hf hw hv => exact Head.cons (f := fun c => c ∈ str!"ahek") (by decide)

/-! ### the rest of the sentence -/

theorem what_noWs {x : SubtitleWhat} (hx : x.Usual) (R : Str) : NoWs (x.text ++ R) := by
  cases x with
  | articleFirst a the which w => rw [articleFirst_text, List.append_assoc]; exact (levelText_one _ _).noWs
  | subtitleFirst n w a =>
    cases hx with
    | subtitleFirst hn hw ha =>
      have : (SubtitleWhat.subtitleFirst n w a).text ++ R = n.text ++ w.text ++ ((a.map fun a => str!" és " ++ a.text).getD [] ++ R) := by
        simp [SubtitleWhat.text]
      rw [this]
      exact (name_noArticle hn hw _).noWs

theorem reads_what {x : SubtitleWhat} (hx : x.Usual) {S : Str} (hS : Head (fun c => c ∈ str!"ahek") S) (k : Nat) :
    ∃ r, WhatIs x r ∧ Reads (call referenceWithSubtitle) k (' ' :: x.text) (' ' :: S) r := by
  cases x with
  | articleFirst a the which w =>
    obtain ⟨r, h1, h2⟩ := reads_articleFirst hx (hS.mono fun c hc => (by decide : ∀ c ∈ str!"ahek", c ≠ 'c') c hc) (k + 1)
    exact ⟨r, h1, Reads.call_space (what_noWs hx _) h2⟩
  | subtitleFirst n w a =>
    obtain ⟨r, h1, h2⟩ := reads_subtitleFirst hx (endLetter_unnamed hS).noWs hS (k + 1)
    exact ⟨r, h1, Reads.call_space (what_noWs hx _) h2⟩

theorem reads_tailReplaced {x : SubtitleWhat} (hx : x.Usual) {e : Str} (he : SubtitleEnd [str!"lép"] e) (n : Nat) :
    ∃ r, WhatIs x r ∧ Reads subtitleAmendment n (' ' :: x.text ++ (' ' :: e ++ str!":")) [] (r, false) := by
  obtain ⟨r, hr, h⟩ := reads_what hx (subtitleEnd_head he str!":") n
  refine ⟨r, hr, ?_⟩
  rcases subtitleEnd_cases he with h1 | ⟨h1, h2⟩
  · exact Reads.left (Reads.bind (by rw [List.append_nil]; exact h) (Reads.bind (h1 _ _) (Reads.map (g := fun _ => (r, false)) reads_colon)))
  · exact Reads.right (by rw [List.append_nil]; exact Fails.bind_of h (Fails.bind (h1 _ _)))
      (Reads.left (Reads.bind (by rw [List.append_nil]; exact h) (Reads.bind (h2 _ _) (Reads.map (g := fun _ => (r, false)) reads_colon))))

theorem insertionEnd_ahek {e : Str} (he : e ∈ insertionEnds) (R : Str) : Head (fun c => c ∈ str!"ahek") (e ++ R) :=
  (insertionEnd_head he _).mono fun c hc => (by decide : ∀ c ∈ str!"ek", c ∈ str!"ahek") c hc

theorem reads_tailInserted {x : SubtitleWhat} (hx : x.Usual) {f e : Str} (hf : Following f) (he : e ∈ insertionEnds) (n : Nat) :
    ∃ r, WhatIs x r ∧ Reads subtitleAmendment n (' ' :: f ++ (' ' :: x.text ++ (' ' :: e ++ str!":"))) [] (r, true) := by
  have hno : ∀ n, Fails (call referenceWithSubtitle) n (' ' :: f ++ (' ' :: x.text ++ (' ' :: e ++ str!":"))) := fun n =>
    Fails.call_space (s := f ++ (' ' :: x.text ++ (' ' :: e ++ str!":"))) (following_noWs hf _) fun _ =>
      end_noSubtitle (noArticle_following hf _) (following_after hf _) (following_noAlcim hf _)
  have hins : ∀ n, Reads (call insertionToken) n (' ' :: f) (' ' :: x.text ++ (' ' :: e ++ str!":")) () := fun n =>
    Reads.before (following_noWs hf _) (reads_insertionToken hf (space_notLower _))
  obtain ⟨r, hr, h⟩ := reads_what hx (insertionEnd_ahek he str!":") (n + byteLen (' ' :: f))
  refine ⟨r, hr, Reads.right (by rw [List.append_nil]; exact Fails.bind (hno _)) (Reads.right (by rw [List.append_nil]; exact Fails.bind (hno _)) ?_)⟩
  refine Reads.bind (t := ' ' :: f) (by rw [List.append_nil]; exact hins _) (Reads.bind (t := ' ' :: x.text) ?_ (Reads.bind (t := ' ' :: e) (reads_insertionSuffix he)
    (Reads.map (g := fun _ => (r, true)) reads_colon)))
  rw [List.append_nil]
  exact h

/-- What is after the place beside an article. -/
def subtitleTail (s : SubtitleSentence) : Str :=
  (s.following.map fun f => ' ' :: f).getD [] ++ (' ' :: s.what.text ++ (' ' :: s.ending ++ str!":"))

def besideText (s : SubtitleSentence) : Str := (s.beside.map fun b => ' ' :: b.text).getD []

theorem subtitle_rest (s : SubtitleSentence) :
    s.rest = (s.container.map fun q => ' ' :: q.text).getD [] ++ (besideText s ++ subtitleTail s) := by
  obtain ⟨i, q, b, f, x, e⟩ := s
  cases q <;> cases b <;> cases f <;> simp [SubtitleSentence.rest, subtitleTail, besideText]

theorem reads_subtitleTail {s : SubtitleSentence} (hs : s.Usual [str!"lép"]) (n : Nat) :
    ∃ r, WhatIs s.what r ∧ Reads subtitleAmendment n (subtitleTail s) [] (r, s.following.isSome) := by
  obtain ⟨i, q, b, f, x, e⟩ := s
  cases f with
  | none => exact reads_tailReplaced hs.what (hs.replaced rfl) n
  | some f =>
    obtain ⟨hf, he⟩ := hs.inserted f rfl
    exact reads_tailInserted hs.what hf he n

/-- The three kinds of the rest: the place beside an article; an article and the subtitle before it; something inserted. -/
theorem rest_cases {verbs : List Str} {s : SubtitleSentence} (hs : s.Usual verbs) :
    (∃ b, s.beside = some b ∧ b.Usual ∧ besideText s ++ subtitleTail s = ' ' :: (b.the ++ (b.article.text ++ (' ' :: b.word ++ subtitleTail s)))) ∨
    (∃ a the which w R, s.beside = none ∧ (SubtitleWhat.articleFirst a the which w).Usual ∧ besideText s = [] ∧
      subtitleTail s = ' ' :: ((SubtitleWhat.articleFirst a the which w).text ++ R)) ∨
    ∃ f, s.beside = none ∧ Following f ∧ s.ending ∈ insertionEnds ∧ besideText s = [] ∧
      subtitleTail s = ' ' :: f ++ (' ' :: s.what.text ++ (' ' :: s.ending ++ str!":")) := by
  obtain ⟨i, q, b, f, x, e⟩ := s
  cases b with
  | some b => exact .inl ⟨b, rfl, hs.beside b rfl, by simp [besideText, Beside.text]⟩
  | none =>
    cases f with
    | none =>
      obtain ⟨a, the, which, w, h⟩ := (hs.place rfl).1 rfl
      change x = _ at h
      subst h
      exact .inr (.inl ⟨a, the, which, w, _, rfl, hs.what, rfl, rfl⟩)
    | some f =>
      obtain ⟨hf, he⟩ := hs.inserted f rfl
      exact .inr (.inr ⟨f, rfl, hf, he, rfl, rfl⟩)

theorem fails_subtitleBody {verbs : List Str} {s : SubtitleSentence} (hs : s.Usual verbs) (n : Nat) :
    FailsG G (amendedOnly <|> insertedOnly <|> amendedAndInserted) n (besideText s ++ subtitleTail s) := by
  rcases rest_cases hs with ⟨b, -, hb, e⟩ | ⟨a, the, which, w, R, -, hw, e1, e2⟩ | ⟨f, -, hf, he, e1, e2⟩
  · rw [e]
    exact fails_bodyArticle hb.the hb.article (tells_beside hb _) n
  · rw [e1, e2, List.nil_append, articleFirst_text, List.append_assoc]
    exact fails_bodyArticle (the := []) (by simp) (by cases hw; assumption) (tells_and hw _) n
  · rw [e1, e2, List.nil_append]
    have hun : Unnamed (f ++ (' ' :: s.what.text ++ (' ' :: s.ending ++ str!":"))) := endLetter_unnamed (following_after hf _)
    have hart := noArticle_following hf (' ' :: s.what.text ++ (' ' :: s.ending ++ str!":"))
    cases hx : s.what with
    | subtitleFirst nm w a =>
      have hu := hs.what
      rw [hx] at hu
      cases hu with
      | subtitleFirst hn hw ha =>
        obtain ⟨T, hT⟩ : ∃ T, (SubtitleWhat.subtitleFirst nm w a).text ++ (' ' :: s.ending ++ str!":") = nm.text ++ w.text ++ ' ' :: T := by
          cases a with
          | none => exact ⟨s.ending ++ str!":", by simp [SubtitleWhat.text]⟩
          | some a => exact ⟨str!"és " ++ a.text ++ (' ' :: s.ending ++ str!":"), by simp [SubtitleWhat.text]⟩
        rw [List.cons_append (as := (SubtitleWhat.subtitleFirst nm w a).text), hT]
        have hpl := name_noLevel hn hw T
        have hlev : NoLevel (f ++ (' ' :: (nm.text ++ w.text ++ ' ' :: T))) := by
          refine noLevel_words (following_ordinary hf).1 (following_ordinary hf).2 ?_ ?_
          · have := following_head hf []
            rw [List.append_nil] at this
            exact this.mono fun c hc => by subst hc; decide
          · show Head _ (skipWs (nm.text ++ w.text ++ ' ' :: T))
            rw [skipWs_noWs (name_noArticle hn hw _).noWs]
            exact name_head hn hw _
        refine fails_blockBody (fun n => fails_call_reference hlev.space) (fun n => ?_)
        refine Fails.call_space (s := f ++ (' ' :: (nm.text ++ w.text ++ ' ' :: T))) (following_noWs hf _) fun n =>
          fails_insertionReference (noArticle_following hf _) (.inr ?_) n
        exact ⟨f, _, rfl, fun n => reads_insertionToken hf (space_notLower _), hpl.space⟩
    | articleFirst a the which w =>
      have hu := hs.what
      rw [hx] at hu
      have ha : a.Usual := by cases hu; assumption
      have e3 : ' ' :: f ++ (' ' :: (SubtitleWhat.articleFirst a the which w).text ++ (' ' :: s.ending ++ str!":")) =
          (' ' :: f ++ (' ' :: a.text)) ++ (andText the which w ++ (' ' :: s.ending ++ str!":")) := by simp [articleFirst_text]
      rw [e3]
      have ht := tells_and hu (' ' :: s.ending ++ str!":")
      have hlev : NoLevel (f ++ (' ' :: (a.text ++ (andText the which w ++ (' ' :: s.ending ++ str!":"))))) := following_noLevel hf (levelText_one _ _)
      have href : ∀ n, Fails (call reference) n ((' ' :: f ++ (' ' :: a.text)) ++ (andText the which w ++ (' ' :: s.ending ++ str!":"))) := fun n => by
        have := fails_call_reference (n := n) hlev.space
        simpa using this
      refine FailsG.alt (FailsG.bind (FailsG.lift (href _))) (FailsG.alt ?_ (FailsG.bind (FailsG.lift (href _))))
      obtain ⟨y, hy, -⟩ := reads_insertion_article (onePhrase_usual ha) hf ht.after (and_noArticle hu _) (n + 1)
      rw [onePhrase_text] at hy
      refine FailsG.bind_of (a := y) (ReadsG.lift (Reads.call_space (t := f ++ (' ' :: a.text)) ?_ hy)) (FailsG.bind (FailsG.lift ?_))
      · rw [List.append_assoc]; exact following_noWs hf _
      · refine Fails.call_space (s := str!"és" ++ (' ' :: the ++ ((which.map fun x => x ++ str!" ").getD [] ++ str!"megelőző" ++ (' ' :: w.text))) ++ (' ' :: s.ending ++ str!":"))
          (noWs_cons (by decide)) fun n => Fails.toks fun u hu => ?_
        simp only [List.mem_cons, List.not_mem_nil, or_false] at hu
        rcases hu with rfl | rfl <;> exact not_prefix_of_head (by decide) (by simp [skipWs_cons (c := 'é') (by decide)])

theorem fails_subtitleContainer {verbs : List Str} {s : SubtitleSentence} (hs : s.Usual verbs) (n : Nat) :
    Fails (call structuralReference) n (besideText s ++ subtitleTail s) := by
  rcases rest_cases hs with ⟨b, -, hb, e⟩ | ⟨a, the, which, w, R, -, hw, e1, e2⟩ | ⟨f, -, hf, he, e1, e2⟩
  · rw [e]; exact fails_structuralOne hb.the hb.article (tells_beside hb _).after.next n
  · rw [e1, e2, List.nil_append, articleFirst_text, List.append_assoc]
    exact fails_structuralOne (the := []) (by simp) (by cases hw; assumption) (tells_and hw _).after.next n
  · rw [e1, e2, List.nil_append]
    have hun : Unnamed (f ++ (' ' :: s.what.text ++ (' ' :: s.ending ++ str!":"))) := endLetter_unnamed (following_after hf _)
    exact Fails.call_space (s := f ++ (' ' :: s.what.text ++ (' ' :: s.ending ++ str!":"))) hun.noWs fun n => fails_structural hun

theorem reads_relative {verbs : List Str} {s : SubtitleSentence} (hs : s.Usual verbs) (n : Nat) :
    ∃ x, Reads (opt (call articleRelative)) n (besideText s) (subtitleTail s) x ∧ (s.beside = none → x = none) ∧
      ∀ b, s.beside = some b → ∃ y, BesideIs b y ∧ x = some y := by
  rcases rest_cases hs with ⟨b, h1, hb, e⟩ | ⟨a, the, which, w, R, h1, hw, e1, e2⟩ | ⟨f, h1, hf, he, e1, e2⟩
  · obtain ⟨S, hS⟩ : ∃ S, subtitleTail s = ' ' :: S := by
      rw [subtitleTail]
      cases s.following <;> exact ⟨_, rfl⟩
    obtain ⟨y, hy, hy2⟩ := reads_beside hb (S := S) n
    refine ⟨some y, ?_, fun h => ?_, fun b' h => ?_⟩
    · rw [hS, besideText, h1]; exact Reads.opt_some hy2
    · rw [h1] at h; cases h
    · rw [h1] at h; cases h; exact ⟨y, hy, rfl⟩
  · refine ⟨none, ?_, fun _ => rfl, fun b' h => ?_⟩
    · rw [e1, e2]; exact Reads.opt_none (fails_relativeAnd hw _ _)
    · rw [h1] at h; cases h
  · refine ⟨none, ?_, fun _ => rfl, fun b' h => ?_⟩
    · rw [e1, e2]; exact Reads.opt_none (noArticle_following hf _).relative
    · rw [h1] at h; cases h

theorem subtitle_head {verbs : List Str} {s : SubtitleSentence} (hs : s.Usual verbs) :
    ∃ t, besideText s ++ subtitleTail s = ' ' :: t ∧ NoWs t ∧ Head (fun c => isDigit c = true ∨ c = 'a') t := by
  rcases rest_cases hs with ⟨b, -, hb, e⟩ | ⟨a, the, which, w, R, -, hw, e1, e2⟩ | ⟨f, -, hf, he, e1, e2⟩
  · refine ⟨_, e, the_noWs hb.the (levelText_one _ _).noWs, ?_⟩
    rcases the_cases hb.the with h | h | h <;> rw [h]
    · exact (one_digit _ _).mono fun c hc => .inl hc
    · exact Head.cons (f := fun c => isDigit c = true ∨ c = 'a') (by decide)
    · exact Head.cons (f := fun c => isDigit c = true ∨ c = 'a') (by decide)
  · refine ⟨_, by rw [e1, e2, List.nil_append], ?_, ?_⟩ <;> rw [articleFirst_text, List.append_assoc]
    · exact (levelText_one _ _).noWs
    · exact (one_digit _ _).mono fun c hc => .inl hc
  · exact ⟨_, by rw [e1, e2, List.nil_append]; rfl, following_noWs hf _, (following_head hf _).mono fun c hc => .inr hc⟩

theorem reads_subtitleContainer {verbs : List Str} {s : SubtitleSentence} (hs : s.Usual verbs) {q : Place} {b : Option NumericId} {d : StructuralRefParent}
    (hq : q.Means b d false) (n : Nat) :
    Reads (opt (call structuralReference)) n (' ' :: q.text) (besideText s ++ subtitleTail s) (some (placeAt q)) := by
  obtain ⟨t, e, h1, h2⟩ := subtitle_head hs
  rw [e]
  refine Reads.opt_some (reads_place hq h1 (h2.mono fun c hc => ?_))
  rcases hc with hc | rfl
  · exact ⟨by rintro rfl; revert hc; decide, by
      cases hd : isDashChar c
      · rfl
      · exact absurd hc (by rw [(by decide : ∀ c ∈ str!"−–-", isDigit c = false) c (by simpa [isDashChar] using hd)]; decide)⟩
  · decide

/-- How a sentence which amends a subtitle is parsed. -/
theorem parse_subtitle {A I t : Str} {a : ActReference} (hG : G ⟨known, []⟩) {s : SubtitleSentence} (hs : s.Usual [str!"lép"]) {q : Option StructuralReference} (hA : A ∈ articles)
    (hi : ReadsG G titledActReference (byteLen A) I (t ++ (besideText s ++ subtitleTail s)) a)
    (h1 : ∀ n, Reads (opt (call structuralReference)) n t (besideText s ++ subtitleTail s) q) :
    ∃ x r, parse (A ++ (I ++ (t ++ (besideText s ++ subtitleTail s)))) known = some (.blockAmendmentWithSubtitle ⟨a, q, x, r, s.following.isSome⟩) ∧
      WhatIs s.what r ∧ (s.beside = none → x = none) ∧ ∀ b, s.beside = some b → ∃ y, BesideIs b y ∧ x = some y := by
  obtain ⟨x, hx, hx2, hx3⟩ := reads_relative hs (0 + byteLen A + byteLen I + byteLen t)
  obtain ⟨r, hr, hr2⟩ := reads_subtitleTail hs (0 + byteLen A + byteLen I + byteLen t + byteLen (besideText s))
  refine ⟨x, r, ?_, hr, hx2, hx3⟩
  refine parse_of_root hG (ReadsG.right ?_ (ReadsG.left (reads_entire (article_noWs hA _) ?_)))
  · rw [List.append_nil]
    exact fails_block hA hi h1 fun n => fails_subtitleBody hs n
  · refine ReadsG.bind (ReadsG.lift (reads_azAny hA)) (ReadsG.bind (a := a) ?_ (ReadsG.bind (a := q) (ReadsG.lift ?_)
      (ReadsG.bind (a := x) (ReadsG.lift ?_) (ReadsG.map (g := fun r => (⟨a, q, x, r.1, r.2⟩ : BlockAmendmentWithSubtitle)) (ReadsG.lift hr2)))))
    · rw [List.append_nil, Nat.zero_add]
      exact hi
    · rw [List.append_nil]
      exact h1 _
    · rw [List.append_nil]
      exact hx

end HunLaw.Grammar
