import Verif.Lemmas.TextTargets
import Verif.Lemmas.Amending

/-! Sentences which change words: the rules before theirs do not fit, and the whole sentence is read. -/

set_option autoImplicit false

namespace HunLaw.Grammar

open HunLaw P Spec

variable {α β : Type} {G : St → Prop} {known : List Str}

/-! ### rules which leave the context as it is -/

/-- The context is the same afterwards. -/
def Still (p : PS α) : Prop := ∀ i s, (p.run i s).2 = s

theorem Still.lift (p : P α) : Still (PS.lift p) := fun _ _ => rfl

theorem Still.pure (a : α) : Still (Pure.pure a : PS α) := fun _ _ => rfl

theorem Still.bind {p : PS α} {f : α → PS β} (h : Still p) (hf : ∀ a, Still (f a)) : Still (p >>= f) := by
  intro i s
  rw [ps_bind_run]
  have := h i s
  rcases e : p.run i s with ⟨_ | ⟨a, j⟩, t⟩ <;> rw [e] at this
  · exact this
  · subst this; exact hf a j t

theorem Still.alt {p q : PS α} (h : Still p) (hq : Still q) : Still (p <|> q) := by
  intro i s
  rw [ps_alt_run]
  have := h i s
  rcases e : p.run i s with ⟨_ | r, t⟩ <;> rw [e] at this
  · subst this; exact hq i t
  · exact this

/-- The context still has the property. -/
def KeepsAt (G : St → Prop) (p : PS α) (n : Nat) (r : Str) : Prop := ∀ s, G s → G (p.run ⟨n, r⟩ s).2

theorem Still.keeps {p : PS α} (h : Still p) (n : Nat) (r : Str) : KeepsAt G p n r := fun s hs => by rw [h]; exact hs

theorem FailsG.keeps {p : PS α} {n : Nat} {r : Str} (h : FailsG G p n r) : KeepsAt G p n r := fun s hs => by
  obtain ⟨s', g, e⟩ := h s hs
  rw [e]; exact g

theorem KeepsAt.bind_of {p : PS α} {f : α → PS β} {n : Nat} {t rest : Str} {a : α} (h1 : ReadsG G p n t rest a)
    (h2 : KeepsAt G (f a) (n + byteLen t) rest) : KeepsAt G (p >>= f) n (t ++ rest) := fun s hs => by
  obtain ⟨s', g, e⟩ := h1 s hs
  rw [ps_bind_run, e]
  exact h2 s' g

theorem KeepsAt.bind_still {p : PS α} {f : α → PS β} {n : Nat} {r : Str} (h1 : KeepsAt G p n r) (h2 : ∀ a, Still (f a)) : KeepsAt G (p >>= f) n r := fun s hs => by
  have := h1 s hs
  rw [ps_bind_run]
  rcases e : p.run ⟨n, r⟩ s with ⟨_ | ⟨a, j⟩, t⟩ <;> rw [e] at this
  · exact this
  · show G ((f a).run j t).2
    rw [h2]; exact this

theorem KeepsAt.alt {p q : PS α} {n : Nat} {r : Str} (h1 : KeepsAt G p n r) (h2 : KeepsAt G q n r) : KeepsAt G (p <|> q) n r := fun s hs => by
  have := h1 s hs
  rw [ps_alt_run]
  rcases e : p.run ⟨n, r⟩ s with ⟨_ | x, t⟩ <;> rw [e] at this
  · exact h2 t this
  · exact this

theorem KeepsAt.call {p : PS α} {n : Nat} {r : Str} (hr : NoWs r) (h : KeepsAt G p n r) : KeepsAt G (PS.call p) n r := fun s hs => by
  have := ps_call_run p ⟨n, r⟩ s
  rw [this]
  have e : ((⟨n, r⟩ : Inp).drop (List.takeWhile isWs r).length) = ⟨n, r⟩ := by
    rw [takeWhile_noWs hr]; simp [Inp.drop, byteLen]
  show G (p.run ((⟨n, r⟩ : Inp).drop (List.takeWhile isWs r).length) s).2
  rw [e]
  exact h s hs

/-- A rule for the whole text which cannot fit, and which keeps the context. -/
theorem failsG_entire {p : PS α} {f : α → Root} {text : Str} (hws : NoWs text) (hk : KeepsAt G p 0 text)
    (hno : ∀ s x j t, (entire p f).run ⟨0, text⟩ s ≠ (some (x, j), t)) : FailsG G (entire p f) 0 text := fun s hs => by
  have hk2 : KeepsAt G (entire p f) 0 text :=
    KeepsAt.bind_still (KeepsAt.call hws hk) fun _ => Still.bind (Still.lift _) fun _ => Still.pure _
  have := hk2 s hs
  rcases e : (entire p f).run ⟨0, text⟩ s with ⟨_ | ⟨x, j⟩, t⟩ <;> rw [e] at this
  · exact ⟨t, this, rfl⟩
  · exact absurd e (hno s x j t)

/-! ### the rules of block amendments -/

/-- No "helyébe", and no "a következő" is next. -/
structure NoSuffix (s : Str) : Prop where
  helyebe : ¬ str!"helyébe" <+: skipWs s
  following : ∀ n, Fails theFollowing n (skipWs s)

theorem NoSuffix.fails {s : Str} (h : NoSuffix s) {n : Nat} : Fails (call amendmentSuffix) n s := by
  have hn := noWs_skipWs s
  have hf : ∀ n, Fails (call theFollowing) n (skipWs s) := fun n => Fails.call_noWs hn h.following
  refine Fails.call fun _ => Fails.alt (Fails.bind (Fails.call fun _ => Fails.lit ?_)) (Fails.alt (Fails.bind (hf _)) (Fails.bind (hf _)))
  rw [skipWs_noWs hn]; exact h.helyebe

theorem noSuffix_head {s : Str} (h : Head (fun c => c ≠ 'a' ∧ c ≠ 'k' ∧ c ≠ 'h') (skipWs s)) : NoSuffix s :=
  ⟨not_prefix_of_head (by decide) fun e => (h _ e.symm).2.2 rfl, fun _ => fails_following (h.mono fun _ hc => ⟨hc.1, hc.2.1⟩)⟩

theorem noSuffix_quote {a : Str} (ha : a ∈ [str!"a", str!"az"]) (r : Str) : NoSuffix (' ' :: a ++ (' ' :: '„' :: r)) := by
  have e : skipWs (' ' :: a ++ (' ' :: '„' :: r)) = (a ++ [' ']) ++ '„' :: r := by
    simp only [List.mem_cons, List.not_mem_nil, or_false] at ha
    rcases ha with rfl | rfl <;> rfl
  refine ⟨?_, fun n => ?_⟩ <;> rw [e]
  · simp only [List.mem_cons, List.not_mem_nil, or_false] at ha
    rcases ha with rfl | rfl <;> exact not_prefix_of_head (by decide) (by simp)
  · refine Fails.bind_of (Reads.opt_some (reads_one (l := [str!"a ", str!"az "]) (w := a ++ [' ']) ?_ ?_)) ?_
    · simp only [List.mem_cons, List.not_mem_nil, or_false] at ha
      rcases ha with rfl | rfl <;> decide
    · simp only [List.mem_cons, List.not_mem_nil, or_false] at ha
      rcases ha with rfl | rfl <;> decide
    · exact Fails.alt (Fails.lit (not_prefix_of_head (by decide) (by simp))) (Fails.bind (Fails.lit (not_prefix_of_head (by decide) (by simp))))

/-- The rules of block amendments do not reach the part which may change the context. -/
structure NoBlock (T : Str) : Prop where
  block : ∃ t u q, T = t ++ u ∧ (∀ n, Reads (opt (call structuralReference)) n t u q) ∧
    ∀ n, Fails (call reference) n u ∨ ∃ t' u' r, u = t' ++ u' ∧ Reads (call reference) n t' u' r ∧ ∀ n, Fails (call amendmentSuffix) n u'

theorem fails_third {n : Nat} {u : Str} (h : Fails (call reference) n u ∨ ∃ t' u' r, u = t' ++ u' ∧ Reads (call reference) n t' u' r ∧
    ∀ n, Fails (call amendmentSuffix) n u') : FailsG G amendedAndInserted n u := by
  rcases h with h | ⟨t', u', r, rfl, h1, h2⟩
  · exact FailsG.bind (FailsG.lift h)
  · exact FailsG.bind_of (ReadsG.lift h1) (FailsG.bind (FailsG.lift (h2 _)))

theorem keeps_block {T : Str} (h : NoBlock T) (a : ActReference) (n : Nat) : KeepsAt G (PS.lift (opt (call structuralReference)) >>= fun p =>
    (amendedOnly <|> insertedOnly <|> amendedAndInserted) >>= fun r => (pure ⟨a, p, r.1, r.2⟩ : PS BlockAmendment)) n T := by
  obtain ⟨t, u, q, rfl, h1, h2⟩ := h.block
  refine KeepsAt.bind_of (ReadsG.lift (h1 n)) (KeepsAt.bind_still ?_ fun _ => Still.pure _)
  refine KeepsAt.alt (Still.keeps ?_ _ _) (KeepsAt.alt (Still.keeps ?_ _ _) (FailsG.keeps (fails_third (h2 _))))
  · exact Still.bind (Still.lift _) fun _ => Still.bind (Still.lift _) fun _ => Still.bind (Still.lift _) fun _ => Still.pure _
  · exact Still.bind (Still.lift _) fun _ => Still.bind (Still.lift _) fun _ => Still.bind (Still.lift _) fun _ => Still.pure _

/-- The beginning of the sentence is read, and the rest keeps the context. -/
theorem keeps_begin {A I T : Str} {p : ActReference → PS β} {a : ActReference} (hA : A ∈ articles)
    (hi : ReadsG G titledActReference (byteLen A) I T a) (h : ∀ n, KeepsAt G (p a) n T) :
    KeepsAt G (PS.lift (call azAny) >>= fun _ => titledActReference >>= p) 0 (A ++ (I ++ T)) := by
  refine KeepsAt.bind_of (ReadsG.lift (reads_azAny hA)) (KeepsAt.bind_of ?_ (h _))
  rw [Nat.zero_add]
  exact hi

/-- None of the rules of block amendments fits. -/
theorem fails_blocks {A I T : Str} {a : ActReference} (hA : A ∈ articles) (hi : ReadsG G titledActReference (byteLen A) I T a) (hT : NoBlock T)
    (h1 : ∀ s x j t, (entire blockAmendment .blockAmendment).run ⟨0, A ++ (I ++ T)⟩ s ≠ (some (x, j), t))
    (h2 : ∀ s x j t, (entire blockAmendmentWithSubtitle .blockAmendmentWithSubtitle).run ⟨0, A ++ (I ++ T)⟩ s ≠ (some (x, j), t))
    (h3 : ∀ s x j t, (entire blockAmendmentStructural .blockAmendmentStructural).run ⟨0, A ++ (I ++ T)⟩ s ≠ (some (x, j), t)) :
    FailsG G (entire blockAmendment .blockAmendment) 0 (A ++ (I ++ T)) ∧
    FailsG G (entire blockAmendmentWithSubtitle .blockAmendmentWithSubtitle) 0 (A ++ (I ++ T)) ∧
    FailsG G (entire blockAmendmentStructural .blockAmendmentStructural) 0 (A ++ (I ++ T)) := by
  have hn := article_noWs hA (I ++ T)
  refine ⟨failsG_entire hn (keeps_begin hA hi fun n => keeps_block hT a n) h1, failsG_entire hn (keeps_begin hA hi fun n => Still.keeps ?_ _ _) h2,
    failsG_entire hn (keeps_begin hA hi fun n => Still.keeps ?_ _ _) h3⟩
  · exact Still.bind (Still.lift _) fun _ => Still.bind (Still.lift _) fun _ => Still.bind (Still.lift _) fun _ => Still.pure _
  · exact Still.bind (Still.lift _) fun _ => Still.bind (Still.lift _) fun _ => Still.pure _

/-! ### the text after an article -/

theorem noMark_word {x y : Str} {c : Char} (hx : ∀ c ∈ x, c ≠ ')' ∧ isDashChar c = false) (hl : ∃ c ∈ x, lowerAz c = false)
    (hc : c ≠ ')' ∧ isDashChar c = false ∧ isWs c = false) : NoMark (x ++ c :: y) :=
  noMark_text hx (.inr hl) (by
    rw [skipWs_noWs (noWs_cons hc.2.2)]
    exact Head.cons (f := fun c => c ≠ ')' ∧ isDashChar c = false) ⟨hc.1, hc.2.1⟩)

theorem fails_the {the X : Str} (ht : the = str!"a " ∨ the = str!"az ") (h1 : ¬ str!"következő" <+: X) (h2 : ¬ str!"alábbi" <+: X) {n : Nat} :
    Fails theFollowing n (the ++ X) := by
  refine Fails.bind_of (Reads.opt_some (reads_one (l := [str!"a ", str!"az "]) (w := the) ?_ ?_)) (Fails.alt (Fails.lit h1) (Fails.bind (Fails.lit h2)))
  · rcases ht with rfl | rfl <;> decide
  · rcases ht with rfl | rfl <;> decide

/-- Something after an article which is neither part of the reference nor the end of an amendment. -/
structure Tells (T : Str) : Prop where
  after : After T
  suffix : NoSuffix T
  insertion : ∀ n, Fails (call insertionToken) n T

theorem tells_beside {b : Beside} (hb : b.Usual) (S : Str) : Tells (' ' :: b.word ++ S) := by
  have hN := beside_next hb S
  have hsk : skipWs (' ' :: b.word ++ S) = b.word ++ S := skipWs_noWs hN.2
  have hword := hb.word
  have hns : NoSuffix (' ' :: b.word ++ S) := by
    cases hbf : b.before <;> rw [hbf] at hword <;> simp only [besideWords, List.mem_cons, List.not_mem_nil, or_false] at hword
    · refine ⟨?_, fun n => ?_⟩ <;> rw [hsk]
      · rcases hword with e | e <;> rw [e] <;> exact not_prefix_of_head (by decide) (by simp)
      · refine Fails.bind_of (t := []) (a := none) (Reads.opt_none (Fails.lits fun w hw => ?_)) (Fails.alt (Fails.lit ?_) (Fails.bind (Fails.lit ?_)))
        · simp only [List.mem_cons, List.not_mem_nil, or_false] at hw
          rcases hword with e | e <;> rw [e] <;> rcases hw with rfl | rfl <;> exact not_prefix_of_head (by decide) (by simp)
        · rcases hword with e | e <;> rw [e] <;> (rintro ⟨x, h⟩; simp at h)
        · rcases hword with e | e <;> rw [e] <;> exact not_prefix_of_head (by decide) (by simp)
    · refine noSuffix_head ?_
      rw [hsk]
      rcases hword with e | e | e <;> rw [e] <;> exact Head.cons (f := fun c => c ≠ 'a' ∧ c ≠ 'k' ∧ c ≠ 'h') (by decide)
  refine ⟨⟨hN.1, ?_⟩, hns, fun n => ?_⟩
  · refine .of_head ?_ ?_ ?_ <;> rw [hsk] <;> cases hbf : b.before <;> rw [hbf] at hword <;>
      simp only [besideWords, List.mem_cons, List.not_mem_nil, or_false] at hword
    · rcases hword with e | e <;> rw [e] <;> exact .cons (by decide)
    · rcases hword with e | e | e <;> rw [e] <;> exact .cons (by decide)
    · rcases hword with e | e <;> rw [e] <;> exact .cons (by decide)
    · rcases hword with e | e | e <;> rw [e] <;> exact .cons (by decide)
    · rcases hword with e | e <;> rw [e] <;>
        exact noMark_word (x := str!"kö") (c := 'v') (by decide) ⟨'ö', by decide, by decide⟩ (by decide)
    · rcases hword with e | e | e <;> rw [e]
      · exact noMark_word (x := str!"megelő") (c := 'z') (by decide) ⟨'ő', by decide, by decide⟩ (by decide)
      · exact noMark_word (x := str!"megelő") (c := 'z') (by decide) ⟨'ő', by decide, by decide⟩ (by decide)
      · exact noMark_word (x := str!"elő") (c := 't') (by decide) ⟨'ő', by decide, by decide⟩ (by decide)
  · refine Fails.call_space (s := b.word ++ S) hN.2 fun n => ?_
    refine Fails.bind_of (t := []) (a := ()) (Reads.call hN.2 ((Reads.many_nil (Fails.toks fun w hw => ?_)).map (g := fun _ => ()))) (Fails.call fun n => ?_)
    · change ¬ w <+: skipWs (b.word ++ S)
      rw [skipWs_noWs hN.2]
      simp only [List.mem_cons, List.not_mem_nil, or_false] at hw
      cases hbf : b.before <;> rw [hbf] at hword <;> simp only [besideWords, List.mem_cons, List.not_mem_nil, or_false] at hword
      · rcases hword with e | e <;> rw [e] <;> rcases hw with rfl | rfl | rfl | rfl <;> exact not_prefix_of_head (by decide) (by simp)
      · rcases hword with e | e | e <;> rw [e] <;> rcases hw with rfl | rfl | rfl | rfl <;> (rintro ⟨x, h⟩; simp at h)
    · change Fails theFollowing n (skipWs (b.word ++ S))
      exact hns.following _

/-- An article, perhaps after "a": if it is read as a reference, it is not the reference of an amendment. -/
theorem reference_one {the T : Str} {a : NamedArticle} (ht : the ∈ [[], str!"a ", str!"az "]) (ha : a.Usual) (hT : Tells T) (n : Nat) :
    Fails (call reference) n (' ' :: (the ++ (a.text ++ T))) ∨ ∃ t' u' r, ' ' :: (the ++ (a.text ++ T)) = t' ++ u' ∧
      Reads (call reference) n t' u' r ∧ ∀ n, Fails (call amendmentSuffix) n u' := by
  have hlev := levelText_one a T
  have hws : NoWs (the ++ (a.text ++ T)) := the_noWs ht hlev.noWs
  rcases the_cases ht with rfl | h
  · have := reads_referenceSp (onePhrase_usual ha) hT.after n
    rw [onePhrase_text] at this
    exact .inr ⟨_, T, _, rfl, this, fun n => hT.suffix.fails⟩
  · refine .inl (fails_call_reference (NoLevel.space ?_))
    have hd := one_digit a T
    have hsk : skipWs (a.text ++ T) = a.text ++ T := skipWs_noWs hlev.noWs
    refine .of_head ?_ ?_ ?_ <;> rw [skipWs_noWs hws]
    · rcases h with rfl | rfl <;> exact .cons (by decide)
    · rcases h with rfl | rfl <;> exact .cons (by decide)
    · refine noMark_text ?_ (.inr ⟨' ', ?_, by decide⟩) ?_
      · rcases h with rfl | rfl <;> decide
      · rcases h with rfl | rfl <;> decide
      · rw [hsk]
        exact hd.mono fun c hc => ⟨by rintro rfl; exact absurd hc (by decide), by
          cases hdc : isDashChar c
          · rfl
          · exact absurd hc (by rw [(by decide : ∀ c ∈ str!"−–-", isDigit c = false) c (by simpa [isDashChar] using hdc)]; decide)⟩

/-! ### a place of words is not amended by a block -/

theorem noBlock_target {t : Target} (ht : t.Usual) {R : Str} (h : Ended R) (hs : NoSuffix R) : NoBlock (' ' :: t.text ++ R) := by
  cases t with
  | provisions w p =>
    have hafter : After ((p.map PartWord.text).getD [] ++ R) ∧ (∀ v ∈ articleFollowers, ¬ v <+: skipWs ((p.map PartWord.text).getD [] ++ R)) ∧
        NoSuffix ((p.map PartWord.text).getD [] ++ R) := by
      cases p with
      | none => exact ⟨h.after, fun v hv => h.followers v (by simp [hv]), hs⟩
      | some y =>
        refine ⟨(partWord_after y R).1, (partWord_after y R).2, noSuffix_head ?_⟩
        obtain ⟨w, hw, e⟩ := partWord_text y
        show Head _ (skipWs (y.text ++ R))
        rw [e]
        rcases hw with ⟨-, rfl⟩ | ⟨-, rfl⟩ <;> exact .cons (by decide)
    have hnp := phrase_notPlace ht.1 hafter.1 hafter.2.1
    have e : ' ' :: Target.text (.provisions w p) ++ R = ' ' :: (w.text ++ ((p.map PartWord.text).getD [] ++ R)) := by simp [Target.text]
    rw [e]
    refine ⟨[], _, none, rfl, fun n => Reads.opt_none (Fails.call_space hnp.noWs hnp.structural), fun n => ?_⟩
    exact .inr ⟨' ' :: w.text, _, _, rfl, reads_referenceSp ht.1 hafter.1 n, fun _ => hafter.2.2.fails⟩
  | heading a sign w =>
    obtain ⟨ha, hsign, hw, hne⟩ := ht
    have hl : Listing.Fits ArticleUsual ⟨a, [], sign⟩ := ⟨ha, by simp⟩
    have hu : Phrase.Usual { article := some ⟨a, [], sign⟩ } := by
      refine ⟨?_, ?_, ?_, ?_, ?_, ?_, .inl rfl, .inl rfl, ?_, ?_⟩
      · rintro l ⟨⟩; exact ⟨hl, hsign⟩
      all_goals simp [Phrase.words]
    have e : ' ' :: Target.text (.heading a sign w) ++ R = ' ' :: (Phrase.text { article := some ⟨a, [], sign⟩ }) ++ (' ' :: w.text ++ R) := by
      simp [Target.text, Phrase.text, Phrase.words, Listing.words, Words.text]
    rw [e]
    have hword : ∃ x y, w.text ++ R = x ++ 'm' :: y ∧ x ∈ [str!"cí", str!"szakaszcí"] := by
      have := hw.1
      simp only [List.mem_cons, List.not_mem_nil, or_false] at this
      rcases this with e | e <;> rw [Inflected.text, e]
      · exact ⟨str!"cí", w.ending ++ R, by simp, by simp⟩
      · exact ⟨str!"szakaszcí", w.ending ++ R, by simp, by simp⟩
    obtain ⟨x, y, ex, hx⟩ := hword
    have hc : ∀ {f : Char → Prop}, f 'c' → f 's' → Head f (x ++ 'm' :: y) := by
      intro f h1 h2
      simp only [List.mem_cons, List.not_mem_nil, or_false] at hx
      rcases hx with rfl | rfl
      exacts [.cons h1, .cons h2]
    have hnw : NoWs (x ++ 'm' :: y) := hc (by decide) (by decide)
    have esk : skipWs (' ' :: (x ++ 'm' :: y)) = x ++ 'm' :: y := by
      show skipWs (x ++ 'm' :: y) = _
      exact skipWs_noWs hnw
    have hafter : After (' ' :: w.text ++ R) := by
      rw [List.cons_append, ex]
      refine ⟨⟨.cons (by decide), by rw [esk]; exact hc (by decide) (by decide)⟩, .of_head ?_ ?_ ?_⟩ <;> rw [esk]
      · exact hc (by decide) (by decide)
      · exact hc (by decide) (by decide)
      · refine noMark_text ?_ (.inr ⟨'í', ?_, by decide⟩) (.cons (by decide))
        · exact (by decide : ∀ x ∈ [str!"cí", str!"szakaszcí"], ∀ c ∈ x, c ≠ ')' ∧ isDashChar c = false) x hx
        · exact (by decide : ∀ x ∈ [str!"cí", str!"szakaszcí"], 'í' ∈ x) x hx
    have htext : Phrase.text { article := some ⟨a, [], sign⟩ } = (Listing.words articleSpan str!" §" ⟨a, [], sign⟩).text := by
      simp [Phrase.text, Phrase.words]
    refine ⟨[], _, none, rfl, fun n => Reads.opt_none ?_, fun n => ?_⟩
    · refine Fails.call_space ?_ fun n => ?_
      · exact (levelText_phrase hu _).noWs
      · rw [htext]; exact fails_structural_article hl hsign hafter.next
    · refine .inr ⟨_, _, _, rfl, reads_referenceSp hu hafter n, fun _ => NoSuffix.fails (noSuffix_head ?_)⟩
      rw [List.cons_append, ex, esk]
      exact hc (by decide) (by decide)
  | place p =>
    obtain ⟨b, e, o, hp⟩ := ht
    refine ⟨' ' :: p.text, R, some (placeAt p), rfl, fun n => Reads.opt_some (Reads.call_space (place_noWs hp R) (reads_structural hp (h.afterPlace p))),
      fun n => .inl (fails_call_reference h.after.none)⟩
  | placeIn q p =>
    obtain ⟨⟨b, d, hq⟩, e, o, hp⟩ := ht
    have e : ' ' :: Target.text (.placeIn q p) ++ R = (' ' :: q.text) ++ (' ' :: p.text ++ R) := by simp [Target.text]
    rw [e]
    refine ⟨' ' :: q.text, ' ' :: p.text ++ R, some (placeAt q), rfl, fun n => Reads.opt_some (Reads.call_space (place_noWs hq _)
      (reads_structural hq (afterPlace_space q (place_noWs hp R) (place_after hp R)))),
      fun n => .inl (fails_call_reference (NoLevel.space (place_noLevel hp R)))⟩
  | subtitles l =>
    obtain ⟨⟨es, hes⟩, hsep, hmore, he⟩ := ht
    have hl := listing_fits hes hsep
    have hp := subtitleList_notPart hl hmore R
    exact ⟨[], _, none, rfl, fun n => Reads.opt_none (Fails.call_space hp.noWs hp.structural),
      fun n => .inl (fails_call_reference (NoLevel.space (subtitleList_noLevel hl R)))⟩
  | beside q b name =>
    obtain ⟨hq, hb, hthe, hname⟩ := ht
    have hT := tells_beside hb (' ' :: name.text ++ R)
    have hnw := beside_noWs hb (' ' :: name.text ++ R)
    have e : b.text ++ (' ' :: name.text ++ R) = b.the ++ (b.article.text ++ (' ' :: b.word ++ (' ' :: name.text ++ R))) := by simp [Beside.text]
    cases q with
    | none =>
      have e2 : ' ' :: Target.text (.beside none b name) ++ R = ' ' :: (b.text ++ (' ' :: name.text ++ R)) := by simp [Target.text]
      rw [e2, e]
      exact ⟨[], _, none, rfl, fun n => Reads.opt_none (fails_structuralOne hb.the hb.article hT.after.next n),
        fun n => reference_one hb.the hb.article hT n⟩
    | some q =>
      obtain ⟨bk, d, hq⟩ := hq q rfl
      have e2 : ' ' :: Target.text (.beside (some q) b name) ++ R = (' ' :: q.text) ++ (' ' :: (b.text ++ (' ' :: name.text ++ R))) := by
        simp [Target.text]
      rw [e2]
      refine ⟨' ' :: q.text, _, some (placeAt q), rfl, fun n => Reads.opt_some (Reads.call_space (place_noWs hq _)
        (reads_structural hq (afterPlace_space q hnw (beside_after hb _)))), fun n => ?_⟩
      rw [e]
      exact reference_one hb.the hb.article hT n
  | attachments a =>
    have hp := attachment_notPlace ht R
    exact ⟨[], _, none, rfl, fun n => Reads.opt_none (Fails.call_space hp.noWs hp.structural),
      fun n => .inl (fails_call_reference (NoLevel.space (attachment_noLevel ht R)))⟩

/-! ### the end of the sentence -/

/-- The end of a sentence which changes words. -/
def textEnd (comma inForce : Bool) : Str :=
  (if comma then str!"," else []) ++ (str!" lép" ++ ((if inForce then str!" hatályba" else []) ++ str!"."))

theorem textEnd_next (comma inForce : Bool) : Next (textEnd comma inForce) := by
  cases comma <;> cases inForce <;> exact ⟨.cons (by decide), .cons (by decide)⟩

theorem textEnd_fails (comma inForce : Bool) (n : Nat) : Fails (do call listSeparator; call textAmendmentPart) n (textEnd comma inForce) := by
  cases comma with
  | false => exact Fails.bind (fails_listSeparator (by cases inForce <;> exact .cons (by decide)))
  | true =>
    have e : textEnd true inForce = str!", " ++ (str!"lép" ++ ((if inForce then str!" hatályba" else []) ++ str!".")) := by simp [textEnd]
    rw [e]
    refine fails_separated (by decide) (itemStart_of_head (c := 'l') rfl (by decide) (by decide)) fun n => ?_
    refine Fails.bind_of (t := []) (rest := str!"lép" ++ ((if inForce then str!" hatályba" else []) ++ str!".")) (reads_noAz (.cons (by decide)) (noWs_cons (by decide))) ?_
    exact Fails.bind (Fails.call_noWs (noWs_cons (by decide)) fun _ => fails_quote (.cons (by decide)))

theorem reads_textEnd (comma inForce : Bool) (x : α) (n : Nat) :
    ReadsG G (PS.lift (opt (tok str!",")) >>= fun _ => PS.lift (tok str!"lép") >>= fun _ => PS.lift (opt (tok str!"hatályba")) >>= fun _ =>
      PS.lift (tok str!".") >>= fun _ => (pure x : PS α)) n (textEnd comma inForce) [] x := by
  have h3 : ∀ n, ReadsG G (PS.lift (tok str!".") >>= fun _ => (pure x : PS α)) n str!"." [] x := fun n =>
    ReadsG.map (g := fun _ => x) (ReadsG.lift (Reads.tok (noWs_cons (by decide))))
  have h2 : ∀ n, ReadsG G (PS.lift (opt (tok str!"hatályba")) >>= fun _ => PS.lift (tok str!".") >>= fun _ => (pure x : PS α)) n
      ((if inForce then str!" hatályba" else []) ++ str!".") [] x := fun n => by
    cases inForce with
    | true => exact ReadsG.bind (t := str!" hatályba") (a := some ()) (ReadsG.lift (Reads.opt_some (Reads.tok_space (noWs_cons (by decide))))) (h3 _)
    | false => exact ReadsG.bind (t := []) (a := none) (ReadsG.lift (Reads.opt_none (Fails.tok (by decide) (by decide)))) (h3 _)
  have h1 : ∀ n, ReadsG G (PS.lift (tok str!"lép") >>= fun _ => PS.lift (opt (tok str!"hatályba")) >>= fun _ => PS.lift (tok str!".") >>= fun _ => (pure x : PS α)) n
      (str!" lép" ++ ((if inForce then str!" hatályba" else []) ++ str!".")) [] x := fun n =>
    ReadsG.bind (t := str!" lép") (a := ()) (ReadsG.lift (Reads.tok_space (noWs_cons (by decide)))) (h2 _)
  cases comma with
  | true => exact ReadsG.bind (t := str!",") (a := some ()) (ReadsG.lift (Reads.opt_some (Reads.tok (noWs_cons (by decide))))) (h1 _)
  | false =>
    refine ReadsG.bind (t := []) (a := none) (ReadsG.lift (Reads.opt_none (Fails.tok (by decide) ?_))) (h1 _)
    simp [skipWs, isWs]

/-- The text after the act, in parts. -/
theorem textRest_eq (s : TextSentence) : s.rest = (' ' :: (s.first.text ++ listText Target.text s.others)) ++
    ((' ' :: s.article ++ (' ' :: s.change.text ++ listText TextChange.text s.changes)) ++ textEnd s.comma s.inForce) := by
  simp [TextSentence.rest, textEnd]

/-- What is after the places. -/
theorem textRest_quote (s : TextSentence) : ∃ r, (' ' :: s.article ++ (' ' :: s.change.text ++ listText TextChange.text s.changes)) ++ textEnd s.comma s.inForce =
    ' ' :: s.article ++ (' ' :: '„' :: r) := by
  obtain ⟨t, ht⟩ := textChange_head s.change (listText TextChange.text s.changes ++ textEnd s.comma s.inForce)
  exact ⟨t, by rw [← ht]; simp⟩

theorem quote_noSeparator {a : Str} (ha : a ∈ [str!"a", str!"az"]) (r : Str) (n : Nat) : Fails (call listSeparator) n (' ' :: a ++ r) := by
  simp only [List.mem_cons, List.not_mem_nil, or_false] at ha
  rcases ha with rfl | rfl <;> exact fails_listSeparator (.cons (by decide))

theorem textRest_shut {s : TextSentence} (hs : s.Usual) (t : Target) :
    TargetShut t ((' ' :: s.article ++ (' ' :: s.change.text ++ listText TextChange.text s.changes)) ++ textEnd s.comma s.inForce) := by
  intro a _
  refine ⟨fun n => ?_, fun _ n => by rw [List.append_assoc]; exact quote_noSeparator hs.article _ n⟩
  have e : (' ' :: s.article ++ (' ' :: s.change.text ++ listText TextChange.text s.changes)) ++ textEnd s.comma s.inForce =
      ' ' :: s.article ++ (str!" „" ++ (s.change.old ++ str!"”") ++ (' ' :: str!"szöveg" ++ (s.change.oldEnding ++ str!" " ++ s.change.how ++ str!" " ++
        s.change.article ++ str!"„" ++ s.change.new ++ str!"”" ++ (s.change.newEnding.map fun e => str!" szöveg" ++ e).getD [] ++
        listText TextChange.text s.changes ++ textEnd s.comma s.inForce))) := by
    simp [TextChange.text]
  rw [e]
  exact quote_noJunk hs.article hs.change.old _ n

theorem noBlock_sentence {s : TextSentence} (hs : s.Usual) : NoBlock s.rest := by
  obtain ⟨r, hr⟩ := textRest_quote s
  rw [textRest_eq, hr]
  cases ho : s.others with
  | nil =>
    have e : ' ' :: (s.first.text ++ listText Target.text []) ++ (' ' :: s.article ++ (' ' :: '„' :: r)) =
        ' ' :: s.first.text ++ (' ' :: s.article ++ (' ' :: '„' :: r)) := by simp [listText]
    rw [e]
    exact noBlock_target hs.first.1 (ended_quote hs.article r) (noSuffix_quote hs.article r)
  | cons y l =>
    obtain ⟨sep, t⟩ := y
    have hy : sep ∈ separators ∧ t.Usual := hs.others (sep, t) (by rw [ho]; exact List.mem_cons_self ..)
    have e : ' ' :: (s.first.text ++ listText Target.text ((sep, t) :: l)) ++ (' ' :: s.article ++ (' ' :: '„' :: r)) =
        ' ' :: s.first.text ++ (sep ++ (t.text ++ (listText Target.text l ++ (' ' :: s.article ++ (' ' :: '„' :: r))))) := by simp [listText]
    rw [e]
    refine noBlock_target hs.first.1 (ended_separator hy.1 (target_start hy.2 _).2) (noSuffix_head ?_)
    exact joined_head ⟨sep, hy.1, _, rfl⟩ (by decide)

/-- The sentence is read. -/
theorem reads_textSentence {s : TextSentence} (hs : s.Usual) {A I : Str} {a : ActReference} (hA : A ∈ articles)
    (hi : ReadsG G titledActReference (byteLen A) I s.rest a) : ∃ xs, List.Forall₂ TargetAt s.targets xs ∧
      ReadsG G textAmendment 0 (A ++ (I ++ s.rest)) [] ⟨a, xs, s.allChanges.map fun x => (x.old, x.new)⟩ := by
  obtain ⟨r, hr⟩ := textRest_quote s
  obtain ⟨t1, t2, x, xs, e, -, h1, h2, h3⟩ := reads_targets s.others hs.others (rest := (' ' :: s.article ++ (' ' :: s.change.text ++ listText TextChange.text s.changes)) ++
    textEnd s.comma s.inForce) (by rw [hr]; exact ended_quote hs.article r) (fun n => by rw [List.append_assoc]; exact quote_noSeparator hs.article _ n)
    s.first hs.first.1 hs.attachments (fun r _ => textRest_shut hs r.2) [' '] (.inr rfl) (byteLen A + byteLen I)
  refine ⟨x :: xs, h3, ReadsG.bind (ReadsG.lift (reads_azAny hA)) (ReadsG.bind (by rw [List.append_nil, Nat.zero_add]; exact hi) ?_)⟩
  rw [Nat.zero_add, textRest_eq]
  have e' : ' ' :: (s.first.text ++ listText Target.text s.others) = t1 ++ t2 := by rw [← e]; rfl
  rw [e']
  refine ReadsG.bind (a := x :: xs) (ReadsG.lift ?_) (ReadsG.bind (ReadsG.lift (reads_changesList hs.article hs.change s.changes hs.changes (rest := textEnd s.comma s.inForce ++ [])
    (by rw [List.append_nil]; exact textEnd_next _ _) (fun n => by rw [List.append_nil]; exact textEnd_fails _ _ n) hs.last _)) (reads_textEnd _ _ _ _))
  rw [List.append_nil]
  exact Reads.bind h1 (Reads.map (g := fun l => x :: l) h2)

/-- How a sentence which changes words is parsed. -/
theorem parse_textSentence {s : TextSentence} (hs : s.Usual) {A I : Str} {a : ActReference} (hG : G ⟨known, []⟩) (hA : A ∈ articles)
    (hi : ReadsG G titledActReference (byteLen A) I s.rest a)
    (h1 : ∀ u x j t, (entire blockAmendment .blockAmendment).run ⟨0, A ++ (I ++ s.rest)⟩ u ≠ (some (x, j), t))
    (h2 : ∀ u x j t, (entire blockAmendmentWithSubtitle .blockAmendmentWithSubtitle).run ⟨0, A ++ (I ++ s.rest)⟩ u ≠ (some (x, j), t))
    (h3 : ∀ u x j t, (entire blockAmendmentStructural .blockAmendmentStructural).run ⟨0, A ++ (I ++ s.rest)⟩ u ≠ (some (x, j), t)) :
    ∃ xs, List.Forall₂ TargetAt s.targets xs ∧
      parse (A ++ (I ++ s.rest)) known = some (.textAmendment ⟨a, xs, s.allChanges.map fun x => (x.old, x.new)⟩) := by
  obtain ⟨xs, hxs, hr⟩ := reads_textSentence hs hA hi
  obtain ⟨f1, f2, f3⟩ := fails_blocks hA hi (noBlock_sentence hs) h1 h2 h3
  refine ⟨xs, hxs, parse_of_root hG ?_⟩
  refine ReadsG.right (by rw [List.append_nil]; exact f1) (ReadsG.right (by rw [List.append_nil]; exact f2) (ReadsG.right (by rw [List.append_nil]; exact f3) (ReadsG.left ?_)))
  exact reads_entire (article_noWs hA _) hr

end HunLaw.Grammar
