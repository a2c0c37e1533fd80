import Verif.Lemmas.SemanticInfo

/-! The byte ranges of the references of an element. -/

set_option autoImplicit false

namespace HunLaw.Semantic

open HunLaw Spec Grammar

theorem charBoundary_of_step {s : Str} {j : Inp} (h : Inp.Step ⟨0, s⟩ j) : CharBoundary s j.pos := by
  obtain ⟨c, h1, h2⟩ := h
  exact ⟨c, j.rest, h1, by simp at h2; exact h2.symm⟩

theorem inOrder_of_marks {s : Str} {l : List OutgoingRef} {i e : Inp} (h : Marks i (outPos l) e)
    (hs : Inp.Step ⟨0, s⟩ i) : RangesInOrder s i.pos (ranges l) := by
  induction l generalizing i with
  | nil => trivial
  | cons r l ih =>
    simp only [outPos, List.map_cons] at h
    generalize hp : (⟨r.start, r.fin⟩ : Pos) = p at h
    generalize hl : l.map (fun r => (⟨r.start, r.fin⟩ : Pos)) = l' at h
    cases h with
    | @cons _ a b _ _ h1 h2 h3 h4 =>
      simp only [Pos.mk.injEq] at hp
      subst hl
      refine ⟨?_, ?_, ?_, ?_, ?_⟩
      · rw [hp.1]; exact h1.le
      · rw [hp.1, hp.2]; exact h3
      · rw [hp.1]; exact charBoundary_of_step (hs.trans h1)
      · rw [hp.2]; exact charBoundary_of_step (hs.trans (h1.trans h2))
      · have := ih (i := b) h4 (hs.trans (h1.trans h2))
        rw [hp.2]; exact this

/-- The references of a text are in order. -/
theorem parse_inOrder {s : Str} {known : List Str} {x : Root} {c : Cache} {refs : List OutgoingRef}
    (hk : ∀ a ∈ known, a ≠ []) (h : parse s known = some x) (hr : outgoingRefs c x = some refs) :
    RangesInOrder s 0 (ranges refs) := by
  obtain ⟨e, he⟩ := parse_marks hk h hr
  exact inOrder_of_marks he (.refl _)

theorem byteLen_eq_zero {s : Str} (h : byteLen s = 0) : s = [] := by
  cases s with
  | nil => rfl
  | cons c s =>
    have := byteLen_pos (s := c :: s) (by simp)
    omega

theorem charBoundary_zero (s : Str) : CharBoundary s 0 := ⟨[], s, rfl, rfl⟩

theorem prefix_of_byteLen {a b c d : Str} (h : a ++ b = c ++ d) (hl : byteLen a ≤ byteLen c) : ∃ e, c = a ++ e ∧ b = e ++ d := by
  rcases List.append_eq_append_iff.1 h with ⟨e, h1, h2⟩ | ⟨e, h1, h2⟩
  · exact ⟨e, h1, h2⟩
  · rw [h1, byteLen_append'] at hl
    have := byteLen_eq_zero (s := e) (by omega)
    subst this
    exact ⟨[], by simpa using h1.symm, by simpa using h2.symm⟩

theorem charBoundary_inside {pre mid post : Str} {n : Nat} (h : CharBoundary (pre ++ mid ++ post) n)
    (h1 : byteLen pre ≤ n) (h2 : n + byteLen post ≤ byteLen (pre ++ mid ++ post)) :
    CharBoundary mid (n - byteLen pre) := by
  obtain ⟨b, a, hb, rfl⟩ := h
  rw [List.append_assoc] at hb
  obtain ⟨e, rfl, h3⟩ := prefix_of_byteLen hb h1
  simp only [byteLen_append'] at h2
  obtain ⟨f, rfl, -⟩ := prefix_of_byteLen h3.symm (by omega)
  exact ⟨e, f, rfl, by rw [byteLen_append']; omega⟩

theorem inOrder_lower {s : Str} {lo lo' : Nat} {l : List (Nat × Nat)} (h : RangesInOrder s lo l) (hl : lo' ≤ lo) :
    RangesInOrder s lo' l := by
  cases l with
  | nil => trivial
  | cons p l =>
    obtain ⟨h1, h2⟩ := h
    exact ⟨by omega, h2⟩

theorem inOrder_mono {s t : Str} (ht : ∀ n, CharBoundary s n → CharBoundary t n) {l : List (Nat × Nat)} {lo : Nat}
    (h : RangesInOrder s lo l) : RangesInOrder t lo l := by
  induction l generalizing lo with
  | nil => trivial
  | cons p l ih =>
    obtain ⟨h1, h2, h3, h4, h5⟩ := h
    exact ⟨h1, h2, ht _ h3, ht _ h4, ih h5⟩

theorem inOrder_le {s : Str} {l : List (Nat × Nat)} {lo : Nat} (h : RangesInOrder s lo l) :
    ∀ p ∈ l, p.1 < p.2 ∧ p.2 ≤ byteLen s := by
  induction l generalizing lo with
  | nil => simp
  | cons p l ih =>
    obtain ⟨h1, h2, h3, ⟨b, a, hs, hb⟩, h5⟩ := h
    intro q hq
    rcases List.mem_cons.1 hq with rfl | hq
    · refine ⟨h2, ?_⟩
      rw [hs, byteLen_append']; omega
    · exact ih h5 q hq

theorem inOrder_own {pre mid post : Str} {refs : List OutgoingRef} {lo : Nat}
    (h : RangesInOrder (pre ++ mid ++ post) lo (ranges refs)) :
    RangesInOrder mid (lo - byteLen pre)
      (ranges (ownReferences (byteLen pre) (byteLen post) (byteLen (pre ++ mid ++ post)) refs)) := by
  induction refs generalizing lo with
  | nil => trivial
  | cons r refs ih =>
    obtain ⟨h1, h2, h3, h4, h5⟩ := h
    unfold ownReferences ranges at ih ⊢
    rw [List.filter_cons]
    split
    · rename_i hf
      simp only [decide_eq_true_eq] at hf
      refine ⟨by simp only; omega, by simp only; omega, ?_, charBoundary_inside h4 (by omega) hf.2, ih h5⟩
      simp only
      by_cases hs : byteLen pre ≤ r.start
      · exact charBoundary_inside h3 hs (by omega)
      · rw [show r.start - byteLen pre = 0 by omega]
        exact charBoundary_zero _
    · exact inOrder_lower (ih h5) (by omega)

/-! ### What is parsed -/

theorem stripSuffix_some {s t r : Str} (h : stripSuffix s t = some r) : s = r ++ t := by
  unfold stripSuffix at h
  split at h
  · rename_i hs
    cases h
    exact (List.take_append_drop (s.length - t.length) s).symm.trans (congrArg (_ ++ ·) hs.2)
  · simp at h

theorem strip_fold (js : List Str) (s : Str) :
    ∃ cut : List Str, cut.Sublist js ∧
      s = js.foldl (fun m j => (stripSuffix m j).getD m) s ++ cut.reverse.flatten := by
  induction js generalizing s with
  | nil => exact ⟨[], .slnil, by simp⟩
  | cons j js ih =>
    rw [List.foldl_cons]
    rcases hj : stripSuffix s j with _ | r
    · obtain ⟨cut, h1, h2⟩ := ih s
      exact ⟨cut, h1.cons j, h2⟩
    · obtain ⟨cut, h1, h2⟩ := ih r
      refine ⟨j :: cut, h1.cons_cons j, ?_⟩
      rw [stripSuffix_some hj, List.reverse_cons, List.flatten_append, ← List.append_assoc]
      rw [List.flatten_cons, List.flatten_nil, List.append_nil]
      exact congrArg (· ++ j) h2

/-- What is cut off the end of a text consists of conjunctions and punctuation. -/
theorem stripJunk_cut (s : Str) :
    ∃ cut : List Str, cut.Sublist junkEndings ∧ s = stripJunk s ++ cut.reverse.flatten := strip_fold junkEndings s

theorem junk_head (cut : List Str) (h : cut.Sublist junkEndings) :
    cut.reverse.flatten = [] ∨ ∃ c l, cut.reverse.flatten = c :: l ∧ utf8Len c = 1 := by
  have hm : ∀ j ∈ cut, ∃ c l, j = c :: l ∧ utf8Len c = 1 := by
    intro j hj
    have := h.subset hj
    simp only [junkEndings, List.mem_cons, List.not_mem_nil, or_false] at this
    rcases this with rfl | rfl | rfl | rfl | rfl | rfl | rfl | rfl <;> exact ⟨_, _, rfl, by decide⟩
  rcases hr : cut.reverse with _ | ⟨j, l⟩
  · exact .inl rfl
  · obtain ⟨c, l', rfl, hc⟩ := hm j (by rw [← List.mem_reverse, hr]; simp)
    exact .inr ⟨c, l' ++ l.flatten, by simp, hc⟩

/-- The part of the parsed text that belongs to the element. -/
def ownText (text after : Str) : Str :=
  stripJunk text ++ (if after = [] ∧ endsSentence (stripJunk text) = false then ['.'] else [])

theorem assemble_eq (before text after : Str) :
    assemble before text after = before ++ ownText text after ++ after := by
  unfold assemble ownText
  by_cases h : after = []
  · subst h
    by_cases h2 : endsSentence (stripJunk text) = true
    · simp [h2]
    · simp [h2]
  · simp [h]

theorem charBoundary_append {s t : Str} {n : Nat} (h : CharBoundary s n) : CharBoundary (s ++ t) n := by
  obtain ⟨b, a, rfl, h⟩ := h
  exact ⟨b, a ++ t, by simp, h⟩

theorem charBoundary_split {s t : Str} {n : Nat} (h : CharBoundary (s ++ t) n) :
    CharBoundary s n ∨ ∃ b a, t = b ++ a ∧ b ≠ [] ∧ n = byteLen s + byteLen b := by
  obtain ⟨b, a, h, rfl⟩ := h
  rcases List.append_eq_append_iff.1 h with ⟨e, rfl, rfl⟩ | ⟨e, rfl, rfl⟩
  · by_cases he : e = []
    · subst he
      exact .inl ⟨s, [], by simp, by simp⟩
    · exact .inr ⟨e, a, rfl, he, by rw [byteLen_append']⟩
  · exact .inl ⟨b, e, rfl, rfl⟩

theorem dot_boundary {b a : Str} (h : ['.'] = b ++ a) (hb : b ≠ []) : byteLen b = 1 := by
  cases b with
  | nil => simp at hb
  | cons c b =>
    simp only [List.cons_append, List.cons.injEq] at h
    have : b = [] := (List.append_eq_nil_iff.1 h.2.symm).1
    rw [this, ← h.1]
    rfl

theorem ownText_inside {text after : Str}
    (h : after ≠ [] ∨ endsSentence (stripJunk text) = true ∨ stripJunk text ≠ text) (n : Nat)
    (hn : CharBoundary (ownText text after) n) : CharBoundary text n := by
  obtain ⟨cut, hs, ht⟩ := stripJunk_cut text
  rw [ht]
  unfold ownText at hn
  split at hn
  · rename_i hc
    rcases charBoundary_split hn with hn | ⟨b, a, hb, hne, rfl⟩
    · exact charBoundary_append hn
    · rcases junk_head cut hs with hj | ⟨c, l, hj, hc1⟩
      · rw [hj, List.append_nil] at ht
        rcases h with h | h | h
        · exact absurd hc.1 h
        · rw [hc.2] at h; simp at h
        · exact absurd ht.symm h
      · rw [hj, dot_boundary hb hne]
        refine ⟨stripJunk text ++ [c], l, by simp, ?_⟩
        rw [byteLen_append']
        simp [byteLen, hc1]
  · rw [List.append_nil] at hn
    exact charBoundary_append hn

theorem ownText_dot {text after : Str} (n : Nat)
    (hn : CharBoundary (ownText text after) n) : CharBoundary (text ++ ['.']) n := by
  by_cases h : after ≠ [] ∨ endsSentence (stripJunk text) = true ∨ stripJunk text ≠ text
  · exact charBoundary_append (ownText_inside h n hn)
  · simp only [not_or, Decidable.not_not] at h
    unfold ownText at hn
    rw [h.2.2] at hn
    split at hn
    · exact hn
    · rw [List.append_nil] at hn; exact charBoundary_append hn

/-! ### The abbreviations stay good -/

/-- Every act reference of a parsed text is at a place in it. -/
theorem rootActs_run {o : Inp} {known : List Str} {x : Root} {i j : Inp} (h : RootR o known i x j) (ho : o.Step i) :
    ∀ r ∈ rootActs x, ∃ k m, o.Step k ∧ ActR o known k r m := by
  cases x with
  | blockAmendment x =>
    obtain ⟨k, h1, -⟩ := h
    intro r hr
    simp only [rootActs, List.mem_singleton] at hr
    subst hr
    exact ⟨i, k, ho, h1⟩
  | blockAmendmentWithSubtitle x =>
    obtain ⟨k, m, h1, -⟩ := h
    intro r hr
    simp only [rootActs, List.mem_singleton] at hr
    subst hr
    exact ⟨i, k, ho, h1⟩
  | blockAmendmentStructural x =>
    intro r hr
    simp only [rootActs, List.mem_singleton] at hr
    subst hr
    exact ⟨i, j, ho, h⟩
  | textAmendment x =>
    obtain ⟨k, h1, -⟩ := h
    intro r hr
    simp only [rootActs, List.mem_singleton] at hr
    subst hr
    exact ⟨i, k, ho, h1⟩
  | enforcementDate x => simp [rootActs]
  | repeal x =>
    obtain ⟨k, h1, -⟩ := h
    intro r hr
    simp only [rootActs, List.mem_singleton] at hr
    subst hr
    exact ⟨i, k, ho, h1⟩
  | simple l =>
    change Seq (ExprR o known) i l j at h
    induction h with
    | nil _ => simp [rootActs]
    | @cons i k j x l h1 _ ih =>
      intro r hr
      simp only [rootActs, List.flatMap_cons, List.mem_append] at hr
      rcases hr with hr | hr
      · cases x with
        | compound c =>
          obtain ⟨m, h2, -⟩ := h1
          simp only [expressionActs, Option.mem_toList] at hr
          rw [hr] at h2
          exact ⟨_, _, ho, h2⟩
        | quote s => simp [expressionActs] at hr
        | attachment => simp [expressionActs] at hr
        | token => simp [expressionActs] at hr
      · have hs : i.Step k := by
          cases x with
          | compound c => exact compoundR_step h1
          | quote s => exact h1
          | attachment => exact h1
          | token => exact h1
        exact ih (ho.trans hs) r hr

theorem parse_acts {s : Str} {known : List Str} {x : Root} (hk : ∀ a ∈ known, a ≠ []) (h : parse s known = some x) :
    ∀ r ∈ rootActs x, ∃ k m, Inp.Step ⟨0, s⟩ k ∧ ActR ⟨0, s⟩ known k r m := by
  obtain ⟨k, m, h1, h2⟩ := parse_run hk h
  exact rootActs_run h2 h1

theorem mapM_mem {α β : Type} {f : α → Option β} {l : List α} {m : List β} (h : l.mapM f = some m) :
    ∀ b ∈ m, ∃ a ∈ l, f a = some b := by
  induction l generalizing m with
  | nil => simp at h; subst h; simp
  | cons a l ih =>
    rw [List.mapM_cons] at h
    obtain ⟨b, hb, h⟩ := bind_some_split h
    obtain ⟨m', hm, h⟩ := bind_some_split h
    cases h
    intro x hx
    rcases List.mem_cons.1 hx with rfl | hx
    · exact ⟨a, by simp, hb⟩
    · obtain ⟨a', h1, h2⟩ := ih hm x hx
      exact ⟨a', by simp [h1], h2⟩

/-- A new abbreviation is introduced in the text. -/
theorem newAbbreviations_introduced {s : Str} {known : List Str} {x : Root} {new : List (Str × ActId)}
    (hk : ∀ a ∈ known, a ≠ []) (h : parse s known = some x) (hn : getNewAbbreviations x = some new) :
    ∀ e ∈ new, Introduces s e.1 := by
  intro e he
  obtain ⟨y, hy, hc⟩ := mapM_mem hn e he
  obtain ⟨r, hr, hr'⟩ := List.mem_filterMap.1 hy
  obtain ⟨k, m, -, _, _, -, -, -, -, -, -, hi⟩ := parse_acts hk h r hr
  unfold newAbbreviation at hr'
  split at hr'
  · cases hr'
    obtain ⟨a, -, hc⟩ := bind_some_split hc
    cases hc
    exact hi _ _ rfl
  · simp at hr'

/-- No abbreviation is empty. -/
def NoEmpty (c : Cache) : Prop := ∀ a ∈ c.allAbbreviations, a ≠ []

theorem noEmpty_addMultiple {c : Cache} {new : List (Str × ActId)} (h : NoEmpty c) (hn : ∀ e ∈ new, e.1 ≠ []) :
    NoEmpty (c.addMultiple new) := by
  induction new generalizing c with
  | nil => exact h
  | cons e new ih =>
    refine ih (c := c.add e.1 e.2) (fun a ha => ?_) fun e' he' => hn e' (by simp [he'])
    unfold Cache.add at ha
    split at ha
    · split at ha
      · rcases mem_mapInsert ha with rfl | ha
        · exact hn e (by simp)
        · exact h a ha
      · exact h a ha
    · rcases mem_mapInsert ha with rfl | ha
      · exact hn e (by simp)
      · exact h a ha

theorem readText_facts {c c' : Cache} {r : Reading} {i : SemanticInfo} (hc : NoEmpty c)
    (h : readText c r = some (i, c')) :
    NoEmpty c' ∧ RangesInOrder (ownText r.text r.after) 0 (ranges i.outgoingReferences) := by
  rw [readText_eq] at h
  obtain ⟨root, h1, h⟩ := bind_some_split h
  obtain ⟨new, h2, h⟩ := bind_some_split h
  obtain ⟨refs, h3, h⟩ := bind_some_split h
  obtain ⟨ph, h4, h⟩ := bind_some_split h
  cases h
  refine ⟨noEmpty_addMultiple hc fun e he => ?_, ?_⟩
  · obtain ⟨_, _, _, -, -, hne, -⟩ := newAbbreviations_introduced hc h1 h2 e he
    exact hne
  · have := parse_inOrder hc h1 h3
    rw [assemble_eq] at this ⊢
    have := inOrder_own this
    simpa using this

theorem readTexts_facts {c c' : Cache} {l : List (Reading × SemanticInfo)} (hc : NoEmpty c)
    (h : readTexts c (l.map (·.1)) = some (l.map (·.2), c')) :
    NoEmpty c' ∧ ∀ x ∈ l, RangesInOrder (ownText x.1.text x.1.after) 0 (ranges x.2.outgoingReferences) := by
  induction l generalizing c with
  | nil => cases h; exact ⟨hc, by simp⟩
  | cons x l ih =>
    simp only [List.map_cons, readTexts] at h
    obtain ⟨y, h1, h⟩ := bind_some_split h
    obtain ⟨z, h2, h⟩ := bind_some_split h
    simp only [Option.some.injEq, Prod.mk.injEq, List.cons.injEq] at h
    obtain ⟨⟨hy, hz⟩, rfl⟩ := h
    obtain ⟨g1, g2⟩ := readText_facts (i := x.2) (c' := y.2) hc (by rw [h1, ← hy])
    obtain ⟨g3, g4⟩ := ih g1 (by rw [h2, ← hz])
    refine ⟨g3, fun w hw => ?_⟩
    rcases List.mem_cons.1 hw with rfl | hw
    · exact g2
    · exact g4 w hw

end HunLaw.Semantic
