import Verif.Lemmas.Printed
import Verif.Spec.Printed

/-! Property C116: printed references are read back. -/

set_option autoImplicit false

namespace HunLaw.Props

open HunLaw Spec Semantic Grammar P

/-! ### the form -/

theorem printed_usual {r : Ref} (hg : NoGaps r) (hr : Printable r)
    (hne : ¬ (r.article = none ∧ r.paragraph = none ∧ r.point = none ∧ r.subpoint = none)) : (printed r).Usual := by
  obtain ⟨g1, g2⟩ := gaps hg
  have e0 : Ending [] := by simp [Ending]
  have e1 : Ending str!"e" := by unfold Ending; decide
  have e2 : Ending str!"ja" := by unfold Ending; decide
  constructor
  · intro l h
    simp only [printed, Option.map_eq_some_iff] at h
    obtain ⟨x, hx, rfl⟩ := h
    obtain ⟨h1, h2, h3⟩ := hr.article x hx
    refine ⟨⟨?_, by simp⟩, ?_⟩
    · simp only
      unfold spanOf
      split
      · exact ⟨by decide, h1, h2, h3⟩
      · exact h2
    · simp only
      split
      · exact .inl rfl
      · exact .inr ⟨str!"a", rfl, by simp, by unfold Ending; decide⟩
  · intro l h
    simp only [printed, Option.map_eq_some_iff] at h
    obtain ⟨x, hx, rfl⟩ := h
    refine ⟨⟨spanOf_fits trivial trivial, by simp⟩, ?_⟩
    simp only
    split
    · exact e0
    · exact e1
  · intro l h
    simp only [printed] at h
    split at h
    · cases h
      refine ⟨⟨spanOf_fits trivial trivial, by simp⟩, ?_⟩
      simp only
      split
      · exact e0
      · exact e2
    · cases h
  · intro l h
    simp only [printed] at h
    split at h
    · cases h
      refine ⟨⟨spanOf_fits trivial trivial, by simp⟩, ?_⟩
      simp only
      split
      · exact e0
      · exact e2
    · cases h
  · intro l h
    simp only [printed] at h
    split at h
    · rename_i x hx
      cases h
      obtain ⟨h1, h2⟩ := hr.numericSubpoint x hx
      exact ⟨⟨spanOf_fits h1 h2, by simp⟩, e2⟩
    · cases h
  · intro l h
    simp only [printed] at h
    split at h
    · rename_i x hx
      cases h
      obtain ⟨h1, h2⟩ := hr.alphabeticSubpoint x hx
      exact ⟨⟨spanOf_fits h1 h2, by simp⟩, e2⟩
    · cases h
  · simp only [printed]
    rcases r.point with _ | (x | x) <;> simp
  · simp only [printed]
    rcases r.subpoint with _ | (x | x) <;> simp
  · intro h1 h2
    have hp : r.point ≠ none := by
      intro hp
      have hs := g2 (by
        rcases h2 with h2 | h2
        · exact .inl (fun h => h2 (by simp [printed, h]))
        · exact .inr (fun h => h2 (by simp [printed, h]))) hp
      rcases h1 with h1 | h1
      · exact h1 (by simp [printed, hs])
      · exact h1 (by simp [printed, hs])
    simp only [printed]
    cases hx : r.point with
    | none => exact absurd hx hp
    | some x => cases x <;> simp
  · obtain ⟨act, article, paragraph, point, subpoint⟩ := r
    simp only at hne
    rcases article with _ | article <;> rcases paragraph with _ | paragraph <;>
      rcases point with _ | (point | point) <;> rcases subpoint with _ | (subpoint | subpoint) <;>
      first
      | (exfalso; exact hne ⟨rfl, rfl, rfl, rfl⟩)
      | simp [printed, Phrase.words]

theorem printedGroup_usual {r : Ref} (hg : NoGaps r) (hr : Printable r) : (printedGroup r).Usual := by
  constructor
  · intro a h
    simp only [printedGroup, Option.map_eq_some_iff] at h
    obtain ⟨x, hx, rfl⟩ := h
    obtain ⟨h1, h2, h3⟩ := hr.act x hx
    exact ⟨h1, h2, h3, .inl ⟨str!"y", rfl, by unfold Ending; decide, by simp⟩⟩
  · intro x hx
    simp only [printedGroup] at hx
    split at hx
    · simp at hx
    · rename_i hn
      simp only [List.mem_cons, List.not_mem_nil, or_false] at hx
      subst hx
      exact printed_usual hg hr hn
  · intro x hx
    simp only [printedGroup] at hx ⊢
    split at hx
    · simp at hx
    · simp only [List.head?_cons, Option.some.injEq] at hx
      subst hx
      simp
  · intro x hx
    simp only [printedGroup] at hx
    split at hx <;> simp at hx
  · obtain ⟨act, article, paragraph, point, subpoint⟩ := r
    have := hr.nonEmpty
    by_cases ha : act = none
    · right
      subst ha
      simp only [printedGroup]
      rw [if_neg]
      · simp
      · rintro ⟨h1, h2, h3, h4⟩
        subst h1 h2 h3 h4
        exact this rfl
    · left
      simpa [printedGroup] using ha

theorem inPrinted_wellFormed {r : Ref} (h : WellFormed r) : ∀ x ∈ inPrinted r, WellFormed x := by
  intro x hx
  unfold inPrinted at hx
  rw [List.mem_append] at hx
  rcases hx with hx | hx
  · split at hx
    · simp only [List.mem_cons, List.not_mem_nil, or_false] at hx
      subst hx
      have hp : ∀ l, Present ⟨r.act, none, none, none, none⟩ l → l = .act := by
        intro l hl
        cases l <;> simp [Present, part] at hl ⊢
      constructor
      · intro i j k h1 h2 h3 h4
        rw [hp k h4] at h2
        simp [Level.depth] at h2
      · intro i j h1 h2 h3
        rw [hp j h3] at h1
        simp [Level.depth] at h1
    · simp at hx
  · simp only [List.mem_cons, List.not_mem_nil, or_false] at hx
    subst hx
    exact h

/-! ### C116 -/

/-- C116: when a reference is printed in ordinary text that announces nothing, then that reference is found in it; before it
also its act, if it has more than that. Missing: references with digraphs in articles and lettered subpoints, ranges of
articles of several books, numbered subpoints with letters, and acts of negative years. -/
theorem C116_printed_partial (c : Cache) (r : Ref) (s pre post : Str) (hw : WellFormed r) (hr : Printable r)
    (hd : r.display = .ok s) (haround : Around pre post) (habbr : ∀ b ∈ c.allAbbreviations, ¬ b <:+: pre ++ s ++ post)
    (hnew : ¬ str!"továbbiakban" <:+: pre ++ s ++ post) (hplain : ∀ p, ¬ Announces p (pre ++ s ++ post)) :
    ∃ e refs, parse (pre ++ s ++ post) c.allAbbreviations = some e ∧ outgoingRefs c e = some refs ∧
      refs.map (·.reference) = inPrinted r := by
  have ht := printedGroup_text hw.1 hd
  have hm : (printedGroup r).meant = inPrinted r := printed_meant hw.1 hr.nonEmpty
  obtain ⟨e, refs, h1, h2, h3, -⟩ := C102_recognised_partial c pre post (printedGroup r) (printedGroup_usual hw.1 hr) haround
    (by intro s a h; simp [printedGroup] at h)
    (by
      intro b hb x y e
      rw [ht] at e
      exact absurd ⟨x, y, e.symm⟩ (habbr b hb))
    (by rw [ht]; exact hnew) (by rw [ht]; exact hplain)
  rw [ht] at h1
  refine ⟨e, refs, h1, h2, ?_⟩
  rw [hm] at h3
  exact (h3 (inPrinted_wellFormed hw)).1

/-! ### the text of a reference alone -/

theorem free_displayRange {α : Type} [DecidableEq α] {show' : α → Str} {op sep cl : Str} {r : IdRange α} {c : Char}
    (h1 : ∀ a, c ∉ show' a) (h2 : c ∉ op) (h3 : c ∉ sep) (h4 : c ∉ cl) : c ∉ Ref.displayRange show' op sep cl r := by
  unfold Ref.displayRange
  split <;> simp [h1, h2, h3, h4]

theorem free_article (a : ArticleId) : 'á' ∉ a.display := by
  intro h
  unfold ArticleId.display at h
  rw [List.mem_append] at h
  rcases h with h | h
  · split at h
    · rw [List.mem_append] at h
      rcases h with h | h
      · exact absurd (dec_digits _ _ h) (by decide)
      · simp at h
    · simp at h
  · rcases NumericId.displaySlash_chars _ _ h with h | h | h
    · exact absurd h (by decide)
    · exact absurd h (by decide)
    · exact absurd h (by decide)

theorem free_numeric (a : NumericId) : 'á' ∉ a.display := a.not_mem_display (by decide) (by decide)

theorem free_letter (a : HunChar) : 'á' ∉ a.display := fun h => absurd (HunChar.display_mem h) (by decide)

theorem free_prefixed (a : PrefixedId) : 'á' ∉ a.display := fun h => absurd (a.display_chars _ h) (by decide)

theorem free_printed (r : Ref) : 'á' ∉ printedText r := by
  have h1 : ∀ x, 'á' ∉ Ref.displayRange ArticleId.display [] str!"–" str!"." x := fun x =>
    free_displayRange free_article (by decide) (by decide) (by decide)
  have h2 : ∀ x, 'á' ∉ Ref.displayRange NumericId.display str!"(" str!")–(" str!")" x := fun x =>
    free_displayRange free_numeric (by decide) (by decide) (by decide)
  have h3 : ∀ x, 'á' ∉ Ref.displayRange NumericId.display [] str!"–" str!"." x := fun x =>
    free_displayRange free_numeric (by decide) (by decide) (by decide)
  have h4 : ∀ x, 'á' ∉ Ref.displayRange HunChar.display [] str!")–" str!")" x := fun x =>
    free_displayRange free_letter (by decide) (by decide) (by decide)
  have h5 : ∀ x, 'á' ∉ Ref.displayRange PrefixedId.display [] str!")–" str!")" x := fun x =>
    free_displayRange free_prefixed (by decide) (by decide) (by decide)
  obtain ⟨act, article, paragraph, point, subpoint⟩ := r
  rcases article with _ | article <;> rcases paragraph with _ | paragraph <;>
    rcases point with _ | (point | point) <;> rcases subpoint with _ | (subpoint | subpoint) <;>
    simp [printedText, h1, h2, h3, h4, h5]

theorem free_act {a : ActId} {t : Str} (h1 : 1 ≤ a.number.val) (h2 : a.number.val ≤ 3999) (h : a.display = .ok t) : 'á' ∉ t := by
  unfold ActId.display at h
  split at h
  · split at h
    · rename_i x hx
      simp only [Res.ok.injEq] at h
      subst h
      obtain ⟨y, hy, -, h3, -⟩ := roman_roundtrip (n := a.number.val.toNat) (by omega) (by omega)
      rw [hx] at hy
      cases hy
      have h4 : 'á' ∉ x := fun h => absurd (h3 _ h) (by decide)
      have h5 : 'á' ∉ decInt a.year.val := fun h => by
        rcases decInt_chars _ _ h with h | h
        · exact absurd h (by decide)
        · exact absurd h (by decide)
      simp [h4, h5]
    · cases h
  · cases h

theorem printed_last {r : Ref} (hne : ¬ (r.article = none ∧ r.paragraph = none ∧ r.point = none ∧ r.subpoint = none))
    (hg : NoGaps r) : ∃ t c, printedText r = t ++ [c] ∧ c ∈ str!"ae" := by
  obtain ⟨g1, g2⟩ := gaps hg
  obtain ⟨act, article, paragraph, point, subpoint⟩ := r
  simp only at hne g1 g2
  have h1 : str!" §-a" = str!" §-" ++ ['a'] := rfl
  have h2 : str!" bekezdése" = str!" bekezdés" ++ ['e'] := rfl
  have h3 : str!" pontja" = str!" pontj" ++ ['a'] := rfl
  have h4 : str!" alpontja" = str!" alpontj" ++ ['a'] := rfl
  rcases article with _ | article <;> rcases paragraph with _ | paragraph <;>
    rcases point with _ | (point | point) <;> rcases subpoint with _ | (subpoint | subpoint) <;>
    first
    | (exfalso; exact hne ⟨rfl, rfl, rfl, rfl⟩)
    | (exfalso; simp at g2; done)
    | (simp only [printedText, Option.isSome, Bool.or_self, Bool.or_true, Bool.true_or, if_true, if_false,
        h1, h2, h3, h4, List.nil_append, List.append_nil, ← List.append_assoc, Bool.false_eq_true]
       exact ⟨_, _, rfl, by decide⟩)

/-- C116 for the text of a reference alone: it is read as that reference. -/
theorem C116_alone_partial (c : Cache) (r : Ref) (s : Str) (hw : WellFormed r) (hr : Printable r)
    (hd : r.display = .ok s) (habbr : ∀ b ∈ c.allAbbreviations, ¬ b <:+: s) :
    ∃ e refs, parse s c.allAbbreviations = some e ∧ outgoingRefs c e = some refs ∧
      refs.map (·.reference) = inPrinted r := by
  have hfree : 'á' ∉ s := by
    rcases display_ok hd with ⟨_, rfl⟩ | ⟨a, t, ha, hta, rfl⟩
    · exact free_printed r
    · obtain ⟨-, h2, h3⟩ := hr.act a ha
      have := free_act h2 h3 hta
      simp only [List.mem_append, not_or]
      refine ⟨⟨this, ?_⟩, free_printed r⟩
      split <;> simp
  have hlast : ∃ t c, s = t ++ [c] ∧ c ∈ str!"aey" := by
    by_cases hne : r.article = none ∧ r.paragraph = none ∧ r.point = none ∧ r.subpoint = none
    · rcases display_ok hd with ⟨ha, rfl⟩ | ⟨a, t, ha, hta, rfl⟩
      · exfalso
        apply hr.nonEmpty
        obtain ⟨act, article, paragraph, point, subpoint⟩ := r
        obtain ⟨h1, h2, h3, h4⟩ := hne
        simp only at ha h1 h2 h3 h4
        subst ha h1 h2 h3 h4
        rfl
      · have e : printedText r = [] := by simp [printedText, hne]
        rw [e, hne.1]
        unfold ActId.display at hta
        split at hta
        · split at hta
          · rename_i x hx
            simp only [Res.ok.injEq] at hta
            subst hta
            exact ⟨decInt a.year.val ++ str!". évi " ++ x ++ str!". törvén", 'y', by simp, by decide⟩
          · cases hta
        · cases hta
    · obtain ⟨t, ch, h1, h2⟩ := printed_last hne hw.1
      have h3 : ch ∈ str!"aey" := (by decide : ∀ c ∈ str!"ae", c ∈ str!"aey") ch h2
      rcases display_ok hd with ⟨ha, rfl⟩ | ⟨a, t', ha, hta, rfl⟩
      · exact ⟨t, ch, h1, h3⟩
      · exact ⟨_ ++ t, ch, by rw [h1, ← List.append_assoc], h3⟩
  have := C116_printed_partial c r s [] [] hw hr hd ⟨by simp [Ordinary], .inl rfl, by simp [Ordinary], by simp⟩
    (by simpa using habbr)
    (by
      simp only [List.nil_append, List.append_nil]
      rintro ⟨x, y, e⟩
      apply hfree
      rw [← e]
      simp)
    (by
      intro p hp
      obtain ⟨ch, h1, h2⟩ := announces_last hp
      obtain ⟨t, d, rfl, h3⟩ := hlast
      simp at h1
      subst h1
      exact absurd h2 ((by decide : ∀ c ∈ str!"aey", c ∉ str!".: \t\n\r\x0c") d h3))
  simpa using this

/-- C116, full statement: every printed reference is read back. -/
def C116_statement : Prop :=
  ∀ (r : Ref) (s : Str), WellFormed r → r ≠ Ref.empty → r.display = .ok s →
    ∃ e refs, parse s [] = some e ∧ outgoingRefs ⟨[], false⟩ e = some refs ∧ refs.map (·.reference) = inPrinted r

/-- The text of a reference to the article 3/CS is not read back. -/
theorem C116_violated : ¬ C116_statement := by
  intro h
  obtain ⟨e, refs, h1, h2, h3⟩ := h ⟨none, some ⟨⟨none, ⟨⟨3, by decide⟩, some .cs⟩⟩, ⟨none, ⟨⟨3, by decide⟩, some .cs⟩⟩⟩, none, none, none⟩
    str!"3/CS. §-a" (Ref.wellFormed_iff.2 (by decide +kernel)) (by decide) (by decide +kernel)
  have h4 : ((parse str!"3/CS. §-a" []).bind fun r => outgoingRefs ⟨[], false⟩ r).map (·.map (·.reference)) = some [] := by
    decide +kernel
  rw [h1, Option.bind_some, h2, Option.map_some, h3] at h4
  cases h4

/-- "2012. évi C. törvény 3/A. § (2)–(4) bekezdése" -/
def printedRef : Ref := ⟨some ⟨⟨2012, by decide⟩, ⟨100, by decide⟩⟩, some (.single ⟨none, ⟨⟨3, by decide⟩, some (.latin 0)⟩⟩),
  some ⟨.ofNum 2, .ofNum 4⟩, none, none⟩

/-- All conditions of the theorems are met by the example, alone and in a sentence. -/
example : WellFormed printedRef ∧ Printable printedRef ∧
    printedRef.display = .ok str!"2012. évi C. törvény 3/A. § (2)–(4) bekezdése" ∧
    Around str!"a " str!" szerinti eljárás;" ∧ (∀ b ∈ writtenCache.allAbbreviations,
      ¬ b <:+: str!"a " ++ str!"2012. évi C. törvény 3/A. § (2)–(4) bekezdése" ++ str!" szerinti eljárás;") ∧
    ¬ str!"továbbiakban" <:+: str!"a " ++ str!"2012. évi C. törvény 3/A. § (2)–(4) bekezdése" ++ str!" szerinti eljárás;" ∧
    (∀ p, ¬ Announces p (str!"a " ++ str!"2012. évi C. törvény 3/A. § (2)–(4) bekezdése" ++ str!" szerinti eljárás;")) ∧
    (inPrinted printedRef).length = 2 := by
  refine ⟨Ref.wellFormed_iff.2 (by decide +kernel), ⟨by decide, ?_, ?_, ?_, ?_⟩, by decide +kernel,
    ⟨by unfold Ordinary; decide, .inr ⟨str!"a", rfl⟩, by unfold Ordinary; decide, ?_⟩, by decide +kernel, by decide +kernel,
    ?_, by decide⟩
  · intro a h; cases h; decide
  · intro x h; cases h
    refine ⟨rfl, ?_, ?_⟩ <;>
    · intro c hc; cases hc; exact ⟨_, rfl⟩
  · intro x h; cases h
  · intro x h; cases h
  · intro c h; cases h; decide
  · intro p h
    obtain ⟨c, h1, h2⟩ := announces_last h
    rw [show (str!"a " ++ str!"2012. évi C. törvény 3/A. § (2)–(4) bekezdése" ++ str!" szerinti eljárás;").getLast? = some ';'
      from by decide +kernel] at h1
    cases h1
    exact absurd h2 (by decide)

end HunLaw.Props
