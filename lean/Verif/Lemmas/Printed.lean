import Verif.Props.Written

/-! References as they are printed are in the usual form. -/

set_option autoImplicit false

namespace HunLaw

open HunLaw.Spec

/-- The elements of a range as they are printed. -/
def spanOf {α : Type} [DecidableEq α] (r : IdRange α) : Span α :=
  if r.isRange then .upTo '–' r.first r.last else .one r.first

theorem spanOf_range {α : Type} [DecidableEq α] (r : IdRange α) : (spanOf r).range = r := by
  obtain ⟨a, b⟩ := r
  unfold spanOf
  split
  · rfl
  · rename_i h
    simp only [IdRange.isRange, bne_iff_ne, ne_eq, Classical.not_not] at h
    subst h
    rfl

theorem spanOf_fits {α : Type} [DecidableEq α] {p : α → Prop} {r : IdRange α} (h1 : p r.start) (h2 : p r.fin) :
    Span.Fits p (spanOf r) := by
  unfold spanOf
  split
  · exact ⟨by decide, h1, h2⟩
  · exact h1

/-- A printed reference without the act. -/
def printed (r : Ref) : Phrase where
  article := r.article.map fun x => ⟨spanOf x, [], if r.paragraph.isSome || r.point.isSome then [] else str!"-a"⟩
  paragraph := r.paragraph.map fun x => ⟨spanOf x, [], if r.point.isSome then [] else str!"e"⟩
  numericPoint := match r.point with
    | some (.numeric x) => some ⟨spanOf x, [], if r.subpoint.isSome then [] else str!"ja"⟩
    | _ => none
  alphabeticPoint := match r.point with
    | some (.alphabetic x) => some ⟨spanOf x, [], if r.subpoint.isSome then [] else str!"ja"⟩
    | _ => none
  numericSubpoint := match r.subpoint with
    | some (.numeric x) => some ⟨spanOf x, [], str!"ja"⟩
    | _ => none
  alphabeticSubpoint := match r.subpoint with
    | some (.alphabetic x) => some ⟨spanOf x, [], str!"ja"⟩
    | _ => none

/-- A printed reference. -/
def printedGroup (r : Ref) : PhraseGroup where
  act := r.act.map fun a => .number a str!"törvény"
  references :=
    if r.article = none ∧ r.paragraph = none ∧ r.point = none ∧ r.subpoint = none then []
    else [(if r.act = none then [] else str!" ", printed r)]

theorem gaps {r : Ref} (h : NoGaps r) :
    (r.act ≠ none → r.article = none → r.paragraph = none ∧ r.point = none ∧ r.subpoint = none) ∧
    (r.article ≠ none ∨ r.paragraph ≠ none → r.point = none → r.subpoint = none) := by
  obtain ⟨act, article, paragraph, point, subpoint⟩ := r
  constructor
  · intro h1 h2
    simp only at h1 h2 ⊢
    subst h2
    have hp : Present ⟨act, none, paragraph, point, subpoint⟩ .act := by
      cases act with
      | none => exact absurd rfl h1
      | some a => simp [Present, part]
    have hn : ¬ Present ⟨act, none, paragraph, point, subpoint⟩ .article := by simp [Present, part]
    refine ⟨?_, ?_, ?_⟩
    · cases paragraph with
      | none => rfl
      | some x => 
        rcases h .act .article .paragraph (by decide) (by decide) hp (by simp [Present, part]) with h | h
        · exact absurd h hn
        · cases h
    · cases point with
      | none => rfl
      | some x => 
        rcases h .act .article .point (by decide) (by decide) hp (by simp [Present, part]) with h | h
        · exact absurd h hn
        · cases h
    · cases subpoint with
      | none => rfl
      | some x => 
        rcases h .act .article .subpoint (by decide) (by decide) hp (by simp [Present, part]) with h | h
        · exact absurd h hn
        · cases h
  · intro h1 h2
    simp only at h1 h2 ⊢
    subst h2
    cases subpoint with
    | none => rfl
    | some x =>
      have hn : ¬ Present ⟨act, article, paragraph, none, some x⟩ .point := by simp [Present, part]
      rcases h1 with h1 | h1
      · cases article with
        | none => exact absurd rfl h1
        | some a =>
          rcases h .article .point .subpoint (by decide) (by decide) (by simp [Present, part]) (by simp [Present, part]) with h | h
          · exact absurd h hn
          · cases h
      · cases paragraph with
        | none => exact absurd rfl h1
        | some a =>
          rcases h .paragraph .point .subpoint (by decide) (by decide) (by simp [Present, part]) (by simp [Present, part]) with h | h
          · exact absurd h hn
          · cases h

theorem printed_meant {r : Ref} (h : NoGaps r) (hne : r ≠ Ref.empty) : (printedGroup r).meant =
    (if r.act ≠ none ∧ r.article ≠ none then [⟨r.act, none, none, none, none⟩] else []) ++ [r] := by
  obtain ⟨g1, g2⟩ := gaps h
  obtain ⟨act, article, paragraph, point, subpoint⟩ := r
  simp only at g1 g2
  rcases act with _ | act <;> rcases article with _ | article <;> rcases paragraph with _ | paragraph <;>
    rcases point with _ | (point | point) <;> rcases subpoint with _ | (subpoint | subpoint) <;>
    first
    | exact absurd rfl hne
    | (exfalso; simp at g1; done)
    | (exfalso; simp at g2; done)
    | simp [PhraseGroup.meant, printedGroup, chain, alternatives, Phrase.levels, printed, listed, Listing.spans, spanOf_range,
        put, ActName.act, Ref.empty]

theorem articleSpan_spanOf (x : IdRange ArticleId) : articleSpan (spanOf x) = Ref.displayRange ArticleId.display [] str!"–" str!"." x := by
  unfold spanOf Ref.displayRange
  split <;> simp [articleSpan]
theorem paragraphSpan_spanOf (x : IdRange NumericId) :
    paragraphSpan (spanOf x) = Ref.displayRange NumericId.display str!"(" str!")–(" str!")" x := by
  unfold spanOf Ref.displayRange
  split <;> simp [paragraphSpan]
theorem dottedSpan_spanOf (x : IdRange NumericId) :
    dottedSpan (spanOf x) = Ref.displayRange NumericId.display [] str!"–" str!"." x := by
  unfold spanOf Ref.displayRange
  split <;> simp [dottedSpan]
theorem letterSpan_spanOf (x : IdRange HunChar) :
    letterSpan (spanOf x) = Ref.displayRange HunChar.display [] str!")–" str!")" x := by
  unfold spanOf Ref.displayRange
  split <;> simp [letterSpan]
theorem prefixedSpan_spanOf (x : IdRange PrefixedId) :
    prefixedSpan (spanOf x) = Ref.displayRange PrefixedId.display [] str!")–" str!")" x := by
  unfold spanOf Ref.displayRange
  split <;> simp [prefixedSpan]

/-- The levels of a printed reference. -/
def printedText (r : Ref) : Str :=
  (match r.article with
    | some a => Ref.displayRange ArticleId.display [] str!"–" str!"." a ++
        (if r.paragraph.isSome || r.point.isSome then str!" § " else str!" §-a")
    | none => []) ++
  (match r.paragraph with
    | some p => Ref.displayRange NumericId.display str!"(" str!")–(" str!")" p ++
        (if r.point.isSome then str!" bekezdés " else str!" bekezdése")
    | none => []) ++
  (match r.point with
    | some p => (match p with
        | .numeric p => Ref.displayRange NumericId.display [] str!"–" str!"." p
        | .alphabetic p => Ref.displayRange HunChar.display [] str!")–" str!")" p) ++
        (if r.subpoint.isSome then str!" pont " else str!" pontja")
    | none => []) ++
  (match r.subpoint with
    | some s => (match s with
        | .numeric p => Ref.displayRange NumericId.display [] str!"–" str!"." p
        | .alphabetic p => Ref.displayRange PrefixedId.display [] str!")–" str!")" p) ++ str!" alpontja"
    | none => [])

theorem display_ok {r : Ref} {s : Str} (h : r.display = .ok s) :
    (r.act = none ∧ s = printedText r) ∨ ∃ a t, r.act = some a ∧ a.display = .ok t ∧
      s = t ++ (if r.article.isSome then str!" " else []) ++ printedText r := by
  obtain ⟨act, article, paragraph, point, subpoint⟩ := r
  unfold Ref.display at h
  cases act with
  | none =>
    refine .inl ⟨rfl, ?_⟩
    simp only [pure, Res.bind_ok, Res.ok.injEq] at h
    rw [← h]
    rcases article with _ | article <;> rcases paragraph with _ | paragraph <;>
      rcases point with _ | (point | point) <;> rcases subpoint with _ | (subpoint | subpoint) <;> simp [printedText]
  | some a =>
    simp only [pure] at h
    rw [Res.bind_eq_ok] at h
    obtain ⟨t, ht, h⟩ := h
    refine .inr ⟨a, t, rfl, ht, ?_⟩
    simp only [Res.bind_ok, Res.ok.injEq] at h
    rw [← h]
    rcases article with _ | article <;> rcases paragraph with _ | paragraph <;>
      rcases point with _ | (point | point) <;> rcases subpoint with _ | (subpoint | subpoint) <;> simp [printedText]

theorem printed_text {r : Ref} (h : NoGaps r) : (printed r).text = printedText r := by
  obtain ⟨g1, g2⟩ := gaps h
  obtain ⟨act, article, paragraph, point, subpoint⟩ := r
  simp only at g1 g2
  unfold Phrase.text
  rcases article with _ | article <;> rcases paragraph with _ | paragraph <;>
    rcases point with _ | (point | point) <;> rcases subpoint with _ | (subpoint | subpoint) <;>
    first
    | (exfalso; simp at g2; done)
    | simp [printed, printedText, Phrase.words, Listing.words, Words.text, articleSpan_spanOf, paragraphSpan_spanOf,
        dottedSpan_spanOf, letterSpan_spanOf, prefixedSpan_spanOf, List.intercalate]

theorem printedGroup_text {r : Ref} {s : Str} (h : NoGaps r) (hd : r.display = .ok s) : (printedGroup r).text = s := by
  have ht := printed_text h
  obtain ⟨g1, g2⟩ := gaps h
  unfold PhraseGroup.text printedGroup
  rcases display_ok hd with ⟨ha, rfl⟩ | ⟨a, t, ha, hta, rfl⟩
  · simp only [ha, Option.map_none, Option.getD_none, List.nil_append]
    split
    · rename_i hn
      simp [printedText, hn]
    · simp [ht]
  · have e : ActName.text (.number a str!"törvény") = t := by
      unfold ActId.display at hta
      split at hta
      · split at hta
        · rename_i x hx
          simp only [Res.ok.injEq] at hta
          rw [← hta]
          simp [ActName.text, hx]
        · cases hta
      · cases hta
    simp only [ha, Option.map_some, Option.getD_some, e]
    split
    · rename_i hn
      simp [printedText, hn]
    · rename_i hn
      have hart : r.article ≠ none := fun h0 => hn ⟨h0, g1 (by simp [ha]) h0⟩
      have : r.article.isSome = true := by
        cases hx : r.article with
        | none => exact absurd hx hart
        | some x => rfl
      simp [ht, this]

end HunLaw
