import Verif.Lemmas.PdfLines
import Mathlib.Data.List.Sort

/-! Property theorems about the assembly of lines from the characters of a page: C53, C54, C63, C72. -/

set_option autoImplicit false

namespace HunLaw.Props

open HunLaw HunLaw.Spec HunLaw.Pdf

/-! ### A sorting function -/

/-- A sorting function with the contract of `sort_unstable_by`, to show that there is one. -/
def insertionSorter : Sorter := fun cmp l => l.insertionSort fun a b => cmp b a ≠ .lt

theorem insertionSorter_sorts : insertionSorter.Sorts := by
  intro cmp l
  refine ⟨List.perm_insertionSort _ _, fun h1 h2 h3 => ?_⟩
  have : Std.Total (fun a b : PChar => cmp b a ≠ .lt) :=
    ⟨fun a b => by
      by_contra hn
      simp only [ne_eq, not_or, not_not] at hn
      exact h1 b (h2 _ _ _ hn.1 hn.2)⟩
  have : IsTrans PChar (fun a b => cmp b a ≠ .lt) := ⟨fun a b c h h' => h3 _ _ _ h' h⟩
  exact List.pairwise_insertionSort _ _

/-- The other way around for equal elements. -/
def otherSorter : Sorter := fun cmp l => insertionSorter cmp l.reverse

theorem otherSorter_sorts : otherSorter.Sorts := fun cmp l =>
  ⟨((insertionSorter_sorts cmp l.reverse).1).trans l.reverse_perm, (insertionSorter_sorts cmp l.reverse).2⟩

/-! ### C53, C63: every character once, where it was -/

/-- Assembling the characters of a page gives its rows from top to bottom, each from left to right, with
every character once and where it was, one space between characters of a row that are apart, and an
empty line at large gaps. A page without characters is an empty line. -/
theorem C53_rows (S : Sorter) (hS : S.Sorts) (chars : List PChar) (hvisible : ∀ c ∈ chars, c.content ≠ ' ') :
    (chars = [] → pageOfLines S chars = [Line.emptyLine]) ∧
    (chars ≠ [] → ∃ rows : List (Rat × List PChar),
      (rows.flatMap (·.2)).Perm chars ∧ PageShows chars rows (pageOfLines S chars)) := by
  have hp := sort_perm hS (fun a b => compareForSorting b.y a.y) chars
  have hs := sort_key_desc hS (fun c => c.y) chars
  constructor
  · rintro rfl
    have h1 := List.Perm.eq_nil hp
    have h2 := List.Perm.eq_nil (sort_perm hS (fun a b => compareForSorting a.x b.x) [])
    unfold pageOfLines
    rw [h1]
    simp [linesFrom, consolidateLine, h2]
  · intro hne
    unfold pageOfLines
    generalize S (fun a b => compareForSorting b.y a.y) chars = l at hp hs
    cases l with
    | nil => exact absurd hp.symm.eq_nil hne
    | cons c cs =>
      rw [List.pairwise_cons] at hs
      have h0 : yDiff [] c < sameLineEpsilon := by unfold yDiff sameLineEpsilon; norm_num
      simp only [linesFrom, if_pos h0, List.nil_append]
      obtain ⟨rows, h1, -, h2⟩ := linesFrom_rows hS (chars := chars) (f := c) (cur := []) (rest := cs)
        (fun d hd => hvisible d (hp.mem_iff.1 (by simpa using hd)))
        (by intro d h; simp at h; subst h; exact ⟨le_refl _, by linarith⟩) hs.2 hs.1
      exact ⟨rows, h1.trans (by simpa using hp), h2⟩

theorem pageShows_lines {chars : List PChar} {rows : List (Rat × List PChar)} {ls : List Line}
    (h : PageShows chars rows ls) : ∀ l ∈ ls, l = Line.emptyLine ∨ ∃ r ∈ rows, Shows r.2 l := by
  induction h with
  | last h1 h2 h3 => intro l hl; simp at hl; subst hl; exact .inr ⟨_, List.mem_singleton.2 rfl, h2⟩
  | near h1 h2 h3 h4 h5 h6 ih =>
    intro l hl
    rcases List.mem_cons.1 hl with rfl | hl
    · exact .inr ⟨_, List.mem_cons_self, h2⟩
    · rcases ih l hl with h | ⟨r, hr, h⟩
      · exact .inl h
      · exact .inr ⟨r, List.mem_cons_of_mem _ hr, h⟩
  | far h1 h2 h3 h4 h6 ih =>
    intro l hl
    rcases List.mem_cons.1 hl with rfl | hl
    · exact .inr ⟨_, List.mem_cons_self, h2⟩
    · rcases List.mem_cons.1 hl with rfl | hl
      · exact .inl rfl
      · rcases ih l hl with h | ⟨r, hr, h⟩
        · exact .inl h
        · exact .inr ⟨r, List.mem_cons_of_mem _ hr, h⟩

theorem spaced_no_double {cs : List PChar} (h : ∀ c ∈ cs, c.content ≠ ' ') :
    ¬ [' ', ' '] <:+: spaced cs := by
  induction cs with
  | nil => simp [spaced]
  | cons a cs ih =>
    cases cs with
    | nil =>
      intro hi
      have := hi.length_le
      simp [spaced] at this
    | cons b rest =>
      have hb := h b (by simp)
      have ha := h a (by simp)
      have ih := ih fun c hc => h c (by simp at hc ⊢; tauto)
      have hh := spaced_head b rest
      simp only [spaced]
      have hcons : ∀ {s : Str}, s.head? = some b.content → ¬ [' ', ' '] <:+: s →
          ¬ [' ', ' '] <:+: ' ' :: s := by
        intro s hs hn hi
        rcases List.infix_cons_iff.1 hi with hi | hi
        · obtain ⟨t, ht⟩ := hi
          simp only [List.cons_append, List.nil_append, List.cons.injEq, true_and] at ht
          rw [← ht] at hs
          simp at hs
          exact hb hs.symm
        · exact hn hi
      have hcons2 : ∀ {s : Str}, ¬ [' ', ' '] <:+: s → ¬ [' ', ' '] <:+: a.content :: s := by
        intro s hn hi
        rcases List.infix_cons_iff.1 hi with hi | hi
        · obtain ⟨t, ht⟩ := hi
          simp only [List.cons_append, List.nil_append, List.cons.injEq] at ht
          exact ha ht.1.symm
        · exact hn hi
      split
      · exact hcons2 (hcons hh ih)
      · exact hcons2 ih

/-- No assembled line starts or ends with a space or has two spaces in a row. -/
theorem C53_spaces (S : Sorter) (hS : S.Sorts) (chars : List PChar)
    (hvisible : ∀ c ∈ chars, c.content ≠ ' ') :
    ∀ l ∈ pageOfLines S chars,
      l.content.head? ≠ some ' ' ∧ l.content.getLast? ≠ some ' ' ∧ ¬ [' ', ' '] <:+: l.content := by
  obtain ⟨h1, h2⟩ := C53_rows S hS chars hvisible
  intro l hl
  by_cases hc : chars = []
  · rw [h1 hc] at hl
    cases List.mem_singleton.1 hl
    decide
  · obtain ⟨rows, hp, hs⟩ := h2 hc
    rcases pageShows_lines hs l hl with rfl | ⟨r, hr, hw⟩
    · decide
    · have hv : ∀ c ∈ r.2, c.content ≠ ' ' := fun c h =>
        hvisible c (hp.mem_iff.1 (List.mem_flatMap.2 ⟨r, hr, h⟩))
      rw [hw.1]
      exact ⟨(spaced_no_space_ends hv).1, (spaced_no_space_ends hv).2, spaced_no_double hv⟩

/-- Every character of the page is in one of the lines, at its horizontal position. -/
theorem C63_positions (S : Sorter) (hS : S.Sorts) (chars : List PChar)
    (hvisible : ∀ c ∈ chars, c.content ≠ ' ') :
    (((pageOfLines S chars).flatMap glyphs).filter fun g => g.char ≠ ' ').Perm
      (chars.map fun c => ⟨c.x, c.content, c.bold⟩) := by
  obtain ⟨h1, h2⟩ := C53_rows S hS chars hvisible
  by_cases hc : chars = []
  · rw [h1 hc]; subst hc; exact List.Perm.refl []
  · obtain ⟨rows, hp, hs⟩ := h2 hc
    refine List.Perm.trans ?_ (hp.map _)
    have : (((pageOfLines S chars).flatMap glyphs).filter fun g => g.char ≠ ' ') =
        (rows.flatMap (·.2)).map fun c => (⟨c.x, c.content, c.bold⟩ : Glyph) := by
      generalize pageOfLines S chars = ls at hs
      clear h1 h2 hp
      induction hs with
      | last h1 h2 h3 =>
        have := h2.2
        simpa using this
      | near a1 a2 a3 a4 a5 a6 ih =>
        rw [List.flatMap_cons, List.flatMap_cons, List.filter_append, List.map_append, ih, a2.2]
      | far a1 a2 a3 a4 a6 ih =>
        rw [List.flatMap_cons, List.flatMap_cons, List.flatMap_cons, List.filter_append,
          List.filter_append, List.map_append, ih, a2.2]
        rfl
    rw [this]

/-- Characters of two rows, drawn in a mixed order. -/
def samplePage : List PChar :=
  [⟨30, 80, 5, 4, false, 'c'⟩, ⟨15, 100, 5, 4, true, 'b'⟩, ⟨10, 100, 5, 4, true, 'a'⟩,
   ⟨30, 100, 5, 4, true, '2'⟩]

example : ∀ c ∈ samplePage, c.content ≠ ' ' := by decide
example : (pageOfLines insertionSorter samplePage).map Line.content = [str!"ab 2", [], str!"c"] ∧
    (pageOfLines insertionSorter samplePage).map (·.justified) = [true, false, true] := by
  decide +kernel

/-! ### C54: the comparator -/

/-- The full property: the comparator is a total order, as `sort_unstable_by` demands. -/
def C54_statement : Prop :=
  ∀ a b : Rat, compareForSorting a b = .gt ↔ compareForSorting b a = .lt

theorem C54_violated : ¬ C54_statement := by
  intro h
  have := (h 1 1).1 (by decide +kernel)
  exact absurd this (by decide +kernel)

/-- The part of the comparator which the sorting of std looks at, whether it says `Less`, is a strict
weak order, so sorting by it gives a sorted list.
Missing: equal coordinates should compare as equal; std documents nothing for such a comparator. -/
theorem C54_less_partial (S : Sorter) (hS : S.Sorts) (chars : List PChar) :
    (∀ a b : Rat, compareForSorting a b = .lt ↔ a < b) ∧
    (S (fun a b => compareForSorting a.x b.x) chars).Pairwise (fun a b => a.x ≤ b.x) ∧
    (S (fun a b => compareForSorting b.y a.y) chars).Pairwise (fun a b => b.y ≤ a.y) :=
  ⟨fun _ _ => compare_lt, sort_key hS (fun c => c.x) chars, sort_key_desc hS (fun c => c.y) chars⟩

/-! ### C72: the order of drawing -/

/-- The lines of a page depend neither on the order in which its characters are drawn nor on what the
sorting does with equal elements, if different characters of a line are at different horizontal
positions. -/
theorem C72_order (S S' : Sorter) (hS : S.Sorts) (hS' : S'.Sorts) (chars chars' : List PChar)
    (hperm : chars.Perm chars')
    (hplaces : ∀ a ∈ chars, ∀ b ∈ chars, |a.y - b.y| < 1 / 2 → a.x = b.x → a = b) :
    pageOfLines S chars = pageOfLines S' chars' := pageOfLines_eq hS hS' hperm hplaces

example : ∀ a ∈ samplePage, ∀ b ∈ samplePage, |a.y - b.y| < 1 / 2 → a.x = b.x → a = b := by
  decide +kernel

/-- The hypothesis is needed: the order of two characters drawn over each other is left to the sorting. -/
example : (pageOfLines insertionSorter [⟨10, 100, 5, 4, true, 'a'⟩, ⟨10, 998 / 10, 5, 4, true, 'b'⟩]).map
      Line.content ≠
    (pageOfLines otherSorter [⟨10, 100, 5, 4, true, 'a'⟩, ⟨10, 998 / 10, 5, 4, true, 'b'⟩]).map Line.content := by
  decide +kernel

end HunLaw.Props
