import Verif.Spec.PdfLines
import Verif.Lemmas.Line

/-! Lemmas on assembling the lines of a page. -/

set_option autoImplicit false

namespace HunLaw.Pdf

open Spec

/-! ### Sorting -/

theorem compare_lt {a b : Rat} : compareForSorting a b = .lt ↔ a < b := by
  unfold compareForSorting; split <;> simp_all

theorem sort_perm {S : Sorter} (h : S.Sorts) (cmp : PChar → PChar → Ordering) (l : List PChar) :
    (S cmp l).Perm l := (h cmp l).1

/-- Sorting by a key gives a list in which the keys do not decrease. -/
theorem sort_key {S : Sorter} (h : S.Sorts) (key : PChar → Rat) (l : List PChar) :
    (S (fun a b => compareForSorting (key a) (key b)) l).Pairwise fun a b => key a ≤ key b := by
  have := (h (fun a b => compareForSorting (key a) (key b)) l).2
    (fun a => by simp [compare_lt])
    (fun a b c => by simp only [compare_lt]; exact lt_trans)
    (fun a b c => by simp only [ne_eq, compare_lt, not_lt]; exact fun h1 h2 => le_trans h2 h1)
  exact this.imp fun h => by simpa [compare_lt] using h

theorem sort_key_desc {S : Sorter} (h : S.Sorts) (key : PChar → Rat) (l : List PChar) :
    (S (fun a b => compareForSorting (key b) (key a)) l).Pairwise fun a b => key b ≤ key a := by
  have := (h (fun a b => compareForSorting (key b) (key a)) l).2
    (fun a => by simp [compare_lt])
    (fun a b c => by simp only [compare_lt]; exact fun h1 h2 => lt_trans h2 h1)
    (fun a b c => by simp only [ne_eq, compare_lt, not_lt]; exact fun h1 h2 => le_trans h1 h2)
  exact this.imp fun h => by simpa [compare_lt] using h

/-! ### One line -/

theorem lineParts_content (a : PChar) (prevX : Rat) (cs : List PChar) :
    a.content :: (lineParts (some (a.x + a.width + a.widthOfSpace * spaceDetectionRatio)) prevX cs).map
      (·.content) = spaced (a :: cs) := by
  induction cs generalizing a prevX with
  | nil => rfl
  | cons c cs ih =>
    simp only [lineParts, spaced]
    have ha : Apart a c ↔ c.x > a.x + a.width + a.widthOfSpace * spaceDetectionRatio ∨ c.content = '„' := by
      unfold Apart spaceDetectionRatio
      rw [show a.widthOfSpace * (1 / 2 : Rat) = a.widthOfSpace / 2 by ring]
    by_cases h : Apart a c
    · rw [if_pos (ha.1 h), if_pos h]
      simp only [List.map_cons, List.cons_append, List.nil_append]
      rw [ih]
    · rw [if_neg (fun h' => h (ha.2 h')), if_neg h]
      simp only [List.map_cons, List.append_nil, List.cons_append, List.nil_append]
      rw [ih]

theorem lineParts_content_none (x : Rat) (cs : List PChar) :
    (lineParts none x cs).map (·.content) = spaced cs := by
  cases cs with
  | nil => rfl
  | cons c cs => simp only [lineParts, List.map_cons]; exact lineParts_content c c.x cs

theorem lineParts_glyphs (t : Option Rat) (x : Rat) (cs : List PChar) (h : ∀ c ∈ cs, c.content ≠ ' ') :
    (glyphsFrom x (lineParts t x cs)).filter (fun g => g.char ≠ ' ') =
      cs.map fun c => ⟨c.x, c.content, c.bold⟩ := by
  induction cs generalizing t x with
  | nil => rfl
  | cons c cs ih =>
    have hc := h c (by simp)
    have ih := fun t x => ih t x fun c hc => h c (by simp [hc])
    have e1 : x + (c.x - x) = c.x := by ring
    cases t with
    | none =>
      simp only [lineParts, glyphsFrom, e1, List.filter_cons, hc, ne_eq, not_false_eq_true,
        decide_true, if_true, List.map_cons, decide_not] at ih ⊢
      rw [ih]; simp
    | some t =>
      have e2 : x + (t - x) = t := by ring
      have e3 : t + (c.x - t) = c.x := by ring
      simp only [lineParts]
      split
      · simp only [glyphsFrom, e2, e3, List.filter_cons, hc, ne_eq, not_false_eq_true, not_true_eq_false,
          decide_false, Bool.false_eq_true, if_false, decide_true, if_true, List.map_cons, decide_not] at ih ⊢
        simp only [Bool.not_true, Bool.false_eq_true, if_false, decide_true, hc, decide_false,
          Bool.not_false, if_true, ih]
      · simp only [glyphsFrom, e1, List.filter_cons, hc, ne_eq, not_false_eq_true,
          decide_true, if_true, List.map_cons, decide_not] at ih ⊢
        rw [ih]; simp

theorem spaced_head (a : PChar) (cs : List PChar) : (spaced (a :: cs)).head? = some a.content := by
  cases cs <;> simp [spaced]

theorem spaced_ne_nil {cs : List PChar} (h : cs ≠ []) : spaced cs ≠ [] := by
  cases cs with
  | nil => exact absurd rfl h
  | cons a cs => intro e; have := spaced_head a cs; rw [e] at this; cases this

theorem spaced_last (cs : List PChar) : (spaced cs).getLast? = cs.getLast?.map (·.content) := by
  induction cs with
  | nil => rfl
  | cons a cs ih =>
    cases cs with
    | nil => rfl
    | cons b rest =>
      simp only [spaced]
      have hl : (spaced (b :: rest)).getLast? = (b :: rest).getLast?.map (·.content) := ih
      rw [List.getLast?_append, hl]
      cases h : (b :: rest).getLast? with
      | none => simp at h
      | some c => rw [List.getLast?_cons_cons, h]; rfl

theorem dropWhile_head {α : Type} {p : α → Bool} {l : List α} (h : ∀ a, l.head? = some a → p a = false) :
    l.dropWhile p = l := by
  cases l with
  | nil => rfl
  | cons a as => simp [h a rfl]

theorem trimParts_id {ps : List LinePart} (h1 : (ps.map (·.content)).head? ≠ some ' ')
    (h2 : (ps.map (·.content)).getLast? ≠ some ' ') : trimParts ps = ps := by
  unfold trimParts
  rw [dropWhile_head (l := ps), dropWhile_head (l := ps.reverse), List.reverse_reverse]
  · intro a ha
    rw [List.head?_reverse] at ha
    rw [List.getLast?_map, ha] at h2
    simpa using h2
  · intro a ha
    rw [List.head?_map, ha] at h1
    simpa using h1

theorem spaced_no_space_ends {cs : List PChar} (h : ∀ c ∈ cs, c.content ≠ ' ') :
    (spaced cs).head? ≠ some ' ' ∧ (spaced cs).getLast? ≠ some ' ' := by
  constructor
  · cases cs with
    | nil => simp [spaced]
    | cons a cs => rw [spaced_head]; simpa using h a (by simp)
  · rw [spaced_last]
    intro e
    obtain ⟨c, hc, e⟩ := Option.map_eq_some_iff.1 e
    exact h c (List.mem_of_getLast? hc) e

theorem consolidate_shows {S : Sorter} (_hS : S.Sorts) {row : List PChar} {margin : Rat}
    (h : ∀ c ∈ S (fun a b => compareForSorting a.x b.x) row, c.content ≠ ' ') :
    Shows (S (fun a b => compareForSorting a.x b.x) row) (consolidateLine S row margin) := by
  unfold consolidateLine
  simp only
  generalize S (fun a b => compareForSorting a.x b.x) row = sorted at h ⊢
  cases hl : sorted.getLast? with
  | none =>
    rw [List.getLast?_eq_none_iff] at hl
    subst hl
    exact ⟨rfl, rfl⟩
  | some last =>
    have hc := lineParts_content_none 0 sorted
    have hends := spaced_no_space_ends h
    have ht : trimParts (lineParts none 0 sorted) = lineParts none 0 sorted :=
      trimParts_id (by rw [hc]; exact hends.1) (by rw [hc]; exact hends.2)
    simp only
    rw [ht]
    exact ⟨hc, lineParts_glyphs none 0 sorted h⟩

/-! ### The margin -/

theorem foldl_max_le {l : List PChar} {a r : Rat} :
    l.foldl (fun acc c => max acc (c.x + c.width)) a ≤ r ↔ a ≤ r ∧ ∀ c ∈ l, c.x + c.width ≤ r := by
  induction l generalizing a with
  | nil => simp
  | cons c cs ih =>
    simp only [List.foldl_cons, ih, max_le_iff, List.mem_cons, forall_eq_or_imp]
    tauto

theorem rightMargin_le {l : List PChar} {r : Rat} :
    rightMargin l ≤ r ↔ 0 ≤ r ∧ ∀ c ∈ l, c.x + c.width ≤ r := foldl_max_le

theorem consolidate_justified {S : Sorter} {row chars : List PChar} :
    (consolidateLine S row (rightMargin chars)).justified = true ↔
      ReachesMargin chars (S (fun a b => compareForSorting a.x b.x) row) := by
  unfold consolidateLine ReachesMargin
  simp only
  generalize S (fun a b => compareForSorting a.x b.x) row = sorted
  cases hl : sorted.getLast? with
  | none => simp [Line.emptyLine]
  | some last =>
    simp only [Line.fromParts, decide_eq_true_eq, ge_iff_le, Option.some.injEq, exists_eq_left',
      justifiedDetectionRatio]
    exact rightMargin_le

/-! ### Rows -/

theorem yDiff_cons {f c : PChar} {cur : List PChar} (h : c.y ≤ f.y) :
    yDiff (f :: cur) c = f.y - c.y := abs_of_nonneg (by linarith)

/-- The loop over the characters, sorted by decreasing height: `f` is the first of the current row. -/
theorem linesFrom_rows {S : Sorter} (hS : S.Sorts) {chars : List PChar} {f : PChar} {cur rest : List PChar}
    (hsp : ∀ c ∈ f :: cur ++ rest, c.content ≠ ' ')
    (hcur : ∀ c ∈ f :: cur, c.y ≤ f.y ∧ f.y - 1 / 2 < c.y)
    (hrest : rest.Pairwise fun a b => b.y ≤ a.y) (hle : ∀ c ∈ rest, c.y ≤ f.y) :
    ∃ rows : List (Rat × List PChar), (rows.flatMap (·.2)).Perm (f :: cur ++ rest) ∧
      rows.head?.map (·.1) = some f.y ∧
      PageShows chars rows (linesFrom S (rightMargin chars) (f :: cur) rest) := by
  have row : ∀ {f : PChar} {cur : List PChar}, (∀ c ∈ f :: cur, c.content ≠ ' ') →
      (∀ c ∈ f :: cur, c.y ≤ f.y ∧ f.y - 1 / 2 < c.y) →
      IsRow f.y (S (fun a b => compareForSorting a.x b.x) (f :: cur)) ∧
      Shows (S (fun a b => compareForSorting a.x b.x) (f :: cur))
        (consolidateLine S (f :: cur) (rightMargin chars)) := by
    intro f cur hsp hcur
    have hp := sort_perm hS (fun a b => compareForSorting a.x b.x) (f :: cur)
    refine ⟨⟨⟨f, hp.mem_iff.2 (by simp), rfl⟩, fun c hc => hcur c (hp.mem_iff.1 hc), sort_key hS _ _⟩,
      consolidate_shows hS fun c hc => hsp c (hp.mem_iff.1 hc)⟩
  induction rest generalizing f cur with
  | nil =>
    obtain ⟨h1, h2⟩ := row (f := f) (cur := cur) (fun c hc => hsp c (by simpa using hc)) hcur
    refine ⟨[(f.y, _)], ?_, rfl, .last h1 h2 consolidate_justified⟩
    simpa using sort_perm hS _ _
  | cons c cs ih =>
    have hcle := hle c (by simp)
    rw [List.pairwise_cons] at hrest
    simp only [linesFrom]
    rw [yDiff_cons hcle]
    by_cases hnear : f.y - c.y < sameLineEpsilon
    · rw [if_pos hnear]
      unfold sameLineEpsilon at hnear
      obtain ⟨rows, hp, hh, hs⟩ := ih (f := f) (cur := cur ++ [c])
        (by intro d hd; exact hsp d (by simp at hd ⊢; tauto))
        (by
          intro d hd
          simp only [List.mem_cons, List.mem_append, List.not_mem_nil, or_false] at hd
          rcases hd with rfl | hd | rfl
          · exact hcur _ (by simp)
          · exact hcur d (by simp [hd])
          · exact ⟨hcle, by linarith⟩)
        hrest.2 (fun d hd => hle d (by simp [hd]))
      refine ⟨rows, ?_, hh, hs⟩
      simpa using hp
    · rw [if_neg hnear]
      obtain ⟨h1, h2⟩ := row (f := f) (cur := cur)
        (fun d hd => hsp d (by simp at hd ⊢; tauto)) hcur
      obtain ⟨rows, hp, hh, hs⟩ := ih (f := c) (cur := [])
        (by intro d hd; exact hsp d (by simp at hd ⊢; tauto))
        (by intro d hd; simp at hd; subst hd; exact ⟨le_refl _, by linarith⟩)
        hrest.2 (fun d hd => hrest.1 d hd)
      cases rows with
      | nil => cases hh
      | cons r rows =>
        obtain ⟨t, row'⟩ := r
        simp only [List.head?_cons, Option.map_some, Option.some.injEq] at hh
        subst hh
        unfold sameLineEpsilon at hnear
        refine ⟨(f.y, S (fun a b => compareForSorting a.x b.x) (f :: cur)) :: (c.y, row') :: rows, ?_,
          rfl, ?_⟩
        · rw [List.flatMap_cons]
          refine ((sort_perm hS _ _).append hp).trans ?_
          simp
        · by_cases hfar : f.y - c.y > additionalEmptyLineThreshold
          · rw [if_pos hfar]
            unfold additionalEmptyLineThreshold at hfar
            exact .far h1 h2 consolidate_justified (by linarith) hs
          · rw [if_neg hfar]
            unfold additionalEmptyLineThreshold at hfar
            exact .near h1 h2 consolidate_justified (by linarith) (by linarith) hs

/-! ### The order of drawing -/

/-- Characters on a line which have the same place are the same. -/
def PlacesDiffer (chars : List PChar) : Prop :=
  ∀ a ∈ chars, ∀ b ∈ chars, |a.y - b.y| < 1 / 2 → a.x = b.x → a = b

theorem sortX_eq {S S' : Sorter} (hS : S.Sorts) (hS' : S'.Sorts) {row row' : List PChar}
    (hp : row.Perm row') (hd : ∀ a ∈ row, ∀ b ∈ row, a.x = b.x → a = b) :
    S (fun a b => compareForSorting a.x b.x) row = S' (fun a b => compareForSorting a.x b.x) row' := by
  have p1 := sort_perm hS (fun a b => compareForSorting a.x b.x) row
  have p2 := sort_perm hS' (fun a b => compareForSorting a.x b.x) row'
  refine List.Perm.eq_of_pairwise (le := fun a b => a.x ≤ b.x) ?_ (sort_key hS (fun c => c.x) row)
    (sort_key hS' (fun c => c.x) row') (p1.trans (hp.trans p2.symm))
  intro a b ha hb h1 h2
  exact hd a (p1.mem_iff.1 ha) b (hp.mem_iff.2 (p2.mem_iff.1 hb)) (le_antisymm h1 h2)

theorem consolidate_eq {S S' : Sorter} (hS : S.Sorts) (hS' : S'.Sorts) {row row' : List PChar}
    (hp : row.Perm row') (hd : ∀ a ∈ row, ∀ b ∈ row, a.x = b.x → a = b) (margin : Rat) :
    consolidateLine S row margin = consolidateLine S' row' margin := by
  unfold consolidateLine
  rw [sortX_eq hS hS' hp hd]

/-- If what remains is below the row, two orders of the characters have the same row. -/
theorem rows_perm {f f' : PChar} {cur cur' rest rest' : List PChar}
    (hf : f.y = f'.y) (hy : rest.map (·.y) = rest'.map (·.y))
    (hperm : (f :: cur ++ rest).Perm (f' :: cur' ++ rest'))
    (hcur : ∀ c ∈ f :: cur, c.y ≤ f.y ∧ f.y - 1 / 2 < c.y)
    (hcur' : ∀ c ∈ f' :: cur', c.y ≤ f'.y ∧ f'.y - 1 / 2 < c.y)
    (hlow : ∀ c ∈ rest, c.y ≤ f.y - 1 / 2) :
    (f :: cur).Perm (f' :: cur') ∧ rest.Perm rest' := by
  have hlow' : ∀ c ∈ rest', c.y ≤ f'.y - 1 / 2 := by
    intro c hc
    have : c.y ∈ rest'.map (·.y) := List.mem_map_of_mem hc
    rw [← hy] at this
    obtain ⟨d, hd, e⟩ := List.mem_map.1 this
    rw [← hf, ← e]; exact hlow d hd
  have key : ∀ {f : PChar} {cur rest : List PChar}, (∀ c ∈ f :: cur, c.y ≤ f.y ∧ f.y - 1 / 2 < c.y) →
      (∀ c ∈ rest, c.y ≤ f.y - 1 / 2) →
      (f :: cur ++ rest).filter (fun c => decide (f.y - 1 / 2 < c.y)) = f :: cur := by
    intro f cur rest h1 h2
    rw [List.filter_append, List.filter_eq_self.2 (fun c hc => decide_eq_true (h1 c hc).2),
      List.filter_eq_nil_iff.2 (fun c hc => by simpa using h2 c hc), List.append_nil]
  have h1 := key hcur hlow
  have h2 := key hcur' hlow'
  have h3 := hperm.filter (fun c => decide (f.y - 1 / 2 < c.y))
  rw [h1, hf, h2] at h3
  exact ⟨h3, (List.perm_append_left_iff (f :: cur)).1 (hperm.trans (h3.symm.append_right rest'))⟩

theorem row_places {f : PChar} {cur rest : List PChar} (hd : PlacesDiffer (f :: cur ++ rest))
    (hcur : ∀ c ∈ f :: cur, c.y ≤ f.y ∧ f.y - 1 / 2 < c.y) :
    ∀ a ∈ f :: cur, ∀ b ∈ f :: cur, a.x = b.x → a = b := by
  intro a ha b hb e
  refine hd a (List.mem_append_left _ ha) b (List.mem_append_left _ hb) ?_ e
  rw [abs_lt]
  have := hcur a ha; have := hcur b hb
  constructor <;> linarith

/-- The loop gives the same lines for two orders of the characters with the same heights. -/
theorem linesFrom_eq {S S' : Sorter} (hS : S.Sorts) (hS' : S'.Sorts) (margin : Rat)
    {f f' : PChar} {cur cur' rest rest' : List PChar}
    (hf : f.y = f'.y) (hy : rest.map (·.y) = rest'.map (·.y))
    (hperm : (f :: cur ++ rest).Perm (f' :: cur' ++ rest'))
    (hd : PlacesDiffer (f :: cur ++ rest))
    (hcur : ∀ c ∈ f :: cur, c.y ≤ f.y ∧ f.y - 1 / 2 < c.y)
    (hcur' : ∀ c ∈ f' :: cur', c.y ≤ f'.y ∧ f'.y - 1 / 2 < c.y)
    (hrest : rest.Pairwise fun a b => b.y ≤ a.y) (hle : ∀ c ∈ rest, c.y ≤ f.y) :
    linesFrom S margin (f :: cur) rest = linesFrom S' margin (f' :: cur') rest' := by
  induction rest generalizing f f' cur cur' rest' with
  | nil =>
    cases rest' with
    | cons c cs => simp at hy
    | nil =>
      simp only [linesFrom]
      rw [consolidate_eq hS hS' (rows_perm hf hy hperm hcur hcur' (by simp)).1 (row_places hd hcur)]
  | cons c cs ih =>
    cases rest' with
    | nil => simp at hy
    | cons c' cs' =>
      simp only [List.map_cons, List.cons.injEq] at hy
      have hcle := hle c (by simp)
      have hcle' : c'.y ≤ f'.y := by rw [← hy.1, ← hf]; exact hcle
      rw [List.pairwise_cons] at hrest
      simp only [linesFrom]
      rw [yDiff_cons hcle, yDiff_cons hcle', ← hf, ← hy.1]
      by_cases hnear : f.y - c.y < sameLineEpsilon
      · rw [if_pos hnear, if_pos hnear]
        unfold sameLineEpsilon at hnear
        refine ih (f := f) (f' := f') (cur := cur ++ [c]) (cur' := cur' ++ [c']) (rest' := cs') hf hy.2
          (by simpa using hperm) (by simpa using hd) ?_ ?_ hrest.2 (fun d h => hle d (by simp [h]))
        · intro d h
          simp only [List.mem_cons, List.mem_append, List.not_mem_nil, or_false] at h
          rcases h with rfl | h | rfl
          · exact hcur _ (by simp)
          · exact hcur d (by simp [h])
          · exact ⟨hcle, by linarith⟩
        · intro d h
          simp only [List.mem_cons, List.mem_append, List.not_mem_nil, or_false] at h
          rcases h with rfl | h | rfl
          · exact hcur' _ (by simp)
          · exact hcur' d (by simp [h])
          · exact ⟨hcle', by rw [← hy.1, ← hf]; linarith⟩
      · rw [if_neg hnear, if_neg hnear]
        unfold sameLineEpsilon at hnear
        have hlow : ∀ d ∈ c :: cs, d.y ≤ f.y - 1 / 2 := by
          intro d h
          rcases List.mem_cons.1 h with rfl | h
          · linarith
          · have := hrest.1 d h; linarith
        obtain ⟨h1, h2⟩ := rows_perm hf (by simp [hy]) hperm hcur hcur' hlow
        rw [consolidate_eq hS hS' h1 (row_places hd hcur)]
        congr 2
        refine ih (f := c) (f' := c') (cur := []) (cur' := []) (rest' := cs') hy.1 hy.2 (by simpa using h2)
          ?_ ?_ ?_ hrest.2 hrest.1
        · intro a ha b hb
          exact hd a (by simp at ha ⊢; tauto) b (by simp at hb ⊢; tauto)
        · intro d h; simp at h; subst h; exact ⟨le_refl _, by linarith⟩
        · intro d h; simp at h; subst h; exact ⟨le_refl _, by linarith⟩

theorem rightMargin_perm {a b : List PChar} (h : a.Perm b) : rightMargin a = rightMargin b := by
  have : ∀ {a b : List PChar}, a.Perm b → rightMargin b ≤ rightMargin a := by
    intro a b h
    obtain ⟨h1, h2⟩ := rightMargin_le.1 (le_refl (rightMargin a))
    exact rightMargin_le.2 ⟨h1, fun c hc => h2 c (h.mem_iff.2 hc)⟩
  exact le_antisymm (this h.symm) (this h)

theorem pageOfLines_eq {S S' : Sorter} (hS : S.Sorts) (hS' : S'.Sorts) {chars chars' : List PChar}
    (hp : chars.Perm chars') (hd : PlacesDiffer chars) :
    pageOfLines S chars = pageOfLines S' chars' := by
  unfold pageOfLines
  rw [rightMargin_perm hp]
  have p1 := sort_perm hS (fun a b => compareForSorting b.y a.y) chars
  have p2 := sort_perm hS' (fun a b => compareForSorting b.y a.y) chars'
  have s1 := sort_key_desc hS (fun c => c.y) chars
  have s2 := sort_key_desc hS' (fun c => c.y) chars'
  generalize S (fun a b => compareForSorting b.y a.y) chars = l at p1 s1
  generalize S' (fun a b => compareForSorting b.y a.y) chars' = l' at p2 s2
  have hll : l.Perm l' := p1.trans (hp.trans p2.symm)
  have hy : l.map (·.y) = l'.map (·.y) := by
    refine List.Perm.eq_of_pairwise (le := fun a b => b ≤ a) (fun a b _ _ h1 h2 => le_antisymm h2 h1)
      (List.pairwise_map.2 s1) (List.pairwise_map.2 s2) (hll.map _)
  have hd' : PlacesDiffer l := fun a ha b hb => hd a (p1.mem_iff.1 ha) b (p1.mem_iff.1 hb)
  cases l with
  | nil =>
    cases l' with
    | nil =>
      simp only [linesFrom]
      rw [consolidate_eq hS hS' (List.Perm.refl []) (by simp)]
    | cons c cs => simp at hy
  | cons c cs =>
    cases l' with
    | nil => simp at hy
    | cons c' cs' =>
      simp only [List.map_cons, List.cons.injEq] at hy
      rw [List.pairwise_cons] at s1
      have e : ∀ (S : Sorter) (m : Rat) (c : PChar) (cs : List PChar),
          linesFrom S m [] (c :: cs) = linesFrom S m [c] cs := by
        intro S m c cs
        have h0 : yDiff [] c < sameLineEpsilon := by unfold yDiff sameLineEpsilon; norm_num
        simp only [linesFrom, if_pos h0, List.nil_append]
      rw [e, e]
      refine linesFrom_eq hS hS' _ hy.1 hy.2 (by simpa using hll) (by simpa using hd') ?_ ?_ s1.2 s1.1
      · intro d h; simp at h; subst h; exact ⟨le_refl _, by linarith⟩
      · intro d h; simp at h; subst h; exact ⟨le_refl _, by linarith⟩

end HunLaw.Pdf
