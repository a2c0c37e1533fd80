import Verif.Spec.Fixups
import Verif.Lemmas.Line
import Mathlib.Tactic.FieldSimp
import Mathlib.Tactic.Positivity

/-! Lemmas on fixups. -/

set_option autoImplicit false

namespace HunLaw

open Spec

/-! ### places -/

theorem mem_windows_index {α : Type} {n : Nat} {l : List α} {i : Nat} (h : i < l.length + 1 - n) :
    (windows n l)[i]? = some ((l.drop i).take n) := by
  simp [windows, h]

theorem occursAt_iff {needle hay : List Str} {i : Nat} :
    OccursAt needle hay i ↔ i + needle.length ≤ hay.length ∧ (hay.drop i).take needle.length = needle := by
  constructor
  · rintro ⟨b, a, rfl, rfl⟩
    simp
  · rintro ⟨h1, h2⟩
    refine ⟨hay.take i, hay.drop (i + needle.length), ?_, ?_⟩
    · conv_lhs => rw [← List.take_append_drop i hay, ← List.take_append_drop needle.length (hay.drop i), h2]
      rw [List.drop_drop, List.append_assoc]
    · rw [List.length_take]; omega

/-- The filter of the windows that are the needle, as positions. -/
theorem filter_windows_length {needle hay : List Str} :
    ((windows needle.length hay).filter (· == needle)).length =
      ((List.range (hay.length + 1 - needle.length)).filter
        fun i => (hay.drop i).take needle.length == needle).length := by
  unfold windows
  rw [List.filter_map, List.length_map]
  rfl

theorem mem_places {needle hay : List Str} {i : Nat} (hn : needle ≠ []) :
    i ∈ (List.range (hay.length + 1 - needle.length)).filter
      (fun i => (hay.drop i).take needle.length == needle) ↔ OccursAt needle hay i := by
  have := List.length_pos_iff.2 hn
  rw [List.mem_filter, List.mem_range, beq_iff_eq, occursAt_iff]
  constructor
  · rintro ⟨h1, h2⟩; exact ⟨by omega, h2⟩
  · rintro ⟨h1, h2⟩; exact ⟨by omega, h2⟩

/-- Exactly one window is the needle: exactly one place. -/
theorem one_window_iff {needle hay : List Str} (hn : needle ≠ []) :
    ((windows needle.length hay).filter (· == needle)).length = 1 ↔
      ∃ i, OccursAt needle hay i ∧ ∀ j, OccursAt needle hay j → j = i := by
  rw [filter_windows_length]
  have hnd : ((List.range (hay.length + 1 - needle.length)).filter
      fun i => (hay.drop i).take needle.length == needle).Nodup := List.nodup_range.filter _
  have hm := fun i => mem_places (needle := needle) (hay := hay) (i := i) hn
  generalize (List.range (hay.length + 1 - needle.length)).filter
      (fun i => (hay.drop i).take needle.length == needle) = ps at hnd hm
  constructor
  · intro h
    obtain ⟨a, rfl⟩ := List.length_eq_one_iff.1 h
    refine ⟨a, (hm a).1 (by simp), fun j hj => ?_⟩
    simpa using (hm j).2 hj
  · rintro ⟨i, h1, h2⟩
    cases ps with
    | nil => have := (hm i).2 h1; simp at this
    | cons a as =>
      cases as with
      | nil => rfl
      | cons b bs =>
        have e1 := h2 a ((hm a).1 (by simp))
        have e2 := h2 b ((hm b).1 (by simp))
        subst e1; subst e2
        simp at hnd

theorem findIdx_window {needle hay : List Str} (hn : needle ≠ []) :
    (∀ p, (windows needle.length hay).findIdx? (· == needle) = some p → OccursAt needle hay p) ∧
    ((windows needle.length hay).findIdx? (· == needle) = none → ∀ i, ¬ OccursAt needle hay i) := by
  have hpos := List.length_pos_iff.2 hn
  constructor
  · intro p hp
    rw [List.findIdx?_eq_some_iff_getElem] at hp
    obtain ⟨h1, h2, _⟩ := hp
    simp only [windows, List.getElem_map, List.getElem_range, beq_iff_eq] at h2
    rw [occursAt_iff]
    simp only [windows, List.length_map, List.length_range] at h1
    exact ⟨by omega, h2⟩
  · intro hp i hi
    rw [List.findIdx?_eq_none_iff] at hp
    rw [occursAt_iff] at hi
    have := hp needle (by
      unfold windows
      rw [List.mem_map]
      exact ⟨i, List.mem_range.2 (by omega), hi.2⟩)
    simp at this

/-- The line at the place of a fixup. -/
theorem line_at_place {f : Fixup} {lines : List Line} {i : Nat}
    (h : OccursAt (f.after ++ [f.old]) (texts lines) i) :
    ∃ l, lines[i + f.after.length]? = some l ∧ l.content = f.old := by
  obtain ⟨b, a, e, rfl⟩ := h
  have : (texts lines)[b.length + f.after.length]? = some f.old := by
    rw [e]; simp
  unfold texts at this
  rw [List.getElem?_map] at this
  cases hl : lines[b.length + f.after.length]? with
  | none => rw [hl] at this; simp at this
  | some l => rw [hl] at this; simp at this; exact ⟨l, rfl, this⟩

/-- The exact result of applying a fixup. -/
theorem apply_eq (f : Fixup) (lines : List Line) :
    (∀ i, OnlyPlace f lines i → ∃ l, lines[i + f.after.length]? = some l ∧ l.content = f.old ∧
      f.apply lines = (f.applyToLine l >>= fun l' => .ok (lines.set (i + f.after.length) l'))) ∧
    ((¬ ∃ i, OnlyPlace f lines i) → f.apply lines = .err) := by
  have hn : f.after ++ [f.old] ≠ [] := by simp
  constructor
  · rintro i ⟨h1, h2⟩
    obtain ⟨l, hl, hc⟩ := line_at_place h1
    refine ⟨l, hl, hc, ?_⟩
    unfold Fixup.apply
    simp only
    change (match (windows (f.after ++ [f.old]).length (texts lines)).findIdx? _ with
      | none => _ | some p => _) = _
    cases hp : (windows (f.after ++ [f.old]).length (texts lines)).findIdx? (· == f.after ++ [f.old]) with
    | none => exact absurd h1 ((findIdx_window hn).2 hp i)
    | some p =>
      have := h2 p ((findIdx_window hn).1 p hp)
      subst this
      simp only
      rw [if_neg]
      · rw [hl]
      · rw [not_not]
        exact (one_window_iff hn).2 ⟨p, h1, h2⟩
  · intro hno
    unfold Fixup.apply
    simp only
    change (match (windows (f.after ++ [f.old]).length (texts lines)).findIdx? _ with
      | none => _ | some p => _) = _
    cases hp : (windows (f.after ++ [f.old]).length (texts lines)).findIdx? (· == f.after ++ [f.old]) with
    | none => rfl
    | some p =>
      simp only
      rw [if_pos]
      intro h1
      exact hno ((one_window_iff hn).1 h1)

/-! ### common prefix and suffix -/

theorem commonLen_spec (a b : Str) : LongestPrefix (commonLen a b) a b := by
  induction a generalizing b with
  | nil => simp [commonLen, LongestPrefix, SharePrefix]
  | cons x xs ih =>
    cases b with
    | nil => simp [commonLen, LongestPrefix, SharePrefix]
    | cons y ys =>
      by_cases hxy : x = y
      · subst hxy
        have he : commonLen (x :: xs) (x :: ys) = commonLen xs ys + 1 := by
          simp [commonLen]
        obtain ⟨⟨h1, h2, h3⟩, h4⟩ := ih ys
        rw [he]
        refine ⟨⟨by simpa using h1, by simpa using h2, by simpa using h3⟩, ?_⟩
        rintro m ⟨m1, m2, m3⟩
        cases m with
        | zero => omega
        | succ m =>
          simp only [List.length_cons, List.take_succ_cons, List.cons.injEq, true_and] at m1 m2 m3
          have := h4 m ⟨by omega, by omega, m3⟩
          omega
      · have he : commonLen (x :: xs) (y :: ys) = 0 := by
          simp [commonLen, hxy]
        rw [he]
        refine ⟨⟨by simp, by simp, by simp⟩, ?_⟩
        rintro m ⟨m1, m2, m3⟩
        cases m with
        | zero => omega
        | succ m =>
          simp only [List.take_succ_cons, List.cons.injEq] at m3
          exact absurd m3.1 hxy

theorem longestPrefix_unique {m n : Nat} {a b : Str} (h1 : LongestPrefix m a b) (h2 : LongestPrefix n a b) :
    m = n := Nat.le_antisymm (h2.2 m h1.1) (h1.2 n h2.1)

/-- The common suffix of the texts after the common prefix. -/
theorem commonSuffix_spec (a b : Str) (p : Nat) (hp : p ≤ a.length ∧ p ≤ b.length) :
    let q := commonLen (a.drop p).reverse (b.drop p).reverse
    p + q ≤ a.length ∧ p + q ≤ b.length ∧ a.drop (a.length - q) = b.drop (b.length - q) ∧
      ∀ m, p + m ≤ a.length → p + m ≤ b.length → ShareSuffix m a b → m ≤ q := by
  intro q
  obtain ⟨⟨h1, h2, h3⟩, h4⟩ := commonLen_spec (a.drop p).reverse (b.drop p).reverse
  change q ≤ _ at h1
  change q ≤ _ at h2
  change List.take q _ = List.take q _ at h3
  simp only [List.length_reverse, List.length_drop] at h1 h2
  have key : ∀ (s : Str) (m : Nat), p + m ≤ s.length →
      ((s.drop p).reverse.take m).reverse = s.drop (s.length - m) := by
    intro s m hm
    rw [List.take_reverse, List.reverse_reverse, List.drop_drop, List.length_drop]
    congr 1; omega
  refine ⟨by omega, by omega, ?_, ?_⟩
  · rw [← key a q (by omega), ← key b q (by omega), h3]
  · rintro m m1 m2 ⟨_, _, m3⟩
    refine h4 m ⟨by simp; omega, by simp; omega, ?_⟩
    rw [← key a m m1, ← key b m m2] at m3
    exact List.reverse_injective m3

/-! ### the fixed line -/

/-- The middle of the new text: between the common prefix and the common suffix. -/
def middle (f : Fixup) (p q : Nat) : Str := (f.new.drop p).take (f.new.length - p - q)

theorem new_split (f : Fixup) (p q : Nat) (h1 : LongestPrefix p f.old f.new) (hq : p + q ≤ f.new.length)
    (hs : f.old.drop (f.old.length - q) = f.new.drop (f.new.length - q)) :
    f.old.take p ++ middle f p q ++ f.old.drop (f.old.length - q) = f.new := by
  rw [h1.1.2.2, hs]
  unfold middle
  have : f.new.drop (f.new.length - q) = (f.new.drop p).drop (f.new.length - p - q) := by
    rw [List.drop_drop]; congr 1; omega
  rw [this, List.append_assoc, List.take_append_drop, List.take_append_drop]

/-- The start of the replacement (fixups.rs:156-177). -/
def fixStart (line : Line) (p q oldLen : Nat) : Rat :=
  if p ≥ oldLen then line.indentAt p + replacementFakeWidth / 2
  else if p > 0 then
    if q > 0 ∧ p + q ≥ oldLen then
      (line.indentAt ((p : Int) - 1) + line.indentAt p) / 2
    else line.indentAt p
  else if q > 0 then line.indentAt (-(q : Int)) - replacementFakeWidth
  else line.indent

/-- The end of the replacement (fixups.rs:180-190). -/
def fixEnd (line : Line) (p q : Nat) : Rat :=
  if q > 0 then line.indentAt (-(q : Int))
  else if p > 0 then line.indentAt 10000 + replacementFakeWidth
  else if line.isEmpty then replacementFakeWidth
  else line.indentAt 10000

theorem glyphs_slice_prefix (l : Line) (p : Nat) (hp : p ≤ l.len) :
    glyphs (l.slice 0 (some p)) = (glyphs l).take p := by
  rw [Line.glyphs_slice]
  have h0 : clampIndex l.len 0 = 0 := by unfold clampIndex; simp
  have h1 : clampIndex l.len (p : Int) = p := by unfold clampIndex; simp [hp]
  simp [h0, h1, window]

theorem glyphs_slice_suffix (l : Line) (q : Nat) (hq : q ≤ l.len) :
    glyphs (if q = 0 then Line.emptyLine else l.slice (-(q : Int)) none) =
      (glyphs l).drop (l.len - q) := by
  split
  · rename_i h; subst h
    rw [Nat.sub_zero, List.drop_of_length_le (by rw [Line.glyphs_length])]
    rfl
  · rw [Line.glyphs_slice]
    have h1 : clampIndex l.len (-(q : Int)) = l.len - q := by
      unfold clampIndex
      split <;> (try split) <;> omega
    simp only [h1, window]
    apply List.take_of_length_le
    simp [Line.glyphs_length]

theorem glyphs_asBold (l : Line) : glyphs l.asBold = (glyphs l).map fun g => { g with bold := true } := by
  unfold glyphs Line.asBold
  simp only
  generalize (0 : Rat) = x
  induction l.parts generalizing x with
  | nil => rfl
  | cons p ps ih => simp [glyphsFrom, ih]

/-- The fixed line, before it is made bold. -/
def fixedLine (f : Fixup) (line : Line) (p q : Nat) : Line :=
  Line.fromMultiple [line.slice 0 (some p),
    Line.fromParts (Fixup.replacementParts (fixStart line p q f.old.length)
      ((fixEnd line p q - fixStart line p q f.old.length) / ((f.new.length - p - q : Nat) : Rat))
      line.isBold (middle f p q)) false,
    if q = 0 then .emptyLine else line.slice (-(q : Int)) none]

/-- The characters of a fixed line. -/
theorem applyToLine_eq (f : Fixup) (line : Line) (hc : line.content = f.old) (hu : Useful f)
    (hne : f.new ≠ []) :
    ∃ p q l', LongestPrefix p f.old f.new ∧ p + q ≤ f.old.length ∧ p + q ≤ f.new.length ∧
      f.old.drop (f.old.length - q) = f.new.drop (f.new.length - q) ∧
      (∀ m, p + m ≤ f.old.length → p + m ≤ f.new.length → ShareSuffix m f.old f.new → m ≤ q) ∧
      f.applyToLine line = .ok (if f.setBold then l'.asBold else l') ∧
      glyphs l' = (glyphs line).take p ++
        glyphsFrom 0 (Fixup.replacementParts (fixStart line p q f.old.length)
          ((fixEnd line p q - fixStart line p q f.old.length) / ((f.new.length - p - q : Nat) : Rat))
          line.isBold (middle f p q)) ++
        (glyphs line).drop (line.len - q) := by
  have hp := commonLen_spec f.old f.new
  obtain ⟨h1, h2, h3, h4⟩ := commonSuffix_spec f.old f.new (commonLen f.old f.new) ⟨hp.1.1, hp.1.2.1⟩
  have hlen : line.len = f.old.length := by rw [← line.content_length, hc]
  refine ⟨commonLen f.old f.new,
    commonLen (f.old.drop (commonLen f.old f.new)).reverse (f.new.drop (commonLen f.old f.new)).reverse,
    fixedLine f line (commonLen f.old f.new)
      (commonLen (f.old.drop (commonLen f.old f.new)).reverse (f.new.drop (commonLen f.old f.new)).reverse),
    hp, h1, h2, h3, h4, ?_, ?_⟩
  · unfold Fixup.applyToLine
    rw [if_neg (by simpa using hc), if_neg, if_neg hne]
    rotate_left
    · rintro ⟨e1, e2⟩
      rcases hu with hu | hu
      · exact hu e1
      · rw [hu] at e2; simp at e2
    exact (show ∀ (b : Bool) (x y : Line), (if b = true then Res.ok x else Res.ok y) =
      Res.ok (if b = true then x else y) from fun b x y => by cases b <;> rfl) _ _ _
  · unfold fixedLine
    rw [Line.glyphs_fromMultiple]
    simp only [List.flatMap_cons, List.flatMap_nil, List.append_nil]
    rw [glyphs_slice_prefix line _ (by omega), glyphs_slice_suffix line _ (by omega), List.append_assoc]
    rfl

theorem replacementParts_text (start step : Rat) (b : Bool) (s : Str) (x : Rat) :
    (glyphsFrom x (Fixup.replacementParts start step b s)).map (·.char) = s := by
  cases s with
  | nil => rfl
  | cons c cs =>
    simp only [Fixup.replacementParts, glyphsFrom, List.map_cons, List.cons.injEq, true_and]
    generalize x + start = y
    induction cs generalizing y with
    | nil => rfl
    | cons d ds ih => simp [glyphsFrom, ih]

theorem applyToLine_content (f : Fixup) (line l' : Line) (h : f.applyToLine line = .ok l') :
    line.content = f.old ∧ Useful f ∧ l'.content = f.new ∧
      (f.setBold = true → f.new ≠ [] → l'.isBold = true ∧ ∀ g ∈ glyphs l', g.bold = true) := by
  have hc : line.content = f.old := by
    unfold Fixup.applyToLine at h
    split at h
    · simp at h
    · rename_i hc; simpa using hc
  have hu : Useful f := by
    unfold Fixup.applyToLine at h
    rw [if_neg (by simpa using hc)] at h
    split at h
    · simp at h
    · rename_i hu
      unfold Useful
      by_cases ho : f.old = f.new
      · right
        cases hb : f.setBold with
        | true => rfl
        | false => exact absurd ⟨ho, hb⟩ hu
      · exact .inl ho
  refine ⟨hc, hu, ?_⟩
  by_cases hne : f.new = []
  · unfold Fixup.applyToLine at h
    rw [if_neg (by simpa using hc), if_neg, if_pos hne] at h
    · simp at h; subst h
      exact ⟨by rw [hne]; rfl, fun _ h => absurd hne h⟩
    · rintro ⟨e1, e2⟩
      rcases hu with hu | hu
      · exact hu e1
      · rw [hu] at e2; simp at e2
  · obtain ⟨p, q, m, h1, h2, h3, h4, h5, h6, h7⟩ := applyToLine_eq f line hc hu hne
    rw [h] at h6
    simp only [Res.ok.injEq] at h6
    have hlen : line.len = f.old.length := by rw [← line.content_length, hc]
    have hm : m.content = f.new := by
      rw [Line.content_eq, h7]
      simp only [List.map_append, List.map_take, List.map_drop, ← Line.content_eq, hc,
        replacementParts_text, hlen]
      exact new_split f p q h1 h3 h4
    have hbold : m.asBold.content = m.content := by
      simp [Line.content, Line.asBold]
    constructor
    · rw [h6]; split
      · rw [hbold, hm]
      · exact hm
    · intro hb _
      rw [h6, if_pos hb]
      refine ⟨rfl, ?_⟩
      intro g hg
      rw [glyphs_asBold, List.mem_map] at hg
      obtain ⟨g', _, rfl⟩ := hg
      rfl

theorem applyToLine_total (f : Fixup) (line : Line) (hc : line.content = f.old) (hu : Useful f) :
    ∃ l', f.applyToLine line = .ok l' := by
  by_cases hne : f.new = []
  · refine ⟨.emptyLine, ?_⟩
    unfold Fixup.applyToLine
    rw [if_neg (by simpa using hc), if_neg, if_pos hne]
    rintro ⟨e1, e2⟩
    rcases hu with hu | hu
    · exact hu e1
    · rw [hu] at e2; simp at e2
  · obtain ⟨p, q, m, _, _, _, _, _, h, _⟩ := applyToLine_eq f line hc hu hne
    exact ⟨_, h⟩

theorem applyToLine_useless (f : Fixup) (line : Line) (hu : ¬ Useful f) : f.applyToLine line = .err := by
  unfold Useful at hu
  simp only [ne_eq, not_or, not_not, Bool.not_eq_true] at hu
  unfold Fixup.applyToLine
  rw [if_pos hu, ite_self]

/-! ### order of positions -/

/-- Position of character `i`, or of the last one if there is no such character. -/
def posAt (l : Line) (i : Nat) : Rat := Line.sumDx (l.parts.take (i + 1))

theorem indentAt_eq (l : Line) (i : Int) : l.indentAt i = posAt l (clampIndex l.len i) := by
  unfold Line.indentAt posAt
  rw [Line.convertIndex_eq]

theorem glyph_posAt (l : Line) (i : Nat) (h : i < l.len) : ((glyphs l)[i]'(by rw [Line.glyphs_length]; exact h)).x = posAt l i := by
  have hidx : ∀ (x : Rat) (ps : List LinePart) (n : Nat) (hn : n < (glyphsFrom x ps).length),
      ((glyphsFrom x ps)[n]).x = x + Line.sumDx (ps.take (n + 1)) := by
    intro x ps
    induction ps generalizing x with
    | nil => intro n hn; simp [glyphsFrom] at hn
    | cons p ps ih =>
      intro n hn
      cases n with
      | zero => simp [glyphsFrom, Line.sumDx]
      | succ n =>
        simp only [glyphsFrom, List.getElem_cons_succ]
        rw [ih]
        simp only [List.take_succ_cons, Line.sumDx_cons]
        rw [add_assoc]
  have := hidx 0 l.parts i (by rw [Line.glyphsFrom_length]; exact h)
  rw [zero_add] at this
  exact this

theorem posAt_past (l : Line) (i : Nat) (h : l.len ≤ i + 1) : posAt l i = Line.sumDx l.parts := by
  unfold posAt
  rw [List.take_of_length_le h]

theorem posAt_mono (l : Line) (h : InOrder (glyphs l)) {i j : Nat} (hij : i ≤ j) : posAt l i ≤ posAt l j := by
  by_cases hj : l.len ≤ j + 1
  · by_cases hi : l.len ≤ i + 1
    · rw [posAt_past l i hi, posAt_past l j hj]
    · have : posAt l j = posAt l (l.len - 1) := by
        rw [posAt_past l j hj, posAt_past l (l.len - 1) (by omega)]
      rw [this, ← glyph_posAt l i (by omega), ← glyph_posAt l (l.len - 1) (by omega)]
      exact List.pairwise_iff_getElem.1 h i (l.len - 1) _ _ (by omega)
  · rcases Nat.lt_or_ge i j with hlt | hge
    · rw [← glyph_posAt l i (by omega), ← glyph_posAt l j (by omega)]
      exact List.pairwise_iff_getElem.1 h i j _ _ hlt
    · have : i = j := by omega
      rw [this]

theorem mem_take_le (l : Line) (h : InOrder (glyphs l)) {p : Nat} (hp : p ≤ l.len) {g : Glyph}
    (hg : g ∈ (glyphs l).take p) : 0 < p ∧ g.x ≤ posAt l (p - 1) := by
  obtain ⟨i, hi, rfl⟩ := List.mem_iff_getElem.1 hg
  simp only [List.length_take, Line.glyphs_length] at hi
  rw [List.getElem_take, glyph_posAt l i (by omega)]
  exact ⟨by omega, posAt_mono l h (by omega)⟩

theorem mem_drop_ge (l : Line) (h : InOrder (glyphs l)) {k : Nat} {g : Glyph}
    (hg : g ∈ (glyphs l).drop k) : k < l.len ∧ posAt l k ≤ g.x := by
  obtain ⟨i, hi, rfl⟩ := List.mem_iff_getElem.1 hg
  simp only [List.length_drop, Line.glyphs_length] at hi
  rw [List.getElem_drop, glyph_posAt l (k + i) (by omega)]
  exact ⟨by omega, posAt_mono l h (by omega)⟩

theorem replacement_bounds (start step : Rat) (b : Bool) (s : Str) (hstep : 0 ≤ step) :
    InOrder (glyphsFrom 0 (Fixup.replacementParts start step b s)) ∧
    ∀ g ∈ glyphsFrom 0 (Fixup.replacementParts start step b s),
      start ≤ g.x ∧ g.x ≤ start + step * s.length := by
  have key : ∀ (cs : Str) (y : Rat), InOrder (glyphsFrom y (cs.map fun c => ⟨step, c, b⟩)) ∧
      ∀ g ∈ glyphsFrom y (cs.map fun c => ⟨step, c, b⟩), y ≤ g.x ∧ g.x ≤ y + step * cs.length := by
    intro cs
    induction cs with
    | nil => intro y; simp [glyphsFrom, InOrder]
    | cons c cs ih =>
      intro y
      obtain ⟨h1, h2⟩ := ih (y + step)
      simp only [List.map_cons, glyphsFrom, List.mem_cons, List.length_cons, Nat.cast_add, Nat.cast_one]
      have hcs : (0 : Rat) ≤ cs.length := Nat.cast_nonneg _
      have hm : 0 ≤ step * cs.length := mul_nonneg hstep hcs
      constructor
      · unfold InOrder at h1 ⊢
        rw [List.pairwise_cons]
        exact ⟨fun g hg => (h2 g hg).1, h1⟩
      · rintro g (rfl | hg)
        · simp only; constructor <;> nlinarith
        · obtain ⟨a1, a2⟩ := h2 g hg
          constructor <;> nlinarith
  cases s with
  | nil => simp [Fixup.replacementParts, glyphsFrom, InOrder]
  | cons c cs =>
    obtain ⟨h1, h2⟩ := key cs (0 + start)
    simp only [Fixup.replacementParts, glyphsFrom, List.mem_cons, List.length_cons, Nat.cast_add,
      Nat.cast_one]
    simp only [zero_add] at h1 h2 ⊢
    have hcs : (0 : Rat) ≤ cs.length := Nat.cast_nonneg _
    have hm : 0 ≤ step * cs.length := mul_nonneg hstep hcs
    constructor
    · unfold InOrder at h1 ⊢
      rw [List.pairwise_cons]
      exact ⟨fun g hg => (h2 g hg).1, h1⟩
    · rintro g (rfl | hg)
      · simp only; constructor <;> nlinarith
      · obtain ⟨a1, a2⟩ := h2 g hg
        constructor <;> nlinarith

theorem fix_bounds (l : Line) (h : InOrder (glyphs l)) (hlen : l.len ≤ 10001) (p q : Nat)
    (hpq : p + q ≤ l.len) :
    fixStart l p q l.len ≤ fixEnd l p q ∧
    (∀ g ∈ (glyphs l).take p, g.x ≤ fixStart l p q l.len) ∧
    (∀ g ∈ (glyphs l).drop (l.len - q), fixEnd l p q ≤ g.x) := by
  have hmono := fun {i j} => posAt_mono l h (i := i) (j := j)
  have c1 : clampIndex l.len (p : Int) = p := by
    unfold clampIndex; split <;> (try split) <;> omega
  have c2 : 0 < p → clampIndex l.len ((p : Int) - 1) = p - 1 := by
    intro hp; unfold clampIndex; split <;> (try split) <;> omega
  have c3 : clampIndex l.len (-(q : Int)) = l.len - q ∨ q = 0 := by
    unfold clampIndex; split <;> (try split) <;> omega
  have c4 : l.len ≤ clampIndex l.len 10000 + 1 := by
    unfold clampIndex; split <;> (try split) <;> omega
  have e4 : l.indentAt 10000 = Line.sumDx l.parts := by rw [indentAt_eq, posAt_past l _ c4]
  have e1 : l.indentAt (p : Int) = posAt l p := by rw [indentAt_eq, c1]
  have e2 : 0 < p → l.indentAt ((p : Int) - 1) = posAt l (p - 1) := by intro hp; rw [indentAt_eq, c2 hp]
  have e3 : 0 < q → l.indentAt (-(q : Int)) = posAt l (l.len - q) := by
    intro hq
    rcases c3 with c3 | c3
    · rw [indentAt_eq, c3]
    · omega
  have hall : ∀ i, posAt l i ≤ Line.sumDx l.parts := by
    intro i
    rw [← posAt_past l (max i l.len) (by omega)]
    exact hmono (by omega)
  have hind : l.indent = posAt l 0 := by
    unfold Line.indent posAt Line.sumDx
    cases l.parts <;> simp
  have hemp : l.isEmpty = true ↔ l.len = 0 := by
    unfold Line.isEmpty Line.len
    rw [List.isEmpty_iff, List.length_eq_zero_iff]
  have hpost : ∀ g ∈ (glyphs l).drop (l.len - q), fixEnd l p q ≤ g.x := by
    intro g hg
    obtain ⟨g1, g2⟩ := mem_drop_ge l h hg
    have hq : 0 < q := by omega
    unfold fixEnd
    rw [if_pos hq, e3 hq]
    exact g2
  have hw : (0 : Rat) < replacementFakeWidth := by unfold replacementFakeWidth; norm_num
  refine ⟨?_, ?_, hpost⟩
  · unfold fixStart fixEnd
    rw [e1, e4]
    by_cases hp1 : p ≥ l.len
    · have hq0 : ¬ q > 0 := by omega
      rw [if_pos hp1, if_neg hq0, posAt_past l p (by omega)]
      by_cases hp0 : p > 0
      · rw [if_pos hp0]; linarith
      · have hl0 : l.len = 0 := by omega
        have hs : Line.sumDx l.parts = 0 := by
          unfold Line.len at hl0
          rw [List.length_eq_zero_iff] at hl0
          rw [hl0]; rfl
        rw [if_neg hp0, if_pos (hemp.2 hl0), hs]; linarith
    · rw [if_neg hp1]
      by_cases hp0 : p > 0
      · rw [if_pos hp0]
        split
        · rename_i hc
          rw [if_pos hc.1, e3 hc.1, e2 hp0]
          have a1 := hmono (i := p - 1) (j := p) (by omega)
          have a2 : l.len - q = p := by omega
          rw [a2]; linarith
        · by_cases hq : q > 0
          · rw [if_pos hq, e3 hq]; exact hmono (by omega)
          · rw [if_neg hq]
            have := hall p
            linarith
      · rw [if_neg hp0]
        by_cases hq : q > 0
        · rw [if_pos hq, if_pos hq]; linarith
        · rw [if_neg hq, if_neg hq, if_neg hp0, hind]
          have : ¬ l.isEmpty = true := by rw [hemp]; omega
          rw [if_neg this]
          exact hall 0
  · intro g hg
    obtain ⟨hp0, hx⟩ := mem_take_le l h (by omega) hg
    unfold fixStart
    rw [e1]
    split
    · have := hall (p - 1)
      rename_i hp1
      rw [posAt_past l p (by omega)]
      linarith
    · have a1 := hmono (i := p - 1) (j := p) (by omega)
      split
      · rw [e2 hp0]; linarith
      · linarith

end HunLaw
