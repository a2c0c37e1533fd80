import Verif.Lemmas.Headers

/-! Properties C23-C28: lines, joined text, headers and quotes. -/

set_option autoImplicit false

namespace HunLaw.Props

open HunLaw Spec

/-- A line with every character one unit right of the one before; for examples. -/
def sampleLine (s : Str) (indent : Rat) : Line :=
  .fromParts (match s with
    | [] => []
    | c :: cs => ⟨indent, c, false⟩ :: cs.map fun c => ⟨1, c, false⟩) true

/-! ### C23 -/

/-- C23: slicing takes the window between the two positions of the characters as they are on the page
(with their positions and bold flags); it never fails. -/
theorem C23_slice_glyphs (l : Line) (f : Int) (t : Option Int) :
    glyphs (l.slice f t) =
      window (clampIndex l.len f) (match t with | some t => clampIndex l.len t | none => l.len)
        (glyphs l) :=
  Line.glyphs_slice l f t

/-- C23: the text of the slice is the same window of the text. -/
theorem C23_slice_content (l : Line) (f t : Int) :
    (l.slice f (some t)).content = window (clampIndex l.len f) (clampIndex l.len t) l.content ∧
    (l.slice f none).content = window (clampIndex l.len f) l.len l.content := by
  constructor <;>
    simp only [Line.content_eq, Line.glyphs_slice, window, List.map_take, List.map_drop]

/-- C23: only a slice that reaches the end of a justified line is justified. -/
theorem C23_slice_justified (l : Line) (f : Int) (t : Option Int) :
    (l.slice f t).justified = true ↔
      l.justified = true ∧ clampIndex l.len f < l.len ∧
        (∀ t', t = some t' → clampIndex l.len t' = l.len) := by
  have hle := fun i => Line.convertIndex_eq l i ▸ Line.convertIndex_le l i
  unfold Line.slice
  simp only [Line.convertIndex_eq]
  cases t with
  | none =>
    simp only
    split
    · rename_i h
      simp only [Line.emptyLine, Bool.false_eq_true, false_iff, not_and]
      intro _ h2; omega
    · rename_i h
      simp only [Line.fromParts, BEq.rfl, Bool.and_true, reduceCtorEq, false_implies, implies_true,
        and_true, iff_self_and]
      intro _; omega
  | some t =>
    simp only
    split
    · rename_i h
      simp only [Line.emptyLine, Bool.false_eq_true, false_iff, not_and]
      intro _ h2 h3
      have := h3 t rfl
      omega
    · rename_i h
      have := hle t
      simp only [Line.fromParts, Bool.and_eq_true, beq_iff_eq, Option.some.injEq, forall_eq']
      constructor
      · rintro ⟨h1, h2⟩; exact ⟨h1, by omega, h2⟩
      · rintro ⟨h1, _, h2⟩; exact ⟨h1, h2⟩

/-- C23: the position reported for a character is its position on the page, and it is where the slice
from there on begins. -/
theorem C23_indent_at (l : Line) (i : Int) (h : clampIndex l.len i < l.len) :
    (glyphs l)[clampIndex l.len i]?.map (·.x) = some (l.indentAt i) ∧
    (l.slice i none).indent = l.indentAt i := by
  have hidx : ∀ (x : Rat) (ps : List LinePart) (n : Nat), n < ps.length →
      (glyphsFrom x ps)[n]?.map (·.x) = some (x + Line.sumDx (ps.take (n + 1))) := by
    intro x ps
    induction ps generalizing x with
    | nil => intro n hn; simp at hn
    | cons p ps ih =>
      intro n hn
      cases n with
      | zero => simp [glyphsFrom, Line.sumDx]
      | succ n =>
        simp only [glyphsFrom, List.getElem?_cons_succ]
        rw [ih _ n (by simpa using hn)]
        simp only [List.take_succ_cons, Line.sumDx_cons]
        rw [add_assoc]
  have h1 : (glyphs l)[clampIndex l.len i]?.map (·.x) = some (l.indentAt i) := by
    unfold glyphs Line.indentAt
    rw [hidx 0 l.parts _ h, Line.convertIndex_eq, zero_add]
  refine ⟨h1, ?_⟩
  have h2 := Line.glyphs_slice l i none
  simp only [window] at h2
  have h3 : ∀ m : Line, m.parts ≠ [] → (glyphs m)[0]?.map (·.x) = some m.indent := by
    intro m hm
    cases hp : m.parts with
    | nil => exact absurd hp hm
    | cons p ps => simp [glyphs, glyphsFrom, hp, Line.indent]
  have hne : (l.slice i none).parts ≠ [] := by
    intro hn
    have := congrArg List.length h2
    rw [Line.glyphs_length, Line.len, hn] at this
    simp only [List.length_nil, List.length_take, List.length_drop, Line.glyphs_length] at this
    omega
  have h4 := h3 _ hne
  rw [h2, List.getElem?_take_of_lt (by omega), List.getElem?_drop, Nat.add_zero, h1] at h4
  exact (Option.some.inj h4).symm

/-- C23: a slice counts as bold exactly if more than two thirds of its characters are bold. -/
theorem C23_slice_bold (l : Line) (f : Int) (t : Option Int) :
    (l.slice f t).isBold = true ↔
      ((glyphs (l.slice f t)).filter (·.bold)).length * 3 > (glyphs (l.slice f t)).length * 2 := by
  have hb : ∀ (x : Rat) (ps : List LinePart),
      ((glyphsFrom x ps).filter (·.bold)).length = (ps.filter (·.bold)).length := by
    intro x ps
    induction ps generalizing x with
    | nil => rfl
    | cons p ps ih => simp only [glyphsFrom, List.filter_cons]; split <;> simp [ih]
  cases t <;> unfold Line.slice <;> simp only <;> split <;>
    simp [Line.emptyLine, Line.isBold, Line.fromParts, glyphs, hb, Line.glyphsFrom_length, glyphsFrom]

example : (glyphs ((sampleLine str!"abcd" 10).slice (-3) (some 3))).map (fun g => (g.x, g.char)) =
    [(11, 'b'), (12, 'c')] := by decide +kernel
example : ((sampleLine str!"abcd" 10).slice (-3) none).justified = true ∧
    ((sampleLine str!"abcd" 10).slice 9 (some (-20))).content = [] := by decide +kernel

/-! ### C24 -/

/-- C24: gluing lines puts their characters one after the other, each where it was on its own line. -/
theorem C24_glue_glyphs (ls : List Line) :
    glyphs (.fromMultiple ls) = ls.flatMap glyphs ∧ (Line.fromMultiple ls).content = allText ls := by
  refine ⟨Line.glyphs_fromMultiple ls, ?_⟩
  rw [Line.content_eq, Line.glyphs_fromMultiple, List.map_flatMap]
  unfold allText
  congr 1
  funext l
  exact (Line.content_eq l).symm

/-- C24: a line cut anywhere and glued is the same line. -/
theorem C24_cut_and_glue (l : Line) (k : Int) :
    (Line.fromMultiple [l.slice 0 (some k), l.slice k none]).parts = l.parts := by
  apply Line.glyphs_injective
  rw [Line.glyphs_fromMultiple]
  simp only [List.flatMap_cons, List.flatMap_nil, List.append_nil, Line.glyphs_slice]
  have h0 : clampIndex l.len 0 = 0 := by unfold clampIndex; simp
  have hk : clampIndex l.len k ≤ l.len := Line.convertIndex_eq l k ▸ Line.convertIndex_le l k
  rw [h0]
  generalize clampIndex l.len k = n at hk
  unfold window
  simp only [Nat.sub_zero, List.drop_zero]
  rw [List.take_of_length_le (l := (glyphs l).drop n), List.take_append_drop]
  simp [Line.glyphs_length]

/-- C24: cutting and gluing before the end keeps the justification. -/
theorem C24_cut_and_glue_justified (l : Line) (k : Int) (hk : clampIndex l.len k < l.len) :
    (Line.fromMultiple [l.slice 0 (some k), l.slice k none]).justified = l.justified := by
  have hne : (l.slice k none).isEmpty = false := by
    have h2 := Line.glyphs_slice l k none
    have := congrArg List.length h2
    rw [Line.glyphs_length] at this
    simp only [window, List.length_take, List.length_drop, Line.glyphs_length] at this
    unfold Line.isEmpty
    rw [Bool.eq_false_iff]
    intro he
    rw [List.isEmpty_iff] at he
    unfold Line.len at this
    rw [he] at this
    simp only [List.length_nil] at this
    unfold Line.len at hk
    omega
  have hj : (l.slice k none).justified = l.justified := by
    have := C23_slice_justified l k none
    rw [Bool.eq_iff_iff, this]
    simp [hk]
  simp only [Line.fromMultiple, List.reverse_cons, List.reverse_nil, List.nil_append, List.cons_append,
    List.find?_cons, hne, Bool.not_false, Line.fromParts, hj]

/-- C24: only the last non-empty line decides whether the glued line is justified. -/
theorem C24_glue_justified (ls ms : List Line) (l : Line) (h : l.parts ≠ []) (hm : ∀ m ∈ ms, m.parts = []) :
    (Line.fromMultiple (ls ++ l :: ms)).justified = l.justified := by
  have hfind : ∀ (ms : List Line), (∀ m ∈ ms, m.parts = []) → ∀ rest : List Line,
      (ms ++ rest).find? (fun l => !l.isEmpty) = rest.find? (fun l => !l.isEmpty) := by
    intro ms
    induction ms with
    | nil => intro _ _; rfl
    | cons m ms ih =>
      intro hm rest
      have := hm m (by simp)
      simp only [List.cons_append, List.find?_cons, Line.isEmpty, this, List.isEmpty_nil, Bool.not_true]
      exact ih (fun m hm' => hm m (by simp [hm'])) rest
  have h2 := hfind ms.reverse (by simpa using hm) (l :: ls.reverse)
  have he : l.isEmpty = false := by simp [Line.isEmpty, h]
  simp only [List.find?_cons, he, Bool.not_false] at h2
  unfold Line.fromMultiple
  simp only [List.reverse_append, List.reverse_cons, List.append_assoc, List.singleton_append, h2,
    Line.fromParts]

example : (Line.fromMultiple [(sampleLine str!"abcd" 10).slice 0 (some 2),
    (sampleLine str!"abcd" 10).slice 2 none]) = sampleLine str!"abcd" 10 := by decide +kernel

/-! ### C25 -/

/-- C25, full statement: a byte range on character boundaries gives the text in that range. -/
def C25_statement : Prop :=
  ∀ (l : Line) (a b c : Str), l.content = a ++ b ++ c →
    ∃ m, l.sliceBytes (byteLen a) (some (byteLen (a ++ b))) = .ok m ∧ m.content = b

/-- C25 is false: slicing at the end of the text panics. -/
theorem C25_violated : ¬ C25_statement := by
  intro h
  obtain ⟨m, hm, _⟩ := h (sampleLine str!"áb" 0) str!"áb" [] [] (by decide +kernel)
  have : (sampleLine str!"áb" 0).sliceBytes (byteLen str!"áb") (some (byteLen (str!"áb" ++ []))) = .panic := by
    decide +kernel
  rw [this] at hm
  simp at hm

/-- C25 for every range that does not begin at the end of the text: the characters in the range, on the
places where they were. Missing: the empty range at the end, where the code panics. -/
theorem C25_slice_bytes_partial (l : Line) (a b c : Str) (h : l.content = a ++ b ++ c) (hne : b ++ c ≠ []) :
    (∃ m, l.sliceBytes (byteLen a) (some (byteLen (a ++ b))) = .ok m ∧ m.content = b ∧
      glyphs m = window a.length (a ++ b).length (glyphs l)) ∧
    (∃ m, l.sliceBytes (byteLen a) none = .ok m ∧ m.content = b ++ c ∧
      glyphs m = window a.length l.len (glyphs l)) := by
  have hlen : l.len = a.length + b.length + c.length := by
    rw [← l.content_length, h]; simp only [List.length_append]
  have hf : Line.charPosition l.content (byteLen a) = some a.length := by
    rw [h, List.append_assoc]; exact Line.charPosition_append a (b ++ c) hne
  have hclamp : ∀ n : Nat, n ≤ l.len → clampIndex l.len (n : Int) = n := by
    intro n hn; unfold clampIndex; simp [hn]
  have hwin : ∀ m : Line, ∀ t, glyphs m = window a.length t (glyphs l) →
      m.content = window a.length t (a ++ b ++ c) := by
    intro m t hm
    rw [Line.content_eq, hm, ← h, Line.content_eq]
    simp [window, List.map_take, List.map_drop]
  constructor
  · refine ⟨l.slice a.length (some (a ++ b).length), ?_, ?_⟩
    · unfold Line.sliceBytes
      rw [hf]
      simp only
      split
      · rename_i hge
        have : c = [] := by
          rw [h, byteLen_append (a ++ b) c] at hge
          cases c with
          | nil => rfl
          | cons x xs => have := utf8Len_pos x; simp only [byteLen] at hge; omega
        subst this
        rw [h]; simp
      · rename_i hlt
        have hc : c ≠ [] := by
          rintro rfl
          apply hlt
          rw [h]; simp
        rw [h, Line.charPosition_append (a ++ b) c hc]
    · have hg := Line.glyphs_slice l a.length (some (a ++ b).length)
      simp only at hg
      rw [hclamp _ (by omega), hclamp _ (by rw [List.length_append]; omega)] at hg
      refine ⟨?_, hg⟩
      rw [hwin _ _ hg]
      unfold window
      rw [List.append_assoc, List.drop_left, List.length_append, Nat.add_sub_cancel_left, List.take_left]
  · refine ⟨l.slice a.length none, ?_, ?_⟩
    · unfold Line.sliceBytes
      rw [hf]
    · have hg := Line.glyphs_slice l a.length none
      simp only at hg
      rw [hclamp _ (by omega)] at hg
      refine ⟨?_, hg⟩
      rw [hwin _ _ hg]
      unfold window
      rw [List.append_assoc, List.drop_left]
      apply List.take_of_length_le
      rw [List.length_append]; omega

/-- C25: byte slicing panics exactly if the range does not begin at a character, or ends within one. -/
theorem C25_panic_iff (l : Line) (f t : Nat) :
    l.sliceBytes f (some t) = .panic ↔
      (¬ ∃ a x b, l.content = a ++ x :: b ∧ byteLen a = f) ∨
      (t < byteLen l.content ∧ ¬ ∃ a x b, l.content = a ++ x :: b ∧ byteLen a = t) := by
  have key : ∀ (s : Str) (n : Nat), Line.charPosition s n = none ↔
      ¬ ∃ a x b, s = a ++ x :: b ∧ byteLen a = n := by
    intro s n
    constructor
    · rintro hn ⟨a, x, b, rfl, rfl⟩
      rw [Line.charPosition_append a (x :: b) (by simp)] at hn
      simp at hn
    · intro hn
      cases h : Line.charPosition s n with
      | none => rfl
      | some k =>
        obtain ⟨h1, h2⟩ := Line.charPosition_eq_some h
        refine absurd ⟨s.take k, s[k], s.drop (k + 1), ?_, h2⟩ hn
        simp
  rw [← key, ← key]
  unfold Line.sliceBytes
  cases hf : Line.charPosition l.content f with
  | none => simp
  | some f' =>
    simp only [reduceCtorEq, false_or]
    by_cases ht : t ≥ byteLen l.content
    · rw [if_pos ht]
      simp only [reduceCtorEq, false_iff, not_and]
      intro h; omega
    · rw [if_neg ht]
      cases h2 : Line.charPosition l.content t with
      | none => simp; omega
      | some t' => simp

example : ∃ m, (sampleLine str!"áb" 0).sliceBytes 2 (some 3) = .ok m ∧ m.content = str!"b" := by
  exact ⟨(sampleLine str!"áb" 0).slice 1 (some 2), by decide +kernel, by decide +kernel⟩
example : (sampleLine str!"áb" 0).sliceBytes 1 (some 3) = .panic := by decide +kernel

/-! ### C26 -/

theorem appendTo_nonempty (l : Line) (s a : Str) (hl : l.content ≠ []) (hs : s ≠ [])
    (h : s.getLast? = a.getLast?) : l.appendTo s = s ++ separator a l.content ++ l.content := by
  have h1 : l.isEmpty = false := by
    simp only [Line.isEmpty, List.isEmpty_eq_false_iff]
    intro hp; apply hl; simp [Line.content, hp]
  have h2 : s.isEmpty = false := by simp [hs]
  have h3 : ∀ p : Str, startsWith l.content p = true ↔ l.content.take p.length = p := by
    intro p
    rw [startsWith_iff]
    constructor
    · rintro ⟨r, hr⟩; rw [hr]; simp
    · intro hp; exact ⟨l.content.drop p.length, by conv_lhs => rw [← List.take_append_drop p.length l.content, hp]⟩
  unfold Line.appendTo separator
  simp only [h1, h2, Bool.or_false, Bool.false_eq_true, if_false]
  rw [← h]
  by_cases hlast : s.getLast? = some '-'
  · rw [hlast]
    simp only [BEq.rfl, if_true, true_and]
    have e1 := h3 str!"és "
    have e2 := h3 str!"vagy "
    simp only [List.length_cons, List.length_nil, Nat.reduceAdd] at e1 e2
    by_cases c1 : l.content.take 3 = str!"és "
    · simp [e1.2 c1, c1]
    · by_cases c2 : l.content.take 5 = str!"vagy "
      · simp [e2.2 c2, c2]
      · have n1 : startsWith l.content str!"és " = false := by
          rw [Bool.eq_false_iff]; intro hh; exact c1 (e1.1 hh)
        have n2 : startsWith l.content str!"vagy " = false := by
          rw [Bool.eq_false_iff]; intro hh; exact c2 (e2.1 hh)
        simp [n1, n2, c1, c2]
  · have : (s.getLast? == some '-') = false := by simpa using hlast
    simp [this, hlast]

theorem join_aux (ls : List Line) (s a : Str) (ha : a ≠ []) (hs : s ≠ []) (h : s.getLast? = a.getLast?) :
    ∃ u, ls.foldl (fun s l => l.appendTo s) s = s ++ u ∧
      Joined (a :: (ls.map Line.content).filter (· ≠ [])) (a ++ u) := by
  induction ls generalizing s a with
  | nil => exact ⟨[], by simp, by simp [Joined]⟩
  | cons l ls ih =>
    simp only [List.foldl_cons, List.map_cons]
    by_cases hl : l.content = []
    · have : l.appendTo s = s := by
        have : l.isEmpty = true := by
          simp only [Line.isEmpty, List.isEmpty_iff]
          simpa [Line.content] using hl
        simp [Line.appendTo, this, hl]
      rw [this, hl]
      simpa using ih s a ha hs h
    · rw [appendTo_nonempty l s a hl hs h, List.filter_cons_of_pos (by simpa using hl)]
      obtain ⟨u, hu, hj⟩ := ih (s ++ separator a l.content ++ l.content) l.content hl (by simp [hs])
        (by rw [List.getLast?_append]; cases hc : l.content.getLast? with
            | none => simp at hc; exact absurd hc hl
            | some c => rfl)
      refine ⟨separator a l.content ++ l.content ++ u, by rw [hu]; simp, ?_⟩
      exact ⟨_, hj, by simp⟩

/-- C26: joining lines gives their non-empty texts in order, with the separators between them. -/
theorem C26_join (ls : List Line) : Joined ((ls.map Line.content).filter (· ≠ [])) (Line.join ls) := by
  unfold Line.join
  induction ls with
  | nil => rfl
  | cons l ls ih =>
    simp only [List.foldl_cons, List.map_cons]
    have h0 : l.appendTo [] = l.content := by simp [Line.appendTo]
    rw [h0]
    by_cases hl : l.content = []
    · rw [hl, List.filter_cons_of_neg (by simp)]; exact ih
    · rw [List.filter_cons_of_pos (by simpa using hl)]
      obtain ⟨u, hu, hj⟩ := join_aux ls l.content l.content hl hl rfl
      rw [hu]; exact hj

/-- C26: nothing but spaces is added and nothing is lost. -/
theorem C26_join_keeps_text (ls : List Line) :
    (Line.join ls).filter (· ≠ ' ') = (allText ls).filter (· ≠ ' ') := by
  have key : ∀ (ps : List Str) (t : Str), Joined ps t → t.filter (· ≠ ' ') = ps.flatten.filter (· ≠ ' ') := by
    intro ps
    induction ps with
    | nil => intro t ht; simp [Joined] at ht; subst ht; rfl
    | cons a ps ih =>
      intro t ht
      cases ps with
      | nil => simp [Joined] at ht; subst ht; simp
      | cons b ps =>
        obtain ⟨u, hu, rfl⟩ := ht
        have hsep : (separator a b).filter (· ≠ ' ') = [] := by unfold separator; split <;> rfl
        simp only [List.filter_append, hsep, ih u hu, List.flatten_cons, List.append_nil]
  rw [key _ _ (C26_join ls)]
  congr 1
  unfold allText
  induction ls with
  | nil => rfl
  | cons l ls ih =>
    simp only [List.map_cons, List.flatMap_cons]
    by_cases hl : l.content = []
    · rw [List.filter_cons_of_neg (by simp [hl]), ih, hl]; rfl
    · rw [List.filter_cons_of_pos (by simpa using hl), List.flatten_cons, ih]

/-- C26: empty lines have no effect. -/
theorem C26_empty_lines (ls : List Line) : Line.join ls = Line.join (ls.filter fun l => !l.isEmpty) := by
  unfold Line.join
  have : ∀ s : Str, ls.foldl (fun s l => l.appendTo s) s =
      (ls.filter fun l => !l.isEmpty).foldl (fun s l => l.appendTo s) s := by
    induction ls with
    | nil => intro s; rfl
    | cons l ls ih =>
      intro s
      by_cases hl : l.isEmpty = true
      · have h2 : l.appendTo s = s := by
          have : l.content = [] := by
            simp only [Line.isEmpty, List.isEmpty_iff] at hl
            simp [Line.content, hl]
          simp [Line.appendTo, hl, this]
        rw [List.filter_cons_of_neg (by simp [hl]), List.foldl_cons, h2, ih]
      · rw [List.filter_cons_of_pos (by simpa using hl), List.foldl_cons, List.foldl_cons, ih]
  exact this []

example : Line.join [sampleLine str!"kö-" 0, .emptyLine, sampleLine str!"tet" 0, sampleLine str!"bel-" 0,
    sampleLine str!"és kül" 0] = str!"kö-tet bel- és kül" := by decide +kernel

/-! ### C27 -/

/-- C27: paragraph headers, exactly. -/
theorem C27_paragraph_header_iff (l : Line) (id : ParagraphId) (rest : Line) :
    parseParagraphHeader l = .ok (some (id, rest)) ↔
      ∃ t r, ParagraphHeader l.content t r ∧ r ≠ [] ∧ ParagraphId.parse t = some id ∧
        rest = l.slice ((l.len : Int) - r.length) none :=
  parseHeader_spec (by decide) rfl rfl rfl paragraph_unambiguous (fun _ => lang_paragraphId)
    (fun _ => Re.lang_lit)

/-- C27: numeric point and subpoint headers, exactly. -/
theorem C27_numeric_header_iff (l : Line) (id : NumericId) (rest : Line) :
    parseNumericHeader l = .ok (some (id, rest)) ↔
      ∃ t r, NumericHeader l.content t r ∧ r ≠ [] ∧ NumericId.parse t = some id ∧
        rest = l.slice ((l.len : Int) - r.length) none :=
  parseHeader_spec (by decide) rfl rfl rfl numeric_unambiguous (fun _ => lang_numericId)
    (fun _ => Re.lang_lit)

/-- C27: alphabetic point headers, exactly. -/
theorem C27_alphabetic_header_iff (l : Line) (id : HunChar) (rest : Line) :
    parseAlphabeticHeader l = .ok (some (id, rest)) ↔
      ∃ t r, AlphabeticHeader l.content t r ∧ r ≠ [] ∧ HunChar.parse t = some id ∧
        rest = l.slice ((l.len : Int) - r.length) none :=
  parseHeader_spec (by decide) rfl rfl rfl alphabetic_unambiguous (fun _ => lang_alphabeticId)
    (fun _ => Re.lang_lit)

/-- C27: alphabetic subpoint headers, exactly; the identifier must have the prefix of the point. -/
theorem C27_prefixed_header_iff (pfx : Option HunChar) (l : Line) (id : PrefixedId) (rest : Line) :
    parsePrefixedHeader pfx l = .ok (some (id, rest)) ↔
      ∃ t r, PrefixedHeader l.content t r ∧ r ≠ [] ∧ PrefixedId.parse t = some id ∧
        id.prefixIs pfx = true ∧ rest = l.slice ((l.len : Int) - r.length) none := by
  have h := fun id => parseHeader_spec (parse := PrefixedId.parse) (op := []) (idRe := prefixedIdRe)
    (cl := .lit str!")") (last := 2) (bl := [str!"pont", str!"alpont"]) (l := l) (id := id) (rest := rest)
    (by decide) rfl rfl rfl prefixed_unambiguous (fun _ => lang_prefixedId) (fun _ => Re.lang_lit)
  unfold parsePrefixedHeader
  constructor
  · intro hh
    rw [Res.bind_eq_ok] at hh
    obtain ⟨o, ho, hh⟩ := hh
    cases o with
    | none => simp at hh
    | some p =>
      obtain ⟨id', rest'⟩ := p
      simp only at hh
      split at hh
      · rename_i hp
        simp at hh
        obtain ⟨rfl, rfl⟩ := hh
        obtain ⟨t, r, h1, h2, h3, h4⟩ := (h id').1 ho
        exact ⟨t, r, h1, h2, h3, hp, h4⟩
      · simp at hh
  · rintro ⟨t, r, h1, h2, h3, hp, h4⟩
    have := (h id).2 ⟨t, r, h1, h2, h3, h4⟩
    rw [this]
    simp [hp]

/-- C27: article headers, exactly. -/
theorem C27_article_header_iff (l : Line) (id : ArticleId) (rest : Line) :
    parseArticleHeader l = .ok (some (id, rest)) ↔
      ∃ t r, ArticleHeader l.content t r ∧ r ≠ [] ∧ ArticleId.parse t = some id ∧
        rest = l.slice ((l.len : Int) - r.length) none :=
  parseHeader_spec (by decide) rfl rfl rfl article_unambiguous (fun _ => lang_articleId)
    (fun _ => lang_articleClose)

/-- C27: recognition panics exactly on a header with nothing but spaces after it. -/
theorem C27_panic_iff (l : Line) :
    (parseParagraphHeader l = .panic ↔ ∃ t, ParagraphHeader l.content t [] ∧ (ParagraphId.parse t).isSome) ∧
    (parseNumericHeader l = .panic ↔ ∃ t, NumericHeader l.content t [] ∧ (NumericId.parse t).isSome) ∧
    (parseAlphabeticHeader l = .panic ↔ ∃ t, AlphabeticHeader l.content t [] ∧ (HunChar.parse t).isSome) ∧
    (∀ pfx, parsePrefixedHeader pfx l = .panic ↔
      ∃ t, PrefixedHeader l.content t [] ∧ (PrefixedId.parse t).isSome) ∧
    (parseArticleHeader l = .panic ↔ ∃ t, ArticleHeader l.content t [] ∧ (ArticleId.parse t).isSome) := by
  refine ⟨?_, ?_, ?_, ?_, ?_⟩
  · exact parseHeader_panic_spec (by decide) rfl rfl rfl paragraph_unambiguous (fun _ => lang_paragraphId)
      (fun _ => Re.lang_lit) (by decide)
  · exact parseHeader_panic_spec (by decide) rfl rfl rfl numeric_unambiguous (fun _ => lang_numericId)
      (fun _ => Re.lang_lit) (by decide)
  · exact parseHeader_panic_spec (by decide) rfl rfl rfl alphabetic_unambiguous
      (fun _ => lang_alphabeticId) (fun _ => Re.lang_lit) (by decide)
  · intro pfx
    refine Iff.trans ?_ (parseHeader_panic_spec (parse := PrefixedId.parse) (last := 2) (by decide) rfl rfl
      rfl prefixed_unambiguous (fun _ => lang_prefixedId) (fun _ => Re.lang_lit) (by decide))
    unfold parsePrefixedHeader
    cases Line.parseHeader PrefixedId.parse (headerRe [] prefixedIdRe (.lit str!")") 2) 2
      [str!"pont", str!"alpont"] l with
    | ok o =>
      cases o with
      | none => simp
      | some p => simp only [Res.bind_ok, reduceCtorEq, iff_false]; split <;> simp
    | err => simp
    | panic => simp
  · exact parseHeader_panic_spec (by decide) rfl rfl rfl article_unambiguous (fun _ => lang_articleId)
      (fun _ => lang_articleClose) (by decide)

/-- C27: the rest of any of the headers above is the end of the line, unmoved, and it is the text that
follows the header. -/
theorem C27_rest (l rest : Line) (r : Str) (h : ∃ before, l.content = before ++ r) (hr : r ≠ [])
    (hrest : rest = l.slice ((l.len : Int) - r.length) none) :
    rest.content = r ∧ (∃ before, glyphs l = before ++ glyphs rest) ∧ rest.justified = l.justified := by
  obtain ⟨before, hb⟩ := h
  have hlen : l.len = before.length + r.length := by rw [← l.content_length, hb]; simp
  have hpos : 0 < r.length := List.length_pos_iff.2 hr
  have hc : clampIndex l.len ((l.len : Int) - r.length) = before.length := by
    unfold clampIndex
    split <;> (try split) <;> omega
  have hg : glyphs rest = (glyphs l).drop before.length := by
    rw [hrest, Line.glyphs_slice, hc]
    unfold window
    apply List.take_of_length_le
    rw [List.length_drop, Line.glyphs_length]
  refine ⟨?_, ⟨(glyphs l).take before.length, ?_⟩, ?_⟩
  · rw [Line.content_eq, hg, List.map_drop, ← Line.content_eq, hb, List.drop_left]
  · rw [hg, List.take_append_drop]
  · rw [hrest, Bool.eq_iff_iff, C23_slice_justified, hc]
    simp only [reduceCtorEq, false_implies, implies_true, and_true, and_iff_left_iff_imp]
    intro _; omega

/-- C27: header recognition never reports an error. -/
theorem C27_never_err (l : Line) (pfx : Option HunChar) :
    parseParagraphHeader l ≠ .err ∧ parseNumericHeader l ≠ .err ∧ parseAlphabeticHeader l ≠ .err ∧
      parsePrefixedHeader pfx l ≠ .err ∧ parseArticleHeader l ≠ .err := by
  refine ⟨parseHeader_ne_err _ _ _ _ _, parseHeader_ne_err _ _ _ _ _, parseHeader_ne_err _ _ _ _ _, ?_,
    parseHeader_ne_err _ _ _ _ _⟩
  unfold parsePrefixedHeader
  have := parseHeader_ne_err PrefixedId.parse (headerRe [] prefixedIdRe (.lit str!")") 2) 2
      [str!"pont", str!"alpont"] l
  cases h : Line.parseHeader PrefixedId.parse (headerRe [] prefixedIdRe (.lit str!")") 2) 2
      [str!"pont", str!"alpont"] l with
  | ok o =>
    cases o with
    | none => simp
    | some p => simp only [Res.bind_ok]; split <;> simp
  | err => exact absurd h this
  | panic => simp

example : (match parseParagraphHeader (sampleLine str!"(3a)  Text" 5) with
    | .ok (some (id, rest)) => some id == ParagraphId.parse str!"3a" && rest.content == str!"Text" && rest.indent == 11
    | _ => false) = true := by decide +kernel
example : parseParagraphHeader (sampleLine str!"(3) bekezdés" 5) = .ok none ∧
    parseParagraphHeader (sampleLine str!"(3) " 5) = .panic ∧
    parseArticleHeader (sampleLine str!"3.§ " 5) = .panic := by decide +kernel
example : (match parseArticleHeader (sampleLine str!"5:3/A.§ Text" 5) with
    | .ok (some (id, rest)) => id.book == some 5 && rest.content == str!"Text"
    | _ => false) = true := by decide +kernel

/-! ### C28 -/

/-- Lines fed to a quote checker, one after the other. -/
def feedQuotes (q : QuoteCheck) : List Line → Res QuoteCheck
  | [] => .ok q
  | l :: ls => q.update l >>= fun q => feedQuotes q ls

theorem quoteFilter (s : Str) :
    (s.filter fun c => c == '„' || c == '“').length = opening s ∧
    (s.filter fun c => c == '”').length = closing s := by
  unfold opening closing
  constructor
  · induction s with
    | nil => rfl
    | cons c cs ih =>
      simp only [List.filter_cons, List.count_cons]
      by_cases h1 : c = '„'
      · subst h1
        have : ('„' == '“') = false := by decide
        simp only [BEq.rfl, Bool.true_or, if_true, List.length_cons, ih, this]
        simp; omega
      · by_cases h2 : c = '“'
        · subst h2
          have : ('“' == '„') = false := by decide
          simp only [BEq.rfl, Bool.or_true, if_true, List.length_cons, ih, this]
          simp; omega
        · simp [h1, h2, ih]
  · rw [← List.countP_eq_length_filter]; rfl

theorem update_eq (q : QuoteCheck) (l : Line) :
    q.update l = if q.level + opening l.content - closing l.content ≥ 0 then
      .ok ⟨q.level + opening l.content - closing l.content, decide (q.level > 0),
        decide (q.level + opening l.content - closing l.content > 0)⟩ else .err := by
  unfold QuoteCheck.update
  rw [(quoteFilter l.content).1, (quoteFilter l.content).2]

theorem opening_append (a b : Str) : opening (a ++ b) = opening a + opening b := by
  simp [opening]; omega
theorem closing_append (a b : Str) : closing (a ++ b) = closing a + closing b := by
  simp [closing]

theorem feedQuotes_level (ls : List Line) (q q' : QuoteCheck) (h : feedQuotes q ls = .ok q') :
    q'.level = q.level + opening (allText ls) - closing (allText ls) := by
  induction ls generalizing q with
  | nil => simp [feedQuotes] at h; subst h; simp [allText, opening, closing]
  | cons l ls ih =>
    simp only [feedQuotes, Res.bind_eq_ok] at h
    obtain ⟨q1, h1, h2⟩ := h
    rw [update_eq] at h1
    split at h1
    · simp at h1
      have := ih q1 h2
      rw [this, ← h1]
      simp only [allText, List.flatMap_cons, opening_append, closing_append]
      omega
    · simp at h1

theorem feedQuotes_iff (ls : List Line) (q : QuoteCheck) (hq : 0 ≤ q.level) :
    (∃ q', feedQuotes q ls = .ok q') ↔
      ∀ n, n ≤ ls.length →
        (closing (allText (ls.take n)) : Int) ≤ q.level + opening (allText (ls.take n)) := by
  induction ls generalizing q with
  | nil => simp [feedQuotes, allText, opening, closing, hq]
  | cons l ls ih =>
    simp only [feedQuotes, Res.bind_eq_ok]
    rw [update_eq]
    constructor
    · rintro ⟨q', q1, h1, h2⟩
      split at h1
      · rename_i hge
        simp at h1
        have := (ih q1 (by rw [← h1]; exact hge)).1 ⟨q', h2⟩
        intro n hn
        cases n with
        | zero => simp [allText, opening, closing, hq]
        | succ n =>
          have := this n (by simpa using hn)
          rw [← h1] at this
          simp only [List.take_succ_cons, allText, List.flatMap_cons, opening_append, closing_append] at this ⊢
          omega
      · simp at h1
    · intro h
      have h1 := h 1 (by simp)
      simp only [List.take_succ_cons, List.take_zero, allText, List.flatMap_cons, List.flatMap_nil,
        List.append_nil] at h1
      have hge : q.level + opening l.content - closing l.content ≥ 0 := by omega
      rw [if_pos hge]
      have := (ih ⟨q.level + opening l.content - closing l.content, decide (q.level > 0),
        decide (q.level + opening l.content - closing l.content > 0)⟩ hge).2 (by
          intro n hn
          have := h (n + 1) (by simpa using hn)
          simp only [List.take_succ_cons, allText, List.flatMap_cons, opening_append, closing_append] at this ⊢
          omega)
      obtain ⟨q', hq'⟩ := this
      exact ⟨q', _, rfl, hq'⟩

/-- C28: lines are accepted exactly if after each of them there are at least as many opening as closing
quotes so far. -/
theorem C28_accepted_iff (ls : List Line) :
    (∃ q, feedQuotes .new ls = .ok q) ↔
      ∀ n ≤ ls.length, closing (allText (ls.take n)) ≤ opening (allText (ls.take n)) := by
  rw [feedQuotes_iff ls .new (by decide)]
  simp only [QuoteCheck.new]
  constructor
  · intro h n hn; have := h n hn; omega
  · intro h n hn; have := h n hn; omega

/-- C28: the final check passes exactly if opening and closing quotes are equal in number. -/
theorem C28_end_iff (ls : List Line) (q : QuoteCheck) (h : feedQuotes .new ls = .ok q) :
    q.checkEnd = .ok () ↔ opening (allText ls) = closing (allText ls) := by
  have hl := feedQuotes_level ls _ _ h
  simp only [QuoteCheck.new] at hl
  unfold QuoteCheck.checkEnd
  rw [hl]
  split
  · rename_i h0; simp only [true_iff]; omega
  · rename_i h0; simp only [reduceCtorEq, false_iff]; omega

/-- C28: after a line, the checker tells whether quotes were open before the line and after it. -/
theorem C28_quoted_iff (ls : List Line) (l : Line) (q : QuoteCheck) (h : feedQuotes .new (ls ++ [l]) = .ok q) :
    (q.beginningIsQuoted = true ↔ opening (allText ls) ≠ closing (allText ls)) ∧
    (q.endIsQuoted = true ↔ opening (allText (ls ++ [l])) ≠ closing (allText (ls ++ [l]))) := by
  have hsplit : ∀ (ls : List Line) (p : QuoteCheck), feedQuotes p (ls ++ [l]) = .ok q →
      ∃ p', feedQuotes p ls = .ok p' ∧ p'.update l = .ok q := by
    intro ls
    induction ls with
    | nil =>
      intro p hp
      simp only [List.nil_append, feedQuotes, Res.bind_eq_ok] at hp
      obtain ⟨a, ha, hb⟩ := hp
      simp at hb; subst hb
      exact ⟨p, rfl, ha⟩
    | cons x xs ih =>
      intro p hp
      simp only [List.cons_append, feedQuotes, Res.bind_eq_ok] at hp ⊢
      obtain ⟨a, ha, hb⟩ := hp
      obtain ⟨p', h1, h2⟩ := ih a hb
      exact ⟨p', ⟨a, ha, h1⟩, h2⟩
  obtain ⟨p, h1, h2⟩ := hsplit ls _ h
  have hp := feedQuotes_level ls _ _ h1
  have hq := feedQuotes_level _ _ _ h
  have hacc := (C28_accepted_iff ls).1 ⟨p, h1⟩ ls.length (Nat.le_refl _)
  have hacc2 := (C28_accepted_iff (ls ++ [l])).1 ⟨q, h⟩ _ (Nat.le_refl _)
  rw [List.take_length] at hacc hacc2
  simp only [QuoteCheck.new] at hp hq
  rw [update_eq] at h2
  split at h2
  · simp only [Res.ok.injEq] at h2
    subst h2
    simp only [decide_eq_true_eq] at hq ⊢
    constructor
    · constructor <;> intro _ <;> omega
    · constructor <;> intro _ <;> omega
  · simp at h2

/-- C28: the checker never panics. -/
theorem C28_no_panic (ls : List Line) (q : QuoteCheck) : feedQuotes q ls ≠ .panic ∧ q.checkEnd ≠ .panic := by
  constructor
  · induction ls generalizing q with
    | nil => simp [feedQuotes]
    | cons l ls ih =>
      simp only [feedQuotes]
      rw [update_eq]
      split
      · simpa using ih _
      · simp
  · unfold QuoteCheck.checkEnd; split <;> simp

example : (match feedQuotes .new [sampleLine str!"a „b" 0, sampleLine str!"c” d" 0] with
    | .ok q => q.beginningIsQuoted && !q.endIsQuoted && q.checkEnd == .ok ()
    | _ => false) = true ∧ feedQuotes .new [sampleLine str!"a ” „" 0] = .ok ⟨0, false, false⟩ ∧
    feedQuotes .new [sampleLine str!"a ”" 0, sampleLine str!"„" 0] = .err := by decide +kernel

end HunLaw.Props
