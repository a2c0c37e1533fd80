import Verif.Lemmas.Editor
import Verif.Props.Line

/-! Properties C29-C32, C40 and C58-C60: fixups, the fixup editor and doubled empty lines. -/

set_option autoImplicit false

namespace HunLaw.Props
open HunLaw HunLaw.Spec

/-! ### C29 -/

/-- C29: if a fixup can be applied, it asks for a change, there is exactly one place with its context, the
line there gets the new text (bold if requested) and no other line changes. -/
theorem C29_applied (f : Fixup) (lines lines' : List Line) (h : f.apply lines = .ok lines') :
    Useful f ∧ ∃ i l', OnlyPlace f lines i ∧ i + f.after.length < lines.length ∧
      lines' = lines.set (i + f.after.length) l' ∧ l'.content = f.new ∧
      (f.setBold = true → f.new ≠ [] → l'.isBold = true ∧ ∀ g ∈ glyphs l', g.bold = true) := by
  by_cases ho : ∃ i, OnlyPlace f lines i
  · obtain ⟨i, hi⟩ := ho
    obtain ⟨l, hl, _, ha⟩ := (apply_eq f lines).1 i hi
    rw [h] at ha
    cases hal : f.applyToLine l with
    | ok l' =>
      rw [hal] at ha
      simp only [Res.bind_ok, Res.ok.injEq] at ha
      obtain ⟨_, hu, hc, hb⟩ := applyToLine_content f l l' hal
      exact ⟨hu, i, l', hi, (List.getElem?_eq_some_iff.1 hl).1, ha, hc, hb⟩
    | err => rw [hal] at ha; simp at ha
    | panic => rw [hal] at ha; simp at ha
  · rw [(apply_eq f lines).2 ho] at h
    simp at h

/-- C29: a fixup is applied exactly if it asks for a change and there is exactly one place for it. -/
theorem C29_applied_iff (f : Fixup) (lines : List Line) :
    (∃ lines', f.apply lines = .ok lines') ↔ Useful f ∧ ∃ i, OnlyPlace f lines i := by
  constructor
  · rintro ⟨lines', h⟩
    obtain ⟨hu, i, _, hi, _⟩ := C29_applied f lines lines' h
    exact ⟨hu, i, hi⟩
  · rintro ⟨hu, i, hi⟩
    obtain ⟨l, _, hc, ha⟩ := (apply_eq f lines).1 i hi
    obtain ⟨l', hl'⟩ := applyToLine_total f l hc hu
    rw [hl'] at ha
    exact ⟨_, ha⟩

/-- C29: otherwise there is an error, never a panic. -/
theorem C29_no_panic (f : Fixup) (lines : List Line) : f.apply lines ≠ .panic := by
  by_cases ho : ∃ i, OnlyPlace f lines i
  · obtain ⟨i, hi⟩ := ho
    obtain ⟨l, _, hc, ha⟩ := (apply_eq f lines).1 i hi
    by_cases hu : Useful f
    · obtain ⟨l', hl'⟩ := applyToLine_total f l hc hu
      rw [ha, hl']
      simp
    · rw [ha, applyToLine_useless f l hu]
      simp
  · rw [(apply_eq f lines).2 ho]
    simp

example :
    ((Fixup.mk [str!"a"] str!"b" str!"xb" true).apply
      [sampleLine str!"b" 0, sampleLine str!"a" 0, sampleLine str!"b" 0] >>= fun ls =>
        .ok (ls.map fun l => (l.content, l.isBold))) =
      .ok [(str!"b", false), (str!"a", false), (str!"xb", true)] ∧
    (Fixup.mk [] str!"b" str!"xb" true).apply [sampleLine str!"b" 0, sampleLine str!"a" 0, sampleLine str!"b" 0]
      = .err := by
  decide +kernel

/-! ### C30 -/

/-- C30: the text of a fixed-up line is the new text; the characters of the common prefix keep their
positions, and their bold flags unless the line was to be made bold. -/
theorem C30_prefix (f : Fixup) (line line' : Line) (h : f.applyToLine line = .ok line') (n : Nat)
    (hn : SharePrefix n f.old f.new) :
    line'.content = f.new ∧
    ((glyphs line').take n).map (fun g => (g.char, g.x)) = ((glyphs line).take n).map (fun g => (g.char, g.x)) ∧
    (f.setBold = false → (glyphs line').take n = (glyphs line).take n) := by
  obtain ⟨hc, hu, ht, _⟩ := applyToLine_content f line line' h
  refine ⟨ht, ?_⟩
  by_cases hne : f.new = []
  · have : n = 0 := by have := hn.2.1; rw [hne] at this; simpa using this
    subst this
    simp
  · obtain ⟨p, q, m, h1, h2, h3, h4, h5, h6, h7⟩ := applyToLine_eq f line hc hu hne
    rw [h] at h6
    simp only [Res.ok.injEq] at h6
    have hnp : n ≤ p := h1.2 n hn
    have hlen : line.len = f.old.length := by rw [← line.content_length, hc]
    have hm : (glyphs m).take n = (glyphs line).take n := by
      rw [h7, List.append_assoc, List.take_append_of_le_length, List.take_take]
      · rw [Nat.min_eq_left hnp]
      · simp only [List.length_take, Line.glyphs_length]; omega
    rw [h6]
    cases hb : f.setBold with
    | true =>
      simp only [if_true, Bool.true_eq_false, false_implies, and_true]
      rw [glyphs_asBold, ← List.map_take, hm, List.map_map]
      rfl
    | false => simp [hm]

/-- C30: after the longest common prefix, the characters of a common suffix keep their positions too, and
their bold flags unless the line was to be made bold. -/
theorem C30_suffix (f : Fixup) (line line' : Line) (h : f.applyToLine line = .ok line') (p m : Nat)
    (hp : LongestPrefix p f.old f.new) (hm : ShareSuffix m f.old f.new)
    (h1 : p + m ≤ f.old.length) (h2 : p + m ≤ f.new.length) :
    ((glyphs line').drop (f.new.length - m)).map (fun g => (g.char, g.x)) =
      ((glyphs line).drop (f.old.length - m)).map (fun g => (g.char, g.x)) ∧
    (f.setBold = false →
      (glyphs line').drop (f.new.length - m) = (glyphs line).drop (f.old.length - m)) := by
  obtain ⟨hc, hu, ht, _⟩ := applyToLine_content f line line' h
  have hlen : line.len = f.old.length := by rw [← line.content_length, hc]
  have hlen' : line'.len = f.new.length := by rw [← line'.content_length, ht]
  by_cases hne : f.new = []
  · have : m = 0 := by have := hm.2.1; rw [hne] at this; simpa using this
    subst this
    rw [List.drop_of_length_le (by rw [Line.glyphs_length]; omega),
      List.drop_of_length_le (by rw [Line.glyphs_length]; omega)]
    simp
  · obtain ⟨p', q, b, g1, g2, g3, g4, g5, g6, g7⟩ := applyToLine_eq f line hc hu hne
    have hpp := longestPrefix_unique hp g1
    subst hpp
    rw [h] at g6
    simp only [Res.ok.injEq] at g6
    have hmq : m ≤ q := g5 m h1 h2 hm
    have hbl : (glyphs b).length = f.new.length := by
      rw [← hlen', ← Line.glyphs_length, g6]
      split
      · rw [glyphs_asBold, List.length_map]
      · rfl
    have hm : (glyphs b).drop (f.new.length - m) = (glyphs line).drop (f.old.length - m) := by
      have hl2 := congrArg List.length g7
      rw [hbl, List.length_append, List.length_drop, Line.glyphs_length, hlen] at hl2
      rw [g7, List.drop_append, List.drop_of_length_le (by omega), List.nil_append, List.drop_drop]
      congr 1
      omega
    rw [g6]
    cases hb : f.setBold with
    | true =>
      simp only [if_true, Bool.true_eq_false, false_implies, and_true]
      rw [glyphs_asBold, ← List.map_drop, hm, List.map_map]
      rfl
    | false => simp [hm]

example : SharePrefix 2 str!"aaa" str!"aaba" ∧ LongestPrefix 2 str!"aaa" str!"aaba" ∧
    ShareSuffix 1 str!"aaa" str!"aaba" := by
  refine ⟨by simp [SharePrefix], ?_, by simp [ShareSuffix]⟩
  exact commonLen_spec str!"aaa" str!"aaba"

example : ((Fixup.mk [] str!"aaa" str!"aaba" false).applyToLine (sampleLine str!"aaa" 3) >>= fun l =>
    .ok l.content) = .ok str!"aaba" := by
  decide +kernel

/-! ### C31 -/

/-- C31: a list of fixups is applied one after the other. -/
theorem C31_in_order (f : Fixup) (fs : List Fixup) (lines : List Line) :
    applyFixups [] lines = .ok lines ∧
    (∀ lines', f.apply lines = .ok lines' → applyFixups (f :: fs) lines = applyFixups fs lines') ∧
    (f.apply lines = .err → applyFixups (f :: fs) lines = .err) := by
  refine ⟨rfl, ?_, ?_⟩
  · intro l' h; simp [applyFixups, h]
  · intro h; simp [applyFixups, h]

/-- C31: success means that each of them was applied, each seeing the result of the earlier ones; a failure
at any of them is a failure of the whole. -/
theorem C31_success_iff (fs : List Fixup) (lines lines' : List Line) :
    applyFixups fs lines = .ok lines' ↔
      ∃ states : List (List Line), states.length = fs.length + 1 ∧ states.head? = some lines ∧
        states.getLast? = some lines' ∧
        ∀ i (f : Fixup) (a b : List Line), fs[i]? = some f → states[i]? = some a → states[i + 1]? = some b →
          f.apply a = .ok b := by
  induction fs generalizing lines with
  | nil =>
    constructor
    · intro h
      simp only [applyFixups, Res.ok.injEq] at h
      subst h
      exact ⟨[lines], by simp⟩
    · rintro ⟨st, h1, h2, h3, _⟩
      match st, h1 with
      | [a], _ =>
        simp at h2 h3
        simp [applyFixups, ← h2, h3]
  | cons f fs ih =>
    constructor
    · intro h
      simp only [applyFixups] at h
      cases hf : f.apply lines with
      | ok l1 =>
        rw [hf] at h
        obtain ⟨st, h1, h2, h3, h4⟩ := (ih l1).1 h
        refine ⟨lines :: st, by simp [h1], rfl, ?_, ?_⟩
        · rw [List.getLast?_cons, h3]; rfl
        · intro i g a b hg ha hb
          cases i with
          | zero =>
            simp at hg ha hb
            subst hg ha
            rw [List.head?_eq_getElem?] at h2
            rw [h2] at hb
            simp only [Option.some.injEq] at hb
            subst hb
            exact hf
          | succ i => exact h4 i g a b (by simpa using hg) (by simpa using ha) (by simpa using hb)
      | err => rw [hf] at h; simp at h
      | panic => rw [hf] at h; simp at h
    · rintro ⟨st, h1, h2, h3, h4⟩
      match st, h1 with
      | a :: b :: st, h1 =>
        simp only [List.head?_cons, Option.some.injEq] at h2
        subst h2
        have hf := h4 0 f a b (by simp) (by simp) (by simp)
        simp only [applyFixups, hf, Res.bind_ok]
        refine (ih b).2 ⟨b :: st, by simpa using h1, rfl, ?_, ?_⟩
        · rw [List.getLast?_cons] at h3
          rw [← h3]
          simp [List.getLast?_cons]
        · intro i g x y hg hx hy
          exact h4 (i + 1) g x y (by simpa using hg) (by simpa using hx) (by simpa using hy)

/-- C31: there is no panic. -/
theorem C31_no_panic (fs : List Fixup) (lines : List Line) : applyFixups fs lines ≠ .panic := by
  induction fs generalizing lines with
  | nil => simp [applyFixups]
  | cons f fs ih =>
    simp only [applyFixups]
    cases hf : f.apply lines with
    | ok l => simpa using ih l
    | err => simp
    | panic => exact absurd hf (C29_no_panic f lines)

example :
    (applyFixups [⟨[], str!"a", str!"b", false⟩, ⟨[], str!"b", str!"c", false⟩] [sampleLine str!"a" 3] >>=
      fun ls => .ok (texts ls)) = .ok [str!"c"] := by
  decide +kernel

/-! ### C32 -/

/-- C32 as a user reads it: if the editor makes fixups from an edited file, they can be applied to the text
and give what was typed. `body` is the text shown in the editor. -/
def C32_statement : Prop :=
  ∀ (body : List Line) (edit : List Str → List Str) (new : List Str) (fixups : List Fixup),
    readBack (edit (editorLines 0 body)) = .ok new →
    runEditor [] body edit = some (.ok fixups) →
    ∃ body', applyFixups fixups body = .ok body' ∧ body'.length = body.length ∧
      ∀ i (h1 : i < body.length) (h2 : i < new.length) (h3 : i < body'.length),
        EditedTo body[i] new[i] body'[i]

/-- C32 does not hold: lines are compared without the white space around them, but only plain spaces are
refused there. A line that ends with a no-break space gives a fixup that is not found in the text. -/
theorem C32_violated : ¬ C32_statement := by
  intro h
  have := h [sampleLine ['a', Char.ofNat 160] 0] (fun _ => [str!"   0 b"]) [str!"b"]
    [⟨[], str!"a", str!"b", false⟩] (by decide +kernel) (by decide +kernel)
  obtain ⟨b, hb, _⟩ := this
  have herr : applyFixups [⟨[], str!"a", str!"b", false⟩] [sampleLine ['a', Char.ofNat 160] 0] = .err := by
    decide +kernel
  rw [herr] at hb
  cases hb

/-- C32 for lines without white space around them. Missing: lines with other white space at their ends than
the plain space, for which it is false. -/
theorem C32_reproduced_partial (loaded : List Fixup) (body : List Line) (edit : List Str → List Str)
    (new : List Str) (fixups : List Fixup) (htrim : ∀ l ∈ body, trim l.content = l.content)
    (hread : readBack (edit (editorLines 0 body)) = .ok new)
    (h : runEditor loaded body edit = some (.ok fixups)) :
    ∃ added body', fixups = loaded ++ added ∧ applyFixups added body = .ok body' ∧
      new.length = body.length ∧ body'.length = body.length ∧
      ∀ i (h1 : i < body.length) (h2 : i < new.length) (h3 : i < body'.length),
        EditedTo body[i] new[i] body'[i] := by
  unfold runEditor at h
  split at h
  · simp at h
  · rw [hread] at h
    simp only at h
    have ht : (body.map fun l => trim l.content) = texts body := by
      unfold texts
      exact List.map_congr_left htrim
    rw [ht] at h
    unfold updateFixups at h
    split at h
    · simp at h
    · rename_i hl
      simp only [texts, List.length_map, ne_eq, not_not] at hl
      obtain ⟨added, b', e1, e2, e3, e4⟩ := updateLoop_sound _ body new loaded fixups hl h
      exact ⟨added, b', e1, e2, hl.symm, e3, e4⟩

/-- C32: the generation of fixups always ends, and does not panic. -/
theorem C32_terminates (loaded : List Fixup) (original new : List Str) :
    updateFixups loaded original new ≠ none ∧ updateFixups loaded original new ≠ some .panic := by
  unfold updateFixups
  split
  · simp
  · rename_i hl
    simp only [ne_eq, not_not] at hl
    exact ⟨updateLoop_ends _ 0 _ _ _ hl (by simp) (by simp) (by omega), updateLoop_no_panic _ _ _ _⟩

/-- C32: it succeeds if the lines of the act are all different and no edited line is changed to the text of a
line after it. -/
theorem C32_succeeds (loaded : List Fixup) (original new : List Str) (hl : original.length = new.length)
    (hd : original.Nodup)
    (hn : ∀ i j, i < j → j < original.length → original.getD i [] ≠ new.getD i [] →
      (editedLine (new.getD i [])).2 ≠ original.getD j []) :
    ∃ fixups, updateFixups loaded original new = some (.ok fixups) := by
  unfold updateFixups
  rw [if_neg (by simpa using hl)]
  refine updateLoop_succeeds _ 0 _ _ _ hl (by simp) (by simp) (by omega) ?_ hn
  intro i j hi hj _ he
  simp only [List.getD, List.getElem?_eq_getElem hi, List.getElem?_eq_getElem hj, Option.getD_some] at he
  exact (List.Nodup.getElem_inj_iff hd).1 he

/-- C32: lines cannot be inserted or deleted. -/
theorem C32_same_count (loaded : List Fixup) (original new : List Str) (h : original.length ≠ new.length) :
    updateFixups loaded original new = some .err := by
  unfold updateFixups
  rw [if_pos h]

example :
    runEditor [] [sampleLine str!"x" 7, sampleLine str!"r" 0, sampleLine str!"r" 0]
      (fun _ => [str!"   0 x", str!"   0 r", str!"   0 <BOLD>r2"]) =
      some (.ok [⟨[str!"r"], str!"r", str!"r2", true⟩]) ∧
    (∀ l ∈ [sampleLine str!"x" 7, sampleLine str!"r" 0, sampleLine str!"r" 0], trim l.content = l.content) := by
  decide +kernel

example : updateFixups [] [str!"a", str!"b"] [str!"a", str!"c"] =
    some (.ok [⟨[], str!"b", str!"c", false⟩]) := by decide +kernel

/-! ### C40 -/

/-- C40: exactly those lines are removed that are empty and follow an empty line. -/
theorem C40_exact (l : Line) (ls : List Line) :
    removeDoubleEmptyLines (l :: ls) =
      l :: ((((l :: ls).zip ls).filter fun ab => !(ab.1.isEmpty && ab.2.isEmpty)).map Prod.snd) := by
  have key : ∀ (p q : Line) (ls : List Line), p.isEmpty = q.isEmpty →
      removeDoubleAfter p ls =
        (((q :: ls).zip ls).filter fun ab => !(ab.1.isEmpty && ab.2.isEmpty)).map Prod.snd := by
    intro p q ls
    induction ls generalizing p q with
    | nil => intro _; rfl
    | cons x xs ih =>
      intro hpq
      rw [List.zip_cons_cons, List.filter_cons]
      simp only [removeDoubleAfter, hpq]
      cases hb : (q.isEmpty && x.isEmpty) with
      | true =>
        simp only [Bool.and_eq_true] at hb
        simp only [if_true, Bool.not_true, Bool.false_eq_true, if_false]
        exact ih p x (by rw [hpq, hb.1, hb.2])
      | false =>
        simp only [Bool.false_eq_true, if_false, Bool.not_false, if_true, List.map_cons]
        rw [ih x x rfl]
  simp only [removeDoubleEmptyLines]
  rw [key l l ls rfl]

/-- C40: no two adjacent lines are empty afterwards. -/
theorem C40_no_double (ls a b : List Line) (x y : Line) (h : removeDoubleEmptyLines ls = a ++ x :: y :: b) :
    ¬ (x.isEmpty = true ∧ y.isEmpty = true) := by
  have := removeDouble_chain ls
  rw [h, List.isChain_append] at this
  exact (List.isChain_cons_cons.1 this.2.1).1

/-- C40: all non-empty lines are kept, in order; nothing is added. -/
theorem C40_keeps (ls : List Line) :
    (removeDoubleEmptyLines ls).Sublist ls ∧
    (removeDoubleEmptyLines ls).filter (fun l => !l.isEmpty) = ls.filter fun l => !l.isEmpty :=
  ⟨removeDouble_sublist ls, removeDouble_nonempty ls⟩

/-- C40: doing it again changes nothing. -/
theorem C40_idempotent (ls : List Line) :
    removeDoubleEmptyLines (removeDoubleEmptyLines ls) = removeDoubleEmptyLines ls :=
  removeDouble_fixed _ (removeDouble_chain ls)

example : removeDoubleEmptyLines [.emptyLine, .emptyLine, sampleLine str!"a" 0, .emptyLine, sampleLine str!"b" 0] =
    [.emptyLine, sampleLine str!"a" 0, .emptyLine, sampleLine str!"b" 0] := by decide +kernel

/-! ### C58 -/

/-- C58: if the user leaves the file as it is, no fixups are added, whatever the indentation and the quotes.
(With more quotation marks the level column gets wider than what is cut off again.) -/
theorem C58_unedited (loaded : List Fixup) (body : List Line)
    (hsp : ∀ l ∈ body, l.content.head? ≠ some ' ' ∧ l.content.getLast? ≠ some ' ')
    (hq : (body.map fun l => (l.content.filter fun c => c == '„' || c == '“' || c == '”').length).sum ≤ 9999) :
    runEditor loaded body id = some (.ok loaded) := by
  unfold runEditor
  rw [if_neg]
  · have := readBack_unedited 0 body (by simpa [quoteMarks] using hq)
    simp only [id_eq, this]
    unfold updateFixups
    rw [if_neg (by simp)]
    unfold updateLoop
    rw [firstDiff_self]
  · simp only [List.any_eq_true, not_exists, not_and, Bool.or_eq_true, beq_iff_eq]
    intro l hl
    have := hsp l hl
    tauto

example : (∀ l ∈ [sampleLine str!"„a" 12, sampleLine str!"b”" 3],
    l.content.head? ≠ some ' ' ∧ l.content.getLast? ≠ some ' ') ∧
    (([sampleLine str!"„a" 12, sampleLine str!"b”" 3].map fun l =>
      (l.content.filter fun c => c == '„' || c == '“' || c == '”').length).sum ≤ 9999) := by decide +kernel

/-! ### C59 -/

/-- C59: in a fixed-up line the characters stay in reading order. (Positions are looked up at index 10000
as the end of the line, so longer lines are left out.) -/
theorem C59_in_order (f : Fixup) (line line' : Line) (h : f.applyToLine line = .ok line')
    (ho : InOrder (glyphs line)) (hl : line.len ≤ 10001) : InOrder (glyphs line') := by
  obtain ⟨hc, hu, ht, _⟩ := applyToLine_content f line line' h
  by_cases hne : f.new = []
  · have hl' : (glyphs line').length = 0 := by
      rw [Line.glyphs_length, ← line'.content_length, ht, hne]; rfl
    rw [List.length_eq_zero_iff] at hl'
    rw [hl']
    exact List.Pairwise.nil
  · obtain ⟨p, q, b, g1, g2, g3, g4, g5, g6, g7⟩ := applyToLine_eq f line hc hu hne
    rw [h] at g6
    simp only [Res.ok.injEq] at g6
    have hlen : line.len = f.old.length := by rw [← line.content_length, hc]
    rw [← hlen] at g7 g2
    obtain ⟨b1, b2, b3⟩ := fix_bounds line ho hl p q g2
    have hstep : 0 ≤ (fixEnd line p q - fixStart line p q line.len) / ((f.new.length - p - q : Nat) : Rat) :=
      div_nonneg (by linarith) (Nat.cast_nonneg _)
    obtain ⟨r1, r2⟩ := replacement_bounds (fixStart line p q line.len) _ line.isBold (middle f p q) hstep
    have hmid : (middle f p q).length = f.new.length - p - q := by
      unfold middle
      simp only [List.length_take, List.length_drop]; omega
    have hend : ∀ g ∈ glyphsFrom 0 (Fixup.replacementParts (fixStart line p q line.len)
        ((fixEnd line p q - fixStart line p q line.len) / ((f.new.length - p - q : Nat) : Rat))
        line.isBold (middle f p q)), g.x ≤ fixEnd line p q := by
      intro g hg
      have hx := (r2 g hg).2
      rw [hmid] at hx
      by_cases hz : f.new.length - p - q = 0
      · rw [hz] at hx
        simp at hx
        linarith
      · have hpos : (0 : Rat) < ((f.new.length - p - q : Nat) : Rat) := by
          exact_mod_cast Nat.pos_of_ne_zero hz
        rw [div_mul_cancel₀ _ (ne_of_gt hpos)] at hx
        linarith
    have hin : InOrder (glyphs b) := by
      rw [g7]
      unfold InOrder
      rw [List.pairwise_append, List.pairwise_append]
      refine ⟨⟨List.Pairwise.sublist (List.take_sublist _ _) ho, r1, ?_⟩,
        List.Pairwise.sublist (List.drop_sublist _ _) ho, ?_⟩
      · intro x hx y hy
        have := b2 x hx
        have := (r2 y hy).1
        linarith
      · intro x hx y hy
        have hy' := b3 y hy
        rcases List.mem_append.1 hx with hx | hx
        · have := b2 x hx
          linarith
        · have := hend x hx
          linarith
    rw [g6]
    split
    · rw [glyphs_asBold]
      unfold InOrder
      rw [List.pairwise_map]
      exact hin
    · exact hin

example : InOrder (glyphs (sampleLine str!"aaa" 3)) ∧ (sampleLine str!"aaa" 3).len ≤ 10001 := by
  simp [InOrder, glyphs, glyphsFrom, sampleLine, Line.fromParts, Line.len]
  norm_num

/-! ### C60 -/

/-- C60 as a user reads it: in an interactive round the fixups saved are those loaded and new ones; the next
run applies them to the act and gets the edited lines. -/
def C60_statement : Prop :=
  ∀ (raw : List Line) (fixups saved : List Fixup) (edit : List Str → List Str),
    removeDoubleEmptyLines raw = raw → (∀ l ∈ raw, trim l.content = l.content) →
    interactiveRound raw fixups edit = some (.ok saved) →
    ∃ body, fixedBody raw saved = .ok body

/-- C60 does not hold: the editor shows the act after doubled empty lines are removed, but when the fixups are
applied again, later ones see the text with the empty lines that earlier ones made. -/
theorem C60_violated : ¬ C60_statement := by
  intro h
  have := h [sampleLine str!"a" 0, .emptyLine, sampleLine str!"x" 0, sampleLine str!"r" 0,
      sampleLine str!"b" 0, .emptyLine, sampleLine str!"r" 0]
    [⟨[], str!"x", [], false⟩] [⟨[], str!"x", [], false⟩, ⟨[str!"a", []], str!"r", str!"s", false⟩]
    (fun _ => [str!"   0 a", str!"   0 ", str!"   0 s", str!"   0 b", str!"   0 ", str!"   0 r"])
    (by decide +kernel) (by decide +kernel) (by decide +kernel)
  obtain ⟨b, hb⟩ := this
  have herr : fixedBody [sampleLine str!"a" 0, .emptyLine, sampleLine str!"x" 0, sampleLine str!"r" 0,
      sampleLine str!"b" 0, .emptyLine, sampleLine str!"r" 0]
    [⟨[], str!"x", [], false⟩, ⟨[str!"a", []], str!"r", str!"s", false⟩] = .err := by decide +kernel
  rw [herr] at hb
  cases hb

/-- C60 where the fixups loaded leave no doubled empty lines. Missing: acts in which they do, for which it
is false. -/
theorem C60_round_partial (raw body : List Line) (fixups saved : List Fixup) (edit : List Str → List Str)
    (new : List Str) (hb : applyFixups fixups raw = .ok body) (hd : removeDoubleEmptyLines body = body)
    (htrim : ∀ l ∈ body, trim l.content = l.content)
    (hread : readBack (edit (editorLines 0 body)) = .ok new)
    (h : interactiveRound raw fixups edit = some (.ok saved)) :
    ∃ edited, applyFixups saved raw = .ok edited ∧
      fixedBody raw saved = .ok (removeDoubleEmptyLines edited) ∧ edited.length = body.length ∧
      ∀ i (h1 : i < body.length) (h2 : i < new.length) (h3 : i < edited.length),
        EditedTo body[i] new[i] edited[i] := by
  unfold interactiveRound fixedBody at h
  rw [hb] at h
  simp only [Res.bind_ok, hd] at h
  obtain ⟨added, b', e1, e2, _, e4, e5⟩ := C32_reproduced_partial fixups body edit new saved htrim hread h
  have happ : applyFixups saved raw = .ok b' := by
    rw [e1, applyFixups_append, hb]
    exact e2
  refine ⟨b', happ, ?_, e4, e5⟩
  unfold fixedBody
  rw [happ]
  rfl

example :
    interactiveRound [sampleLine str!"a" 0, sampleLine str!"r" 0] [⟨[], str!"a", str!"b", false⟩]
      (fun _ => [str!"   0 b", str!"   0 s"]) =
      some (.ok [⟨[], str!"a", str!"b", false⟩, ⟨[], str!"r", str!"s", false⟩]) := by decide +kernel

end HunLaw.Props
