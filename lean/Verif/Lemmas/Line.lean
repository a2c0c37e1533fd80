import Verif.Spec.Line
import Verif.Lemmas.Regex
import Mathlib.Tactic.Linarith
import Mathlib.Tactic.Ring

/-! Lemmas on lines. -/

set_option autoImplicit false

namespace HunLaw

open Spec (Glyph glyphs glyphsFrom window clampIndex)

namespace Line

theorem sumDx_nil : sumDx [] = 0 := rfl
theorem sumDx_cons (p : LinePart) (ps : List LinePart) : sumDx (p :: ps) = p.dx + sumDx ps := by
  simp [sumDx]
theorem sumDx_append (a b : List LinePart) : sumDx (a ++ b) = sumDx a + sumDx b := by
  simp [sumDx]

theorem glyphsFrom_append (x : Rat) (a b : List LinePart) :
    glyphsFrom x (a ++ b) = glyphsFrom x a ++ glyphsFrom (x + sumDx a) b := by
  induction a generalizing x with
  | nil => simp [glyphsFrom, sumDx_nil]
  | cons p ps ih =>
    simp only [List.cons_append, glyphsFrom, sumDx_cons, ih]
    rw [add_assoc]

theorem glyphsFrom_length (x : Rat) (a : List LinePart) : (glyphsFrom x a).length = a.length := by
  induction a generalizing x with
  | nil => rfl
  | cons p ps ih => simp [glyphsFrom, ih]

theorem glyphsFrom_shiftFirst (x add : Rat) (a : List LinePart) :
    glyphsFrom x (shiftFirst add a) = glyphsFrom (x + add) a := by
  cases a with
  | nil => rfl
  | cons p ps =>
    simp only [shiftFirst, glyphsFrom]
    have : x + (p.dx + add) = x + add + p.dx := by ring
    rw [this]

theorem glyphsFrom_take (x : Rat) (n : Nat) (a : List LinePart) :
    glyphsFrom x (a.take n) = (glyphsFrom x a).take n := by
  induction a generalizing x n with
  | nil => simp [glyphsFrom]
  | cons p ps ih =>
    cases n with
    | zero => simp [glyphsFrom]
    | succ n => simp [glyphsFrom, ih]

theorem glyphsFrom_drop (x : Rat) (n : Nat) (a : List LinePart) :
    glyphsFrom (x + sumDx (a.take n)) (a.drop n) = (glyphsFrom x a).drop n := by
  induction a generalizing x n with
  | nil => simp [glyphsFrom]
  | cons p ps ih =>
    cases n with
    | zero => simp [glyphsFrom, sumDx_nil]
    | succ n =>
      simp only [List.take_succ_cons, List.drop_succ_cons, sumDx_cons, glyphsFrom]
      rw [← ih, add_assoc]

theorem glyphsFrom_injective {x : Rat} {a b : List LinePart} (h : glyphsFrom x a = glyphsFrom x b) :
    a = b := by
  induction a generalizing x b with
  | nil => cases b with
    | nil => rfl
    | cons q qs => simp [glyphsFrom] at h
  | cons p ps ih => cases b with
    | nil => simp [glyphsFrom] at h
    | cons q qs =>
      simp only [glyphsFrom, List.cons.injEq, Glyph.mk.injEq] at h
      obtain ⟨⟨h1, h2, h3⟩, h4⟩ := h
      have h1' : p.dx = q.dx := by linarith
      rw [h1'] at h4
      have := ih h4
      obtain ⟨_, _, _⟩ := p
      obtain ⟨_, _, _⟩ := q
      simp_all

theorem glyphs_injective {a b : Line} (h : glyphs a = glyphs b) : a.parts = b.parts :=
  glyphsFrom_injective h

theorem content_eq (l : Line) : l.content = (glyphs l).map (·.char) := by
  unfold content glyphs
  generalize (0 : Rat) = x
  induction l.parts generalizing x with
  | nil => rfl
  | cons p ps ih => simp [glyphsFrom, ← ih]

theorem fromParts_parts (ps : List LinePart) (j : Bool) : (fromParts ps j).parts = ps := rfl

theorem glyphs_length (l : Line) : (glyphs l).length = l.len := glyphsFrom_length 0 l.parts

theorem content_length (l : Line) : l.content.length = l.len := by simp [content, len]

theorem convertIndex_eq (l : Line) (i : Int) : l.convertIndex i = clampIndex l.len i := by
  unfold convertIndex clampIndex
  simp only
  split <;> split <;> (try split) <;> omega

theorem convertIndex_le (l : Line) (i : Int) : l.convertIndex i ≤ l.len := by
  unfold convertIndex; simp only; omega

theorem glyphs_sliceParts (l : Line) (F T : Nat) (h : ¬ T ≤ F) :
    glyphsFrom 0 (shiftFirst (sumDx (l.parts.take F)) ((l.parts.take T).drop F)) =
      window F T (glyphs l) := by
  unfold glyphs window
  rw [glyphsFrom_shiftFirst]
  have : sumDx (l.parts.take F) = sumDx ((l.parts.take T).take F) := by
    rw [List.take_take]; congr 2; omega
  rw [this, glyphsFrom_drop, glyphsFrom_take, List.drop_take]

theorem window_empty {α : Type} {F T : Nat} {l : List α} (h : T ≤ F) : window F T l = [] := by
  simp [window, Nat.sub_eq_zero_of_le h]

/-- Slicing is taking a window of the characters on the page. -/
theorem glyphs_slice (l : Line) (f : Int) (t : Option Int) :
    glyphs (l.slice f t) =
      window (clampIndex l.len f) (match t with | some t => clampIndex l.len t | none => l.len)
        (glyphs l) := by
  unfold slice
  simp only [convertIndex_eq]
  cases t with
  | none =>
    simp only
    split
    · rename_i h; rw [window_empty h]; rfl
    · rename_i h; exact glyphs_sliceParts l _ _ h
  | some t =>
    simp only
    split
    · rename_i h; rw [window_empty h]; rfl
    · rename_i h; exact glyphs_sliceParts l _ _ h

theorem glueParts_false (x : Rat) (ps : List LinePart) :
    glueParts x false ps = (ps, x + sumDx ps) := by
  induction ps generalizing x with
  | nil => simp [glueParts, sumDx_nil]
  | cons p ps ih => simp [glueParts, ih, sumDx_cons, add_assoc]

theorem glueParts_true (x : Rat) (ps : List LinePart) :
    glyphsFrom x (glueParts x true ps).1 = glyphsFrom 0 ps ∧
    (glueParts x true ps).2 = (if ps = [] then x else sumDx ps) ∧
    x + sumDx (glueParts x true ps).1 = (glueParts x true ps).2 := by
  cases ps with
  | nil => simp [glueParts, glyphsFrom, sumDx_nil]
  | cons p ps =>
    simp only [glueParts, glueParts_false, if_true, glyphsFrom, sumDx_cons]
    refine ⟨?_, by simp, by ring⟩
    have : x + (p.dx - x) = 0 + p.dx := by ring
    rw [this]

theorem glueLines_glyphs (x : Rat) (ls : List Line) :
    glyphsFrom x (glueLines x ls) = ls.flatMap glyphs := by
  induction ls generalizing x with
  | nil => rfl
  | cons l ls ih =>
    simp only [glueLines, List.flatMap_cons]
    obtain ⟨h1, h2, h3⟩ := glueParts_true x l.parts
    rw [glyphsFrom_append, h1, h3, ih]
    rfl

theorem glyphs_fromMultiple (ls : List Line) : glyphs (fromMultiple ls) = ls.flatMap glyphs :=
  glueLines_glyphs 0 ls

/-! ### byte positions -/

theorem charPosition_append (a b : Str) (h : b ≠ []) :
    charPosition (a ++ b) (byteLen a) = some a.length := by
  induction a with
  | nil => cases b with
    | nil => exact absurd rfl h
    | cons c cs => simp [charPosition, byteLen]
  | cons c cs ih =>
    have hp := utf8Len_pos c
    have : byteLen (c :: cs) = utf8Len c + byteLen cs := by simp [byteLen]
    rw [this]
    simp only [List.cons_append, charPosition]
    rw [if_neg (by omega), if_neg (by omega)]
    have : utf8Len c + byteLen cs - utf8Len c = byteLen cs := by omega
    rw [this, ih]; simp

theorem charPosition_eq_some {s : Str} {n k : Nat} (h : charPosition s n = some k) :
    k < s.length ∧ byteLen (s.take k) = n := by
  induction s generalizing n k with
  | nil => simp [charPosition] at h
  | cons c cs ih =>
    simp only [charPosition] at h
    split at h
    · simp at h; subst h; simp [byteLen, *]
    · split at h
      · simp at h
      · rename_i hn hlt
        simp only [Option.map_eq_some_iff] at h
        obtain ⟨k', hk', rfl⟩ := h
        obtain ⟨h1, h2⟩ := ih hk'
        refine ⟨by simpa using h1, ?_⟩
        have : byteLen (List.take (k' + 1) (c :: cs)) = utf8Len c + byteLen (cs.take k') := by
          simp [byteLen]
        omega

theorem charPosition_end (a : Str) : charPosition a (byteLen a) = none := by
  cases h : charPosition a (byteLen a) with
  | none => rfl
  | some k =>
    obtain ⟨h1, h2⟩ := charPosition_eq_some h
    have := byteLen_append (a.take k) (a.drop k)
    rw [List.take_append_drop] at this
    have h3 : byteLen (a.drop k) = 0 := by omega
    rw [byteLen_eq_zero] at h3
    simp at h3; omega

end Line

/-! ### What any match of a pattern tells about positions -/

namespace Re

/-- Every match consumes a prefix of what is left, and every group lies within what was consumed. -/
theorem run_positions {r : Re} {st st' : MState} (h : st' ∈ run r st) :
    (∃ c, st'.pre = st.pre ++ c ∧ st.rest = c ++ st'.rest) ∧
    ((∀ g ∈ st.caps, (g.2.1 ++ g.2.2) <+: st.pre) → ∀ g ∈ st'.caps, (g.2.1 ++ g.2.2) <+: st'.pre) := by
  induction r generalizing st st' with
  | eps => simp [run] at h; subst h; exact ⟨⟨[], by simp⟩, fun h => h⟩
  | cls p =>
    simp only [run] at h
    split at h
    · rename_i c cs hr
      split at h
      · simp at h; subst h
        refine ⟨⟨[c], by simp [hr]⟩, fun hc g hg => (hc g hg).trans ⟨[c], rfl⟩⟩
      · simp at h
    · simp at h
  | many p =>
    simp only [run, List.mem_map] at h
    obtain ⟨ab, hab, rfl⟩ := h
    obtain ⟨h1, _⟩ := mem_manySplits hab
    exact ⟨⟨ab.1, rfl, h1⟩, fun hc g hg => (hc g hg).trans ⟨ab.1, rfl⟩⟩
  | seq a b iha ihb =>
    simp only [run, List.mem_flatMap] at h
    obtain ⟨s1, h1, h2⟩ := h
    obtain ⟨⟨c1, e1, e2⟩, g1⟩ := iha h1
    obtain ⟨⟨c2, e3, e4⟩, g2⟩ := ihb h2
    exact ⟨⟨c1 ++ c2, by simp [e3, e1], by simp [e2, e4]⟩, fun hc => g2 (g1 hc)⟩
  | alt a b iha ihb =>
    simp only [run, List.mem_append] at h
    rcases h with h | h
    · exact iha h
    · exact ihb h
  | cap n r ih =>
    simp only [run, List.mem_map] at h
    obtain ⟨s1, h1, rfl⟩ := h
    obtain ⟨⟨c1, e1, e2⟩, g1⟩ := ih h1
    refine ⟨⟨c1, e1, e2⟩, ?_⟩
    intro hc g hg
    simp only [List.mem_cons] at hg
    rcases hg with rfl | hg
    · simp [e1]
    · exact g1 hc g hg
  | eos =>
    simp only [run] at h
    split at h
    · simp at h; subst h; exact ⟨⟨[], by simp⟩, fun h => h⟩
    · simp at h

/-- A group of a match of an anchored pattern is a piece of the text. -/
theorem matchAt_group {r : Re} {s : Str} {m : MState} {n : Nat} {before text : Str}
    (h : matchAt r s = some m) (hg : m.group n = some (before, text)) :
    ∃ after, s = before ++ text ++ after := by
  have hm : m ∈ run r ⟨[], s, []⟩ := List.mem_of_mem_head? h
  obtain ⟨⟨c, e1, e2⟩, hc⟩ := run_positions hm
  simp only [List.nil_append] at e1
  unfold MState.group at hg
  simp only [Option.map_eq_some_iff] at hg
  obtain ⟨⟨k, b, t⟩, hf, hbt⟩ := hg
  simp at hbt
  obtain ⟨rfl, rfl⟩ := hbt
  have := hc (by simp) _ (List.mem_of_find?_eq_some hf)
  obtain ⟨a, ha⟩ := this
  simp only at e2 ha
  exact ⟨a ++ m.rest, by rw [e2, ← e1, ← ha]; simp⟩

end Re
end HunLaw
