import Verif.Model.MkAct
import Verif.Lemmas.Fixups
import Mathlib.Data.List.Basic

/-! Lemmas about the fixup editor and about doubled empty lines. -/

set_option autoImplicit false

namespace HunLaw
open Spec

theorem firstDiff_none {a b : List Str} (hl : a.length = b.length) (h : firstDiff a b = none) : a = b := by
  induction a generalizing b with
  | nil => cases b with
    | nil => rfl
    | cons => simp at hl
  | cons x xs ih => cases b with
    | nil => simp at hl
    | cons y ys =>
      unfold firstDiff at h ih
      simp only [List.zip_cons_cons, List.findIdx?_cons] at h
      by_cases hxy : x = y
      · subst hxy
        simp at h
        rw [ih (by simpa using hl) (by simpa using h)]
      · simp [hxy] at h

theorem firstDiff_self (a : List Str) : firstDiff a a = none := by
  induction a with
  | nil => rfl
  | cons x xs ih =>
    unfold firstDiff at ih ⊢
    simp only [List.zip_cons_cons, List.findIdx?_cons]
    simpa using ih

theorem firstDiff_some {a b : List Str} {pos : Nat} (h : firstDiff a b = some pos) :
    pos < a.length ∧ pos < b.length ∧ a.getD pos [] ≠ b.getD pos [] ∧
      ∀ i < pos, a.getD i [] = b.getD i [] := by
  induction a generalizing b pos with
  | nil => simp [firstDiff] at h
  | cons x xs ih => cases b with
    | nil => simp [firstDiff] at h
    | cons y ys =>
      unfold firstDiff at h ih
      simp only [List.zip_cons_cons, List.findIdx?_cons] at h
      by_cases hxy : x = y
      · subst hxy
        simp only [bne_self_eq_false, Bool.false_eq_true, if_false, Option.map_eq_some_iff] at h
        obtain ⟨p, hp, rfl⟩ := h
        obtain ⟨h1, h2, h3, h4⟩ := ih hp
        refine ⟨by simpa using h1, by simpa using h2, by simpa using h3, ?_⟩
        intro i hi
        cases i with
        | zero => simp
        | succ i => simpa using h4 i (by omega)
      · simp [hxy] at h
        subst h
        exact ⟨by simp, by simp, by simpa using hxy, by omega⟩

theorem getD_set_ne {a : List Str} {i j : Nat} {v : Str} (h : i ≠ j) : (a.set i v).getD j [] = a.getD j [] := by
  simp [List.getD, h]

theorem getD_set_eq {a : List Str} {i : Nat} {v : Str} (h : i < a.length) : (a.set i v).getD i [] = v := by
  simp [List.getD, h]

/-- The loop ends: the first difference moves to the right. -/
theorem updateLoop_ends (fuel k : Nat) (orig new : List Str) (fx : List Fixup)
    (hl : orig.length = new.length) (hk : ∀ i < k, orig.getD i [] = new.getD i [])
    (hkl : k ≤ orig.length) (hf : orig.length < k + fuel) : updateLoop fuel orig new fx ≠ none := by
  induction fuel generalizing k orig new fx with
  | zero =>
    exfalso
    omega
  | succ n ih =>
    unfold updateLoop
    cases hd : firstDiff orig new with
    | none => simp
    | some pos =>
      simp only
      obtain ⟨h1, h2, h3, h4⟩ := firstDiff_some hd
      have hkp : k ≤ pos := by
        by_contra hlt
        exact h3 (hk pos (by omega))
      split
      · simp
      · apply ih (pos + 1)
        · simpa using hl
        · intro i hi
          by_cases hip : i = pos
          · subst hip
            rw [getD_set_eq h1, getD_set_eq h2]
          · rw [getD_set_ne (Ne.symm hip), getD_set_ne (Ne.symm hip)]
            exact h4 i (by omega)
        · simp only [List.length_set]; omega
        · simp only [List.length_set]; omega

theorem updateLoop_no_panic (fuel : Nat) (orig new : List Str) (fx : List Fixup) :
    updateLoop fuel orig new fx ≠ some .panic := by
  induction fuel generalizing orig new fx with
  | zero => simp [updateLoop]
  | succ n ih =>
    unfold updateLoop
    cases firstDiff orig new with
    | none => simp
    | some pos =>
      simp only
      split
      · simp
      · exact ih _ _ _

theorem applyFixups_append (a b : List Fixup) (lines : List Line) :
    applyFixups (a ++ b) lines = (applyFixups a lines).bind (applyFixups b) := by
  induction a generalizing lines with
  | nil => rfl
  | cons f fs ih =>
    simp only [List.cons_append, applyFixups]
    cases h : f.apply lines with
    | ok l => exact ih l
    | err => rfl
    | panic => rfl

theorem occurrences_one {needle hay : List Str} {i : Nat} (hn : needle ≠ []) (ho : OccursAt needle hay i)
    (h : occurrences needle hay = 1) : ∀ j, OccursAt needle hay j → j = i := by
  unfold occurrences at h
  obtain ⟨k, hk, hu⟩ := (one_window_iff hn).1 h
  intro j hj
  rw [hu j hj, hu i ho]

theorem editedLine_cases (s : Str) :
    (containsStr s str!"<BOLD>" = true ∧ editedLine s = (true, trim (removeStr str!"<BOLD>" s))) ∨
    (containsStr s str!"<BOLD>" = false ∧ editedLine s = (false, s)) := by
  unfold editedLine boldTag
  cases h : containsStr s str!"<BOLD>" with
  | true => left; simp
  | false => right; simp

/-- The fixup of one difference applies to the lines, at the place of the difference. -/
theorem generated_applies (lines : List Line) (new : Str) (pos k : Nat)
    (hp : pos < lines.length) (hk : k ≤ pos)
    (hne : (texts lines).getD pos [] ≠ new)
    (ho : occurrences (((texts lines).drop (pos - k)).take (k + 1)) (texts lines) = 1) :
    ∃ l', (Fixup.mk (((texts lines).drop (pos - k)).take k) ((texts lines).getD pos [])
        (editedLine new).2 (editedLine new).1).apply lines = .ok (lines.set pos l') ∧
      l'.content = (editedLine new).2 ∧ EditedTo lines[pos] new l' := by
  have hlen : (texts lines).length = lines.length := by simp [texts]
  generalize hf : Fixup.mk (((texts lines).drop (pos - k)).take k) ((texts lines).getD pos [])
    (editedLine new).2 (editedLine new).1 = f
  have hneedle : f.after ++ [f.old] = ((texts lines).drop (pos - k)).take (k + 1) := by
    rw [← hf]
    simp only
    rw [List.take_add_one]
    congr 1
    rw [List.getElem?_drop, show pos - k + k = pos by omega, List.getD, List.getElem?_eq_getElem (by omega)]
    rfl
  have hafter : f.after.length = k := by
    rw [← hf]; simp only [List.length_take, List.length_drop]; omega
  have hocc : OccursAt (f.after ++ [f.old]) (texts lines) (pos - k) := by
    rw [hneedle]
    refine ⟨(texts lines).take (pos - k), (texts lines).drop (pos + 1), ?_, by simp; omega⟩
    have h2 : (texts lines).drop (pos + 1) = ((texts lines).drop (pos - k)).drop (k + 1) := by
      rw [List.drop_drop]; congr 1; omega
    rw [h2, List.append_assoc, List.take_append_drop, List.take_append_drop]
  have honly : OnlyPlace f lines (pos - k) := by
    refine ⟨hocc, ?_⟩
    apply occurrences_one (by simp) hocc
    rw [hneedle]; exact ho
  have hcont : lines[pos].content = f.old := by
    rw [← hf]
    simp [texts, List.getD, hp]
  have hu : Useful f := by
    unfold Useful
    rcases editedLine_cases new with ⟨_, h⟩ | ⟨_, h⟩
    · right; rw [← hf, h]
    · left; rw [← hf, h]; exact hne
  obtain ⟨l', hl'⟩ := applyToLine_total f lines[pos] hcont hu
  obtain ⟨_, _, hc, hb⟩ := applyToLine_content f _ _ hl'
  obtain ⟨l, hl, hlc, happ⟩ := (apply_eq f lines).1 _ honly
  have hpk : pos - k + f.after.length = pos := by rw [hafter]; omega
  rw [hpk] at hl happ
  rw [List.getElem?_eq_getElem hp] at hl
  simp only [Option.some.injEq] at hl
  subst hl
  have hfnew : f.new = (editedLine new).2 := by rw [← hf]
  have hfb : f.setBold = (editedLine new).1 := by rw [← hf]
  refine ⟨l', ?_, by rw [hc, hfnew], ?_⟩
  · rw [happ, hl']; rfl
  · unfold EditedTo
    have hne' : lines[pos].content ≠ new := by
      rw [hcont, ← hf]; exact hne
    rw [if_neg hne']
    rcases editedLine_cases new with ⟨hcb, he⟩ | ⟨hcb, he⟩
    · rw [if_pos hcb, hc, hfnew, he]
      refine ⟨rfl, fun hnn => ?_⟩
      exact (hb (by rw [hfb, he]) (by rw [hfnew, he]; exact hnn)).1
    · rw [if_neg (by simp [hcb]), hc, hfnew, he]

theorem updateLoop_sound (fuel : Nat) (lines : List Line) (new : List Str) (fx fx' : List Fixup)
    (hl : lines.length = new.length) (h : updateLoop fuel (texts lines) new fx = some (.ok fx')) :
    ∃ added lines', fx' = fx ++ added ∧ applyFixups added lines = .ok lines' ∧
      lines'.length = lines.length ∧
      ∀ i (h1 : i < lines.length) (h2 : i < new.length) (h3 : i < lines'.length),
        EditedTo lines[i] new[i] lines'[i] := by
  induction fuel generalizing lines new fx with
  | zero => simp [updateLoop] at h
  | succ n ih =>
    have hlen : (texts lines).length = lines.length := by simp [texts]
    unfold updateLoop at h
    cases hd : firstDiff (texts lines) new with
    | none =>
      rw [hd] at h
      simp only [Option.some.injEq, Res.ok.injEq] at h
      have heq := firstDiff_none (by omega) hd
      refine ⟨[], lines, by simp [h], rfl, rfl, ?_⟩
      intro i h1 h2 h3
      unfold EditedTo
      rw [if_pos]
      subst heq
      simp [texts]
    | some pos =>
      rw [hd] at h
      simp only at h
      obtain ⟨h1, h2, h3, h4⟩ := firstDiff_some hd
      cases hk : (List.range (min pos 10 + 1)).find? fun k =>
          occurrences (((texts lines).drop (pos - k)).take (k + 1)) (texts lines) == 1 with
      | none => rw [hk] at h; simp at h
      | some k =>
        rw [hk] at h
        simp only at h
        have hk1 := List.find?_some hk
        have hk2 := List.mem_range.1 (List.mem_of_find?_eq_some hk)
        simp only [beq_iff_eq] at hk1
        have hp : pos < lines.length := by omega
        obtain ⟨l', ha, hc, he⟩ := generated_applies lines (new.getD pos []) pos k hp (by omega) h3 hk1
        have ht : (texts lines).set pos (editedLine (new.getD pos [])).2 = texts (lines.set pos l') := by
          unfold texts
          rw [List.map_set, hc]
        rw [ht] at h
        obtain ⟨added, lines', e1, e2, e3, e4⟩ := ih (lines.set pos l') _ _ (by simpa using hl) h
        refine ⟨_ :: added, lines', by rw [e1, List.append_assoc]; rfl, ?_, by simpa using e3, ?_⟩
        · simp only [applyFixups, ha]
          exact e2
        · intro i i1 i2 i3
          have e := e4 i (by simpa using i1) (by simpa using i2) i3
          by_cases hip : i = pos
          · subst hip
            simp only [List.getElem_set_self] at e
            unfold EditedTo at e
            rw [if_pos hc] at e
            rw [e]
            have : new.getD i [] = new[i] := by simp [List.getD, i2]
            rw [← this]
            exact he
          · rw [List.getElem_set_ne (Ne.symm hip), List.getElem_set_ne (Ne.symm hip)] at e
            exact e

/-- Success if every changed line is unique at the time of its change. -/
theorem updateLoop_succeeds (fuel k : Nat) (orig new : List Str) (fx : List Fixup)
    (hl : orig.length = new.length) (hk : ∀ i < k, orig.getD i [] = new.getD i [])
    (hkl : k ≤ orig.length) (hf : orig.length < k + fuel)
    (hu : ∀ i j, i < orig.length → j < orig.length → k ≤ j → orig.getD i [] = orig.getD j [] → i = j)
    (hn : ∀ i j, i < j → j < orig.length → orig.getD i [] ≠ new.getD i [] →
      (editedLine (new.getD i [])).2 ≠ orig.getD j []) :
    ∃ r, updateLoop fuel orig new fx = some (.ok r) := by
  induction fuel generalizing k orig new fx with
  | zero => exfalso; omega
  | succ n ih =>
    unfold updateLoop
    cases hd : firstDiff orig new with
    | none => exact ⟨_, rfl⟩
    | some pos =>
      simp only
      obtain ⟨h1, h2, h3, h4⟩ := firstDiff_some hd
      have hkp : k ≤ pos := by
        by_contra hlt
        exact h3 (hk pos (by omega))
      have hone : occurrences ((orig.drop (pos - 0)).take (0 + 1)) orig = 1 := by
        have hneedle : (orig.drop (pos - 0)).take (0 + 1) = [orig.getD pos []] := by
          have hg : [orig.getD pos []] = [orig[pos]] := by simp [List.getD, h1]
          rw [hg, Nat.sub_zero, List.drop_eq_getElem_cons h1]
          rfl
        rw [hneedle]
        unfold occurrences
        refine (one_window_iff (by simp)).2 ⟨pos, ?_, ?_⟩
        · refine ⟨orig.take pos, orig.drop (pos + 1), ?_, by simp; omega⟩
          have : [orig.getD pos []] = [orig[pos]] := by simp [List.getD, h1]
          rw [this, List.append_assoc, List.singleton_append, ← List.drop_eq_getElem_cons h1,
            List.take_append_drop]
        · rintro j ⟨b, a, e, rfl⟩
          have hb : b.length < orig.length := by rw [e]; simp
          apply hu b.length pos hb h1 hkp
          have : orig[b.length]? = some (orig.getD pos []) := by
            conv_lhs => rw [e]
            simp
          rw [List.getD, this]
          rfl
      have hfind : (List.range (min pos 10 + 1)).find? (fun k =>
          occurrences ((orig.drop (pos - k)).take (k + 1)) orig == 1) = some 0 := by
        rw [List.range_succ_eq_map, List.find?_cons_of_pos (by simpa using hone)]
      rw [hfind]
      simp only
      apply ih (pos + 1)
      · simpa using hl
      · intro i hi
        by_cases hip : i = pos
        · subst hip
          rw [getD_set_eq h1, getD_set_eq h2]
        · rw [getD_set_ne (Ne.symm hip), getD_set_ne (Ne.symm hip)]
          exact h4 i (by omega)
      · simp only [List.length_set]; omega
      · simp only [List.length_set]; omega
      · intro i j hi hj hkj he
        simp only [List.length_set] at hi hj
        rw [getD_set_ne (show pos ≠ j by omega)] at he
        by_cases hip : i = pos
        · subst hip
          rw [getD_set_eq h1] at he
          exact absurd he (hn i j (by omega) hj h3)
        · rw [getD_set_ne (Ne.symm hip)] at he
          exact hu i j hi hj (by omega) he
      · intro i j hij hj he
        simp only [List.length_set] at hj
        by_cases hip : i = pos
        · subst hip
          rw [getD_set_eq h1, getD_set_eq h2] at he
          exact absurd rfl he
        · rw [getD_set_ne (Ne.symm hip), getD_set_ne (Ne.symm hip)] at he
          rw [getD_set_ne (Ne.symm hip)]
          by_cases hjp : j = pos
          · exact absurd (h4 i (by omega)) he
          · rw [getD_set_ne (Ne.symm hjp)]
            exact hn i j hij hj he

/-! ### an unedited file -/

theorem trim_spaces (n : Nat) (s : Str) : trim (List.replicate n ' ' ++ s) = trim s := by
  unfold trim
  congr 2
  induction n with
  | zero => rfl
  | succ n ih =>
    rw [List.replicate_succ, List.cons_append, List.dropWhile_cons_of_pos (by decide)]
    exact ih

theorem dropBytes_ascii (a b : Str) (h : ∀ c ∈ a, c.toNat < 128) : dropBytes a.length (a ++ b) = some b := by
  induction a with
  | nil => simp [dropBytes]
  | cons c cs ih =>
    have hc : utf8Len c = 1 := by
      have := h c (by simp)
      unfold utf8Len
      rw [if_pos this]
    simp only [List.length_cons, List.cons_append, dropBytes, hc]
    rw [if_pos (by omega), Nat.add_sub_cancel]
    exact ih fun d hd => h d (by simp [hd])

theorem decAux_length (f n k : Nat) (hk : 1 ≤ k) (h : n < 10 ^ k) : (decAux f n).length ≤ k := by
  induction f generalizing n k with
  | zero => simp [decAux]
  | succ f ih =>
    simp only [decAux]
    split
    · simpa using hk
    · rename_i hn
      obtain ⟨j, rfl⟩ : ∃ j, k = j + 1 := ⟨k - 1, by omega⟩
      have hj : 1 ≤ j := by
        rcases Nat.eq_zero_or_pos j with rfl | h'
        · simp at h; omega
        · exact h'
      have := ih (n / 10) j hj (by rw [pow_succ] at h; omega)
      simp only [List.length_append, List.length_singleton]
      omega

theorem pad4_spec (i : Int) (h1 : -9999 ≤ i) (h2 : i ≤ 9999) (rest : Str) :
    ∃ n, dropBytes 5 (pad4 (decInt i) ++ [' '] ++ rest) = some (List.replicate n ' ' ++ rest) := by
  have hascii : ∀ c ∈ pad4 (decInt i) ++ [' '], c.toNat < 128 := by
    intro c hc
    unfold pad4 at hc
    simp only [List.mem_append, List.mem_replicate, List.mem_singleton] at hc
    rcases hc with (⟨_, rfl⟩ | hc) | rfl
    · decide
    · rcases decInt_chars i c hc with h | rfl
      · unfold isDigit at h
        simp at h
        omega
      · decide
    · decide
  have hl : (decInt i).length ≤ 5 := by
    unfold decInt
    have : (dec i.natAbs).length ≤ 4 := decAux_length _ _ 4 (by omega) (by omega)
    split
    · simp only [List.length_cons]; omega
    · omega
  have hpl : (pad4 (decInt i)).length = 4 ∨ (pad4 (decInt i)).length = 5 := by
    unfold pad4
    simp only [List.length_append, List.length_replicate]
    omega
  rcases hpl with hp | hp
  · refine ⟨0, ?_⟩
    have := dropBytes_ascii (pad4 (decInt i) ++ [' ']) rest hascii
    rw [List.length_append, hp] at this
    exact this
  · refine ⟨1, ?_⟩
    have := dropBytes_ascii (pad4 (decInt i)) ([' '] ++ rest) fun c hc => hascii c (by simp [hc])
    rw [hp, ← List.append_assoc] at this
    exact this

/-- Number of quotation marks in a text. -/
def quoteMarks (s : Str) : Nat := (s.filter fun c => c == '„' || c == '“' || c == '”').length

theorem quoteMarks_split (s : Str) :
    (s.filter fun c => c == '„' || c == '“').length + (s.filter fun c => c == '”').length = quoteMarks s := by
  unfold quoteMarks
  induction s with
  | nil => rfl
  | cons c cs ih =>
    by_cases h1 : c = '”'
    · subst h1
      rw [List.filter_cons_of_neg (by decide), List.filter_cons_of_pos (by decide),
        List.filter_cons_of_pos (by decide)]
      simp only [List.length_cons]; omega
    · by_cases h2 : c = '„' ∨ c = '“'
      · rw [List.filter_cons_of_pos (by simpa using h2), List.filter_cons_of_neg (by simpa using h1),
          List.filter_cons_of_pos (by simp; tauto)]
        simp only [List.length_cons]; omega
      · rw [List.filter_cons_of_neg (by simpa using h2), List.filter_cons_of_neg (by simpa using h1),
          List.filter_cons_of_neg (by simp; tauto)]
        exact ih

theorem readBack_unedited (level : Int) (body : List Line)
    (h : level.natAbs + (body.map fun l => quoteMarks l.content).sum ≤ 9999) :
    readBack (editorLines level body) = .ok (body.map fun l => trim l.content) := by
  induction body generalizing level with
  | nil => rfl
  | cons l ls ih =>
    simp only [editorLines]
    have hq := quoteMarks_split l.content
    simp only [List.map_cons, List.sum_cons] at h
    obtain ⟨n, hn⟩ := pad4_spec (level + (l.content.filter fun c => c == '„' || c == '“').length
      - (l.content.filter fun c => c == '”').length) (by omega) (by omega) (quickDisplay l)
    simp only [readBack, hn]
    rw [ih _ (by omega)]
    simp only [Res.bind_ok, List.map_cons]
    unfold quickDisplay
    rw [trim_spaces, trim_spaces]

/-! ### doubled empty lines -/

theorem removeDoubleAfter_sublist (p : Line) (ls : List Line) : (removeDoubleAfter p ls).Sublist ls := by
  induction ls generalizing p with
  | nil => exact List.Sublist.refl _
  | cons l ls ih =>
    simp only [removeDoubleAfter]
    split
    · exact (ih p).cons l
    · exact (ih l).cons_cons l

theorem removeDouble_sublist (ls : List Line) : (removeDoubleEmptyLines ls).Sublist ls := by
  cases ls with
  | nil => exact List.Sublist.refl _
  | cons l ls => exact (removeDoubleAfter_sublist l ls).cons_cons l

theorem removeDoubleAfter_nonempty (p : Line) (ls : List Line) :
    (removeDoubleAfter p ls).filter (fun l => !l.isEmpty) = ls.filter fun l => !l.isEmpty := by
  induction ls generalizing p with
  | nil => rfl
  | cons l ls ih =>
    simp only [removeDoubleAfter]
    split
    · rename_i h
      simp only [Bool.and_eq_true] at h
      rw [List.filter_cons_of_neg (by simp [h.2]), ih]
    · rw [List.filter_cons, List.filter_cons, ih]

theorem removeDouble_nonempty (ls : List Line) :
    (removeDoubleEmptyLines ls).filter (fun l => !l.isEmpty) = ls.filter fun l => !l.isEmpty := by
  cases ls with
  | nil => rfl
  | cons l ls =>
    simp only [removeDoubleEmptyLines]
    rw [List.filter_cons, List.filter_cons, removeDoubleAfter_nonempty]

theorem removeDoubleAfter_chain (p : Line) (ls : List Line) :
    List.IsChain (fun a b : Line => ¬ (a.isEmpty = true ∧ b.isEmpty = true)) (p :: removeDoubleAfter p ls) := by
  induction ls generalizing p with
  | nil => simp [removeDoubleAfter]
  | cons l ls ih =>
    simp only [removeDoubleAfter]
    split
    · exact ih p
    · rename_i h
      rw [List.isChain_cons_cons]
      exact ⟨by simpa using h, ih l⟩

theorem removeDouble_chain (ls : List Line) :
    List.IsChain (fun a b : Line => ¬ (a.isEmpty = true ∧ b.isEmpty = true)) (removeDoubleEmptyLines ls) := by
  cases ls with
  | nil => simp [removeDoubleEmptyLines]
  | cons l ls => exact removeDoubleAfter_chain l ls

theorem removeDoubleAfter_fixed (p : Line) (ls : List Line)
    (h : List.IsChain (fun a b : Line => ¬ (a.isEmpty = true ∧ b.isEmpty = true)) (p :: ls)) :
    removeDoubleAfter p ls = ls := by
  induction ls generalizing p with
  | nil => rfl
  | cons l ls ih =>
    rw [List.isChain_cons_cons] at h
    simp only [removeDoubleAfter]
    rw [if_neg (by simpa using h.1), ih l h.2]

theorem removeDouble_fixed (ls : List Line)
    (h : List.IsChain (fun a b : Line => ¬ (a.isEmpty = true ∧ b.isEmpty = true)) ls) :
    removeDoubleEmptyLines ls = ls := by
  cases ls with
  | nil => rfl
  | cons l ls => simp only [removeDoubleEmptyLines, removeDoubleAfter_fixed l ls h]

end HunLaw
