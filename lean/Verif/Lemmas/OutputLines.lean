import Verif.Model.Output
import Verif.Spec.Output

/-! Lines that are written with tags and read back. -/

set_option autoImplicit false

namespace HunLaw.Output

open HunLaw Spec

theorem startsWith_prefix (s p : Str) : startsWith s p = true ↔ p <+: s := by
  induction p generalizing s with
  | nil => cases s <;> simp [startsWith]
  | cons x p ih =>
    cases s with
    | nil => simp [startsWith]
    | cons c s =>
      simp only [startsWith, Bool.and_eq_true, decide_eq_true_eq, ih, List.cons_prefix_cons]
      exact and_congr_left fun _ => eq_comm

theorem containsStr_infix (s p : Str) : containsStr s p = true ↔ p <:+: s := by
  induction s with
  | nil =>
    rw [containsStr, startsWith_prefix]
    simp
  | cons c s ih =>
    rw [containsStr, Bool.or_eq_true, startsWith_prefix, ih, List.infix_cons_iff]

theorem blankFrom_none {p s : Str} (h : ¬ p <:+: s) : blankFrom p 0 s = s := by
  induction s with
  | nil => rfl
  | cons c s ih =>
    rw [List.infix_cons_iff, not_or, ← startsWith_prefix] at h
    rw [blankFrom, if_neg (by simpa using h.1), ih h.2]

theorem blankFrom_skip (p a s : Str) : blankFrom p a.length (a ++ s) = List.replicate a.length ' ' ++ blankFrom p 0 s := by
  induction a with
  | nil => rfl
  | cons c a ih =>
    rw [List.length_cons, List.cons_append, blankFrom, ih, List.replicate_succ, List.cons_append]

theorem blankFrom_tag {c : Char} (p s : Str) :
    blankFrom (c :: p) 0 (c :: p ++ s) = List.replicate (p.length + 1) ' ' ++ blankFrom (c :: p) 0 s := by
  rw [List.cons_append, blankFrom, if_pos ((startsWith_prefix (c :: (p ++ s)) (c :: p)).2 ⟨s, rfl⟩), List.length_cons, Nat.add_sub_cancel,
    blankFrom_skip, List.replicate_succ, List.cons_append]

theorem blankFrom_spaces {p : Str} (hp : p.head? ≠ some ' ') (hne : p ≠ []) (n : Nat) (s : Str) :
    blankFrom p 0 (List.replicate n ' ' ++ s) = List.replicate n ' ' ++ blankFrom p 0 s := by
  induction n with
  | zero => rfl
  | succ n ih =>
    rw [List.replicate_succ, List.cons_append, blankFrom, if_neg, ih, List.cons_append]
    cases p with
    | nil => exact absurd rfl hne
    | cons x p =>
      simp only [startsWith, Bool.and_eq_true, decide_eq_true_eq, not_and]
      intro h
      exact absurd (by simp [h.symm]) hp

/-- A tag is not found across the end of one that has another first and last character. -/
theorem infix_append_of {p a s : Str} (ha : ∀ x ∈ a, x ≠ '<') (hp : p.head? = some '<') :
    p <:+: a ++ s ↔ p <:+: s := by
  induction a with
  | nil => rfl
  | cons c a ih =>
    rw [List.cons_append, List.infix_cons_iff, ih fun x hx => ha x (by simp [hx])]
    constructor
    · rintro (h | h)
      · cases p with
        | nil => simp at hp
        | cons x p =>
          simp only [List.head?_cons, Option.some.injEq] at hp
          rw [List.cons_prefix_cons] at h
          exact absurd (h.1.symm.trans hp) (ha c (by simp))
      · exact h
    · exact .inr

/-! ### Reading -/

theorem testParts_spaces (b : Bool) (n k : Nat) (c : Char) (hc : c ≠ ' ') (cs : Str) :
    testParts b (k + 1) (List.replicate n ' ' ++ c :: cs) =
      ⟨5 + ((k + 1 + n : Nat) : Rat) * 5, c, b⟩ :: testParts b 0 cs := by
  induction n generalizing k with
  | zero => simp [testParts, hc]
  | succ n ih =>
    rw [List.replicate_succ, List.cons_append, testParts, if_pos rfl, if_neg (by omega), List.nil_append, ih]
    simp only [List.cons.injEq, LinePart.mk.injEq, and_true, true_and]
    congr 3
    omega

theorem testParts_bold (b : Bool) (n : Nat) (s : Str) : ∀ p ∈ testParts b n s, p.bold = b := by
  induction s generalizing n with
  | nil => simp [testParts]
  | cons c s ih =>
    intro p hp
    unfold testParts at hp
    split at hp
    · rcases List.mem_append.1 hp with hp | hp
      · split at hp
        · rw [List.mem_singleton.1 hp]
        · simp at hp
      · exact ih _ p hp
    · rcases List.mem_cons.1 hp with rfl | hp
      · rfl
      · exact ih _ p hp

theorem testParts_content (b : Bool) (s : Str) : (¬ str!"  " <:+: s → (testParts b 0 s).map (·.content) = s) ∧
    (¬ str!"  " <:+: ' ' :: s → (testParts b 1 s).map (·.content) = s) := by
  induction s with
  | nil => exact ⟨fun _ => rfl, fun _ => rfl⟩
  | cons c s ih =>
    constructor
    · intro h
      unfold testParts
      split
      · rename_i hc
        subst hc
        simp [ih.2 h]
      · rw [List.infix_cons_iff, not_or] at h
        simp [ih.1 h.2]
    · intro h
      have hc : c ≠ ' ' := by
        rintro rfl
        exact h ⟨[], s, rfl⟩
      rw [List.infix_cons_iff, not_or] at h
      have h2 := h.2
      rw [List.infix_cons_iff, not_or] at h2
      unfold testParts
      rw [if_neg hc]
      simp [ih.1 h2.2]

theorem allBold {ps : List LinePart} {b : Bool} (hne : ps ≠ []) (h : ∀ p ∈ ps, p.bold = b) (j : Bool) :
    (Line.fromParts ps j).isBold = b := by
  unfold Line.fromParts Line.isBold
  cases b with
  | false =>
    have : ps.filter (·.bold) = [] := List.filter_eq_nil_iff.2 fun p hp => by simp [h p hp]
    simp [this]
  | true =>
    have : ps.filter (·.bold) = ps := List.filter_eq_self.2 fun p hp => h p hp
    rw [this]
    have : 0 < ps.length := List.length_pos_iff.2 hne
    simp only [decide_eq_true_eq]
    omega

/-- The width of the tags of a line. -/
def tagWidth (l : Line) : Nat := (if l.isBold then 6 else 0) + (if l.justified then 0 else 4)

theorem readBack {l : Line} {c : Char} {cs : Str} (hl : l.content = c :: cs) (hc : c ≠ ' ')
    (hd : ¬ str!"  " <:+: l.content) (hb : ¬ boldTag <:+: l.content) (hn : ¬ njTag <:+: l.content) :
    fromTestStr (displayLine true l) = Line.fromParts
      (⟨5 + ((1 + max (asUsize (l.indent * (1 / 5))) (tagWidth l) : Nat) : Rat) * 5, c, l.isBold⟩ ::
        testParts l.isBold 0 cs) l.justified := by
  have hsp : ∀ n, ∀ x ∈ List.replicate n ' ', x ≠ '<' := fun n x hx h => by
    have := List.eq_of_mem_replicate hx
    rw [this] at h
    exact absurd h (by decide)
  have k1 : ∀ n, ¬ boldTag <:+: List.replicate n ' ' ++ l.content := fun n => by
    rw [infix_append_of (hsp n) rfl]
    exact hb
  have k2 : ∀ n, ¬ njTag <:+: List.replicate n ' ' ++ l.content := fun n => by
    rw [infix_append_of (hsp n) rfl]
    exact hn
  have k3 : ∀ n, ¬ boldTag <:+: njTag ++ (List.replicate n ' ' ++ l.content) := fun n => by
    rw [show njTag ++ (List.replicate n ' ' ++ l.content) =
      '<' :: (str!"NJ>" ++ (List.replicate n ' ' ++ l.content)) from rfl, List.infix_cons_iff,
      infix_append_of (by decide) rfl, not_or]
    exact ⟨by simp [boldTag], k1 n⟩
  have k4 : ∀ n, ¬ njTag <:+: boldTag ++ (List.replicate n ' ' ++ l.content) := fun n => by
    rw [show boldTag ++ (List.replicate n ' ' ++ l.content) =
      '<' :: (str!"BOLD>" ++ (List.replicate n ' ' ++ l.content)) from rfl, List.infix_cons_iff,
      infix_append_of (by decide) rfl, not_or]
    exact ⟨by simp [njTag], k2 n⟩
  have s1 : ∀ n s, blankFrom boldTag 0 (List.replicate n ' ' ++ s) = List.replicate n ' ' ++ blankFrom boldTag 0 s :=
    blankFrom_spaces (by decide) (by decide)
  have s2 : ∀ n s, blankFrom njTag 0 (List.replicate n ' ' ++ s) = List.replicate n ' ' ++ blankFrom njTag 0 s :=
    blankFrom_spaces (by decide) (by decide)
  have t1 : ∀ s, blankFrom boldTag 0 (boldTag ++ s) = List.replicate 6 ' ' ++ blankFrom boldTag 0 s :=
    blankFrom_tag str!"BOLD>"
  have t2 : ∀ s, blankFrom njTag 0 (njTag ++ s) = List.replicate 4 ' ' ++ blankFrom njTag 0 s :=
    blankFrom_tag str!"NJ>"
  have fin : ∀ (b : Bool) n m, m = n → testParts b 1 (List.replicate n ' ' ++ l.content) =
      ⟨5 + ((1 + m : Nat) : Rat) * 5, c, b⟩ :: testParts b 0 cs := fun b n m h => by
    rw [hl, testParts_spaces b n 0 c hc cs, h]
  have c1 : ∀ s, ¬ boldTag <:+: s → containsStr s boldTag = false := fun s h => by
    rw [← Bool.not_eq_true, containsStr_infix]
    exact h
  have c2 : ∀ s, ¬ njTag <:+: s → containsStr s njTag = false := fun s h => by
    rw [← Bool.not_eq_true, containsStr_infix]
    exact h
  have i1 : ∀ s, containsStr (boldTag ++ s) boldTag = true := fun s => (containsStr_infix _ _).2 ⟨[], s, rfl⟩
  have i2 : ∀ s, containsStr (njTag ++ s) njTag = true := fun s => (containsStr_infix _ _).2 ⟨[], s, rfl⟩
  have i3 : ∀ s, containsStr (boldTag ++ (njTag ++ s)) njTag = true := fun s =>
    (containsStr_infix _ _).2 ⟨boldTag, s, by simp⟩
  unfold fromTestStr displayLine tagWidth
  rw [show str!"<BOLD>" = boldTag from rfl, show str!"<NJ>" = njTag from rfl]
  cases hbold : l.isBold <;> cases hjust : l.justified <;>
    simp only [Bool.true_and, Bool.and_true, Bool.not_true, Bool.not_false, if_true, if_false, Bool.false_eq_true,
      List.nil_append, List.append_assoc]
  · rw [c1 _ (k3 _), i2, blankFrom_none (k3 _), t2, blankFrom_none (k2 _), ← List.append_assoc,
      List.replicate_append_replicate]
    exact congrArg₂ Line.fromParts (fin _ _ _ (by omega)) rfl
  · rw [c1 _ (k1 _), c2 _ (k2 _), blankFrom_none (k1 _), blankFrom_none (k2 _)]
    exact congrArg₂ Line.fromParts (fin _ _ _ (by omega)) rfl
  · rw [i1, i3, t1, blankFrom_none (k3 _), s2, t2, blankFrom_none (k2 _), ← List.append_assoc, ← List.append_assoc,
      List.replicate_append_replicate, List.replicate_append_replicate]
    exact congrArg₂ Line.fromParts (fin _ _ _ (by omega)) rfl
  · rw [i1, c2 _ (k4 _), t1, blankFrom_none (k1 _), ← List.append_assoc, List.replicate_append_replicate,
      blankFrom_none (k2 _)]
    exact congrArg₂ Line.fromParts (fin _ _ _ (by omega)) rfl

end HunLaw.Output
