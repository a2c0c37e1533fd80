import Verif.Spec.Reference
import Verif.Lemmas.Identifiers

/-! Lemmas on references. -/

set_option autoImplicit false

namespace HunLaw

open Spec (Level part Present IsRangePart WellFormed NoGaps RangeOnlyLast)

instance : LawfulOrd RefPartPoint :=
  LawfulOrd.ofInj RefPartPoint.toSum
    (fun a b h => by cases a <;> cases b <;> simp [RefPartPoint.toSum] at h <;> simp [h]) (fun _ _ => rfl)

instance : LawfulOrd RefPartSubpoint :=
  LawfulOrd.ofInj RefPartSubpoint.toSum
    (fun a b h => by cases a <;> cases b <;> simp [RefPartSubpoint.toSum] at h <;> simp [h])
    (fun _ _ => rfl)

instance : LawfulOrd Ref :=
  LawfulOrd.ofInj (fun r => (r.act, r.article, r.paragraph, r.point, r.subpoint))
    (fun a b h => by cases a; cases b; simp at h; simp [h]) (fun _ _ => rfl)

namespace Ref

theorem ext_part {a b : Ref} (h : ∀ l, part a l = part b l) : a = b := by
  obtain ⟨a1, a2, a3, a4, a5⟩ := a
  obtain ⟨b1, b2, b3, b4, b5⟩ := b
  have h1 := h .act
  have h2 := h .article
  have h3 := h .paragraph
  have h4 := h .point
  have h5 := h .subpoint
  simp only [part] at h1 h2 h3 h4 h5
  congr 1
  · cases a1 <;> cases b1 <;> simp_all
  · cases a2 <;> cases b2 <;> simp_all
  · cases a3 <;> cases b3 <;> simp_all
  · cases a4 <;> cases b4 <;> simp_all
  · cases a5 <;> cases b5 <;> simp_all

theorem present_act {r : Ref} : Present r .act ↔ r.act.isSome = true := by
  unfold Present part; cases r.act <;> simp
theorem present_article {r : Ref} : Present r .article ↔ r.article.isSome = true := by
  unfold Present part; cases r.article <;> simp
theorem present_paragraph {r : Ref} : Present r .paragraph ↔ r.paragraph.isSome = true := by
  unfold Present part; cases r.paragraph <;> simp
theorem present_point {r : Ref} : Present r .point ↔ r.point.isSome = true := by
  unfold Present part; cases r.point <;> simp
theorem present_subpoint {r : Ref} : Present r .subpoint ↔ r.subpoint.isSome = true := by
  unfold Present part; cases r.subpoint <;> simp

theorem checkPartCombination_iff (r : Ref) : r.checkPartCombination = true ↔ NoGaps r := by
  have fw : ∀ a b c d e : Bool, (match a, b, c, d, e with
      | _, false, false, false, false => true
      | _, true, _, _, false => true
      | _, true, _, true, true => true
      | false, false, true, false, false => true
      | false, false, _, true, _ => true
      | false, false, false, false, true => true
      | _, _, _, _, _ => false) = true ↔
      ((a = true → (c = true ∨ d = true ∨ e = true) → b = true) ∧
       ((a = true ∨ b = true ∨ c = true) → e = true → d = true)) := by decide
  refine (fw r.act.isSome r.article.isSome r.paragraph.isSome r.point.isSome r.subpoint.isSome).trans ?_
  constructor
  · rintro ⟨h1, h2⟩ i j k hij hjk hi hk
    cases i <;> cases j <;> cases k <;> simp [Level.depth] at hij hjk <;>
      simp only [present_act, present_article, present_paragraph, present_point, present_subpoint] at * <;>
      simp_all
  · intro h
    have h123 := h .act .article .paragraph (by decide) (by decide)
    have h124 := h .act .article .point (by decide) (by decide)
    have h125 := h .act .article .subpoint (by decide) (by decide)
    have h145 := h .act .point .subpoint (by decide) (by decide)
    have h245 := h .article .point .subpoint (by decide) (by decide)
    have h345 := h .paragraph .point .subpoint (by decide) (by decide)
    simp only [present_act, present_article, present_paragraph, present_point, present_subpoint] at *
    refine ⟨?_, ?_⟩
    · rintro ha (hc | hc | hc)
      · simpa using h123 ha hc
      · simpa using h124 ha hc
      · simpa using h125 ha hc
    · rintro (ha | ha | ha) he
      · simpa using h145 ha he
      · simpa using h245 ha he
      · simpa using h345 ha he

theorem isRange_iff {α : Type} [DecidableEq α] {r : IdRange α} : r.isRange = true ↔ r.start ≠ r.fin := by
  simp [IdRange.isRange]

theorem rangePoint_iff {p : RefPartPoint} : IsRangePart (.point p) ↔ p.isRange = true := by
  cases p <;> simp [IsRangePart, RefPartPoint.isRange, isRange_iff]

theorem rangeSubpoint_iff {p : RefPartSubpoint} : IsRangePart (.subpoint p) ↔ p.isRange = true := by
  cases p <;> simp [IsRangePart, RefPartSubpoint.isRange, isRange_iff]

theorem checkRanges_iff (r : Ref) : r.checkRanges = true ↔ RangeOnlyLast r := by
  obtain ⟨a, b, c, d, e⟩ := r
  unfold checkRanges
  simp only [Bool.and_eq_true]
  constructor
  · rintro ⟨⟨h1, h2⟩, h3⟩ i j hij hr
    cases i <;> cases j <;> simp [Level.depth] at hij <;>
      simp only [present_article, present_paragraph, present_point, present_subpoint] <;>
      simp only [part] at hr
    all_goals first
      | (cases a <;> simp [IsRangePart] at hr; done)
      | (cases b with
          | none => simp [IsRangePart] at hr
          | some x =>
            have hx : x.isRange = true := isRange_iff.2 hr
            simp [hx] at h1; simp [h1])
      | (cases c with
          | none => simp [IsRangePart] at hr
          | some x =>
            have hx : x.isRange = true := isRange_iff.2 hr
            simp [hx] at h2; simp [h2])
      | (cases d with
          | none => simp [IsRangePart] at hr
          | some x =>
            have hx : x.isRange = true := rangePoint_iff.1 hr
            simp [hx] at h3; simp [h3])
  · intro h
    refine ⟨⟨?_, ?_⟩, ?_⟩
    · cases b with
      | none => rfl
      | some x =>
        simp only
        split
        · rename_i hx
          have hr : IsRangePart (part ⟨a, some x, c, d, e⟩ .article) := isRange_iff.1 hx
          have g1 := h .article .paragraph (by decide) hr
          have g2 := h .article .point (by decide) hr
          have g3 := h .article .subpoint (by decide) hr
          simp only [present_paragraph, present_point, present_subpoint] at g1 g2 g3
          cases c <;> cases d <;> cases e <;> simp_all
        · rfl
    · cases c with
      | none => rfl
      | some x =>
        simp only
        split
        · rename_i hx
          have hr : IsRangePart (part ⟨a, b, some x, d, e⟩ .paragraph) := isRange_iff.1 hx
          have g2 := h .paragraph .point (by decide) hr
          have g3 := h .paragraph .subpoint (by decide) hr
          simp only [present_point, present_subpoint] at g2 g3
          cases d <;> cases e <;> simp_all
        · rfl
    · cases d with
      | none => rfl
      | some x =>
        simp only
        split
        · rename_i hx
          have hr : IsRangePart (part ⟨a, b, c, some x, e⟩ .point) := rangePoint_iff.2 hx
          have g3 := h .point .subpoint (by decide) hr
          simp only [present_subpoint] at g3
          cases e <;> simp_all
        · rfl

theorem tryFrom_eq_some {r s : Ref} : tryFrom r = some s ↔ r = s ∧ WellFormed r := by
  unfold tryFrom WellFormed
  rw [← checkPartCombination_iff, ← checkRanges_iff]
  cases h1 : r.checkPartCombination <;> cases h2 : r.checkRanges <;> simp

theorem tryFrom_eq_none {r : Ref} : tryFrom r = none ↔ ¬ WellFormed r := by
  unfold tryFrom WellFormed
  rw [← checkPartCombination_iff, ← checkRanges_iff]
  cases h1 : r.checkPartCombination <;> cases h2 : r.checkRanges <;> simp

theorem wellFormed_iff {r : Ref} : WellFormed r ↔ r.checkPartCombination = true ∧ r.checkRanges = true := by
  unfold WellFormed
  rw [← checkPartCombination_iff, ← checkRanges_iff]

end Ref
end HunLaw

namespace HunLaw
namespace Ref

open Spec (Level part Present IsRangePart WellFormed NoGaps RangeOnlyLast)

theorem single_isRange {α : Type} [DecidableEq α] (a : α) : (IdRange.single a).isRange = false := by
  simp [IdRange.single, IdRange.isRange]

theorem firstPoint_isRange (p : RefPartPoint) : p.first.isRange = false := by
  cases p <;> simp [RefPartPoint.first, RefPartPoint.isRange, single_isRange]
theorem lastPoint_isRange (p : RefPartPoint) : p.last.isRange = false := by
  cases p <;> simp [RefPartPoint.last, RefPartPoint.isRange, single_isRange]
theorem firstSubpoint_isRange (p : RefPartSubpoint) : p.first.isRange = false := by
  cases p <;> simp [RefPartSubpoint.first, RefPartSubpoint.isRange, single_isRange]
theorem lastSubpoint_isRange (p : RefPartSubpoint) : p.last.isRange = false := by
  cases p <;> simp [RefPartSubpoint.last, RefPartSubpoint.isRange, single_isRange]

theorem wf_first {r : Ref} (h : WellFormed r) : WellFormed r.firstInRange := by
  rw [wellFormed_iff] at h ⊢
  obtain ⟨a, b, c, d, e⟩ := r
  refine ⟨?_, ?_⟩
  · have := h.1
    cases a <;> cases b <;> cases c <;> cases d <;> cases e <;>
      simp_all [firstInRange, checkPartCombination]
  · cases b <;> cases c <;> cases d <;>
      simp [firstInRange, checkRanges, single_isRange, firstPoint_isRange]

theorem wf_last {r : Ref} (h : WellFormed r) : WellFormed r.lastInRange := by
  rw [wellFormed_iff] at h ⊢
  obtain ⟨a, b, c, d, e⟩ := r
  refine ⟨?_, ?_⟩
  · have := h.1
    cases a <;> cases b <;> cases c <;> cases d <;> cases e <;>
      simp_all [lastInRange, checkPartCombination]
  · cases b <;> cases c <;> cases d <;>
      simp [lastInRange, checkRanges, single_isRange, lastPoint_isRange]

theorem wf_withoutAct {r : Ref} (h : WellFormed r) : WellFormed r.withoutAct := by
  rw [wellFormed_iff] at h ⊢
  obtain ⟨a, b, c, d, e⟩ := r
  refine ⟨?_, ?_⟩
  · have := h.1
    cases a <;> cases b <;> cases c <;> cases d <;> cases e <;>
      simp_all [withoutAct, checkPartCombination]
  · exact h.2

theorem wf_parent {r : Ref} (h : WellFormed r) : WellFormed r.parent := by
  rw [wellFormed_iff] at h ⊢
  obtain ⟨a, b, c, d, e⟩ := r
  obtain ⟨h1, h2⟩ := h
  unfold parent
  cases a <;> cases b <;> cases c <;> cases d <;> cases e <;>
      simp_all [empty, checkPartCombination, checkRanges]

theorem wf_empty : WellFormed empty := by
  rw [wellFormed_iff]; decide

theorem wf_makeRange {a b r : Ref} (h : makeRange a b = some r) : WellFormed r := by
  have key : ∀ x : Ref, build x = some r → WellFormed r := by
    intro x hx
    obtain ⟨rfl, hw⟩ := tryFrom_eq_some.1 hx
    exact hw
  unfold makeRange at h
  repeat' (first | split at h | exact key _ h | (simp at h; done) | skip)
  all_goals first | exact key _ h | (simp at h; done) | skip
  all_goals simp only at h
  all_goals repeat' (first | split at h | exact key _ h | (simp at h; done))

end Ref
end HunLaw

namespace HunLaw
namespace Ref

open Spec (Level part Present IsRangePart WellFormed)

/-- The shape of every made range. -/
def Spans (s e r : Ref) : Prop :=
  (s = e ∧ r = s) ∨
  ∃ k : Level, k ≠ .act ∧
    (∀ i : Level, i.depth < k.depth → part s i = part e i ∧ part r i = part s i) ∧
    Present s k ∧ Present e k ∧
    Spec.lower (part r k) = Spec.lower (part s k) ∧ Spec.upper (part r k) = Spec.upper (part e k) ∧
    (∀ i : Level, k.depth < i.depth → part s i = .empty ∧ part e i = .empty ∧ part r i = .empty)

theorem spans_of_makeRange {s e r : Ref} (h : makeRange s e = some r) : Spans s e r := by
  obtain ⟨a1, a2, a3, a4, a5⟩ := s
  obtain ⟨b1, b2, b3, b4, b5⟩ := e
  have key : ∀ x : Ref, build x = some r → r = x := fun x hx => (tryFrom_eq_some.1 hx).1.symm
  unfold makeRange at h
  simp only at h
  by_cases h1 : a1 = b1
  rotate_left; · simp [h1] at h
  subst h1
  simp only [ne_eq, not_true_eq_false, ↓reduceIte] at h
  by_cases h2 : a2 = b2
  rotate_left
  · refine .inr ⟨.article, by decide, ?_⟩
    rw [if_pos h2] at h
    split at h
    · rename_i hn
      cases a3 <;> cases b3 <;> cases a4 <;> cases b4 <;> cases a5 <;> cases b5 <;> simp at hn
      split at h
      · have := key _ h
        subst this
        refine ⟨?_, by simp [Present, part], by simp [Present, part], ?_, ?_, ?_⟩
        · intro i hi; cases i <;> simp [Level.depth] at hi
          cases a1 <;> simp [part, setArticle, setOpt, setAct, resetArticle, resetParagraph, resetPoint, resetSubpoint, empty]
        · simp [part, setArticle, resetParagraph, resetPoint, resetSubpoint, Spec.lower, IdRange.first]
        · simp [part, setArticle, resetParagraph, resetPoint, resetSubpoint, Spec.upper, IdRange.last]
        · intro i hi; cases i <;> simp [Level.depth] at hi <;>
          simp [part, setArticle, resetParagraph, resetPoint, resetSubpoint]
      · simp at h
    · simp at h
  subst h2
  simp only [not_true_eq_false, ↓reduceIte] at h
  by_cases h3 : a3 = b3
  rotate_left
  · refine .inr ⟨.paragraph, by decide, ?_⟩
    rw [if_pos h3] at h
    split at h
    · rename_i hn
      cases a4 <;> cases b4 <;> cases a5 <;> cases b5 <;> simp at hn
      split at h
      · have := key _ h
        subst this
        refine ⟨?_, by simp [Present, part], by simp [Present, part], ?_, ?_, ?_⟩
        · intro i hi; cases i <;> simp [Level.depth] at hi <;>
          cases a1 <;> cases a2 <;> simp [part, setParagraph, setArticle, setOpt, setAct, resetArticle, resetParagraph, resetPoint, resetSubpoint, empty]
        · simp [part, setParagraph, resetPoint, resetSubpoint, Spec.lower, IdRange.first]
        · simp [part, setParagraph, resetPoint, resetSubpoint, Spec.upper, IdRange.last]
        · intro i hi; cases i <;> simp [Level.depth] at hi <;>
          simp [part, setParagraph, resetPoint, resetSubpoint]
      · simp at h
    · simp at h
  subst h3
  simp only [not_true_eq_false, ↓reduceIte] at h
  by_cases h4 : a4 = b4
  rotate_left
  · refine .inr ⟨.point, by decide, ?_⟩
    rw [if_pos h4] at h
    split at h
    · rename_i hn
      cases a5 <;> cases b5 <;> simp at hn
      split at h
      iterate 2
        · have := key _ h
          subst this
          refine ⟨?_, by simp [Present, part], by simp [Present, part], ?_, ?_, ?_⟩
          · intro i hi; cases i <;> simp [Level.depth] at hi <;>
            cases a1 <;> cases a2 <;> cases a3 <;> simp [part, setPoint, setParagraph, setArticle, setOpt, setAct, resetArticle, resetParagraph, resetPoint, resetSubpoint, empty]
          · simp [part, setPoint, resetSubpoint, Spec.lower, IdRange.first]
          · simp [part, setPoint, resetSubpoint, Spec.upper, IdRange.last]
          · intro i hi; cases i <;> simp [Level.depth] at hi <;>
            simp [part, setPoint, resetSubpoint]
      · simp at h
    · simp at h
  subst h4
  simp only [not_true_eq_false, ↓reduceIte] at h
  by_cases h5 : a5 = b5
  rotate_left
  · refine .inr ⟨.subpoint, by decide, ?_⟩
    rw [if_pos h5] at h
    split at h
    iterate 2
      · have := key _ h
        subst this
        refine ⟨?_, by simp [Present, part], by simp [Present, part], ?_, ?_, ?_⟩
        · intro i hi; cases i <;> simp [Level.depth] at hi <;>
          cases a1 <;> cases a2 <;> cases a3 <;> cases a4 <;> simp [part, setSubpoint, setPoint, setParagraph, setArticle, setOpt, setAct, resetArticle, resetParagraph, resetPoint, resetSubpoint, empty]
        · simp [part, setSubpoint, Spec.lower, IdRange.first]
        · simp [part, setSubpoint, Spec.upper, IdRange.last]
        · intro i hi; cases i <;> simp [Level.depth] at hi
    · simp at h
  subst h5
  rw [if_neg (by simp)] at h
  refine .inl ⟨rfl, ?_⟩
  rw [key _ h]
  cases a1 <;> cases a2 <;> cases a3 <;> cases a4 <;> cases a5 <;>
    simp [setOpt, setSubpoint, setPoint, setParagraph, setArticle, setAct, resetArticle, resetParagraph, resetPoint, resetSubpoint, empty]

theorem part_first (r : Ref) (l : Level) : part r.firstInRange l = Spec.lower (part r l) := by
  obtain ⟨a, b, c, d, e⟩ := r
  cases l <;> simp only [part, firstInRange]
  · cases a <;> rfl
  · cases b <;> rfl
  · cases c <;> rfl
  · rcases d with _ | (_ | _) <;> rfl
  · rcases e with _ | (_ | _) <;> rfl

theorem part_last (r : Ref) (l : Level) : part r.lastInRange l = Spec.upper (part r l) := by
  obtain ⟨a, b, c, d, e⟩ := r
  cases l <;> simp only [part, lastInRange]
  · cases a <;> rfl
  · cases b <;> rfl
  · cases c <;> rfl
  · rcases d with _ | (_ | _) <;> rfl
  · rcases e with _ | (_ | _) <;> rfl

theorem first_of_spans {s e r : Ref} (h : Spans s e r) :
    r.firstInRange = s.firstInRange ∧ r.lastInRange = e.lastInRange := by
  rcases h with ⟨rfl, rfl⟩ | ⟨k, _, h1, _, _, h2, h3, h4⟩
  · exact ⟨rfl, rfl⟩
  constructor
  · apply ext_part
    intro l
    rw [part_first, part_first]
    rcases Nat.lt_trichotomy l.depth k.depth with hl | hl | hl
    · rw [(h1 l hl).2]
    · have : l = k := by revert hl; cases l <;> cases k <;> decide
      rw [this, h2]
    · rw [(h4 l hl).1, (h4 l hl).2.2]
  · apply ext_part
    intro l
    rw [part_last, part_last]
    rcases Nat.lt_trichotomy l.depth k.depth with hl | hl | hl
    · rw [(h1 l hl).2, (h1 l hl).1]
    · have : l = k := by revert hl; cases l <;> cases k <;> decide
      rw [this, h3]
    · rw [(h4 l hl).2.1, (h4 l hl).2.2]

end Ref
end HunLaw
