import Verif.Lemmas.Compare
import Verif.Props.BlockAmendment

/-! C117: acts that compare equal behave the same. C118: what `is_empty` says about an element. -/

set_option autoImplicit false

namespace HunLaw.Props

open Spec Semantic

/-! ### C117 -/

/-- Two acts compare equal (`==`). -/
abbrev ActsEqual (a b : Act Amendment) : Prop := a.eq Amendment.eq b = true

/-- C117: two acts compare equal if and only if they are the same but for the lines quoted in them, and these
also have the same text, the same indentation and the same boldness. -/
theorem C117_equal (a b : Act Amendment) :
    ActsEqual a b ↔ looseAct looseAmendment a = looseAct looseAmendment b :=
  Compare.act_eq_iff Compare.amendment_eq_iff a b

/-- C117: comparison is an equivalence. -/
theorem C117_equivalence : Equivalence ActsEqual where
  refl a := (C117_equal a a).2 rfl
  symm h := (C117_equal _ _).2 ((C117_equal _ _).1 h).symm
  trans h h' := (C117_equal _ _).2 (((C117_equal _ _).1 h).trans ((C117_equal _ _).1 h'))

/-- C117: acts that compare equal are printed the same, with any width, with or without colours. -/
theorem C117_printed (a b : Act Amendment) (h : ActsEqual a b) (w : Output.Wrapper) (width : Nat) (colored : Bool) :
    Output.cliAct w width colored a = Output.cliAct w width colored b := by
  have e := (C117_equal a b).1 h
  unfold Output.cliAct
  rw [← Compare.act_bare w (Compare.amendment_bare w), ← Compare.act_bare w (Compare.amendment_bare w) _ b, e]

/-- C117: reading acts that compare equal gives acts that compare equal, with the same result, and so does
reading one article of them. Missing: converting the amendments in them, see `C117_violated`. -/
theorem C117_read_partial (a b : Act Amendment) (h : ActsEqual a b) :
    (ActsEqual (addSemanticInfo a).1 (addSemanticInfo b).1 ∧ (addSemanticInfo a).2 = (addSemanticInfo b).2) ∧
    ∀ id, ActsEqual (addSemanticInfoToArticle a id).1 (addSemanticInfoToArticle b id).1 ∧
      (addSemanticInfoToArticle a id).2 = (addSemanticInfoToArticle b id).2 := by
  have e := (C117_equal a b).1 h
  have key : ∀ (f : Act Amendment → Act Amendment × Res Bool),
      (∀ x, f (looseAct looseAmendment x) = (looseAct looseAmendment (f x).1, (f x).2)) →
      ActsEqual (f a).1 (f b).1 ∧ (f a).2 = (f b).2 := by
    intro f hf
    have e1 := hf a
    rw [e, hf b] at e1
    exact ⟨(C117_equal _ _).2 (Prod.mk.inj e1).1.symm, (Prod.mk.inj e1).2.symm⟩
  exact ⟨key _ (Compare.addSemanticInfo_bare _),
    fun id => key (fun x => addSemanticInfoToArticle x id) fun x => Compare.addSemanticInfoToArticle_bare _ x id⟩

/-- C117, full statement for the conversion of amendments: acts that compare equal are converted to acts that
compare equal. -/
def C117_statement : Prop :=
  ∀ (upper : Char → Bool) (a b : Act Amendment), ActsEqual a b →
    ActsEqual (BlockAmend.act upper a).1 (BlockAmend.act upper b).1

/-- An act which amends paragraph (2) of some article. The line "b) banán," is justified or not. -/
def fruitAct (justified : Bool) : Act Amendment :=
  ⟨⟨⟨2022, by decide⟩, ⟨1, by decide⟩⟩, str!"a gyümölcsökről", [], ⟨2022, 3, 4⟩, [],
    [.article ⟨⟨none, .ofNum 1⟩, none,
      [⟨⟨none⟩, .children str!"A 3. § (2) bekezdése helyébe a következő rendelkezés lép:"
        (.quotedBlock [⟨none, [sampleLine str!"(2) Gyümölcs" 0, sampleLine str!"a) az alma," 10,
          { sampleLine str!"b) a banán," 10 with justified := justified }, sampleLine str!"ha érett." 0], none⟩]) none,
        { SemanticInfo.default with
          specialPhrase := some (.blockAmendment ⟨none, some (.single ⟨none, .ofNum 3⟩),
            some (.single (.ofNum 2)), none, none⟩ false) }, none⟩], none⟩]⟩

/-- It does not hold: whether a line reaches the right margin is not compared, but it decides where the last point
of the amendment ends. -/
theorem C117_violated : ¬ C117_statement := by
  intro h
  exact absurd (h asciiUpper (fruitAct true) (fruitAct false) (by decide +kernel)) (by decide +kernel)

/-- The acts are equal and different, so the theorems say something about them. -/
example : ActsEqual (fruitAct true) (fruitAct false) ∧ fruitAct true ≠ fruitAct false := by decide +kernel

/-- Acts which are not equal because of the subject. -/
example : ¬ ActsEqual (fruitAct true) { fruitAct true with subject := str!"a zöldségekről" } := by decide +kernel

/-! ### C118 -/

/-- `is_empty` of a paragraph. -/
abbrev ParagraphIsEmpty (p : Paragraph Amendment) : Prop :=
  p.isEmpty (ParagraphChildren.isEmpty Amendment.isEmpty) = true

/-- C118, full statement: a paragraph is empty if and only if there is nothing left in it. -/
def C118_statement : Prop :=
  ∀ p : Paragraph Amendment, ParagraphIsEmpty p ↔ ¬ LeftElement (LeftParagraph LeftAmendment) p

/-- C118: points and subpoints are empty if and only if there is nothing left in them, recursively. -/
theorem C118_points :
    (∀ e : AlphabeticPoint, e.isEmpty AlphabeticPointChildren.isEmpty = true ↔ ¬ LeftElement LeftAlphabetic e) ∧
    (∀ e : NumericPoint, e.isEmpty NumericPointChildren.isEmpty = true ↔ ¬ LeftElement LeftNumeric e) ∧
    (∀ e : AlphabeticSubpoint, e.isEmpty NoChildren.isEmpty = true ↔ ¬ LeftElement LeftNo e) ∧
    (∀ e : NumericSubpoint, e.isEmpty NoChildren.isEmpty = true ↔ ¬ LeftElement LeftNo e) :=
  ⟨Compare.element_isEmpty Compare.alphabetic_isEmpty, Compare.element_isEmpty Compare.numeric_isEmpty,
    Compare.element_isEmpty Compare.no_isEmpty, Compare.element_isEmpty Compare.no_isEmpty⟩

/-- C118: a paragraph is empty if and only if there is nothing left in it, unless what is left is the articles of a
structural amendment. A paragraph with a structural amendment is empty if and only if the amendment has no
articles and no headers. Missing: that such articles are also looked into, see `C118_violated`. -/
theorem C118_paragraphs_partial (p : Paragraph Amendment) :
    ((∀ i a c w x, p.body ≠ .children i (.amendment (.structural a c w)) x) →
      (ParagraphIsEmpty p ↔ ¬ LeftElement (LeftParagraph LeftAmendment) p)) ∧
    (∀ i a c w x, p.body = .children i (.amendment (.structural a c w)) x → (ParagraphIsEmpty p ↔ c = [])) := by
  obtain ⟨id, b, s⟩ := p
  constructor
  · intro h
    cases b with
    | text t => simp [ParagraphIsEmpty, SAE.isEmpty, LeftElement]
    | children i c w =>
      cases c with
      | amendment a =>
        cases a with
        | block a c w => exact Compare.block_isEmpty c
        | structural a c w => exact absurd rfl (h _ _ _ _ _)
      | alphabeticPoint l =>
        exact Compare.list_isEmpty (Compare.element_isEmpty Compare.alphabetic_isEmpty) _
      | numericPoint l => exact Compare.list_isEmpty (Compare.element_isEmpty Compare.numeric_isEmpty) _
      | quotedBlock l => simp [ParagraphIsEmpty, SAE.isEmpty, ParagraphChildren.isEmpty, LeftElement, LeftParagraph]
  · intro i a c w x h
    simp only at h
    subst h
    simp [ParagraphIsEmpty, SAE.isEmpty, ParagraphChildren.isEmpty, Amendment.isEmpty]

/-- A paragraph with a structural amendment that has one article, which has one empty paragraph. -/
def emptyStructural : Paragraph Amendment :=
  ⟨⟨none⟩, .children str!"A Tv. 3. §-a helyébe a következő rendelkezés lép:"
    (.amendment (.structural none [.article ⟨⟨none, .ofNum 3⟩, none, [⟨⟨none⟩, .text [], .default, none⟩], none⟩] none)) none,
    .default, none⟩

/-- It does not hold: there is nothing left in the articles of a structural amendment, and the paragraph is not
empty. -/
theorem C118_violated : ¬ C118_statement := by
  intro h
  have h1 := (h emptyStructural).2 (by
    simp [emptyStructural, LeftElement, LeftParagraph, LeftAmendment, LeftChild])
  exact absurd h1 (by decide)

/-- A paragraph with two points, one of them with a subpoint, in which there is no text left. -/
example : ParagraphIsEmpty ⟨⟨none⟩, .children str!"A" (.alphabeticPoint
    [⟨.latin 0, .text [], .default, none⟩,
      ⟨.latin 1, .children str!"B" (.numericSubpoint [⟨.ofNum 1, .text [], .default, none⟩]) none, .default, none⟩]) none,
    .default, none⟩ := by decide

/-- And one in which there is. -/
example : ¬ ParagraphIsEmpty ⟨⟨none⟩, .children str!"A" (.alphabeticPoint
    [⟨.latin 0, .text [], .default, none⟩,
      ⟨.latin 1, .children str!"B" (.numericSubpoint [⟨.ofNum 1, .text str!"x", .default, none⟩]) none, .default, none⟩]) none,
    .default, none⟩ := by decide

end HunLaw.Props
