import Verif.Lemmas.Walker
import Verif.Lemmas.Reference

/-! Properties C42 and C43. -/

set_option autoImplicit false

namespace HunLaw.Props

open HunLaw Spec

variable {A S : Type}

/-- C42: walking an act tells the visitor exactly the events of the act in document order (every paragraph,
point and subpoint is entered once and left once after its children, with its full reference; quoted blocks
and amendments are not entered), up to the first failure of the visitor. -/
theorem C42_walk (v : Visitor A S) (a : Act A) (s : S) : Walk.act v a s = tell v (actEvents a) s := by
  rw [Walk.act, walk_act]

/-- C42: the walk with an immutable visitor does not change the act. -/
theorem C42_unchanged (v : Visitor A S) (a : Act A) (s : S) : (Walk.actMut v.toMut a s).1 = a := by
  rw [walk_act]

/-- C42: the events of an act are properly nested. -/
theorem C42_nested (a : Act A) : Paired (actEvents a) := paired_act a

/-- C42: an error or panic of the visitor stops the walk at once: if it succeeds for the events before and
fails for the next one, then the walk ends with that result. -/
theorem C42_stops (v : Visitor A S) (a : Act A) (s s1 s2 : S) (before after : List (Event A)) (ev : Event A)
    (r : Res Unit) (h : actEvents a = before ++ ev :: after) (h1 : tell v before s = (s1, .ok ()))
    (h2 : notify v s1 ev = (s2, r)) (hr : r ≠ .ok ()) : Walk.act v a s = (s2, r) := by
  rw [C42_walk, h, tell_append, h1]
  simp only [andThen, tell, h2]

/-- C42: a mutable visitor which changes only the semantic information leaves all the rest of the act as it
was, also if it fails. -/
theorem C42_info_only (v : VisitorMut A S) (hv : InfoOnly v) (a : Act A) (s : S) :
    bareAct (Walk.actMut v a s).1 = bareAct a := act_bare v hv a s

/-- C43: the positions at which elements are entered are exactly their locations in the act: the act, the
article and then the identifiers on the path to the element. -/
theorem C43_located (a : Act A) (k : Kind) (r : Ref) (e : Element A k) :
    Event.enter k r e ∈ actEvents a ↔ Located a k r e :=
  ⟨located_of_mem a k r e, mem_of_located a k r e⟩

/-- C43: the positions are accepted as references and are absolute. -/
theorem C43_valid (a : Act A) (k : Kind) (r : Ref) (e : Element A k)
    (h : Event.enter k r e ∈ actEvents a) :
    r.tryFrom = some r ∧ r.act = some a.identifier ∧ r.article.isSome := by
  have hp : ∀ (r : Ref) (p : Paragraph A), Located a .paragraph r p →
      ∃ (art : ArticleId) (par : Option NumericId),
        r = ⟨some a.identifier, some (.single art), par.map .single, none, none⟩ := fun r p h => by
    obtain ⟨art, -, -, rfl⟩ := mem_of_paragraph a r p h; exact ⟨_, _, rfl⟩
  have hpt : ∀ (k : Kind) (r : Ref) (e : Element A k), Located a k r e → k = .alphabeticPoint ∨ k = .numericPoint →
      ∃ (art : ArticleId) (par : Option NumericId) (pt : RefPartPoint), pt.isRange = false ∧
        r = ⟨some a.identifier, some (.single art), par.map .single, some pt, none⟩ := by
    rintro k r e h (rfl | rfl)
    · obtain ⟨art, -, p, -, -, rfl⟩ := mem_of_alphabeticPoint a r e h
      refine ⟨_, _, _, ?_, rfl⟩; exact isRange_single _
    · obtain ⟨art, -, p, -, -, rfl⟩ := mem_of_numericPoint a r e h
      refine ⟨_, _, _, ?_, rfl⟩; exact isRange_single _
  have hsub : ∀ (k : Kind) (e : Element A k), (∃ x, x ∈ (subpointsOf k e).1) ∨ (∃ x, x ∈ (subpointsOf k e).2) →
      k = .alphabeticPoint ∨ k = .numericPoint := by
    intro k e h
    rcases k with _ | _ | _ | _ | _ <;> simp [subpointsOf] at h ⊢
  have hl := located_of_mem a k r e h
  cases hl with
  | paragraph art p h1 h2 =>
    rcases p.identifier.id with _ | i <;>
      simp [Ref.tryFrom, Ref.checkPartCombination, Ref.checkRanges, isRange_single]
  | alphabeticPoint e h1 h2 =>
    obtain ⟨art, par, rfl⟩ := hp _ _ h1
    rcases par with _ | i <;>
      simp [Ref.tryFrom, Ref.checkPartCombination, Ref.checkRanges, isRange_single]
  | numericPoint e h1 h2 =>
    obtain ⟨art, par, rfl⟩ := hp _ _ h1
    rcases par with _ | i <;>
      simp [Ref.tryFrom, Ref.checkPartCombination, Ref.checkRanges, isRange_single]
  | alphabeticSubpoint x h1 h2 =>
    obtain ⟨art, par, pt, hr, rfl⟩ := hpt _ _ _ h1 (hsub _ _ (.inl ⟨_, h2⟩))
    rcases par with _ | i <;>
      simp [Ref.tryFrom, Ref.checkPartCombination, Ref.checkRanges, isRange_single, hr]
  | numericSubpoint x h1 h2 =>
    obtain ⟨art, par, pt, hr, rfl⟩ := hpt _ _ _ h1 (hsub _ _ (.inr ⟨_, h2⟩))
    rcases par with _ | i <;>
      simp [Ref.tryFrom, Ref.checkPartCombination, Ref.checkRanges, isRange_single, hr]

/-! A concrete act: an article with a paragraph with points and subpoints and one with a quoted block. -/

def walkedSubpoint : NumericSubpoint := ⟨.ofNum 1, .text str!"egy", .default, none⟩
def walkedPoint : AlphabeticPoint := ⟨.latin 1, .children str!"ha" (.numericSubpoint [walkedSubpoint]) none, .default,
  some ⟨⟨2346, 1, 1⟩, .autoRepeal⟩⟩
def walkedParagraph : Paragraph Empty :=
  ⟨⟨some (.ofNum 1)⟩, .children str!"Itt" (.alphabeticPoint [walkedPoint]) (some str!"van."), .default, none⟩
def quotedParagraph : Paragraph Empty :=
  ⟨⟨some (.ofNum 2)⟩, .children str!"Itt:" (.quotedBlock [⟨none, [], none⟩]) none, .default, none⟩
def walkedAct : Act Empty where
  identifier := ⟨⟨2345, by decide⟩, ⟨13, by decide⟩⟩
  subject := []
  preamble := []
  publicationDate := ⟨2345, 6, 7⟩
  containedAbbreviations := []
  children := [.subtitle ⟨none, str!"Cím", none⟩,
    .article ⟨⟨none, .ofNum 3⟩, none, [walkedParagraph, quotedParagraph], some ⟨⟨2346, 2, 1⟩, .other str!"ok"⟩⟩]

/-- A visitor which writes down the positions. -/
def recorder : Visitor Empty (List (Bool × Ref)) where
  onEnter _ p _ s := (s ++ [(true, p)], .ok ())
  onExit _ p _ s := (s ++ [(false, p)], .ok ())

example : (Walk.act recorder walkedAct []).2 = .ok () ∧
    (Walk.act recorder walkedAct []).1.map (fun x => (x.1, x.2.paragraph, x.2.point, x.2.subpoint)) =
    [(true, some (.single (.ofNum 1)), none, none),
     (true, some (.single (.ofNum 1)), some (.alphabetic (.single walkedPoint.identifier)), none),
     (true, some (.single (.ofNum 1)), some (.alphabetic (.single walkedPoint.identifier)), some (.numeric (.single (.ofNum 1)))),
     (false, some (.single (.ofNum 1)), some (.alphabetic (.single walkedPoint.identifier)), some (.numeric (.single (.ofNum 1)))),
     (false, some (.single (.ofNum 1)), some (.alphabetic (.single walkedPoint.identifier)), none),
     (false, some (.single (.ofNum 1)), none, none),
     (true, some (.single (.ofNum 2)), none, none),
     (false, some (.single (.ofNum 2)), none, none)] := by decide +kernel

end HunLaw.Props
