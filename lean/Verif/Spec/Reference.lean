import Verif.Model.Reference
import Verif.Spec.Identifiers

/-! Independent specifications for the reference properties C14-C22. -/

set_option autoImplicit false

namespace HunLaw.Spec

/-- The five levels of a reference, from the top. -/
inductive Level where
  | act | article | paragraph | point | subpoint
  deriving DecidableEq, Repr

/-- Depth of a level. -/
def Level.depth : Level → Nat
  | act => 0 | article => 1 | paragraph => 2 | point => 3 | subpoint => 4

/-- The part of a reference at a level, `empty` if there is none. -/
def part (r : Ref) : Level → AnyReferencePart
  | .act => match r.act with | some x => .act x | none => .empty
  | .article => match r.article with | some x => .article x | none => .empty
  | .paragraph => match r.paragraph with | some x => .paragraph x | none => .empty
  | .point => match r.point with | some x => .point x | none => .empty
  | .subpoint => match r.subpoint with | some x => .subpoint x | none => .empty

/-- The reference has a part at the level. -/
def Present (r : Ref) (l : Level) : Prop := part r l ≠ .empty

/-- The part is a real range: its two ends differ. -/
def IsRangePart : AnyReferencePart → Prop
  | .empty => False
  | .act _ => False
  | .article r => r.start ≠ r.fin
  | .paragraph r => r.start ≠ r.fin
  | .point (.numeric r) => r.start ≠ r.fin
  | .point (.alphabetic r) => r.start ≠ r.fin
  | .subpoint (.numeric r) => r.start ≠ r.fin
  | .subpoint (.alphabetic r) => r.start ≠ r.fin

/-- No gaps between the parts, but the paragraph may be missing. -/
def NoGaps (r : Ref) : Prop :=
  ∀ i j k : Level, i.depth < j.depth → j.depth < k.depth → Present r i → Present r k →
    Present r j ∨ j = .paragraph

/-- Only the last part may be a range. -/
def RangeOnlyLast (r : Ref) : Prop :=
  ∀ i j : Level, i.depth < j.depth → IsRangePart (part r i) → ¬ Present r j

/-- The guarantees documented at `Reference`. -/
def WellFormed (r : Ref) : Prop := NoGaps r ∧ RangeOnlyLast r

/-- No part is a range. -/
def NoRange (r : Ref) : Prop := ∀ l, ¬ IsRangePart (part r l)

/-- `a` is a proper prefix of `b`: they agree above some level, `a` has nothing from there on and `b`
has a part there. -/
def ProperPrefix (a b : Ref) : Prop :=
  ∃ k : Level, (∀ i : Level, i.depth < k.depth → part a i = part b i) ∧
    (∀ i : Level, k.depth ≤ i.depth → part a i = .empty) ∧ Present b k

/-- The calls one can make on a reference builder. -/
inductive BuilderCall where
  | setAct (v : ActId)
  | setArticle (v : RefPartArticle)
  | setParagraph (v : RefPartParagraph)
  | setPoint (v : RefPartPoint)
  | setSubpoint (v : RefPartSubpoint)
  | resetArticle | resetParagraph | resetPoint | resetSubpoint

/-- The level a call works on and the part it puts there (`empty` for a reset). -/
def BuilderCall.effect : BuilderCall → Level × AnyReferencePart
  | setAct v => (.act, .act v)
  | setArticle v => (.article, .article v)
  | setParagraph v => (.paragraph, .paragraph v)
  | setPoint v => (.point, .point v)
  | setSubpoint v => (.subpoint, .subpoint v)
  | resetArticle => (.article, .empty)
  | resetParagraph => (.paragraph, .empty)
  | resetPoint => (.point, .empty)
  | resetSubpoint => (.subpoint, .empty)

/-- The part that should be at a level after a history of calls, given with the latest call first: the
one most recently put there, unless a higher level has been changed since. -/
def latest (l : Level) : List BuilderCall → AnyReferencePart
  | [] => .empty
  | c :: older =>
    if c.effect.1 = l then c.effect.2
    else if c.effect.1.depth < l.depth then .empty
    else latest l older

/-- Subpoint identifiers made of plain letters only. -/
def PlainSubpoint (r : Ref) : Prop :=
  ∀ s : IdRange PrefixedId, r.subpoint = some (.alphabetic s) →
    ((∀ c, s.start.pfx = some c → Plain c) ∧ Plain s.start.chr) ∧
    ((∀ c, s.fin.pfx = some c → Plain c) ∧ Plain s.fin.chr)

/-- Lower end of a part, as a part without range. -/
def lower : AnyReferencePart → AnyReferencePart
  | .empty => .empty
  | .act a => .act a
  | .article r => .article ⟨r.start, r.start⟩
  | .paragraph r => .paragraph ⟨r.start, r.start⟩
  | .point (.numeric r) => .point (.numeric ⟨r.start, r.start⟩)
  | .point (.alphabetic r) => .point (.alphabetic ⟨r.start, r.start⟩)
  | .subpoint (.numeric r) => .subpoint (.numeric ⟨r.start, r.start⟩)
  | .subpoint (.alphabetic r) => .subpoint (.alphabetic ⟨r.start, r.start⟩)

/-- Upper end of a part, as a part without range. -/
def upper : AnyReferencePart → AnyReferencePart
  | .empty => .empty
  | .act a => .act a
  | .article r => .article ⟨r.fin, r.fin⟩
  | .paragraph r => .paragraph ⟨r.fin, r.fin⟩
  | .point (.numeric r) => .point (.numeric ⟨r.fin, r.fin⟩)
  | .point (.alphabetic r) => .point (.alphabetic ⟨r.fin, r.fin⟩)
  | .subpoint (.numeric r) => .subpoint (.numeric ⟨r.fin, r.fin⟩)
  | .subpoint (.alphabetic r) => .subpoint (.alphabetic ⟨r.fin, r.fin⟩)

end HunLaw.Spec
