import Verif.Spec.Pdf

/-! The width of the space in a font: C113. -/

set_option autoImplicit false

namespace HunLaw.Spec

open HunLaw.Pdf

/-- The width of the space (the code 32) of a font, for the font size 1. Widths are in thousandths; a quarter is meant where
the font has 0 or 1000, which are the values of fonts that do not say how wide it is. -/
def SpaceOf (o : FontObj) (w : Rat) : Prop :=
  ∃ widths, o.widths = some widths ∧
    ((widths 32 = 0 ∨ widths 32 = 1000) ∧ w = 1 / 4 ∨ widths 32 ≠ 0 ∧ widths 32 ≠ 1000 ∧ w = widths 32 / 1000)

/-- Restoring leaves no font in effect, or one whose space is as wide as that of the font before. -/
def KeepsSpace (res : Resources) (ops : List Op) : Prop :=
  fontAfter res (ops ++ [.restore]) = none ∨
    ∃ f g, fontAfter res ops = some f ∧ fontAfter res (ops ++ [.restore]) = some g ∧ ∀ w, SpaceOf f w → SpaceOf g w

end HunLaw.Spec
