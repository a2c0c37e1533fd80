import Verif.Model.Pdf

/-! Independent specification of marked content that replaces nothing: C80. -/

set_option autoImplicit false

namespace HunLaw.Spec

open HunLaw.Pdf

/-- Neither marked content nor an object. -/
def Unmarked : Op → Prop
  | .beginMarkedContent _ _ => False
  | .endMarkedContent => False
  | .xObject _ => False
  | _ => True

/-- The marked content replaces what is drawn in it. -/
def Replaces (tag : Str) (property : Option Str) : Prop := tag = str!"/Span" ∧ property ≠ none

/-- The second operations are the first ones without the beginnings and the ends of the marked content which replaces
nothing. -/
inductive MarksDropped : List Op → List Op → Prop
  | nil : MarksDropped [] []
  | same {op : Op} {ops ops' : List Op} : Unmarked op → MarksDropped ops ops' → MarksDropped (op :: ops) (op :: ops')
  | mark {tag : Str} {property : Option Str} {inner inner' ops ops' : List Op} : ¬ Replaces tag property →
      MarksDropped inner inner' → MarksDropped ops ops' →
      MarksDropped (.beginMarkedContent tag property :: (inner ++ .endMarkedContent :: ops)) (inner' ++ ops')
  | span {tag : Str} {property : Option Str} {inner inner' ops ops' : List Op} : Replaces tag property →
      MarksDropped inner inner' → MarksDropped ops ops' →
      MarksDropped (.beginMarkedContent tag property :: (inner ++ .endMarkedContent :: ops))
        (.beginMarkedContent tag property :: (inner' ++ .endMarkedContent :: ops'))

end HunLaw.Spec
