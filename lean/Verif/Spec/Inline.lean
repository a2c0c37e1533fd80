import Verif.Model.Pdf

/-! Independent specification of forms written in place: C124. -/

set_option autoImplicit false

namespace HunLaw.Spec

open HunLaw.Pdf

/-- The operation names something in the resources. -/
def NamesResource : Op → Prop
  | .textFont _ _ => True
  | .graphicsState _ => True
  | .xObject _ => True
  | _ => False

/-- The object of a name, in resources or without any. -/
def objectNamed (objects : Objects) (res : Option Resources) (name : Str) : Option XObject :=
  res.bind fun res => (res.xobjects name).bind objects

/-- `WrittenInPlace objects flat d res ops ops'`: the operations `ops'`, with names in `flat`, are the operations `ops`, with
names in `res`, where every form is replaced by what it draws, between a save and a restore, and pictures are left out. A form
without resources uses those of where it is drawn. At most `d` forms are inside of each other. -/
inductive WrittenInPlace (objects : Objects) (flat : Resources) : Nat → Option Resources → List Op → List Op → Prop
  | nil {d : Nat} {res : Option Resources} : WrittenInPlace objects flat d res [] []
  | same {d : Nat} {res : Option Resources} {op : Op} {ops ops' : List Op} : ¬ NamesResource op →
      WrittenInPlace objects flat d res ops ops' → WrittenInPlace objects flat d res (op :: ops) (op :: ops')
  | font {d : Nat} {res : Option Resources} {name name' : Str} {size : Rat} {ops ops' : List Op} :
      res.bind (·.fonts name) = flat.fonts name' → WrittenInPlace objects flat d res ops ops' →
      WrittenInPlace objects flat d res (.textFont name size :: ops) (.textFont name' size :: ops')
  | graphics {d : Nat} {res : Option Resources} {name name' : Str} {ops ops' : List Op} :
      res.bind (·.graphicsStates name) = flat.graphicsStates name' → WrittenInPlace objects flat d res ops ops' →
      WrittenInPlace objects flat d res (.graphicsState name :: ops) (.graphicsState name' :: ops')
  | picture {d : Nat} {res : Option Resources} {name : Str} {ops ops' : List Op} :
      objectNamed objects res name = some .other → WrittenInPlace objects flat d res ops ops' →
      WrittenInPlace objects flat d res (.xObject name :: ops) ops'
  | form {d : Nat} {res own : Option Resources} {name : Str} {inner inner' ops ops' : List Op} :
      objectNamed objects res name = some (.form own (some inner)) →
      WrittenInPlace objects flat d (own.or res) inner inner' → WrittenInPlace objects flat (d + 1) res ops ops' →
      WrittenInPlace objects flat (d + 1) res (.xObject name :: ops) (.save :: inner' ++ .restore :: ops')

end HunLaw.Spec
