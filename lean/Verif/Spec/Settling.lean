import Verif.Spec.Semantic

/-! Specification for C111: when reading an act again and again comes to rest. -/

set_option autoImplicit false

namespace HunLaw.Spec

open HunLaw

variable {A : Type}

/-- The act after reading it so many times. -/
def afterPasses (act : Act A) : Nat → Act A
  | 0 => act
  | n + 1 => (Semantic.addSemanticInfo (afterPasses act n)).1

/-- The answer of the pass with the given number; the first one has number 0. -/
def answer (act : Act A) (n : Nat) : Res Bool := (Semantic.addSemanticInfo (afterPasses act n)).2

/-- The sentences of the act which are read. -/
def sentences (act : Act A) : List Str := (actReadings act).map fun x => wholeSentence x.1.before x.1.text x.1.after

/-- The abbreviation is one the act has or one that one of its sentences introduces. -/
def Possible (act : Act A) (a : Str) : Prop :=
  a ∈ act.containedAbbreviations.map (·.1) ∨ ∃ s ∈ sentences act, Introduces s a

/-- The act has this meaning for the abbreviation, or it can be read out of one of the sentences while only
possible abbreviations are known. -/
def MayMean (act : Act A) (a : Str) (v : ActId) : Prop :=
  (a, v) ∈ act.containedAbbreviations ∨
    ∃ s ∈ sentences act, ∃ known root new, Increasing known ∧ (∀ b ∈ known, Possible act b) ∧
      Grammar.parse s known = some root ∧ Semantic.getNewAbbreviations root = some new ∧ (a, v) ∈ new

/-- No abbreviation can have two meanings. -/
def Unambiguous (act : Act A) : Prop := ∀ a v w, MayMean act a v → MayMean act a w → v = w

end HunLaw.Spec
