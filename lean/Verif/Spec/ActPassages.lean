import Verif.Spec.Semantic
import Verif.Spec.Passage
import Verif.Spec.Announced

/-!
An act of which all texts are running text in the usual form, and what is meant by it as a whole. Nothing here uses the
parser.
-/

set_option autoImplicit false

namespace HunLaw.Spec

open HunLaw

/-- The meaning of an abbreviation, after definitions in this order: the last one, or else what it meant at the beginning. -/
def meaningOf (atFirst defined : List (Str × ActId)) (k : Str) : Option ActId := (lastDefined k defined).or (atFirst.lookup k)

/-- A running text that can be understood, where the abbreviations `atFirst` are known, and those defined since then. -/
structure Understood (atFirst defined : List (Str × ActId)) (p : Passage) : Prop where
  usual : p.Usual
  /-- Abbreviations are nowhere else than where they name an act, or where they are introduced. -/
  clear : clear ((atFirst ++ defined ++ p.new).map Prod.fst) p.items p.after
  /-- What is used is known by then. -/
  nameable : nameable ((atFirst ++ defined).map Prod.fst) p.items
  means : ∀ x ∈ p.items, ∀ g s a, x.2 = .group g → g.act = some (.short s a) → meaningOf atFirst (defined ++ p.new) s = some a
  notEmpty : ∃ c ∈ p.text, c ≠ ' '
  introduces : ∀ a, Introduces p.text a → a ∈ p.new.map Prod.fst
  plain : ∀ q, ¬ Announces q p.text

/-- The texts of an act, each in the sentence around it, are these running texts, one after the other. -/
def Consists (atFirst : List (Str × ActId)) : List (Str × ActId) → List Reading → List Passage → Prop
  | _, [], [] => True
  | defined, r :: rs, p :: ps =>
    wholeSentence r.before r.text r.after = p.text ∧ Understood atFirst defined p ∧ Consists atFirst (defined ++ p.new) rs ps
  | _, _, _ => False

/-- The references of a running text, with their places. -/
noncomputable def Passage.references (p : Passage) : List OutgoingRef :=
  List.zipWith (fun x r => ⟨x.1, x.2, r⟩) (markedRanges 0 p.pieces) p.meant

/-- This is recorded about a text: its own references, the abbreviations it introduces, and no special phrase. -/
def Records (r : Reading) (i : SemanticInfo) (p : Passage) : Prop :=
  i.outgoingReferences = ownReferences (byteLen r.before) (byteLen r.after) (byteLen p.text) p.references ∧
    (∀ k, i.newAbbreviations.lookup k = lastDefined k p.new) ∧ i.specialPhrase = none

end HunLaw.Spec
