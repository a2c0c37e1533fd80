import Verif.Model.BlockAmendment
import Verif.Spec.MkAct
import Verif.Spec.Reference
import Verif.Spec.Semantic

/-!
What the parts of an act satisfy in every act that exists at all: references are well-formed, dates are dates of
the calendar, maps are in the order of their keys, and the letters of subpoints are plain. In Rust the types
guarantee these, because the fields are private and the constructors check them.
-/

set_option autoImplicit false

namespace HunLaw.Spec

open HunLaw

/-- A subpoint identifier of plain letters, like every one that was parsed. -/
def PlainPrefixed (p : PrefixedId) : Prop := (∀ c, p.pfx = some c → Plain c) ∧ Plain p.chr

/-- A reference that exists. -/
def ProperRef (r : Ref) : Prop := WellFormed r ∧ PlainSubpoint r

/-- A date which chrono has. -/
def ProperDate (d : Date) : Prop := RealDate d ∧ -262143 ≤ d.year ∧ d.year ≤ 262142

/-- A map in the order of its keys. -/
def ProperMap (m : List (Str × ActId)) : Prop := Increasing (m.map (·.1))

def ProperPhrase : SpecialPhrase → Prop
  | .blockAmendment position _ => ProperRef position
  | .enforcementDate e => (∀ r ∈ e.positions, ProperRef r) ∧ (∀ d, e.date = .date d → ProperDate d) ∧
    ∀ d, e.inlineRepeal = some d → ProperDate d
  | .repeal l => ∀ r, RepealRef.reference r ∈ l → ProperRef r
  | .textAmendment l => ∀ a ∈ l, (∀ r p, a.reference = .sae r p → ProperRef r) ∧
    ∀ r, a.reference = .articleTitle r → ProperRef r
  | .structuralBlockAmendment _ _ => True

def ProperInfo (i : SemanticInfo) : Prop :=
  (∀ o ∈ i.outgoingReferences, ProperRef o.reference) ∧ ProperMap i.newAbbreviations ∧
    ∀ p, i.specialPhrase = some p → ProperPhrase p

/-- A note about the last change: the reference in it exists, and its date is one of the calendar. -/
def ProperChange (x : LastChange) : Prop := ProperDate x.date ∧ ∀ r, x.cause = .amendment r → ProperRef r

/-- An element whose identifier, children, semantic information and note about the last change are proper. -/
def ProperSae {I C : Type} (okId : I → Prop) (okChildren : C → Prop) (e : SAE I C) : Prop :=
  okId e.identifier ∧ (∀ i c w, e.body = .children i c w → okChildren c) ∧ ProperInfo e.semanticInfo ∧
    ∀ x, e.lastChange = some x → ProperChange x

def ProperAlphabeticSubpoint : AlphabeticSubpoint → Prop := ProperSae PlainPrefixed fun _ => True
def ProperNumericSubpoint : NumericSubpoint → Prop := ProperSae (fun _ => True) fun _ => True

def ProperNumericPoint : NumericPoint → Prop := ProperSae (fun _ => True) fun
  | .alphabeticSubpoint l => ∀ e ∈ l, ProperAlphabeticSubpoint e

def ProperAlphabeticPoint : AlphabeticPoint → Prop := ProperSae (fun _ => True) fun
  | .alphabeticSubpoint l => ∀ e ∈ l, ProperAlphabeticSubpoint e
  | .numericSubpoint l => ∀ e ∈ l, ProperNumericSubpoint e

def ProperParagraph {A : Type} (ok : A → Prop) : Paragraph A → Prop := ProperSae (fun _ => True) fun
  | .alphabeticPoint l => ∀ e ∈ l, ProperAlphabeticPoint e
  | .numericPoint l => ∀ e ∈ l, ProperNumericPoint e
  | .quotedBlock _ => True
  | .amendment a => ok a

def ProperChild {A : Type} (ok : A → Prop) : ActChild A → Prop
  | .structuralElement e => ∀ x, e.lastChange = some x → ProperChange x
  | .subtitle s => ∀ x, s.lastChange = some x → ProperChange x
  | .article a => (∀ p ∈ a.children, ProperParagraph ok p) ∧ ∀ x, a.lastChange = some x → ProperChange x

def ProperAmendment : Amendment → Prop
  | .block _ (.paragraph l) _ => ∀ e ∈ l, ProperParagraph (fun _ => True) e
  | .block _ (.alphabeticPoint l) _ => ∀ e ∈ l, ProperAlphabeticPoint e
  | .block _ (.numericPoint l) _ => ∀ e ∈ l, ProperNumericPoint e
  | .block _ (.alphabeticSubpoint l) _ => ∀ e ∈ l, ProperAlphabeticSubpoint e
  | .block _ (.numericSubpoint l) _ => ∀ e ∈ l, ProperNumericSubpoint e
  | .structural _ l _ => ∀ c ∈ l, ProperChild (fun _ => True) c

/-- All of an act. -/
def ProperAct (a : Act Amendment) : Prop :=
  ProperDate a.publicationDate ∧ ProperMap a.containedAbbreviations ∧ ∀ c ∈ a.children, ProperChild ProperAmendment c

end HunLaw.Spec
