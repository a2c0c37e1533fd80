import Verif.Model.BlockAmendment

/-!
Model of what /repo/src/structure.rs offers to the users of an act besides its fields: the comparison of acts
and of their parts (the derived `PartialEq`, together with the one of lines in indentedline.rs), and
`is_empty` of the elements.

Simplification: `last_change` is not modelled (see Model/Structure.lean).
-/

set_option autoImplicit false

namespace HunLaw

/-! ### comparison -/

/-- `PartialEq for Vec<X>`: the same number of values, equal one by one. -/
def vecEq {X : Type} (f : X → X → Bool) : List X → List X → Bool
  | [], [] => true
  | a :: as, b :: bs => f a b && vecEq f as bs
  | _, _ => false

/-- The derived `PartialEq for QuotedBlock` (structure.rs:435-442). -/
def QuotedBlock.eq (a b : QuotedBlock) : Bool :=
  a.intro == b.intro && vecEq Line.beq a.lines b.lines && a.wrapUp == b.wrapUp

/-- The derived `PartialEq for SAEBody` (structure.rs:287-297). -/
def SAEBody.eq {C : Type} (f : C → C → Bool) : SAEBody C → SAEBody C → Bool
  | .text a, .text b => a == b
  | .children i c w, .children i' c' w' => i == i' && f c c' && w == w'
  | _, _ => false

/-- The derived `PartialEq for SubArticleElement` (structure.rs:250-267). -/
def SAE.eq {I C : Type} [DecidableEq I] (f : C → C → Bool) (a b : SAE I C) : Bool :=
  a.identifier == b.identifier && a.body.eq f b.body && a.semanticInfo == b.semanticInfo &&
    a.lastChange == b.lastChange

/-- The derived `PartialEq for ParagraphChildren` (structure.rs:312-319); `amendment` is that of its last two
variants. There are no lines in points, so equality of these is that of their fields. -/
def ParagraphChildren.eq {A : Type} (amendment : A → A → Bool) : ParagraphChildren A → ParagraphChildren A → Bool
  | .alphabeticPoint a, .alphabeticPoint b => a == b
  | .numericPoint a, .numericPoint b => a == b
  | .quotedBlock a, .quotedBlock b => vecEq QuotedBlock.eq a b
  | .amendment a, .amendment b => amendment a b
  | _, _ => false

/-- The derived `PartialEq for Article` (structure.rs:234-242). -/
def Article.eq {A : Type} (amendment : A → A → Bool) (a b : Article A) : Bool :=
  a.identifier == b.identifier && a.title == b.title &&
    vecEq (SAE.eq (ParagraphChildren.eq amendment)) a.children b.children && a.lastChange == b.lastChange

/-- The derived `PartialEq for ActChild` (structure.rs:97-102). -/
def ActChild.eq {A : Type} (amendment : A → A → Bool) : ActChild A → ActChild A → Bool
  | .structuralElement a, .structuralElement b => a == b
  | .subtitle a, .subtitle b => a == b
  | .article a, .article b => a.eq amendment b
  | _, _ => false

/-- The derived `PartialEq for Act` (structure.rs:86-95). -/
def Act.eq {A : Type} (amendment : A → A → Bool) (a b : Act A) : Bool :=
  a.identifier == b.identifier && a.subject == b.subject && a.preamble == b.preamble &&
    a.publicationDate == b.publicationDate && a.containedAbbreviations == b.containedAbbreviations &&
    vecEq (ActChild.eq amendment) a.children b.children

/-- There is no amendment in an amendment. -/
def noAmendmentEq (a _ : Empty) : Bool := nomatch a

/-- The derived `PartialEq for BlockAmendmentChildren` (structure.rs:459-466). -/
def BlockAmendmentChildren.eq : BlockAmendmentChildren → BlockAmendmentChildren → Bool
  | .paragraph a, .paragraph b => vecEq (SAE.eq (ParagraphChildren.eq noAmendmentEq)) a b
  | .alphabeticPoint a, .alphabeticPoint b => a == b
  | .numericPoint a, .numericPoint b => a == b
  | .alphabeticSubpoint a, .alphabeticSubpoint b => a == b
  | .numericSubpoint a, .numericSubpoint b => a == b
  | _, _ => false

/-- The derived `PartialEq for BlockAmendment` (structure.rs:444-451) and `for StructuralBlockAmendment`
(structure.rs:484-491). -/
def Amendment.eq : Amendment → Amendment → Bool
  | .block i c w, .block i' c' w' => i == i' && c.eq c' && w == w'
  | .structural i c w, .structural i' c' w' => i == i' && vecEq (ActChild.eq noAmendmentEq) c c' && w == w'
  | _, _ => false

/-! ### `is_empty` -/

/-- Models `SubArticleElement::is_empty` (structure.rs:274-285); `children` is `is_empty` of `CT`. -/
def SAE.isEmpty {I C : Type} (children : C → Bool) (e : SAE I C) : Bool :=
  match e.body with
  | .text t => t.isEmpty
  | .children _ c _ => children c

/-- Models `is_empty for AlphabeticSubpointChildren` (structure.rs:381-384) and `for NumericSubpointChildren`
(structure.rs:395-398). -/
def NoChildren.isEmpty (c : NoChildren) : Bool := nomatch c

/-- Models `is_empty for AlphabeticPointChildren` (structure.rs:345-350). -/
def AlphabeticPointChildren.isEmpty : AlphabeticPointChildren → Bool
  | .alphabeticSubpoint l => l.all (SAE.isEmpty NoChildren.isEmpty)
  | .numericSubpoint l => l.all (SAE.isEmpty NoChildren.isEmpty)

/-- Models `is_empty for NumericPointChildren` (structure.rs:364-368). -/
def NumericPointChildren.isEmpty : NumericPointChildren → Bool
  | .alphabeticSubpoint l => l.all (SAE.isEmpty NoChildren.isEmpty)

/-- Models `is_empty for ParagraphChildren` (structure.rs:322-330); `amendment` is that of its last two
variants. -/
def ParagraphChildren.isEmpty {A : Type} (amendment : A → Bool) : ParagraphChildren A → Bool
  | .alphabeticPoint l => l.all (SAE.isEmpty AlphabeticPointChildren.isEmpty)
  | .numericPoint l => l.all (SAE.isEmpty NumericPointChildren.isEmpty)
  | .quotedBlock l => l.isEmpty
  | .amendment a => amendment a

/-- There is no amendment in an amendment. -/
def noAmendmentIsEmpty (a : Empty) : Bool := nomatch a

/-- Models `is_empty for BlockAmendmentChildren` (structure.rs:469-477). -/
def BlockAmendmentChildren.isEmpty : BlockAmendmentChildren → Bool
  | .paragraph l => l.all (SAE.isEmpty (ParagraphChildren.isEmpty noAmendmentIsEmpty))
  | .alphabeticPoint l => l.all (SAE.isEmpty AlphabeticPointChildren.isEmpty)
  | .numericPoint l => l.all (SAE.isEmpty NumericPointChildren.isEmpty)
  | .alphabeticSubpoint l => l.all (SAE.isEmpty NoChildren.isEmpty)
  | .numericSubpoint l => l.all (SAE.isEmpty NoChildren.isEmpty)

/-- Models `BlockAmendment::is_empty` (structure.rs:453-457) and `StructuralBlockAmendment::is_empty`
(structure.rs:493-498). -/
def Amendment.isEmpty : Amendment → Bool
  | .block _ c _ => c.isEmpty
  | .structural _ c _ => c.isEmpty

end HunLaw
