import Verif.Model.Reference
import Verif.Model.MkAct

/-!
Model of the types of /repo/src/semantic_info.rs, /repo/src/reference/structural.rs and /repo/src/structure.rs.

Simplification: the type of paragraphs
is recursive in Rust (an amendment in a paragraph consists of paragraphs or articles again). Here it is
unrolled: the types are parametrised by the type `A` of what can stand in for
`ParagraphChildren::BlockAmendment` and `ParagraphChildren::StructuralBlockAmendment`. The parser gives
paragraphs without these (`A = Empty`).
-/

set_option autoImplicit false

namespace HunLaw

/-! ### reference/structural.rs -/

/-- Models `enum StructuralReferenceElement` (structural.rs:36-53). -/
inductive StructuralRefElement where
  | part (id : NumericId)
  | title (id : NumericId)
  | chapter (id : NumericId)
  | subtitleId (id : NumericId)
  | subtitleRange (r : IdRange NumericId)
  | subtitleTitle (t : Str)
  | subtitleAfterArticle (id : ArticleId)
  | subtitleBeforeArticle (id : ArticleId)
  | subtitleBeforeArticleInclusive (id : ArticleId)
  | subtitleUnknown
  | article (r : IdRange ArticleId)
  deriving Repr, DecidableEq

/-- Models `enum StructuralReferenceParent` (structural.rs:55-63). -/
inductive StructuralRefParent where
  | part (id : NumericId)
  | title (id : NumericId)
  | chapter (id : NumericId)
  | subtitleId (id : NumericId)
  | subtitleRange (r : IdRange NumericId)
  | subtitleTitle (t : Str)
  deriving Repr, DecidableEq

/-- Models `From<StructuralReferenceParent>` (structural.rs:65-80). -/
def StructuralRefParent.toElement : StructuralRefParent → StructuralRefElement
  | .part x => .part x
  | .title x => .title x
  | .chapter x => .chapter x
  | .subtitleId x => .subtitleId x
  | .subtitleRange x => .subtitleRange x
  | .subtitleTitle x => .subtitleTitle x

/-- Models `struct StructuralReference` (structural.rs:23-34). -/
structure StructuralRef where
  act : Option ActId
  book : Option NumericId
  parent : Option StructuralRefParent
  element : StructuralRefElement
  titleOnly : Bool
  deriving Repr, DecidableEq

/-! ### semantic_info.rs -/

/-- Models `struct OutgoingReference` (semantic_info.rs:44-51): byte positions and the reference. -/
structure OutgoingRef where
  start : Nat
  fin : Nat
  reference : Ref
  deriving Repr, DecidableEq

/-- Models `enum TextAmendmentSAEPart` (semantic_info.rs:98-104). -/
inductive TextAmendmentPart where
  | all
  | introOnly
  | wrapUpOnly
  deriving Repr, DecidableEq

/-- Models `enum TextAmendmentReference` (semantic_info.rs:87-96). -/
inductive TextAmendmentRef where
  | sae (reference : Ref) (part : TextAmendmentPart)
  | structural (r : StructuralRef)
  | articleTitle (r : Ref)
  deriving Repr, DecidableEq

/-- Models `struct TextAmendment` (semantic_info.rs:80-85). -/
structure TextAmendment where
  reference : TextAmendmentRef
  fromText : Str
  toText : Str
  deriving Repr, DecidableEq

/-- Models `enum EnforcementDateType` (semantic_info.rs:119-128). -/
inductive EnforcementDateType where
  | date (d : Date)
  | daysAfterPublication (n : U16)
  | dayInMonthAfterPublication (month : Option U8) (day : U16)
  deriving Repr, DecidableEq

/-- Models `struct EnforcementDate` (semantic_info.rs:106-117). -/
structure EnforcementDate where
  positions : List Ref
  structuralPositions : List StructuralRef
  isDefault : Bool
  date : EnforcementDateType
  inlineRepeal : Option Date
  deriving Repr, DecidableEq

/-- Models `enum RepealReference` (semantic_info.rs:130-134). -/
inductive RepealRef where
  | reference (r : Ref)
  | structural (r : StructuralRef)
  deriving Repr, DecidableEq

/-- Models `enum SpecialPhrase` (semantic_info.rs:65-72) with `struct BlockAmendment` (74-78) and
`struct StructuralBlockAmendment` (136-140). -/
inductive SpecialPhrase where
  | blockAmendment (position : Ref) (pureInsertion : Bool)
  | enforcementDate (d : EnforcementDate)
  | repeal (refs : List RepealRef)
  | textAmendment (as : List TextAmendment)
  | structuralBlockAmendment (position : StructuralRef) (pureInsertion : Bool)
  deriving Repr, DecidableEq

/-- Models `struct SemanticInfo` (semantic_info.rs:26-34). The map is a list of its entries in the order of
the keys. -/
structure SemanticInfo where
  outgoingReferences : List OutgoingRef
  newAbbreviations : List (Str × ActId)
  specialPhrase : Option SpecialPhrase
  deriving Repr, DecidableEq

/-- The derived `Default` (semantic_info.rs:26). -/
def SemanticInfo.default : SemanticInfo := ⟨[], [], none⟩

/-! ### structure.rs -/

/-- Models `enum ChangeCause` (structure.rs:506-511). -/
inductive ChangeCause where
  | amendment (r : Ref)
  | autoRepeal
  | other (s : Str)
  deriving Repr, DecidableEq

/-- Models `struct LastChange` (structure.rs:500-504). -/
structure LastChange where
  date : Date
  cause : ChangeCause
  deriving Repr, DecidableEq

/-- Models `enum SAEBody` (structure.rs:287-297). -/
inductive SAEBody (C : Type) where
  | text (t : Str)
  | children (intro : Str) (children : C) (wrapUp : Option Str)
  deriving Repr, DecidableEq

/-- Models `struct SubArticleElement` (structure.rs:250-267). -/
structure SAE (I C : Type) where
  identifier : I
  body : SAEBody C
  semanticInfo : SemanticInfo
  lastChange : Option LastChange := none
  deriving Repr, DecidableEq

/-- Models `enum AlphabeticSubpointChildren` (structure.rs:376-378) and `enum NumericSubpointChildren`
(structure.rs:390-392), which have no values. -/
inductive NoChildren where
  deriving Repr, DecidableEq

/-- Models `AlphabeticSubpoint` (structure.rs:374-375). -/
abbrev AlphabeticSubpoint := SAE PrefixedId NoChildren
/-- Models `NumericSubpoint` (structure.rs:390). -/
abbrev NumericSubpoint := SAE NumericId NoChildren

/-- Models `enum NumericPointChildren` (structure.rs:358-361). -/
inductive NumericPointChildren where
  | alphabeticSubpoint (l : List AlphabeticSubpoint)
  deriving Repr, DecidableEq

/-- Models `NumericPoint` (structure.rs:357). -/
abbrev NumericPoint := SAE NumericId NumericPointChildren

/-- Models `enum AlphabeticPointChildren` (structure.rs:338-342). -/
inductive AlphabeticPointChildren where
  | alphabeticSubpoint (l : List AlphabeticSubpoint)
  | numericSubpoint (l : List NumericSubpoint)
  deriving Repr, DecidableEq

/-- Models `AlphabeticPoint` (structure.rs:337). -/
abbrev AlphabeticPoint := SAE HunChar AlphabeticPointChildren

/-- Models `struct QuotedBlock` (structure.rs:435-442). -/
structure QuotedBlock where
  intro : Option Str
  lines : List Line
  wrapUp : Option Str
  deriving Repr, DecidableEq

/-- Models `enum ParagraphChildren` (structure.rs:312-319); `amendment` stands for its last two variants. -/
inductive ParagraphChildren (A : Type) where
  | alphabeticPoint (l : List AlphabeticPoint)
  | numericPoint (l : List NumericPoint)
  | quotedBlock (l : List QuotedBlock)
  | amendment (a : A)
  deriving Repr, DecidableEq

/-- Models `Paragraph` (structure.rs:311). -/
abbrev Paragraph (A : Type) := SAE ParagraphId (ParagraphChildren A)

/-- Models `struct Article` (structure.rs:234-242). -/
structure Article (A : Type) where
  identifier : ArticleId
  title : Option Str
  children : List (Paragraph A)
  lastChange : Option LastChange := none
  deriving Repr, DecidableEq

/-- Models `enum StructuralElementType` (structure.rs:184-207). -/
inductive SEType where
  | book
  | part (isSpecial : Bool)
  | title
  | chapter
  deriving Repr, DecidableEq

/-- Models `struct StructuralElement` (structure.rs:131-138). -/
structure StructuralElement where
  identifier : NumericId
  title : Str
  elementType : SEType
  lastChange : Option LastChange := none
  deriving Repr, DecidableEq

/-- Models `struct Subtitle` (structure.rs:175-182). -/
structure Subtitle where
  identifier : Option NumericId
  title : Str
  lastChange : Option LastChange := none
  deriving Repr, DecidableEq

/-- Models `enum ActChild` (structure.rs:97-102). -/
inductive ActChild (A : Type) where
  | structuralElement (e : StructuralElement)
  | subtitle (s : Subtitle)
  | article (a : Article A)
  deriving Repr, DecidableEq

/-- Models `struct Act` (structure.rs:86-95). -/
structure Act (A : Type) where
  identifier : ActId
  subject : Str
  preamble : Str
  publicationDate : Date
  containedAbbreviations : List (Str × ActId)
  children : List (ActChild A)
  deriving Repr, DecidableEq

/-- Models `articles` (structure.rs:105-113). -/
def ActChild.article? {A : Type} : ActChild A → Option (Article A)
  | .article a => some a
  | _ => none

/-- Models `articles` (structure.rs:105-113). -/
def Act.articles {A : Type} (a : Act A) : List (Article A) := a.children.filterMap ActChild.article?

/-- Models `Act::article` (structure.rs:123-125). -/
def Act.article {A : Type} (a : Act A) (id : ArticleId) : Option (Article A) :=
  a.articles.find? fun x => x.identifier == id

/-- Models `parse_special_part_identifier` (structure.rs:224-231). -/
def specialPart (s : Str) : Option NumericId :=
  if s = str!"ÁLTALÁNOS" then some (.ofNum 1)
  else if s = str!"KÜLÖNÖS" then some (.ofNum 2)
  else if s = str!"ZÁRÓ" then some (.ofNum 3)
  else none

/-- Conversion of the table value to `u16`. -/
def hunNumeric (s : Str) : Option NumericId :=
  match fromHungarian s with
  | some n => if h : n < 65536 then some (.ofNum ⟨n, h⟩) else none
  | none => none

/-- Models `StructuralElementType::parse_identifier` (structure.rs:210-222). -/
def SEType.parseIdentifier (t : SEType) (s : Str) : Option NumericId :=
  match t with
  | .part true => specialPart s
  | .book | .part false => hunNumeric s
  | .title | .chapter => NumericId.fromRoman s

/-- `str::to_uppercase` on the texts of `to_hungarian`. -/
def upperNumeral (s : Str) : Str := upperStr s

/-- Models `StructuralElement::header_string` (structure.rs:141-165). -/
def StructuralElement.headerString (e : StructuralElement) : Option Str :=
  match e.elementType with
  | .book => e.identifier.toHungarian.map fun s => upperNumeral s ++ str!" KÖNYV"
  | .part true =>
    if e.identifier = .ofNum 1 then some str!"ÁLTALÁNOS RÉSZ"
    else if e.identifier = .ofNum 2 then some str!"KÜLÖNÖS RÉSZ"
    else if e.identifier = .ofNum 3 then some str!"ZÁRÓ RÉSZ"
    else none
  | .part false => e.identifier.toHungarian.map fun s => upperNumeral s ++ str!" RÉSZ"
  | .title => e.identifier.toRoman.map fun s => s ++ str!". CÍM"
  | .chapter => e.identifier.toRoman.map fun s => s ++ str!". FEJEZET"

end HunLaw
