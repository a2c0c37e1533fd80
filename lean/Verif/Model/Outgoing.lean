import Verif.Model.Grammar
import Verif.Model.Structure

/-!
Model of /repo/src/parser/semantic_info/abbreviation.rs and /repo/src/parser/semantic_info/reference.rs.

An error is `none`; its message is not modelled.
-/

set_option autoImplicit false

namespace HunLaw.Semantic

open HunLaw

/-! ### abbreviation.rs -/

/-- `<` of `String`: that of the bytes, which is the same as that of the code points. -/
def strLt : Str → Str → Bool
  | _, [] => false
  | [], _ :: _ => true
  | a :: s, b :: t => decide (a.toNat < b.toNat) || (a.toNat == b.toNat && strLt s t)

/-- `BTreeMap::insert`; the map is the list of its entries in the order of the keys. -/
def mapInsert (k : Str) (v : ActId) : List (Str × ActId) → List (Str × ActId)
  | [] => [(k, v)]
  | (k', v') :: l =>
    if k = k' then (k, v) :: l
    else if strLt k k' then (k, v) :: (k', v') :: l
    else (k', v') :: mapInsert k v l

/-- `BTreeMap::get` -/
def mapGet (k : Str) (m : List (Str × ActId)) : Option ActId := m.lookup k

/-- `collect` to a `BTreeMap`. -/
def mapCollect (l : List (Str × ActId)) : List (Str × ActId) := l.foldl (fun m e => mapInsert e.1 e.2 m) []

/-- Models `struct AbbreviationCache` (abbreviation.rs:41-45). -/
structure Cache where
  cache : List (Str × ActId)
  hasChanged : Bool
  deriving Repr, DecidableEq

namespace Cache

/-- Models `From<BTreeMap>` (abbreviation.rs:86-93). -/
def ofMap (m : List (Str × ActId)) : Cache := ⟨m, false⟩

/-- Models `add` (abbreviation.rs:52-62). -/
def add (c : Cache) (abbreviation : Str) (act : ActId) : Cache :=
  match mapGet abbreviation c.cache with
  | some v => if v ≠ act then ⟨mapInsert abbreviation act c.cache, true⟩ else c
  | none => ⟨mapInsert abbreviation act c.cache, true⟩

/-- Models `add_multiple` (abbreviation.rs:64-68). -/
def addMultiple (c : Cache) (l : List (Str × ActId)) : Cache := l.foldl (fun c e => c.add e.1 e.2) c

/-- Models `resolve` (abbreviation.rs:70-75). -/
def resolve (c : Cache) (abbreviation : Str) : Option ActId := mapGet abbreviation c.cache

/-- Models `all_abbreviations` (abbreviation.rs:81-83). -/
def allAbbreviations (c : Cache) : List Str := c.cache.map (·.1)

end Cache

/-- Models `TryFrom<&ActId> for ActIdentifier` (reference.rs:477-488). -/
def convertActId (x : Grammar.GActId) : Option ActId := do
  let year ← parseI16 x.year
  let number ← romanFrom x.number
  if h : (-2147483648 : Int) ≤ number ∧ (number : Int) ≤ 2147483647 then
    some ⟨year, ⟨number, h⟩⟩
  else none

/-- The `ActIdWithFromNowOn` of an `ActReference` with an abbreviation (abbreviation.rs:27-32). -/
def newAbbreviation : Grammar.ActReference → Option (Str × Grammar.GActId)
  | .actId x (some a) => some (a, x)
  | _ => none

/-- The act reference of an expression. -/
def expressionActs : Grammar.SimpleExpression → List Grammar.ActReference
  | .compound r => r.actReference.toList
  | _ => []

/-- All act references of the tree, in its order (abbreviation.rs:35). -/
def rootActs : Grammar.Root → List Grammar.ActReference
  | .blockAmendment x => [x.actReference]
  | .blockAmendmentWithSubtitle x => [x.actReference]
  | .blockAmendmentStructural x => [x.actReference]
  | .textAmendment x => [x.actReference]
  | .enforcementDate _ => []
  | .repeal x => [x.actReference]
  | .simple l => l.flatMap expressionActs

/-- `ActIdentifier::try_from(&abbrev.act_id).map(..)` (abbreviation.rs:29-31). -/
def convertAbbreviation (x : Str × Grammar.GActId) : Option (Str × ActId) := do
  let a ← convertActId x.2
  some (x.1, a)

/-- Models `get_new_abbreviations` (abbreviation.rs:25-39). -/
def getNewAbbreviations (r : Grammar.Root) : Option (List (Str × ActId)) :=
  ((rootActs r).filterMap newAbbreviation).mapM convertAbbreviation

/-! ### reference.rs -/

/-- Models `struct OutgoingReferenceBuilder` (reference.rs:174-180) without the cache. -/
structure Builder where
  ref : Ref
  result : List OutgoingRef
  start : Option Nat
  fin : Nat
  deriving Repr, DecidableEq

namespace Builder

/-- Models `new` (reference.rs:183-191). -/
def new : Builder := ⟨Ref.empty, [], none, 0⟩

/-- Models `record_one` (reference.rs:193-203). -/
def recordOne (b : Builder) : Option Builder :=
  match b.start, b.ref.build with
  | some s, some r => some { b with result := b.result ++ [⟨s, b.fin, r⟩], start := none }
  | _, _ => none

/-- Models `set_part` (reference.rs:205-214); `set` is `set_part` of `ReferenceBuilder`. -/
def setPart (b : Builder) (p : Grammar.Pos) (set : Ref → Ref) : Builder :=
  { b with start := some (b.start.getD p.start), fin := p.fin, ref := set b.ref }

/-- Models `feed for Option<T>` (reference.rs:261-272). -/
def feedOpt {X : Type} (f : X → Builder → Option Builder) (x : Option X) (b : Builder) : Option Builder :=
  match x with
  | some x => f x b
  | none => some b

/-- Models the loop of `feed for Vec<T>` (reference.rs:280-285) after the first element. -/
def feedMore {X : Type} (f : X → Builder → Option Builder) : List X → Builder → Option Builder
  | [], b => some b
  | x :: l, b => do
    let b ← b.recordOne
    let b ← f x b
    feedMore f l b

/-- Models `feed for Vec<T>` (reference.rs:274-288). -/
def feedList {X : Type} (f : X → Builder → Option Builder) : List X → Builder → Option Builder
  | [], b => some b
  | x :: l, b => do
    let b ← f x b
    feedMore f l b

/-- Models the loops of `feed for Vec<Reference>` (reference.rs:229-236) and `feed for
Vec<TextAmendmentReference>` (reference.rs:333-340). -/
def feedAll {X : Type} (f : X → Builder → Option Builder) : List X → Builder → Option Builder
  | [], b => some b
  | x :: l, b => do
    let b ← f x b
    feedAll f l b

end Builder

/-- The identifiers of a part (reference.rs:371-381). -/
def partRange {α : Type} (parse : Str → Option α) : Grammar.IdPart → Option (IdRange α)
  | .single s => do
    let a ← parse s
    some (.single a)
  | .range s t => do
    let a ← parse s
    let b ← parse t
    some ⟨a, b⟩

/-- Models `element.book.as_ref().map(|b| b.parse::<u8>()).transpose()` (reference.rs:411). -/
def convertBook : Option Str → Option (Option U8)
  | none => some none
  | some s => do
    let b ← parseFin 256 s
    some (some b)

/-- Models `TryFrom<&ArticleReferencePart> for RefPartArticle` (reference.rs:407-423). -/
def convertArticlePart (x : Grammar.ArticlePart) : Option RefPartArticle := do
  let book ← convertBook x.book
  let r ← partRange NumericId.parse x.id
  some ⟨⟨book, r.start⟩, ⟨book, r.fin⟩⟩

/-- Models `TryFrom<&SingleArticleReference> for ArticleIdentifier` (reference.rs:467-475). -/
def convertSingleArticle (x : Grammar.SingleArticle) : Option ArticleId := do
  let r ← convertArticlePart x.part
  some r.first

/-- Models `convert_act_reference` (reference.rs:490-500). -/
def convertActReference (c : Cache) : Grammar.ActReference → Option ActId
  | .abbreviation s _ => c.resolve s
  | .actId x _ => convertActId x

namespace Builder

/-- Models `impl_rcp!` (reference.rs:367-387). -/
def feedPart {α : Type} (parse : Str → Option α) (set : Ref → IdRange α → Ref) (x : Grammar.Part)
    (b : Builder) : Option Builder := do
  let r ← partRange parse x.id
  some (b.setPart x.position fun y => set y r)

/-- Models `feed` of `ParagraphReferencePart` (reference.rs:389). -/
def feedParagraph : Grammar.Part → Builder → Option Builder := feedPart NumericId.parse Ref.setParagraph
/-- Models `feed` of `NumericPointReferencePart` (reference.rs:390). -/
def feedNumericPoint : Grammar.Part → Builder → Option Builder :=
  feedPart NumericId.parse fun y r => y.setPoint (.numeric r)
/-- Models `feed` of `AlphabeticPointReferencePart` (reference.rs:391-395). -/
def feedAlphabeticPoint : Grammar.Part → Builder → Option Builder :=
  feedPart HunChar.parse fun y r => y.setPoint (.alphabetic r)
/-- Models `feed` of `NumericSubpointReferencePart` (reference.rs:396-400). -/
def feedNumericSubpoint : Grammar.Part → Builder → Option Builder :=
  feedPart NumericId.parse fun y r => y.setSubpoint (.numeric r)
/-- Models `feed` of `AlphabeticSubpointReferencePart` (reference.rs:401-405). -/
def feedAlphabeticSubpoint : Grammar.Part → Builder → Option Builder :=
  feedPart PrefixedId.parse fun y r => y.setSubpoint (.alphabetic r)

/-- Models `feed` of `ArticleReferencePart` (reference.rs:425-434). -/
def feedArticle (x : Grammar.ArticlePart) (b : Builder) : Option Builder := do
  let r ← convertArticlePart x
  some (b.setPart x.position fun y => y.setArticle r)

/-- Models `feed` of `ActReference` (reference.rs:238-259). -/
def feedAct (c : Cache) (x : Grammar.ActReference) (b : Builder) : Option Builder :=
  match x with
  | .abbreviation s p => do
    let a ← c.resolve s
    (b.setPart p fun y => y.setAct a).recordOne
  | .actId i _ => do
    let a ← convertActId i
    (b.setPart i.position fun y => y.setAct a).recordOne

/-- `self.end = element.position.end; self.record_one()` (reference.rs:298-299, 312-313). -/
def finish (b : Builder) (p : Grammar.Pos) : Option Builder := { b with fin := p.fin }.recordOne

/-- Models `feed` of `Reference` (reference.rs:290-302). -/
def feedReference (x : Grammar.Reference) (b : Builder) : Option Builder := do
  let b ← feedOpt (feedList feedArticle) x.article b
  let b ← feedOpt (feedList feedParagraph) x.paragraph b
  let b ← feedOpt (feedList feedNumericPoint) x.numericPoint b
  let b ← feedOpt (feedList feedAlphabeticPoint) x.alphabeticPoint b
  let b ← feedOpt (feedList feedNumericSubpoint) x.numericSubpoint b
  let b ← feedOpt (feedList feedAlphabeticSubpoint) x.alphabeticSubpoint b
  b.finish x.position

/-- Models `feed` of `InsertionReference` (reference.rs:304-316). -/
def feedInsertion (x : Grammar.InsertionReference) (b : Builder) : Option Builder := do
  let b ← feedList (feedList feedArticle) x.article b
  let b ← feedOpt (feedList feedParagraph) x.paragraph b
  let b ← feedOpt (feedList feedNumericPoint) x.numericPoint b
  let b ← feedOpt (feedList feedAlphabeticPoint) x.alphabeticPoint b
  let b ← feedOpt (feedList feedNumericSubpoint) x.numericSubpoint b
  let b ← feedOpt (feedList feedAlphabeticSubpoint) x.alphabeticSubpoint b
  b.finish x.position

/-- Models `feed` of `SingleArticleReference` (reference.rs:449-459). -/
def feedSingleArticle (x : Grammar.SingleArticle) (b : Builder) : Option Builder := do
  let r ← convertArticlePart x.part
  (b.setPart x.position fun y => y.setArticle r).recordOne

/-- Models `feed` of `ArticleRelativePosition` (reference.rs:439-447). -/
def feedArticleRelative (x : Grammar.ArticleRelative) (b : Builder) : Option Builder :=
  match x with
  | .after a => feedSingleArticle a b
  | .before a => feedSingleArticle a b

/-- Models `feed` of `TextAmendmentReference` (reference.rs:327-331, 342-363). -/
def feedText (x : Grammar.TextReference) (b : Builder) : Option Builder :=
  match x with
  | .structural _ (.structural _) => some b
  | .structural _ (.relative a) => feedArticleRelative a b
  | .articleTitle a => feedSingleArticle a b
  | .subtitles _ => some b
  | .reference r _ => feedReference r b
  | .attachment => some b

/-- Models `ref_builder.feed(normal_ref)` for the `EnforcementDateReference::Reference` (reference.rs:107-111). -/
def feedEnforcement (x : Grammar.EnforcementReference) (b : Builder) : Option Builder :=
  match x with
  | .reference r => feedReference r b
  | _ => some b

end Builder

open Builder in
/-- Models `get_outgoing_references` of `BlockAmendment` (reference.rs:63-74). -/
def blockAmendmentRefs (c : Cache) (x : Grammar.BlockAmendment) : Option (List OutgoingRef) := do
  let b ← feedAct c x.actReference Builder.new
  let b ← feedOpt feedReference x.amended b
  let b ← feedOpt feedInsertion x.inserted b
  some b.result

open Builder in
/-- Models `get_outgoing_references` of `BlockAmendmentStructural` (reference.rs:76-86). -/
def structuralAmendmentRefs (c : Cache) (x : Grammar.BlockAmendmentStructural) : Option (List OutgoingRef) := do
  let b ← feedAct c x.actReference Builder.new
  some b.result

open Builder in
/-- Models `get_outgoing_references` of `BlockAmendmentWithSubtitle` (reference.rs:88-99). -/
def subtitleAmendmentRefs (c : Cache) (x : Grammar.BlockAmendmentWithSubtitle) : Option (List OutgoingRef) := do
  let b ← feedAct c x.actReference Builder.new
  let b ← feedOpt feedArticleRelative x.articleRelative b
  let b ← feedOpt feedSingleArticle x.reference.article b
  some b.result

open Builder in
/-- Models `get_outgoing_references` of `EnforcementDate` (reference.rs:101-114). -/
def enforcementRefs (x : Grammar.GEnforcementDate) : Option (List OutgoingRef) := do
  let b ← feedAll feedEnforcement x.references Builder.new
  some b.result

open Builder in
/-- Models `get_outgoing_references` of `CompoundReference` (reference.rs:161-171). -/
def compoundRefs (c : Cache) (x : Grammar.CompoundReference) : Option (List OutgoingRef) := do
  let b ← feedOpt (feedAct c) x.actReference Builder.new
  let b ← feedAll feedReference x.references b
  some b.result

/-- Models the closure of `filter_map` (reference.rs:124-131). -/
def expressionRefs (c : Cache) : Grammar.SimpleExpression → List OutgoingRef
  | .compound r => (compoundRefs c r).getD []
  | _ => []

open Builder in
/-- Models `get_outgoing_references` of `Repeal` (reference.rs:137-147). -/
def repealRefs (c : Cache) (x : Grammar.GRepeal) : Option (List OutgoingRef) := do
  let b ← feedAct c x.actReference Builder.new
  let b ← feedAll feedText x.references b
  some b.result

open Builder in
/-- Models `get_outgoing_references` of `TextAmendment` (reference.rs:149-159). -/
def textAmendmentRefs (c : Cache) (x : Grammar.GTextAmendment) : Option (List OutgoingRef) := do
  let b ← feedAct c x.actReference Builder.new
  let b ← feedAll feedText x.references b
  some b.result

/-- Models `get_outgoing_references` of `Root` (reference.rs:40-61) and `ListOfSimpleExpressions`
(reference.rs:116-135). -/
def outgoingRefs (c : Cache) : Grammar.Root → Option (List OutgoingRef)
  | .blockAmendment x => blockAmendmentRefs c x
  | .blockAmendmentStructural x => structuralAmendmentRefs c x
  | .blockAmendmentWithSubtitle x => subtitleAmendmentRefs c x
  | .enforcementDate x => enforcementRefs x
  | .simple l => some (l.flatMap (expressionRefs c))
  | .repeal x => repealRefs c x
  | .textAmendment x => textAmendmentRefs c x

end HunLaw.Semantic
