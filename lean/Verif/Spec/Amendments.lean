import Verif.Model.SemanticInfo
import Verif.Spec.Reference

/-! Independent specifications for the properties of the references made from a phrase. -/

set_option autoImplicit false

namespace HunLaw.Spec

open HunLaw HunLaw.Grammar HunLaw.Semantic

/-- The reference with a part replaced: what was above it stays, what was below it is gone. -/
def put (r : Ref) : AnyReferencePart → Ref
  | .empty => r
  | .act a => ⟨some a, none, none, none, none⟩
  | .article a => ⟨r.act, some a, none, none, none⟩
  | .paragraph p => ⟨r.act, r.article, some p, none, none⟩
  | .point p => ⟨r.act, r.article, r.paragraph, some p, none⟩
  | .subpoint p => ⟨r.act, r.article, r.paragraph, r.point, some p⟩

/-- What is meant by a phrase such as "5. § (1), (2) és (5) bekezdés a) és b) pont", given as the lists of parts of
each level from the top: all but the last part of a list are complete references, and the lower levels belong to
the last one. -/
def alternatives (base : Ref) : List (List AnyReferencePart) → List Ref
  | [] => [base]
  | l :: lower =>
    match l.getLast? with
    | none => alternatives base lower
    | some last => l.dropLast.map (put base) ++ alternatives (put base last) lower

/-- What is meant by phrases that follow each other: one continues from the last reference of that before. -/
def chain (base : Ref) : List (List (List AnyReferencePart)) → List Ref
  | [] => []
  | m :: rest => alternatives base m ++ chain ((alternatives base m).getLastD base) rest

/-- The identifiers of a list of parts, if all of them can be read. -/
def readParts {X : Type} (read : X → Option AnyReferencePart) (l : List X) : Option (List AnyReferencePart) :=
  l.mapM read

/-- An article or a range of them. -/
def readArticle (x : ArticlePart) : Option AnyReferencePart := (convertArticlePart x).map .article
/-- A paragraph or a range of them. -/
def readParagraph (x : Part) : Option AnyReferencePart := (partRange NumericId.parse x.id).map .paragraph
/-- A numeric point or a range of them. -/
def readNumericPoint (x : Part) : Option AnyReferencePart :=
  (partRange NumericId.parse x.id).map fun r => .point (.numeric r)
/-- An alphabetic point or a range of them. -/
def readAlphabeticPoint (x : Part) : Option AnyReferencePart :=
  (partRange HunChar.parse x.id).map fun r => .point (.alphabetic r)
/-- A numeric subpoint or a range of them. -/
def readNumericSubpoint (x : Part) : Option AnyReferencePart :=
  (partRange NumericId.parse x.id).map fun r => .subpoint (.numeric r)
/-- An alphabetic subpoint or a range of them. -/
def readAlphabeticSubpoint (x : Part) : Option AnyReferencePart :=
  (partRange PrefixedId.parse x.id).map fun r => .subpoint (.alphabetic r)

/-- The parts of a reference by level, from the top. -/
def levelsOf (article : List ArticlePart) (paragraph numericPoint alphabeticPoint numericSubpoint
    alphabeticSubpoint : Option (List Part)) : Option (List (List AnyReferencePart)) := do
  let a ← readParts readArticle article
  let b ← readParts readParagraph (paragraph.getD [])
  let c ← readParts readNumericPoint (numericPoint.getD [])
  let d ← readParts readAlphabeticPoint (alphabeticPoint.getD [])
  let e ← readParts readNumericSubpoint (numericSubpoint.getD [])
  let f ← readParts readAlphabeticSubpoint (alphabeticSubpoint.getD [])
  some [a, b, c, d, e, f]

/-- The levels of a reference of the grammar. -/
def referenceLevels (r : Reference) : Option (List (List AnyReferencePart)) :=
  levelsOf (r.article.getD []) r.paragraph r.numericPoint r.alphabeticPoint r.numericSubpoint r.alphabeticSubpoint

/-- The levels of a reference to something inserted. -/
def insertionLevels (r : InsertionReference) : Option (List (List AnyReferencePart)) :=
  levelsOf r.article.flatten r.paragraph r.numericPoint r.alphabeticPoint r.numericSubpoint r.alphabeticSubpoint

/-- A reference to one article. -/
def singleLevels (a : SingleArticle) : Option (List (List AnyReferencePart)) :=
  (readArticle a.part).map fun x => [[x]]

/-- A reference to an act, by its number or its abbreviation. -/
def actLevels (c : Cache) (a : ActReference) : Option (List (List AnyReferencePart)) :=
  (convertActReference c a).map fun x => [[.act x]]

/-- The article of "after the title before § 5". -/
def relativeLevels : ArticleRelative → Option (List (List AnyReferencePart))
  | .after a => singleLevels a
  | .before a => singleLevels a

/-- The references of a phrase in the order of the text. -/
inductive Mention where
  | act (a : ActReference)
  | reference (r : Reference)
  | insertion (r : InsertionReference)
  | single (a : SingleArticle)

/-- Its levels. -/
def Mention.levels (c : Cache) : Mention → Option (List (List AnyReferencePart))
  | .act a => actLevels c a
  | .reference r => referenceLevels r
  | .insertion r => insertionLevels r
  | .single a => singleLevels a

/-- Something is mentioned, and there are no empty groups. All references the parser makes are such. -/
def Mention.Proper : Mention → Prop
  | .act _ => True
  | .reference r => r.article.getD [] ≠ [] ∨ r.paragraph.getD [] ≠ [] ∨ r.numericPoint.getD [] ≠ [] ∨
      r.alphabeticPoint.getD [] ≠ [] ∨ r.numericSubpoint.getD [] ≠ [] ∨ r.alphabeticSubpoint.getD [] ≠ []
  | .insertion r => (∀ g ∈ r.article, g ≠ []) ∧ (r.article ≠ [] ∨ r.paragraph.getD [] ≠ [] ∨
      r.numericPoint.getD [] ≠ [] ∨ r.alphabeticPoint.getD [] ≠ [] ∨ r.numericSubpoint.getD [] ≠ [] ∨
      r.alphabeticSubpoint.getD [] ≠ [])
  | .single _ => True

/-- The article next to which something is. -/
def relativeMention : ArticleRelative → Mention
  | .after a => .single a
  | .before a => .single a

/-- The references in a place to be amended. -/
def textMentions : TextReference → List Mention
  | .reference r _ => [.reference r]
  | .articleTitle a => [.single a]
  | .structural _ (.relative a) => [relativeMention a]
  | .structural _ (.structural _) => []
  | .subtitles _ => []
  | .attachment => []

/-- The references in a place to be enforced. -/
def enforcementMentions : EnforcementReference → List Mention
  | .reference r => [.reference r]
  | _ => []

/-- The references of a phrase that can be read as one thing. -/
def rootMentions : Root → List Mention
  | .blockAmendment x =>
    [.act x.actReference] ++ x.amended.toList.map .reference ++ x.inserted.toList.map .insertion
  | .blockAmendmentStructural x => [.act x.actReference]
  | .blockAmendmentWithSubtitle x =>
    [.act x.actReference] ++ x.articleRelative.toList.map relativeMention ++
      x.reference.article.toList.map .single
  | .enforcementDate x => x.references.flatMap enforcementMentions
  | .repeal x => .act x.actReference :: x.references.flatMap textMentions
  | .textAmendment x => .act x.actReference :: x.references.flatMap textMentions
  | .simple _ => []

/-- The references of a group such as "az Sztv. 5. §-a és 6. §-a". -/
def compoundMentions (x : CompoundReference) : List Mention :=
  x.actReference.toList.map .act ++ x.references.map .reference

/-- What is meant by the mentions, if all identifiers can be read, the abbreviations are known, and every reference
has a proper form. -/
def meaning (c : Cache) (l : List Mention) : Option (List Ref) := do
  let m ← l.mapM (Mention.levels c)
  if ∀ r ∈ chain Ref.empty m, Ref.tryFrom r = some r then some (chain Ref.empty m) else none

/-! ### Amendments -/

/-- The place a block amendment puts its content to, if that is an article or below. -/
def amendedPlace : SpecialPhrase → Option Ref
  | .blockAmendment p _ => some p
  | .structuralBlockAmendment ⟨act, _, _, .article a, _⟩ _ => some ⟨act, some a, none, none, none⟩
  | _ => none

/-- What is meant by parts, if it has a proper form. -/
def properAlternatives (base : Ref) (m : List (List AnyReferencePart)) : Option (List Ref) :=
  if ∀ r ∈ alternatives base m, Ref.tryFrom r = some r then some (alternatives base m) else none

/-- Which text of a provision is meant: "nyitó szövegrész", "záró szövegrész", or all of it. -/
def amendedText : Option PartToken → TextAmendmentPart
  | none => .all
  | some .intro => .introOnly
  | some .wrapUp => .wrapUpOnly

/-- The places of a text amendment in the order of the text. References continue from the one before. -/
def textPlaces (act : ActId) (base : Ref) : List TextReference → Option (List TextAmendmentRef)
  | [] => some []
  | .structural parent child :: l => do
    let r ← convertTextStructural parent child
    let rest ← textPlaces act base l
    some (.structural { r with act := some act } :: rest)
  | .subtitles x :: l => do
    let r ← x.mapM (subtitleRef (some act))
    let rest ← textPlaces act base l
    some (r.map .structural ++ rest)
  | .attachment :: l => textPlaces act base l
  | .articleTitle a :: l => do
    let m ← singleLevels a
    let r ← properAlternatives base m
    let rest ← textPlaces act (r.getLastD base) l
    some (r.map .articleTitle ++ rest)
  | .reference x t :: l => do
    let m ← referenceLevels x
    let r ← properAlternatives base m
    let rest ← textPlaces act (r.getLastD base) l
    some (r.map (fun y => .sae y (amendedText t)) ++ rest)

/-- A repealed place: a whole element. -/
def wholePlace : TextAmendmentRef → Option RepealRef
  | .sae r .all => some (.reference r)
  | .structural r => some (.structural r)
  | _ => none

/-- The structural elements of a place to be enforced. -/
def enforcedElements : EnforcementReference → Option (List StructuralRef)
  | .structural r => (convertStructural r).map fun x => [x]
  | .subtitles l => l.mapM fun x => (convertSubtitlePart x).map fun p => ⟨none, none, none, p.toElement, false⟩
  | _ => some []

end HunLaw.Spec
