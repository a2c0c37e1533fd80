import Verif.Model.Identifiers

/-! Model of /repo/src/reference/{parts,unchecked,builder,mod,string,to_element}.rs. -/

set_option autoImplicit false

namespace HunLaw

/-- Models `RefPartArticle` (parts.rs:29). -/
abbrev RefPartArticle := IdRange ArticleId
/-- Models `RefPartParagraph` (parts.rs:30). -/
abbrev RefPartParagraph := IdRange NumericId

/-- Models `enum RefPartPoint` (parts.rs:32-39). -/
inductive RefPartPoint where
  | numeric (r : IdRange NumericId)
  | alphabetic (r : IdRange HunChar)
  deriving Repr, DecidableEq

/-- Models `enum RefPartSubpoint` (parts.rs:86-93). -/
inductive RefPartSubpoint where
  | numeric (r : IdRange NumericId)
  | alphabetic (r : IdRange PrefixedId)
  deriving Repr, DecidableEq

namespace RefPartPoint

def toSum : RefPartPoint → IdRange NumericId ⊕ IdRange HunChar
  | numeric r => .inl r
  | alphabetic r => .inr r

/-- The derived `Ord` (parts.rs:33): the order of the variants, then of the contents. -/
instance : RustOrd RefPartPoint where
  cmp a b := cmp a.toSum b.toSum

/-- Models `impl CompactString` (parts.rs:41-57). -/
instance : CompactString RefPartPoint where
  fmtCompact
    | numeric r => fmtCompact r
    | alphabetic r => fmtCompact r
  fromCompact s := match (fromCompact s : Option (IdRange NumericId)) with
    | some r => some (numeric r)
    | none => match (fromCompact s : Option (IdRange HunChar)) with
      | some r => some (alphabetic r)
      | none => none

/-- Models `is_range` (parts.rs:60-65). -/
def isRange : RefPartPoint → Bool
  | numeric r => r.isRange
  | alphabetic r => r.isRange

/-- The match arms of `first_in_range` (mod.rs:101-104). -/
def first : RefPartPoint → RefPartPoint
  | numeric r => numeric (.single r.first)
  | alphabetic r => alphabetic (.single r.first)

/-- The match arms of `last_in_range` (mod.rs:123-126). -/
def last : RefPartPoint → RefPartPoint
  | numeric r => numeric (.single r.last)
  | alphabetic r => alphabetic (.single r.last)

end RefPartPoint

namespace RefPartSubpoint

def toSum : RefPartSubpoint → IdRange NumericId ⊕ IdRange PrefixedId
  | numeric r => .inl r
  | alphabetic r => .inr r

/-- The derived `Ord` (parts.rs:87). -/
instance : RustOrd RefPartSubpoint where
  cmp a b := cmp a.toSum b.toSum

/-- Models `impl CompactString` (parts.rs:68-84). -/
instance : CompactString RefPartSubpoint where
  fmtCompact
    | numeric r => fmtCompact r
    | alphabetic r => fmtCompact r
  fromCompact s := match (fromCompact s : Option (IdRange NumericId)) with
    | some r => some (numeric r)
    | none => match (fromCompact s : Option (IdRange PrefixedId)) with
      | some r => some (alphabetic r)
      | none => none

/-- Models `is_range` (parts.rs:96-101). -/
def isRange : RefPartSubpoint → Bool
  | numeric r => r.isRange
  | alphabetic r => r.isRange

/-- The match arms of `first_in_range` (mod.rs:105-110). -/
def first : RefPartSubpoint → RefPartSubpoint
  | numeric r => numeric (.single r.first)
  | alphabetic r => alphabetic (.single r.first)

/-- The match arms of `last_in_range` (mod.rs:127-132). -/
def last : RefPartSubpoint → RefPartSubpoint
  | numeric r => numeric (.single r.last)
  | alphabetic r => alphabetic (.single r.last)

end RefPartSubpoint

/-- Models `enum AnyReferencePart` (parts.rs:124-132). -/
inductive AnyReferencePart where
  | empty
  | act (a : ActId)
  | article (a : RefPartArticle)
  | paragraph (p : RefPartParagraph)
  | point (p : RefPartPoint)
  | subpoint (s : RefPartSubpoint)
  deriving Repr, DecidableEq

/-- Models `struct Reference` (mod.rs:49-58) and `struct UncheckedReference` (unchecked.rs:27-39),
which have the same fields. The difference, that a `Reference` has passed the checks, is
property C14. -/
structure Ref where
  act : Option ActId
  article : Option RefPartArticle
  paragraph : Option RefPartParagraph
  point : Option RefPartPoint
  subpoint : Option RefPartSubpoint
  deriving Repr, DecidableEq

namespace Ref

/-- The derived `Default` (mod.rs:49). -/
def empty : Ref := ⟨none, none, none, none, none⟩

/-- The derived `Ord` (mod.rs:49): lexicographic in the order of the fields. -/
instance : RustOrd Ref where
  cmp a b := cmp (a.act, a.article, a.paragraph, a.point, a.subpoint)
    (b.act, b.article, b.paragraph, b.point, b.subpoint)

/-! ### unchecked.rs -/

/-- Models `check_part_combination` (unchecked.rs:42-65). -/
def checkPartCombination (r : Ref) : Bool :=
  match r.act.isSome, r.article.isSome, r.paragraph.isSome, r.point.isSome, r.subpoint.isSome with
  | _, false, false, false, false => true
  | _, true, _, _, false => true
  | _, true, _, true, true => true
  | false, false, true, false, false => true
  | false, false, _, true, _ => true
  | false, false, false, false, true => true
  | _, _, _, _, _ => false

/-- Models `check_ranges` (unchecked.rs:67-93). -/
def checkRanges (r : Ref) : Bool :=
  (match r.article with
    | some a => if a.isRange then r.paragraph.isNone && r.point.isNone && r.subpoint.isNone else true
    | none => true) &&
  (match r.paragraph with
    | some p => if p.isRange then r.point.isNone && r.subpoint.isNone else true
    | none => true) &&
  (match r.point with
    | some p => if p.isRange then r.subpoint.isNone else true
    | none => true)

/-- Models `TryFrom<UncheckedReference> for Reference` (unchecked.rs:114-128). -/
def tryFrom (r : Ref) : Option Ref :=
  if r.checkPartCombination then if r.checkRanges then some r else none else none

/-! ### builder.rs: the builder holds an unchecked reference -/

/-- Models `reset_subpoint` (builder.rs:52-55). -/
def resetSubpoint (r : Ref) : Ref := { r with subpoint := none }
/-- Models `reset_point` (builder.rs:48-51). -/
def resetPoint (r : Ref) : Ref := resetSubpoint { r with point := none }
/-- Models `reset_paragraph` (builder.rs:44-47). -/
def resetParagraph (r : Ref) : Ref := resetPoint { r with paragraph := none }
/-- Models `reset_article` (builder.rs:40-43). -/
def resetArticle (r : Ref) : Ref := resetParagraph { r with article := none }

/-- Models `set_part(ActIdentifier)` (builder.rs:62-67). -/
def setAct (r : Ref) (v : ActId) : Ref := resetArticle { r with act := some v }
/-- Models `set_part(RefPartArticle)` (builder.rs:69-74). -/
def setArticle (r : Ref) (v : RefPartArticle) : Ref := resetParagraph { r with article := some v }
/-- Models `set_part(RefPartParagraph)` (builder.rs:76-81). -/
def setParagraph (r : Ref) (v : RefPartParagraph) : Ref := resetPoint { r with paragraph := some v }
/-- Models `set_part(RefPartPoint)` (builder.rs:83-88). -/
def setPoint (r : Ref) (v : RefPartPoint) : Ref := resetSubpoint { r with point := some v }
/-- Models `set_part(RefPartSubpoint)` (builder.rs:90-95). -/
def setSubpoint (r : Ref) (v : RefPartSubpoint) : Ref := { r with subpoint := some v }

/-- Models `build` (builder.rs:36-38). -/
def build (r : Ref) : Option Ref := tryFrom r

/-! ### mod.rs -/

/-- Models `get_last_part` (mod.rs:61-69). -/
def getLastPart (r : Ref) : AnyReferencePart :=
  match r.subpoint with
  | some x => .subpoint x
  | none => match r.point with
    | some x => .point x
    | none => match r.paragraph with
      | some x => .paragraph x
      | none => match r.article with
        | some x => .article x
        | none => match r.act with
          | some x => .act x
          | none => .empty

/-- Models `is_act_only` (mod.rs:71-73). -/
def isActOnly (r : Ref) : Bool := r.article.isNone

/-- Models `without_act` (mod.rs:83-90). -/
def withoutAct (r : Ref) : Ref := { r with act := none }

/-- Models `first_in_range` (mod.rs:92-112). -/
def firstInRange (r : Ref) : Ref where
  act := r.act
  article := r.article.map fun x => .single x.first
  paragraph := r.paragraph.map fun x => .single x.first
  point := r.point.map (·.first)
  subpoint := r.subpoint.map (·.first)

/-- Models `last_in_range` (mod.rs:114-134). -/
def lastInRange (r : Ref) : Ref where
  act := r.act
  article := r.article.map fun x => .single x.last
  paragraph := r.paragraph.map fun x => .single x.last
  point := r.point.map (·.last)
  subpoint := r.subpoint.map (·.last)

/-- `if let Some(x) = part { builder.set_part(x) }` -/
def setOpt {α : Type} (set : Ref → α → Ref) (b : Ref) : Option α → Ref
  | some v => set b v
  | none => b

/-- Models `make_range` (mod.rs:136-248). -/
def makeRange (start fin : Ref) : Option Ref :=
  if start.act ≠ fin.act then none
  else
    let b := setOpt setAct empty start.act
    if start.article ≠ fin.article then
      if start.paragraph.isNone && fin.paragraph.isNone && start.point.isNone && fin.point.isNone
          && start.subpoint.isNone && fin.subpoint.isNone then
        match start.article, fin.article with
        | some s, some e => (b.setArticle ⟨s.first, e.last⟩).build
        | _, _ => none
      else none
    else
      let b := setOpt setArticle b start.article
      if start.paragraph ≠ fin.paragraph then
        if start.point.isNone && fin.point.isNone && start.subpoint.isNone && fin.subpoint.isNone then
          match start.paragraph, fin.paragraph with
          | some s, some e => (b.setParagraph ⟨s.first, e.last⟩).build
          | _, _ => none
        else none
      else
        let b := setOpt setParagraph b start.paragraph
        if start.point ≠ fin.point then
          if start.subpoint.isNone && fin.subpoint.isNone then
            match start.point, fin.point with
            | some (.numeric s), some (.numeric e) => (b.setPoint (.numeric ⟨s.first, e.last⟩)).build
            | some (.alphabetic s), some (.alphabetic e) =>
              (b.setPoint (.alphabetic ⟨s.first, e.last⟩)).build
            | _, _ => none
          else none
        else
          let b := setOpt setPoint b start.point
          if start.subpoint ≠ fin.subpoint then
            match start.subpoint, fin.subpoint with
            | some (.numeric s), some (.numeric e) =>
              (b.setSubpoint (.numeric ⟨s.first, e.last⟩)).build
            | some (.alphabetic s), some (.alphabetic e) =>
              (b.setSubpoint (.alphabetic ⟨s.first, e.last⟩)).build
            | _, _ => none
          else
            (setOpt setSubpoint b start.subpoint).build

/-- Models `is_parent_of` (mod.rs:250-264). -/
def isParentOf (self other : Ref) : Bool :=
  if self.act ≠ other.act then false
  else if self.article ≠ other.article then self.article.isNone
  else if self.paragraph ≠ other.paragraph then self.paragraph.isNone
  else if self.point ≠ other.point then self.point.isNone
  else if self.subpoint ≠ other.subpoint then self.subpoint.isNone
  else false

/-- Models `contains` (mod.rs:266-273). -/
def contains (self other : Ref) : Bool :=
  (rle self.firstInRange other.firstInRange || self.firstInRange.isParentOf other.firstInRange) &&
  (rle other.lastInRange self.lastInRange || self.lastInRange.isParentOf other.lastInRange)

/-- Models `parent` (mod.rs:275-299). -/
def parent (r : Ref) : Ref :=
  if r.subpoint.isSome then { r with subpoint := none }
  else if r.point.isSome then { r with point := none }
  else if r.paragraph.isSome then { r with paragraph := none }
  else if r.article.isSome then { r with article := none }
  else empty

/-- Models `relative_to` (mod.rs:301-334). -/
def relativeTo (self other : Ref) : Option Ref :=
  tryFrom (
    if self.act.isSome then self
    else if self.article.isSome then { self with act := other.act }
    else if self.paragraph.isSome then { self with act := other.act, article := other.article }
    else if self.point.isSome then
      { self with act := other.act, article := other.article, paragraph := other.paragraph }
    else if self.subpoint.isSome then
      { self with act := other.act, article := other.article, paragraph := other.paragraph,
                  point := other.point }
    else other)

/-- Models `From<ActIdentifier>` (mod.rs:337-344) and `Act::reference` (to_element.rs:29-36). -/
def ofAct (a : ActId) : Ref := { empty with act := some a }

/-- Models `From<IdentifierRange<ArticleIdentifier>>` (mod.rs:346-353). -/
def ofArticle (a : RefPartArticle) : Ref := { empty with article := some a }

/-- Models `From<(ActIdentifier, IdentifierRange<ArticleIdentifier>)>` (mod.rs:355-363). -/
def ofActArticle (a : ActId) (x : RefPartArticle) : Ref :=
  { empty with act := some a, article := some x }

/-! ### to_element.rs -/

/-- Models `Article::reference` (to_element.rs:38-45). -/
def toArticle (i : ArticleId) : Ref := { empty with article := some (.single i) }
/-- Models `Paragraph::reference` (to_element.rs:47-57). -/
def toParagraph (i : ParagraphId) : Ref := { empty with paragraph := i.id.map .single }
/-- Models `AlphabeticPoint::reference` (to_element.rs:59-66). -/
def toAlphabeticPoint (i : HunChar) : Ref := { empty with point := some (.alphabetic (.single i)) }
/-- Models `NumericPoint::reference` (to_element.rs:68-75). -/
def toNumericPoint (i : NumericId) : Ref := { empty with point := some (.numeric (.single i)) }
/-- Models `AlphabeticSubpoint::reference` (to_element.rs:77-84). -/
def toAlphabeticSubpoint (i : PrefixedId) : Ref :=
  { empty with subpoint := some (.alphabetic (.single i)) }
/-- Models `NumericSubpoint::reference` (to_element.rs:86-93). -/
def toNumericSubpoint (i : NumericId) : Ref := { empty with subpoint := some (.numeric (.single i)) }

/-! ### string.rs -/

/-- Models `impl CompactString` (string.rs:141-184). -/
instance : CompactString Ref where
  fmtCompact r := fmtCompact r.act ++ '_' :: (fmtCompact r.article ++ '_' ::
    (fmtCompact r.paragraph ++ '_' :: (fmtCompact r.point ++ '_' :: fmtCompact r.subpoint)))
  fromCompact s := match splitAll '_' s with
    | [act, article, paragraph, point, subpoint] =>
      match (fromCompact act : Option (Option ActId)),
        (fromCompact article : Option (Option RefPartArticle)),
        (fromCompact paragraph : Option (Option RefPartParagraph)),
        (fromCompact point : Option (Option RefPartPoint)),
        (fromCompact subpoint : Option (Option RefPartSubpoint)) with
      | some act, some article, some paragraph, some point, some subpoint =>
        tryFrom ⟨act, article, paragraph, point, subpoint⟩
      | _, _, _, _, _ => none
    | _ => none

/-- One part in `Display` (string.rs:36-121): `open first close` or `open first close – open last
close`, where the dash of a numeric part comes before the closing text. -/
def displayRange {α : Type} [DecidableEq α] (show' : α → Str) (op sep cl : Str) (r : IdRange α) : Str :=
  if r.isRange then op ++ show' r.first ++ sep ++ show' r.last ++ cl
  else op ++ show' r.first ++ cl

/-- Models `Display` (string.rs:28-124); printing the act may panic (act.rs:40). -/
def display (r : Ref) : Res Str := do
  let act ← match r.act with
    | some a => do
      let s ← a.display
      pure (if r.article.isSome then s ++ [' '] else s)
    | none => pure []
  let article := match r.article with
    | some a => displayRange ArticleId.display [] str!"–" str!"." a ++
        (if r.paragraph.isSome || r.point.isSome then str!" § " else str!" §-a")
    | none => []
  let paragraph := match r.paragraph with
    | some p => displayRange NumericId.display str!"(" str!")–(" str!")" p ++
        (if r.point.isSome then str!" bekezdés " else str!" bekezdése")
    | none => []
  let point := match r.point with
    | some p => (match p with
        | .numeric p => displayRange NumericId.display [] str!"–" str!"." p
        | .alphabetic p => displayRange HunChar.display [] str!")–" str!")" p) ++
        (if r.subpoint.isSome then str!" pont " else str!" pontja")
    | none => []
  let subpoint := match r.subpoint with
    | some s => (match s with
        | .numeric p => displayRange NumericId.display [] str!"–" str!"." p
        | .alphabetic p => displayRange PrefixedId.display [] str!")–" str!")" p) ++ str!" alpontja"
    | none => []
  pure (act ++ article ++ paragraph ++ point ++ subpoint)

end Ref
end HunLaw
