import Verif.Model.BlockAmendment
import Verif.Model.Fixups
import Verif.Model.SemanticInfo

/-!
Model of how acts, fixups, identifiers, references and lines are stored and read: the `Serialize` and
`Deserialize` derives of the structures, on the level of serde's data model. A document is a `Value`; the text
form of documents (JSON by `serde_json`, YAML by `serde_yaml` with `singleton_map_recursive`, that is, with the
variants of enums as maps of one key) is not modelled.

Simplifications, all of them about documents which the program does not write itself: a structure is read from a
map only (derived readers take sequences as well), a variant without data from its name only, and block amendments
inside of block amendments are refused, because the model has no values for them.
-/

set_option autoImplicit false

namespace HunLaw.Serde

open HunLaw

/-- A document in serde's data model. -/
inductive Value where
  | null
  | bool (b : Bool)
  | int (n : Int)
  | float (x : Rat)
  | str (s : Str)
  | seq (l : List Value)
  | map (m : List (Str × Value))
  deriving Repr

/-- `Serialize` and `Deserialize` of a type. -/
structure Codec (α : Type) where
  ser : α → Value
  de : Value → Option α

/-! ### Fields and variants -/

/-- The values of a key of a map. -/
def entries (m : List (Str × Value)) (k : Str) : List Value := (m.filter fun e => e.1 = k).map (·.2)

/-- A field without attributes: missing fields and fields given twice are errors. -/
def required {α : Type} (c : Codec α) (m : List (Str × Value)) (k : Str) : Option α :=
  match entries m k with
  | [v] => c.de v
  | _ => none

/-- An `Option` from a value. -/
def optionDe {α : Type} (c : Codec α) : Value → Option (Option α)
  | .null => some none
  | v => (c.de v).map some

/-- A field of type `Option`, with `#[serde(default)]`. -/
def optional {α : Type} (c : Codec α) (m : List (Str × Value)) (k : Str) : Option (Option α) :=
  match entries m k with
  | [] => some none
  | [v] => optionDe c v
  | _ => none

/-- A field with `#[serde(default)]`. -/
def defaulted {α : Type} (c : Codec α) (d : α) (m : List (Str × Value)) (k : Str) : Option α :=
  match entries m k with
  | [] => some d
  | [v] => c.de v
  | _ => none

/-- A field which is written in all cases. -/
def put {α : Type} (c : Codec α) (k : Str) (x : α) : List (Str × Value) := [(k, c.ser x)]

/-- A field with `skip_serializing_if = "Option::is_none"`. -/
def putSome {α : Type} (c : Codec α) (k : Str) : Option α → List (Str × Value)
  | none => []
  | some x => [(k, c.ser x)]

/-- A field with another `skip_serializing_if`. -/
def putUnless {α : Type} (skip : Bool) (c : Codec α) (k : Str) (x : α) : List (Str × Value) :=
  if skip then [] else [(k, c.ser x)]

/-- The fields of a structure. -/
def fields : Value → Option (List (Str × Value))
  | .map m => some m
  | _ => none

/-- A variant with data: a map of one key, the name of the variant. -/
def variant (name : Str) (v : Value) : Value := .map [(name, v)]

/-- The name and the data of a variant. -/
def variantOf : Value → Option (Str × Value)
  | .map [(k, v)] => some (k, v)
  | _ => none

/-! ### Basic types -/

/-- `String` -/
def text : Codec Str where
  ser s := .str s
  de | .str s => some s
     | _ => none

/-- `bool` -/
def boolean : Codec Bool where
  ser b := .bool b
  de | .bool b => some b
     | _ => none

/-- `f64`, as a rational number; reading takes integers as well. -/
def double : Codec Rat where
  ser x := .float x
  de | .float x => some x
     | .int n => some n
     | _ => none

/-- `char`: a text of one character. -/
def character : Codec Char where
  ser c := .str [c]
  de | .str [c] => some c
     | _ => none

/-- `usize`, without an upper bound. -/
def natural : Codec Nat where
  ser n := .int n
  de | .int n => if 0 ≤ n then some n.toNat else none
     | _ => none

/-- `u8` and `u16` -/
def finite (n : Nat) : Codec (Fin n) where
  ser x := .int x.val
  de | .int i => if h : 0 ≤ i ∧ i.toNat < n then some ⟨i.toNat, h.2⟩ else none
     | _ => none

/-- `i16` -/
def i16 : Codec I16 where
  ser x := .int x.val
  de | .int i => if h : (-32768 : Int) ≤ i ∧ i ≤ 32767 then some ⟨i, h⟩ else none
     | _ => none

/-- `i32` -/
def i32 : Codec I32 where
  ser x := .int x.val
  de | .int i => if h : (-2147483648 : Int) ≤ i ∧ i ≤ 2147483647 then some ⟨i, h⟩ else none
     | _ => none

/-- `Vec` -/
def list {α : Type} (c : Codec α) : Codec (List α) where
  ser l := .seq (l.map c.ser)
  de | .seq l => l.mapM c.de
     | _ => none

/-- `#[serde(into = "String")]` and `#[serde(try_from = "String")]`. -/
def viaText {α : Type} (display : α → Str) (parse : Str → Option α) : Codec α where
  ser x := .str (display x)
  de | .str s => parse s
     | _ => none

/-! ### Dates -/

/-- `scan::number` of chrono: up to so many digits, at least one. -/
def scanNumber (max : Option Nat) (s : Str) : Option (Nat × Str) :=
  let ds := match max with
    | some n => (s.takeWhile isDigit).take n
    | none => s.takeWhile isDigit
  match parseDigits ds with
  | some v => some (v, s.drop ds.length)
  | none => none

/-- The year in chrono's parser: at most four digits, or any number of them after a sign. -/
def scanYear : Str → Option (Int × Str)
  | '-' :: s => (scanNumber none s).map fun (v, s) => (-(v : Int), s)
  | '+' :: s => (scanNumber none s).map fun (v, s) => ((v : Int), s)
  | s => (scanNumber (some 4) s).map fun (v, s) => ((v : Int), s)

/-- A hyphen. -/
def scanHyphen : Str → Option Str
  | '-' :: s => some s
  | _ => none

/-- `NaiveDate::from_str` of chrono, without the spaces it would allow before the numbers. -/
def parseDate (s : Str) : Option Date := do
  let (y, s) ← scanYear s
  let s ← scanHyphen s
  let (m, s) ← scanNumber (some 2) s
  let s ← scanHyphen s
  let (d, s) ← scanNumber (some 2) s
  if s = [] ∧ -262143 ≤ y ∧ y ≤ 262142 then Date.ofYmd y m d else none

/-- Chrono's dates are stored in the ISO form. -/
def date : Codec Date := viaText Date.display parseDate

/-! ### Identifiers -/

/-- `NumericIdentifier` (numeric.rs:30-36, 139-161) -/
def numericId : Codec NumericId := viaText NumericId.display NumericId.parse

/-- `HungarianIdentifierChar` (alphabetic.rs:30-51, 171-183) -/
def hunChar : Codec HunChar := viaText HunChar.display HunChar.parse

/-- `PrefixedAlphabeticIdentifier` (prefixed_alphabetic.rs:28-34, 96-108) -/
def prefixedId : Codec PrefixedId := viaText PrefixedId.display PrefixedId.parse

/-- `ArticleIdentifier` (article.rs:28-34, 95-107) -/
def articleId : Codec ArticleId := viaText ArticleId.display ArticleId.parse

/-- `ParagraphIdentifier`, a transparent `Option` (paragraph.rs:28-32). -/
def paragraphId : Codec ParagraphId where
  ser | ⟨none⟩ => .null
      | ⟨some i⟩ => numericId.ser i
  de v := (optionDe numericId v).map ParagraphId.mk

/-- `ActIdentifier` (act.rs:28-32) -/
def actId : Codec ActId where
  ser a := .map (put i16 str!"year" a.year ++ put i32 str!"number" a.number)
  de v := do
    let m ← fields v
    let year ← required i16 m str!"year"
    let number ← required i32 m str!"number"
    some ⟨year, number⟩

/-- `IdentifierRange` through `IdentifierRangeSerdeHelper` (range.rs:25-31, 104-133): one identifier, or a map of
the two ends. -/
def range {α : Type} [DecidableEq α] (c : Codec α) : Codec (IdRange α) where
  ser r := if r.start ≠ r.fin then .map (put c str!"start" r.start ++ put c str!"end" r.fin) else c.ser r.start
  de v :=
    match c.de v with
    | some x => some ⟨x, x⟩
    | none => do
      let m ← fields v
      let start ← required c m str!"start"
      let fin ← required c m str!"end"
      some ⟨start, fin⟩

/-! ### References -/

/-- `RefPartPoint`, untagged (parts.rs:32-39). -/
def point : Codec RefPartPoint where
  ser | .numeric r => (range numericId).ser r
      | .alphabetic r => (range hunChar).ser r
  de v :=
    match (range numericId).de v with
    | some r => some (.numeric r)
    | none => ((range hunChar).de v).map .alphabetic

/-- `RefPartSubpoint`, untagged (parts.rs:86-93). -/
def subpoint : Codec RefPartSubpoint where
  ser | .numeric r => (range numericId).ser r
      | .alphabetic r => (range prefixedId).ser r
  de v :=
    match (range numericId).de v with
    | some r => some (.numeric r)
    | none => ((range prefixedId).de v).map .alphabetic

/-- `Reference` (reference/mod.rs:49-58) through `UncheckedReference` (unchecked.rs:27-39): the checks are made
when it is read. -/
def reference : Codec Ref where
  ser r := .map (putSome actId str!"act" r.act ++ putSome (range articleId) str!"article" r.article ++
    putSome (range numericId) str!"paragraph" r.paragraph ++ putSome point str!"point" r.point ++
    putSome subpoint str!"subpoint" r.subpoint)
  de v := do
    let m ← fields v
    let act ← optional actId m str!"act"
    let article ← optional (range articleId) m str!"article"
    let paragraph ← optional (range numericId) m str!"paragraph"
    let point ← optional point m str!"point"
    let subpoint ← optional subpoint m str!"subpoint"
    Ref.tryFrom ⟨act, article, paragraph, point, subpoint⟩

/-- `StructuralReferenceElement` (structural.rs:36-53). -/
def structuralElementRef : Codec StructuralRefElement where
  ser
    | .part i => variant str!"Part" (numericId.ser i)
    | .title i => variant str!"Title" (numericId.ser i)
    | .chapter i => variant str!"Chapter" (numericId.ser i)
    | .subtitleId i => variant str!"SubtitleId" (numericId.ser i)
    | .subtitleRange r => variant str!"SubtitleRange" ((range numericId).ser r)
    | .subtitleTitle t => variant str!"SubtitleTitle" (text.ser t)
    | .subtitleAfterArticle i => variant str!"SubtitleAfterArticle" (articleId.ser i)
    | .subtitleBeforeArticle i => variant str!"SubtitleBeforeArticle" (articleId.ser i)
    | .subtitleBeforeArticleInclusive i => variant str!"SubtitleBeforeArticleInclusive" (articleId.ser i)
    | .subtitleUnknown => .str str!"SubtitleUnknown"
    | .article r => variant str!"Article" ((range articleId).ser r)
  de
    | .str s => if s = str!"SubtitleUnknown" then some .subtitleUnknown else none
    | v => do
      let (k, v) ← variantOf v
      if k = str!"Part" then (numericId.de v).map .part
      else if k = str!"Title" then (numericId.de v).map .title
      else if k = str!"Chapter" then (numericId.de v).map .chapter
      else if k = str!"SubtitleId" then (numericId.de v).map .subtitleId
      else if k = str!"SubtitleRange" then ((range numericId).de v).map .subtitleRange
      else if k = str!"SubtitleTitle" then (text.de v).map .subtitleTitle
      else if k = str!"SubtitleAfterArticle" then (articleId.de v).map .subtitleAfterArticle
      else if k = str!"SubtitleBeforeArticle" then (articleId.de v).map .subtitleBeforeArticle
      else if k = str!"SubtitleBeforeArticleInclusive" then (articleId.de v).map .subtitleBeforeArticleInclusive
      else if k = str!"Article" then ((range articleId).de v).map .article
      else none

/-- `StructuralReferenceParent` (structural.rs:55-63). -/
def structuralParentRef : Codec StructuralRefParent where
  ser
    | .part i => variant str!"Part" (numericId.ser i)
    | .title i => variant str!"Title" (numericId.ser i)
    | .chapter i => variant str!"Chapter" (numericId.ser i)
    | .subtitleId i => variant str!"SubtitleId" (numericId.ser i)
    | .subtitleRange r => variant str!"SubtitleRange" ((range numericId).ser r)
    | .subtitleTitle t => variant str!"SubtitleTitle" (text.ser t)
  de v := do
    let (k, v) ← variantOf v
    if k = str!"Part" then (numericId.de v).map .part
    else if k = str!"Title" then (numericId.de v).map .title
    else if k = str!"Chapter" then (numericId.de v).map .chapter
    else if k = str!"SubtitleId" then (numericId.de v).map .subtitleId
    else if k = str!"SubtitleRange" then ((range numericId).de v).map .subtitleRange
    else if k = str!"SubtitleTitle" then (text.de v).map .subtitleTitle
    else none

/-- `StructuralReference` (structural.rs:23-34). -/
def structuralRef : Codec StructuralRef where
  ser r := .map (putSome actId str!"act" r.act ++ putSome numericId str!"book" r.book ++
    putSome structuralParentRef str!"parent" r.parent ++ put structuralElementRef str!"structural_element" r.element ++
    putUnless (!r.titleOnly) boolean str!"title_only" r.titleOnly)
  de v := do
    let m ← fields v
    let act ← optional actId m str!"act"
    let book ← optional numericId m str!"book"
    let parent ← optional structuralParentRef m str!"parent"
    let element ← required structuralElementRef m str!"structural_element"
    let titleOnly ← defaulted boolean false m str!"title_only"
    some ⟨act, book, parent, element, titleOnly⟩

/-! ### Semantic information -/

/-- `OutgoingReference` (semantic_info.rs:44-51). -/
def outgoingRef : Codec OutgoingRef where
  ser r := .map (put natural str!"start" r.start ++ put natural str!"end" r.fin ++
    put reference str!"reference" r.reference)
  de v := do
    let m ← fields v
    let start ← required natural m str!"start"
    let fin ← required natural m str!"end"
    let ref ← required reference m str!"reference"
    some ⟨start, fin, ref⟩

/-- `TextAmendmentSAEPart` (semantic_info.rs:98-104). -/
def amendedPart : Codec TextAmendmentPart where
  ser
    | .all => .str str!"All"
    | .introOnly => .str str!"IntroOnly"
    | .wrapUpOnly => .str str!"WrapUpOnly"
  de
    | .str s =>
      if s = str!"All" then some .all
      else if s = str!"IntroOnly" then some .introOnly
      else if s = str!"WrapUpOnly" then some .wrapUpOnly
      else none
    | _ => none

/-- The fields of `TextAmendmentReference::SAE` (semantic_info.rs:89-93). -/
def amendedSae : Codec (Ref × TextAmendmentPart) where
  ser x := .map (put reference str!"reference" x.1 ++
    putUnless (x.2 = .all) amendedPart str!"amended_part" x.2)
  de v := do
    let m ← fields v
    let r ← required reference m str!"reference"
    let part ← defaulted amendedPart .all m str!"amended_part"
    some (r, part)

/-- `TextAmendmentReference` (semantic_info.rs:87-96). -/
def textAmendmentRef : Codec TextAmendmentRef where
  ser
    | .sae r part => variant str!"SAE" (amendedSae.ser (r, part))
    | .structural r => variant str!"Structural" (structuralRef.ser r)
    | .articleTitle r => variant str!"ArticleTitle" (reference.ser r)
  de v := do
    let (k, v) ← variantOf v
    if k = str!"SAE" then (amendedSae.de v).map fun (r, part) => .sae r part
    else if k = str!"Structural" then (structuralRef.de v).map .structural
    else if k = str!"ArticleTitle" then (reference.de v).map .articleTitle
    else none

/-- `TextAmendment` (semantic_info.rs:80-85). -/
def textAmendment : Codec TextAmendment where
  ser a := .map (put textAmendmentRef str!"reference" a.reference ++ put text str!"from" a.fromText ++
    put text str!"to" a.toText)
  de v := do
    let m ← fields v
    let r ← required textAmendmentRef m str!"reference"
    let a ← required text m str!"from"
    let b ← required text m str!"to"
    some ⟨r, a, b⟩

/-- The fields of `EnforcementDateType::DayInMonthAfterPublication` (semantic_info.rs:123-127). -/
def dayInMonth : Codec (Option U8 × U16) where
  ser x := .map (putSome (finite 256) str!"month" x.1 ++ put (finite 65536) str!"day" x.2)
  de v := do
    let m ← fields v
    let month ← optional (finite 256) m str!"month"
    let day ← required (finite 65536) m str!"day"
    some (month, day)

/-- `EnforcementDateType` (semantic_info.rs:119-128). -/
def enforcementDateType : Codec EnforcementDateType where
  ser
    | .date d => variant str!"Date" (date.ser d)
    | .daysAfterPublication n => variant str!"DaysAfterPublication" ((finite 65536).ser n)
    | .dayInMonthAfterPublication month day => variant str!"DayInMonthAfterPublication" (dayInMonth.ser (month, day))
  de v := do
    let (k, v) ← variantOf v
    if k = str!"Date" then (date.de v).map .date
    else if k = str!"DaysAfterPublication" then ((finite 65536).de v).map .daysAfterPublication
    else if k = str!"DayInMonthAfterPublication" then
      (dayInMonth.de v).map fun (month, day) => .dayInMonthAfterPublication month day
    else none

/-- `EnforcementDate` (semantic_info.rs:106-117). -/
def enforcementDate : Codec EnforcementDate where
  ser e := .map (putUnless e.positions.isEmpty (list reference) str!"positions" e.positions ++
    putUnless e.structuralPositions.isEmpty (list structuralRef) str!"structural_positions" e.structuralPositions ++
    putUnless (!e.isDefault) boolean str!"is_default" e.isDefault ++ put enforcementDateType str!"date" e.date ++
    putSome date str!"inline_repeal" e.inlineRepeal)
  de v := do
    let m ← fields v
    let positions ← defaulted (list reference) [] m str!"positions"
    let structural ← defaulted (list structuralRef) [] m str!"structural_positions"
    let isDefault ← defaulted boolean false m str!"is_default"
    let d ← required enforcementDateType m str!"date"
    let repeal ← optional date m str!"inline_repeal"
    some ⟨positions, structural, isDefault, d, repeal⟩

/-- `RepealReference` (semantic_info.rs:130-134). -/
def repealRef : Codec RepealRef where
  ser
    | .reference r => variant str!"Reference" (reference.ser r)
    | .structural r => variant str!"StructuralReference" (structuralRef.ser r)
  de v := do
    let (k, v) ← variantOf v
    if k = str!"Reference" then (reference.de v).map .reference
    else if k = str!"StructuralReference" then (structuralRef.de v).map .structural
    else none

/-- `BlockAmendment` (semantic_info.rs:74-78) and `StructuralBlockAmendment` (136-140). -/
def announced {α : Type} (c : Codec α) : Codec (α × Bool) where
  ser x := .map (put c str!"position" x.1 ++ put boolean str!"pure_insertion" x.2)
  de v := do
    let m ← fields v
    let position ← required c m str!"position"
    let pure ← required boolean m str!"pure_insertion"
    some (position, pure)

/-- `SpecialPhrase` (semantic_info.rs:65-72). -/
def specialPhrase : Codec SpecialPhrase where
  ser
    | .blockAmendment position pure => variant str!"BlockAmendment" ((announced reference).ser (position, pure))
    | .enforcementDate d => variant str!"EnforcementDate" (enforcementDate.ser d)
    | .repeal l => variant str!"Repeal" ((list repealRef).ser l)
    | .textAmendment l => variant str!"TextAmendment" ((list textAmendment).ser l)
    | .structuralBlockAmendment position pure =>
      variant str!"StructuralBlockAmendment" ((announced structuralRef).ser (position, pure))
  de v := do
    let (k, v) ← variantOf v
    if k = str!"BlockAmendment" then ((announced reference).de v).map fun (p, b) => .blockAmendment p b
    else if k = str!"EnforcementDate" then (enforcementDate.de v).map .enforcementDate
    else if k = str!"Repeal" then ((list repealRef).de v).map .repeal
    else if k = str!"TextAmendment" then ((list textAmendment).de v).map .textAmendment
    else if k = str!"StructuralBlockAmendment" then
      ((announced structuralRef).de v).map fun (p, b) => .structuralBlockAmendment p b
    else none

/-- The entries of a map of abbreviations. -/
def abbreviationEntry (e : Str × Value) : Option (Str × ActId) := (actId.de e.2).map fun a => (e.1, a)

/-- `BTreeMap<String, ActIdentifier>`: a map with the keys in their order; reading puts the entries in order. -/
def abbreviations : Codec (List (Str × ActId)) where
  ser m := .map (m.map fun e => (e.1, actId.ser e.2))
  de v := do
    let m ← fields v
    let l ← m.mapM abbreviationEntry
    some (Semantic.mapCollect l)

/-- `SemanticInfo::is_empty` (semantic_info.rs:36-42). -/
def infoEmpty (i : SemanticInfo) : Bool :=
  i.outgoingReferences.isEmpty && i.newAbbreviations.isEmpty && i.specialPhrase.isNone

/-- `SemanticInfo` (semantic_info.rs:26-34). -/
def semanticInfo : Codec SemanticInfo where
  ser i := .map (putUnless i.outgoingReferences.isEmpty (list outgoingRef) str!"outgoing_references" i.outgoingReferences ++
    putUnless i.newAbbreviations.isEmpty abbreviations str!"new_abbreviations" i.newAbbreviations ++
    putSome specialPhrase str!"special_phrase" i.specialPhrase)
  de v := do
    let m ← fields v
    let refs ← defaulted (list outgoingRef) [] m str!"outgoing_references"
    let new ← defaulted abbreviations [] m str!"new_abbreviations"
    let phrase ← optional specialPhrase m str!"special_phrase"
    some ⟨refs, new, phrase⟩

/-! ### Lines -/

/-- `IndentedLinePart` (indentedline.rs:28-33). -/
def linePart : Codec LinePart where
  ser p := .map (put double str!"dx" p.dx ++ put character str!"content" p.content ++ put boolean str!"bold" p.bold)
  de v := do
    let m ← fields v
    let dx ← required double m str!"dx"
    let content ← required character m str!"content"
    let bold ← required boolean m str!"bold"
    some ⟨dx, content, bold⟩

/-- The fields of `IndentedLine` (indentedline.rs:35-41) as they are stored, with the cached content, which
`Line` has not. -/
structure StoredLine where
  parts : List LinePart
  justified : Bool
  cachedContent : Str
  cachedBold : Bool
  deriving Repr, DecidableEq

/-- `IndentedLine` (indentedline.rs:35-41): all four fields are stored and none of them is checked when read. -/
def storedLine : Codec StoredLine where
  ser l := .map (put (list linePart) str!"parts" l.parts ++ put boolean str!"justified" l.justified ++
    put text str!"cached_content" l.cachedContent ++ put boolean str!"cached_bold" l.cachedBold)
  de v := do
    let m ← fields v
    let parts ← required (list linePart) m str!"parts"
    let justified ← required boolean m str!"justified"
    let content ← required text m str!"cached_content"
    let bold ← required boolean m str!"cached_bold"
    some ⟨parts, justified, content, bold⟩

/-- A line with its cached content: every line the program makes has the text of its parts there
(indentedline.rs:44-60, 131-140). -/
def store (l : Line) : StoredLine := ⟨l.parts, l.justified, l.content, l.cachedBold⟩

/-- A line inside of an act. The cached content is read but not kept, because the lines of the model have none:
for documents in which it is not the text of the parts, see `storedLine`. -/
def line : Codec Line where
  ser l := storedLine.ser (store l)
  de v := (storedLine.de v).map fun l => ⟨l.parts, l.justified, l.cachedBold⟩

/-! ### Structure -/

/-- `ChangeCause` (structure.rs:506-511); a variant without data is its name. -/
def changeCause : Codec ChangeCause where
  ser
    | .amendment r => variant str!"Amendment" (reference.ser r)
    | .autoRepeal => .str str!"AutoRepeal"
    | .other s => variant str!"Other" (text.ser s)
  de
    | .str s => if s = str!"AutoRepeal" then some .autoRepeal else none
    | v => do
      let (k, v) ← variantOf v
      if k = str!"Amendment" then (reference.de v).map .amendment
      else if k = str!"Other" then (text.de v).map .other
      else none

/-- `LastChange` (structure.rs:500-504). -/
def lastChange : Codec LastChange where
  ser x := .map (put date str!"date" x.date ++ put changeCause str!"cause" x.cause)
  de v := do
    let m ← fields v
    let date ← required date m str!"date"
    let cause ← required changeCause m str!"cause"
    some ⟨date, cause⟩

/-- `SAEBody`, untagged (structure.rs:287-297). -/
def saeBody {C : Type} (c : Codec C) : Codec (SAEBody C) where
  ser
    | .text t => text.ser t
    | .children intro children wrapUp => .map (put text str!"intro" intro ++ put c str!"children" children ++
      putSome text str!"wrap_up" wrapUp)
  de
    | .str s => some (.text s)
    | v => do
      let m ← fields v
      let intro ← required text m str!"intro"
      let children ← required c m str!"children"
      let wrapUp ← optional text m str!"wrap_up"
      some (.children intro children wrapUp)

/-- The field `identifier` of elements (structure.rs:250-261): required, except for paragraphs, where a missing one
is the empty identifier (see the comment there). -/
structure IdField (I : Type) where
  write : I → List (Str × Value)
  read : List (Str × Value) → Option I

def plainId {I : Type} (c : Codec I) : IdField I where
  write i := put c str!"identifier" i
  read m := required c m str!"identifier"

def paragraphField : IdField ParagraphId where
  write i := putUnless i.id.isNone paragraphId str!"identifier" i
  read m := defaulted paragraphId ⟨none⟩ m str!"identifier"

/-- `SubArticleElement` (structure.rs:250-267). -/
def sae {I C : Type} (f : IdField I) (c : Codec C) : Codec (SAE I C) where
  ser e := .map (f.write e.identifier ++ put (saeBody c) str!"body" e.body ++
    putUnless (infoEmpty e.semanticInfo) semanticInfo str!"semantic_info" e.semanticInfo ++
    putSome lastChange str!"last_change" e.lastChange)
  de v := do
    let m ← fields v
    let id ← f.read m
    let body ← required (saeBody c) m str!"body"
    let info ← defaulted semanticInfo SemanticInfo.default m str!"semantic_info"
    let change ← optional lastChange m str!"last_change"
    some ⟨id, body, info, change⟩

/-- `AlphabeticSubpointChildren` (structure.rs:377-378) and `NumericSubpointChildren` (391-392): enums without
variants cannot be read. -/
def noChildren : Codec NoChildren where
  ser c := nomatch c
  de _ := none

/-- `AlphabeticSubpoint` (structure.rs:374-375) -/
def alphabeticSubpoint : Codec AlphabeticSubpoint := sae (plainId prefixedId) noChildren
/-- `NumericSubpoint` (structure.rs:390) -/
def numericSubpoint : Codec NumericSubpoint := sae (plainId numericId) noChildren

/-- `NumericPointChildren` (structure.rs:358-361) -/
def numericPointChildren : Codec NumericPointChildren where
  ser | .alphabeticSubpoint l => variant str!"AlphabeticSubpoint" ((list alphabeticSubpoint).ser l)
  de v := do
    let (k, v) ← variantOf v
    if k = str!"AlphabeticSubpoint" then ((list alphabeticSubpoint).de v).map .alphabeticSubpoint else none

/-- `NumericPoint` (structure.rs:357) -/
def numericPoint : Codec NumericPoint := sae (plainId numericId) numericPointChildren

/-- `AlphabeticPointChildren` (structure.rs:338-342) -/
def alphabeticPointChildren : Codec AlphabeticPointChildren where
  ser
    | .alphabeticSubpoint l => variant str!"AlphabeticSubpoint" ((list alphabeticSubpoint).ser l)
    | .numericSubpoint l => variant str!"NumericSubpoint" ((list numericSubpoint).ser l)
  de v := do
    let (k, v) ← variantOf v
    if k = str!"AlphabeticSubpoint" then ((list alphabeticSubpoint).de v).map .alphabeticSubpoint
    else if k = str!"NumericSubpoint" then ((list numericSubpoint).de v).map .numericSubpoint
    else none

/-- `AlphabeticPoint` (structure.rs:337) -/
def alphabeticPoint : Codec AlphabeticPoint := sae (plainId hunChar) alphabeticPointChildren

/-- `QuotedBlock` (structure.rs:435-442) -/
def quotedBlock : Codec QuotedBlock where
  ser q := .map (putSome text str!"intro" q.intro ++ put (list line) str!"lines" q.lines ++
    putSome text str!"wrap_up" q.wrapUp)
  de v := do
    let m ← fields v
    let intro ← optional text m str!"intro"
    let lines ← required (list line) m str!"lines"
    let wrapUp ← optional text m str!"wrap_up"
    some ⟨intro, lines, wrapUp⟩

/-- The variants of `ParagraphChildren` for amendments: their names and data. -/
structure AmendmentCodec (A : Type) where
  ser : A → Value
  de : Str → Value → Option A

/-- `ParagraphChildren` (structure.rs:312-319) -/
def paragraphChildren {A : Type} (a : AmendmentCodec A) : Codec (ParagraphChildren A) where
  ser
    | .alphabeticPoint l => variant str!"AlphabeticPoint" ((list alphabeticPoint).ser l)
    | .numericPoint l => variant str!"NumericPoint" ((list numericPoint).ser l)
    | .quotedBlock l => variant str!"QuotedBlock" ((list quotedBlock).ser l)
    | .amendment x => a.ser x
  de v := do
    let (k, v) ← variantOf v
    if k = str!"AlphabeticPoint" then ((list alphabeticPoint).de v).map .alphabeticPoint
    else if k = str!"NumericPoint" then ((list numericPoint).de v).map .numericPoint
    else if k = str!"QuotedBlock" then ((list quotedBlock).de v).map .quotedBlock
    else (a.de k v).map .amendment

/-- `Paragraph` (structure.rs:311) -/
def paragraph {A : Type} (a : AmendmentCodec A) : Codec (Paragraph A) := sae paragraphField (paragraphChildren a)

/-- `Article` (structure.rs:234-242) -/
def article {A : Type} (a : AmendmentCodec A) : Codec (Article A) where
  ser x := .map (put articleId str!"identifier" x.identifier ++ putSome text str!"title" x.title ++
    put (list (paragraph a)) str!"children" x.children ++ putSome lastChange str!"last_change" x.lastChange)
  de v := do
    let m ← fields v
    let id ← required articleId m str!"identifier"
    let title ← optional text m str!"title"
    let children ← required (list (paragraph a)) m str!"children"
    let change ← optional lastChange m str!"last_change"
    some ⟨id, title, children, change⟩

/-- The field of `StructuralElementType::Part` (structure.rs:190-195). -/
def isSpecial : Codec Bool where
  ser b := .map (putUnless (!b) boolean str!"is_special" b)
  de v := do
    let m ← fields v
    defaulted boolean false m str!"is_special"

/-- `StructuralElementType` (structure.rs:184-207) -/
def elementType : Codec SEType where
  ser
    | .book => .str str!"Book"
    | .part b => variant str!"Part" (isSpecial.ser b)
    | .title => .str str!"Title"
    | .chapter => .str str!"Chapter"
  de
    | .str s =>
      if s = str!"Book" then some .book
      else if s = str!"Title" then some .title
      else if s = str!"Chapter" then some .chapter
      else none
    | v => do
      let (k, v) ← variantOf v
      if k = str!"Part" then (isSpecial.de v).map .part else none

/-- `StructuralElement` (structure.rs:131-138) -/
def structuralElement : Codec StructuralElement where
  ser e := .map (put numericId str!"identifier" e.identifier ++ put text str!"title" e.title ++
    put elementType str!"element_type" e.elementType ++ putSome lastChange str!"last_change" e.lastChange)
  de v := do
    let m ← fields v
    let id ← required numericId m str!"identifier"
    let title ← required text m str!"title"
    let t ← required elementType m str!"element_type"
    let change ← optional lastChange m str!"last_change"
    some ⟨id, title, t, change⟩

/-- `Subtitle` (structure.rs:175-182) -/
def subtitle : Codec Subtitle where
  ser s := .map (putSome numericId str!"identifier" s.identifier ++ put text str!"title" s.title ++
    putSome lastChange str!"last_change" s.lastChange)
  de v := do
    let m ← fields v
    let id ← optional numericId m str!"identifier"
    let title ← required text m str!"title"
    let change ← optional lastChange m str!"last_change"
    some ⟨id, title, change⟩

/-- `ActChild` (structure.rs:97-102) -/
def actChild {A : Type} (a : AmendmentCodec A) : Codec (ActChild A) where
  ser
    | .structuralElement e => variant str!"StructuralElement" (structuralElement.ser e)
    | .subtitle s => variant str!"Subtitle" (subtitle.ser s)
    | .article x => variant str!"Article" ((article a).ser x)
  de v := do
    let (k, v) ← variantOf v
    if k = str!"StructuralElement" then (structuralElement.de v).map .structuralElement
    else if k = str!"Subtitle" then (subtitle.de v).map .subtitle
    else if k = str!"Article" then ((article a).de v).map .article
    else none

/-- `BlockAmendment` (structure.rs:444-451) and `StructuralBlockAmendment` (484-491). -/
def amended {C : Type} (c : Codec C) : Codec (Option Str × C × Option Str) where
  ser x := .map (putSome text str!"intro" x.1 ++ put c str!"children" x.2.1 ++ putSome text str!"wrap_up" x.2.2)
  de v := do
    let m ← fields v
    let intro ← optional text m str!"intro"
    let children ← required c m str!"children"
    let wrapUp ← optional text m str!"wrap_up"
    some (intro, children, wrapUp)

/-- No amendments inside of amendments. -/
def noAmendment : AmendmentCodec Empty where
  ser x := nomatch x
  de _ _ := none

/-- `BlockAmendmentChildren` (structure.rs:459-466) -/
def blockAmendmentChildren : Codec BlockAmendmentChildren where
  ser
    | .paragraph l => variant str!"Paragraph" ((list (paragraph noAmendment)).ser l)
    | .alphabeticPoint l => variant str!"AlphabeticPoint" ((list alphabeticPoint).ser l)
    | .numericPoint l => variant str!"NumericPoint" ((list numericPoint).ser l)
    | .alphabeticSubpoint l => variant str!"AlphabeticSubpoint" ((list alphabeticSubpoint).ser l)
    | .numericSubpoint l => variant str!"NumericSubpoint" ((list numericSubpoint).ser l)
  de v := do
    let (k, v) ← variantOf v
    if k = str!"Paragraph" then ((list (paragraph noAmendment)).de v).map .paragraph
    else if k = str!"AlphabeticPoint" then ((list alphabeticPoint).de v).map .alphabeticPoint
    else if k = str!"NumericPoint" then ((list numericPoint).de v).map .numericPoint
    else if k = str!"AlphabeticSubpoint" then ((list alphabeticSubpoint).de v).map .alphabeticSubpoint
    else if k = str!"NumericSubpoint" then ((list numericSubpoint).de v).map .numericSubpoint
    else none

/-- The variants `BlockAmendment` and `StructuralBlockAmendment` of `ParagraphChildren` (structure.rs:312-319). -/
def amendment : AmendmentCodec Amendment where
  ser
    | .block intro children wrapUp =>
      variant str!"BlockAmendment" ((amended blockAmendmentChildren).ser (intro, children, wrapUp))
    | .structural intro children wrapUp =>
      variant str!"StructuralBlockAmendment" ((amended (list (actChild noAmendment))).ser (intro, children, wrapUp))
  de k v :=
    if k = str!"BlockAmendment" then ((amended blockAmendmentChildren).de v).map fun (i, c, w) => .block i c w
    else if k = str!"StructuralBlockAmendment" then
      ((amended (list (actChild noAmendment))).de v).map fun (i, c, w) => .structural i c w
    else none

/-- `Act` (structure.rs:86-95) -/
def act {A : Type} (c : AmendmentCodec A) : Codec (Act A) where
  ser a := .map (put actId str!"identifier" a.identifier ++ put text str!"subject" a.subject ++
    put text str!"preamble" a.preamble ++ put date str!"publication_date" a.publicationDate ++
    putUnless a.containedAbbreviations.isEmpty abbreviations str!"contained_abbreviations" a.containedAbbreviations ++
    put (list (actChild c)) str!"children" a.children)
  de v := do
    let m ← fields v
    let id ← required actId m str!"identifier"
    let subject ← required text m str!"subject"
    let preamble ← required text m str!"preamble"
    let d ← required date m str!"publication_date"
    let abbreviations ← defaulted abbreviations [] m str!"contained_abbreviations"
    let children ← required (list (actChild c)) m str!"children"
    some ⟨id, subject, preamble, d, abbreviations, children⟩

/-- `Fixup` (fixups.rs:36-44) -/
def fixup : Codec Fixup where
  ser f := .map (putUnless f.after.isEmpty (list text) str!"after" f.after ++ put text str!"old" f.old ++
    put text str!"new" f.new ++ putUnless (!f.setBold) boolean str!"set_bold" f.setBold)
  de v := do
    let m ← fields v
    let after ← defaulted (list text) [] m str!"after"
    let old ← required text m str!"old"
    let new ← required text m str!"new"
    let setBold ← defaulted boolean false m str!"set_bold"
    some ⟨after, old, new, setBold⟩

end HunLaw.Serde
