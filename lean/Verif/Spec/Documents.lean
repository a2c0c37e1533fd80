import Verif.Model.Stored
import Verif.Spec.Compact
import Verif.Spec.Serde

/-!
Independent specification of the documents of acts, raw acts, pages and fixups: C129. Each structure is a table of
its fields with what is under them; a field which is left out has `none` there.
-/

set_option autoImplicit false

namespace HunLaw.Spec.Documents

open HunLaw
open HunLaw.Serde (Value)

/-! ### forms -/

/-- The fields which are there. -/
def present (fs : List (Str × Option (Value → Prop))) : List (Str × (Value → Prop)) := fs.filterMap fun f => f.2.map fun P => (f.1, P)

/-- A map with exactly these keys, in this order, and such values. -/
def Record (fs : List (Str × Option (Value → Prop))) (v : Value) : Prop :=
  ∃ m, v = .map m ∧ List.Forall₂ (fun f e => e.1 = f.1 ∧ f.2 e.2) (present fs) m

/-- A variant with data. -/
def Tagged (name : Str) (P : Value → Prop) (v : Value) : Prop := ∃ w, v = .map [(name, w)] ∧ P w

/-- A sequence. -/
def ListOf {α : Type} (P : α → Value → Prop) (l : List α) (v : Value) : Prop := ∃ w, v = .seq w ∧ List.Forall₂ P l w

/-- A field which is left out in this case. -/
def omitIf (b : Bool) (P : Value → Prop) : Option (Value → Prop) := if b then none else some P

def IsText (s : Str) (v : Value) : Prop := v = .str s
def IsNumber (z : Int) (v : Value) : Prop := v = .int z
def IsBool (b : Bool) (v : Value) : Prop := v = .bool b
def IsFloat (x : Rat) (v : Value) : Prop := v = .float x

/-- A text which says it. -/
def Says {α : Type} (P : Str → α → Prop) (x : α) (v : Value) : Prop := ∃ s, v = .str s ∧ P s x

/-- A date in the form of ISO 8601: the year with at least four digits, the month and the day with two. -/
def IsoDate (s : Str) (d : Date) : Prop :=
  ∃ y m n, s = y ++ '-' :: (m ++ '-' :: n) ∧ WritesInteger y d.year ∧ 4 ≤ y.length ∧ m.length = 2 ∧ WritesNumber m d.month ∧
    n.length = 2 ∧ WritesNumber n d.day

/-! ### identifiers and references -/

def IsDate : Date → Value → Prop := Says IsoDate
def IsNumeric : NumericId → Value → Prop := Says CompactNumeric
def IsLetter : HunChar → Value → Prop := Says CompactLetter
def IsPrefixed : PrefixedId → Value → Prop := Says CompactSubpoint

/-- An article: its number, after that of the book and a colon if there is a book. -/
def ArticleText (s : Str) (a : ArticleId) : Prop :=
  match a.book with
  | none => CompactNumeric s a.identifier
  | some b => ∃ t u, s = t ++ ':' :: u ∧ WritesNumber t b.val ∧ CompactNumeric u a.identifier

def IsArticleId : ArticleId → Value → Prop := Says ArticleText

def IsActId (a : ActId) : Value → Prop := Record [(str!"year", some (IsNumber a.year.val)), (str!"number", some (IsNumber a.number.val))]

/-- One identifier, or the two ends. -/
def IsRange {α : Type} (P : α → Value → Prop) (r : IdRange α) (v : Value) : Prop :=
  (r.start = r.fin ∧ P r.start v) ∨ (r.start ≠ r.fin ∧ Record [(str!"start", some (P r.start)), (str!"end", some (P r.fin))] v)

def IsPoint : RefPartPoint → Value → Prop
  | .numeric r => IsRange IsNumeric r
  | .alphabetic r => IsRange IsLetter r

def IsSubpoint : RefPartSubpoint → Value → Prop
  | .numeric r => IsRange IsNumeric r
  | .alphabetic r => IsRange IsPrefixed r

def IsRef (r : Ref) : Value → Prop :=
  Record [(str!"act", r.act.map IsActId), (str!"article", r.article.map (IsRange IsArticleId)),
    (str!"paragraph", r.paragraph.map (IsRange IsNumeric)), (str!"point", r.point.map IsPoint), (str!"subpoint", r.subpoint.map IsSubpoint)]

def IsPlace : StructuralRefElement → Value → Prop
  | .part i => Tagged str!"Part" (IsNumeric i)
  | .title i => Tagged str!"Title" (IsNumeric i)
  | .chapter i => Tagged str!"Chapter" (IsNumeric i)
  | .subtitleId i => Tagged str!"SubtitleId" (IsNumeric i)
  | .subtitleRange r => Tagged str!"SubtitleRange" (IsRange IsNumeric r)
  | .subtitleTitle t => Tagged str!"SubtitleTitle" (IsText t)
  | .subtitleAfterArticle i => Tagged str!"SubtitleAfterArticle" (IsArticleId i)
  | .subtitleBeforeArticle i => Tagged str!"SubtitleBeforeArticle" (IsArticleId i)
  | .subtitleBeforeArticleInclusive i => Tagged str!"SubtitleBeforeArticleInclusive" (IsArticleId i)
  | .subtitleUnknown => IsText str!"SubtitleUnknown"
  | .article r => Tagged str!"Article" (IsRange IsArticleId r)

def IsContainer : StructuralRefParent → Value → Prop
  | .part i => Tagged str!"Part" (IsNumeric i)
  | .title i => Tagged str!"Title" (IsNumeric i)
  | .chapter i => Tagged str!"Chapter" (IsNumeric i)
  | .subtitleId i => Tagged str!"SubtitleId" (IsNumeric i)
  | .subtitleRange r => Tagged str!"SubtitleRange" (IsRange IsNumeric r)
  | .subtitleTitle t => Tagged str!"SubtitleTitle" (IsText t)

def IsStructuralRef (r : StructuralRef) : Value → Prop :=
  Record [(str!"act", r.act.map IsActId), (str!"book", r.book.map IsNumeric), (str!"parent", r.parent.map IsContainer),
    (str!"structural_element", some (IsPlace r.element)), (str!"title_only", omitIf (!r.titleOnly) (IsBool true))]

/-! ### semantic information -/

def IsOutgoing (r : OutgoingRef) : Value → Prop :=
  Record [(str!"start", some (IsNumber r.start)), (str!"end", some (IsNumber r.fin)), (str!"reference", some (IsRef r.reference))]

/-- Which words of a provision are changed; `none` means all of them. -/
def wordsName : TextAmendmentPart → Option Str
  | .all => none
  | .introOnly => some str!"IntroOnly"
  | .wrapUpOnly => some str!"WrapUpOnly"

def IsChangedPlace : TextAmendmentRef → Value → Prop
  | .sae r p => Tagged str!"SAE" (Record [(str!"reference", some (IsRef r)), (str!"amended_part", (wordsName p).map IsText)])
  | .structural r => Tagged str!"Structural" (IsStructuralRef r)
  | .articleTitle r => Tagged str!"ArticleTitle" (IsRef r)

def IsTextAmendment (a : TextAmendment) : Value → Prop :=
  Record [(str!"reference", some (IsChangedPlace a.reference)), (str!"from", some (IsText a.fromText)), (str!"to", some (IsText a.toText))]

def IsDay : EnforcementDateType → Value → Prop
  | .date d => Tagged str!"Date" (IsDate d)
  | .daysAfterPublication n => Tagged str!"DaysAfterPublication" (IsNumber n.val)
  | .dayInMonthAfterPublication month day => Tagged str!"DayInMonthAfterPublication"
      (Record [(str!"month", month.map fun x => IsNumber x.val), (str!"day", some (IsNumber day.val))])

def IsEnforcement (e : EnforcementDate) : Value → Prop :=
  Record [(str!"positions", omitIf e.positions.isEmpty (ListOf IsRef e.positions)),
    (str!"structural_positions", omitIf e.structuralPositions.isEmpty (ListOf IsStructuralRef e.structuralPositions)),
    (str!"is_default", omitIf (!e.isDefault) (IsBool true)), (str!"date", some (IsDay e.date)), (str!"inline_repeal", e.inlineRepeal.map IsDate)]

def IsRepealed : RepealRef → Value → Prop
  | .reference r => Tagged str!"Reference" (IsRef r)
  | .structural r => Tagged str!"StructuralReference" (IsStructuralRef r)

def IsPhrase : SpecialPhrase → Value → Prop
  | .blockAmendment r b => Tagged str!"BlockAmendment" (Record [(str!"position", some (IsRef r)), (str!"pure_insertion", some (IsBool b))])
  | .enforcementDate e => Tagged str!"EnforcementDate" (IsEnforcement e)
  | .repeal l => Tagged str!"Repeal" (ListOf IsRepealed l)
  | .textAmendment l => Tagged str!"TextAmendment" (ListOf IsTextAmendment l)
  | .structuralBlockAmendment r b =>
      Tagged str!"StructuralBlockAmendment" (Record [(str!"position", some (IsStructuralRef r)), (str!"pure_insertion", some (IsBool b))])

/-- A map from abbreviations to acts. -/
def IsAbbreviations (m : List (Str × ActId)) : Value → Prop := Record (m.map fun e => (e.1, some (IsActId e.2)))

def IsInfo (i : SemanticInfo) : Value → Prop :=
  Record [(str!"outgoing_references", omitIf i.outgoingReferences.isEmpty (ListOf IsOutgoing i.outgoingReferences)),
    (str!"new_abbreviations", omitIf i.newAbbreviations.isEmpty (IsAbbreviations i.newAbbreviations)),
    (str!"special_phrase", i.specialPhrase.map IsPhrase)]

/-! ### lines and elements -/

def IsLinePart (p : LinePart) : Value → Prop :=
  Record [(str!"dx", some (IsFloat p.dx)), (str!"content", some (IsText [p.content])), (str!"bold", some (IsBool p.bold))]

/-- A line, with its text beside its parts. -/
def IsLine (l : Line) : Value → Prop :=
  Record [(str!"parts", some (ListOf IsLinePart l.parts)), (str!"justified", some (IsBool l.justified)),
    (str!"cached_content", some (IsText (l.parts.map (·.content)))), (str!"cached_bold", some (IsBool l.cachedBold))]

def IsCause : ChangeCause → Value → Prop
  | .amendment r => Tagged str!"Amendment" (IsRef r)
  | .autoRepeal => IsText str!"AutoRepeal"
  | .other s => Tagged str!"Other" (IsText s)

def IsChange (x : LastChange) : Value → Prop := Record [(str!"date", some (IsDate x.date)), (str!"cause", some (IsCause x.cause))]

/-- A text alone, or the words around the children. -/
def IsBody {C : Type} (P : C → Value → Prop) : SAEBody C → Value → Prop
  | .text t => IsText t
  | .children intro c wrapUp => Record [(str!"intro", some (IsText intro)), (str!"children", some (P c)), (str!"wrap_up", wrapUp.map IsText)]

/-- An element. The identifier may be left out. -/
def IsElement {I C : Type} (id : I → Option (Value → Prop)) (P : C → Value → Prop) (e : SAE I C) : Value → Prop :=
  Record [(str!"identifier", id e.identifier), (str!"body", some (IsBody P e.body)),
    (str!"semantic_info", omitIf (e.semanticInfo.outgoingReferences.isEmpty && e.semanticInfo.newAbbreviations.isEmpty &&
      e.semanticInfo.specialPhrase.isNone) (IsInfo e.semanticInfo)),
    (str!"last_change", e.lastChange.map IsChange)]

def IsAlphabeticSubpoint : AlphabeticSubpoint → Value → Prop := IsElement (fun i => some (IsPrefixed i)) fun c _ => nomatch c
def IsNumericSubpoint : NumericSubpoint → Value → Prop := IsElement (fun i => some (IsNumeric i)) fun c _ => nomatch c

def IsNumericPoint : NumericPoint → Value → Prop := IsElement (fun i => some (IsNumeric i)) fun
  | .alphabeticSubpoint l => Tagged str!"AlphabeticSubpoint" (ListOf IsAlphabeticSubpoint l)

def IsAlphabeticPoint : AlphabeticPoint → Value → Prop := IsElement (fun i => some (IsLetter i)) fun
  | .alphabeticSubpoint l => Tagged str!"AlphabeticSubpoint" (ListOf IsAlphabeticSubpoint l)
  | .numericSubpoint l => Tagged str!"NumericSubpoint" (ListOf IsNumericSubpoint l)

def IsQuoted (q : QuotedBlock) : Value → Prop :=
  Record [(str!"intro", q.intro.map IsText), (str!"lines", some (ListOf IsLine q.lines)), (str!"wrap_up", q.wrapUp.map IsText)]

/-- A paragraph: the identifier of the only paragraph of an article is left out. -/
def IsParagraph {A : Type} (P : A → Value → Prop) : Paragraph A → Value → Prop := IsElement (fun i => i.id.map IsNumeric) fun
  | .alphabeticPoint l => Tagged str!"AlphabeticPoint" (ListOf IsAlphabeticPoint l)
  | .numericPoint l => Tagged str!"NumericPoint" (ListOf IsNumericPoint l)
  | .quotedBlock l => Tagged str!"QuotedBlock" (ListOf IsQuoted l)
  | .amendment a => P a

def IsArticle {A : Type} (P : A → Value → Prop) (a : Article A) : Value → Prop :=
  Record [(str!"identifier", some (IsArticleId a.identifier)), (str!"title", a.title.map IsText),
    (str!"children", some (ListOf (IsParagraph P) a.children)), (str!"last_change", a.lastChange.map IsChange)]

def IsKind : SEType → Value → Prop
  | .book => IsText str!"Book"
  | .part special => Tagged str!"Part" (Record [(str!"is_special", omitIf (!special) (IsBool true))])
  | .title => IsText str!"Title"
  | .chapter => IsText str!"Chapter"

def IsStructural (e : StructuralElement) : Value → Prop :=
  Record [(str!"identifier", some (IsNumeric e.identifier)), (str!"title", some (IsText e.title)), (str!"element_type", some (IsKind e.elementType)),
    (str!"last_change", e.lastChange.map IsChange)]

def IsSubtitle (s : Subtitle) : Value → Prop :=
  Record [(str!"identifier", s.identifier.map IsNumeric), (str!"title", some (IsText s.title)), (str!"last_change", s.lastChange.map IsChange)]

def IsChild {A : Type} (P : A → Value → Prop) : ActChild A → Value → Prop
  | .structuralElement e => Tagged str!"StructuralElement" (IsStructural e)
  | .subtitle s => Tagged str!"Subtitle" (IsSubtitle s)
  | .article a => Tagged str!"Article" (IsArticle P a)

/-- The elements between the words around them. -/
def IsAmended (P : Value → Prop) (intro wrapUp : Option Str) : Value → Prop :=
  Record [(str!"intro", intro.map IsText), (str!"children", some P), (str!"wrap_up", wrapUp.map IsText)]

/-- There are no amendments in amendments. -/
def IsNothing (x : Empty) (_ : Value) : Prop := nomatch x

def IsAmendedElements : BlockAmendmentChildren → Value → Prop
  | .paragraph l => Tagged str!"Paragraph" (ListOf (IsParagraph IsNothing) l)
  | .alphabeticPoint l => Tagged str!"AlphabeticPoint" (ListOf IsAlphabeticPoint l)
  | .numericPoint l => Tagged str!"NumericPoint" (ListOf IsNumericPoint l)
  | .alphabeticSubpoint l => Tagged str!"AlphabeticSubpoint" (ListOf IsAlphabeticSubpoint l)
  | .numericSubpoint l => Tagged str!"NumericSubpoint" (ListOf IsNumericSubpoint l)

def IsAmendment : Amendment → Value → Prop
  | .block intro c wrapUp => Tagged str!"BlockAmendment" (IsAmended (IsAmendedElements c) intro wrapUp)
  | .structural intro l wrapUp => Tagged str!"StructuralBlockAmendment" (IsAmended (ListOf (IsChild IsNothing) l) intro wrapUp)

/-- The document of an act. -/
def IsAct (a : Act Amendment) : Value → Prop :=
  Record [(str!"identifier", some (IsActId a.identifier)), (str!"subject", some (IsText a.subject)), (str!"preamble", some (IsText a.preamble)),
    (str!"publication_date", some (IsDate a.publicationDate)),
    (str!"contained_abbreviations", omitIf a.containedAbbreviations.isEmpty (IsAbbreviations a.containedAbbreviations)),
    (str!"children", some (ListOf (IsChild IsAmendment) a.children))]

/-! ### what is stored before an act is made -/

/-- The document of a raw act. -/
def IsRaw (a : ActRawText) : Value → Prop :=
  Record [(str!"identifier", some (IsActId a.identifier)), (str!"subject", some (IsText a.subject)),
    (str!"publication_date", some (IsDate a.publicationDate)), (str!"body", some (ListOf IsLine a.body))]

/-- The document of the pages of an issue. -/
def IsPages : List Page → Value → Prop := ListOf fun p => Record [(str!"lines", some (ListOf IsLine p))]

/-- The document of a fixup. -/
def IsFixup (f : Fixup) : Value → Prop :=
  Record [(str!"after", omitIf f.after.isEmpty (ListOf IsText f.after)), (str!"old", some (IsText f.old)), (str!"new", some (IsText f.new)),
    (str!"set_bold", omitIf (!f.setBold) (IsBool true))]

end HunLaw.Spec.Documents
