import Verif.Model.Peg

/-!
Model of /repo/hun_law_grammar/grammar.ebnf and of /repo/hun_law_grammar/src/lib.rs. Line numbers without a file
are of grammar.ebnf.

Simplifications: the records made by the generator have an optional field for every name in a rule; where only some
combinations can come from the rule, the model has a sum of these. Parts which the rest of the code does not look at
(the contents of tokens and attachment references) are dropped. `@memoize` is modelled for `ActTitle` (309) only;
the other rule with it, `AnyStructuralReference` (213), does not depend on the context, so it makes no difference.
-/

set_option autoImplicit false

namespace HunLaw.Grammar

open HunLaw P

/-! ### The results -/

/-- The fields `id`, `start` and `end` of the reference parts (84-90, 102, 112, 122, 132, 142, 179). -/
inductive IdPart where
  | single (id : Str)
  | range (start fin : Str)
  deriving Repr, DecidableEq

/-- `ParagraphReferencePart` (101-102), `AlphabeticPointReferencePart` (111-112), `NumericPointReferencePart`
(121-122), `AlphabeticSubpointReferencePart` (131-132), `NumericSubpointReferencePart` (141-142). -/
structure Part where
  id : IdPart
  position : Pos
  deriving Repr, DecidableEq

/-- `ArticleReferencePart` (83-89). -/
structure ArticlePart where
  book : Option Str
  id : IdPart
  position : Pos
  deriving Repr, DecidableEq

/-- `Reference` (44-51). -/
structure Reference where
  article : Option (List ArticlePart)
  paragraph : Option (List Part)
  alphabeticPoint : Option (List Part)
  numericPoint : Option (List Part)
  alphabeticSubpoint : Option (List Part)
  numericSubpoint : Option (List Part)
  position : Pos
  deriving Repr, DecidableEq

/-- `InsertionReference` (255-273). -/
structure InsertionReference where
  article : List (List ArticlePart)
  paragraph : Option (List Part)
  alphabeticPoint : Option (List Part)
  numericPoint : Option (List Part)
  alphabeticSubpoint : Option (List Part)
  numericSubpoint : Option (List Part)
  position : Pos
  deriving Repr, DecidableEq

/-- `ActId` (76-77). -/
structure GActId where
  year : Str
  number : Str
  position : Pos
  deriving Repr, DecidableEq

/-- `ActReference` (57-60) with `ActIdWithFromNowOn` (65-70) and `Abbreviation` (150-151). -/
inductive ActReference where
  | actId (id : GActId) (abbreviation : Option Str)
  | abbreviation (content : Str) (position : Pos)
  deriving Repr, DecidableEq

/-- `CompoundReference` (40-42). -/
structure CompoundReference where
  actReference : Option ActReference
  references : List Reference
  deriving Repr, DecidableEq

/-- `AnySimpleExpression` (34-38). -/
inductive SimpleExpression where
  | quote (s : Str)
  | compound (r : CompoundReference)
  | attachment
  | token
  deriving Repr, DecidableEq

/-- `SingleArticleReference` (96-97). -/
structure SingleArticle where
  part : ArticlePart
  position : Pos
  deriving Repr, DecidableEq

/-- `ArticleRelativePosition` (172). -/
inductive ArticleRelative where
  | before (a : SingleArticle)
  | after (a : SingleArticle)
  deriving Repr, DecidableEq

/-- The field `reference` of `AnyStructuralReference` (216-222); the title of `SubtitleTitle` (173) is a text in
both cases. -/
inductive StructuralId where
  | chapter (id : Str)
  | part (id : Str)
  | title (id : Str)
  | subtitle (id : IdPart)
  | subtitleTitle (title : Str)
  deriving Repr, DecidableEq

/-- `AnyStructuralReference` (214-223). -/
structure StructuralReference where
  book : Option Str
  reference : StructuralId
  titleOnly : Bool
  deriving Repr, DecidableEq

/-- `ReferenceWithSubtitle` (279-288). -/
structure ReferenceWithSubtitle where
  article : Option SingleArticle
  id : Option Str
  title : Option Str
  deriving Repr, DecidableEq

/-- `BlockAmendment` (312-323). -/
structure BlockAmendment where
  actReference : ActReference
  parent : Option StructuralReference
  amended : Option Reference
  inserted : Option InsertionReference
  deriving Repr, DecidableEq

/-- `BlockAmendmentWithSubtitle` (325-333). -/
structure BlockAmendmentWithSubtitle where
  actReference : ActReference
  parent : Option StructuralReference
  articleRelative : Option ArticleRelative
  reference : ReferenceWithSubtitle
  isInsertion : Bool
  deriving Repr, DecidableEq

/-- `BlockAmendmentStructural` (335-344). -/
structure BlockAmendmentStructural where
  actReference : ActReference
  parent : Option StructuralReference
  reference : StructuralReference
  book : Option Str
  isInsertion : Bool
  deriving Repr, DecidableEq

/-- A number as a word or in digits (352, 361). -/
inductive Ordinal where
  | word (s : Str)
  | number (s : Str)
  deriving Repr, DecidableEq

/-- `Date` (494). -/
structure GDate where
  year : Str
  month : Str
  day : Str
  deriving Repr, DecidableEq

/-- The field `date` of `EnforcementDate` (385-389): `Date` (494), `AfterPublication` (349-354) or
`DayInMonth` (356-363). -/
inductive EnforcementWhen where
  | date (d : GDate)
  | afterPublication (days : Option Ordinal)
  | dayInMonth (month : Option Str) (day : Ordinal)
  deriving Repr, DecidableEq

/-- `EnforcementDateReference` (395). -/
inductive EnforcementReference where
  | reference (r : Reference)
  | structural (r : StructuralReference)
  | subtitles (l : List IdPart)
  | attachment
  deriving Repr, DecidableEq

/-- `EnforcementDate` (372-393). The exception (377-382) is not looked at. -/
structure GEnforcementDate where
  references : List EnforcementReference
  date : EnforcementWhen
  inlineRepeal : Option GDate
  deriving Repr, DecidableEq

/-- The field `token` of `ReferenceWithIntroWrapup` (411). -/
inductive PartToken where
  | intro
  | wrapUp
  deriving Repr, DecidableEq

/-- The field `child` of `TextAmendmentStructuralReference` (417-422). -/
inductive StructuralChild where
  | relative (a : ArticleRelative)
  | structural (r : StructuralReference)
  deriving Repr, DecidableEq

/-- `TextAmendmentReference` (424-429). -/
inductive TextReference where
  | articleTitle (a : SingleArticle)
  | structural (parent : Option StructuralReference) (child : StructuralChild)
  | subtitles (l : List IdPart)
  | reference (r : Reference) (token : Option PartToken)
  | attachment
  deriving Repr, DecidableEq

/-- `TextAmendment` (431-436), with the fields of `TextAmendmentPart` (438-445). -/
structure GTextAmendment where
  actReference : ActReference
  references : List TextReference
  parts : List (Str × Str)
  deriving Repr, DecidableEq

/-- `Repeal` (452-458). -/
structure GRepeal where
  actReference : ActReference
  references : List TextReference
  texts : List Str
  deriving Repr, DecidableEq

/-- `Root` (20-27). -/
inductive Root where
  | blockAmendment (x : BlockAmendment)
  | blockAmendmentWithSubtitle (x : BlockAmendmentWithSubtitle)
  | blockAmendmentStructural (x : BlockAmendmentStructural)
  | textAmendment (x : GTextAmendment)
  | enforcementDate (x : GEnforcementDate)
  | repeal (x : GRepeal)
  | simple (l : List SimpleExpression)
  deriving Repr, DecidableEq

/-! ### Simple tokens -/

/-- Models `'a'..'z'`. -/
def lowerAz (c : Char) : Bool := decide (97 ≤ c.toNat) && decide (c.toNat ≤ 122)
/-- Models `'A'..'Z'`. -/
def upperAz (c : Char) : Bool := decide (65 ≤ c.toNat) && decide (c.toNat ≤ 90)

/-- Models `HunLower` (466-467). -/
def isHunLower (c : Char) : Bool := lowerAz c || str!"éáőúöüóíű".contains c
/-- Models `HunUpper` (468-469). -/
def isHunUpper (c : Char) : Bool := upperAz c || str!"ÉÁŐÚÖÜÓÍŰ".contains c
/-- Models `HunAny` (464-465). -/
def isHunAny (c : Char) : Bool := isHunLower c || isHunUpper c
/-- Models `HunAny | '-'` (489, 492). -/
def isWordChar (c : Char) : Bool := isHunAny c || c == '-'
/-- Models `RomanNumeralChar` (485-486). -/
def isRomanChar (c : Char) : Bool := str!"IVXLCDM".contains c
/-- Models `Dash` (521-522). -/
def isDashChar (c : Char) : Bool := str!"−–-".contains c

/-- Models `{HunLower}`. -/
def hunLowers : P Unit := do let _ ← many (char isHunLower)
/-- Models `{HunLower}+`. -/
def hunLowers1 : P Unit := do let _ ← many1 (char isHunLower)
/-- Models `{HunAny}`. -/
def hunAnys : P Unit := do let _ ← many (char isHunAny)

/-- Models `Dash` (521-522). -/
def dash : P Unit := do let _ ← char isDashChar
/-- Models `Number` (479-481). -/
def number : P Str := slice (many1 (char isDigit))
/-- Models `NumberWithDot` (478). -/
def numberWithDot : P Str := do
  let n ← call number
  tok str!"."
  pure n
/-- Models `Roman` (482-484). -/
def roman : P Str := slice (many1 (char isRomanChar))
/-- Models `Word` (488-489). -/
def word : P Unit := do let _ ← many1 (char isWordChar)
/-- Models `CapitalizedWord` (491-492). -/
def capitalizedWord : P Unit := do
  let _ ← char isHunUpper
  let _ ← many (char isWordChar)
/-- Models the rule `char` of the generator. -/
def anyChar : P Unit := do let _ ← char fun _ => true
/-- Models `AnyToken` (462). -/
def anyToken : P Unit := call word <|> (do let _ ← call number) <|> call anyChar

/-- Models `Az` (471-472). -/
def az : P Unit := do
  lit str!"a"
  let _ ← opt (lit str!"z")
  lit str!" "
/-- Models `AzUpper` (473-474). -/
def azUpper : P Unit := do
  lit str!"A"
  let _ ← opt (lit str!"z")
  lit str!" "
/-- Models `AzAny` (475-476). -/
def azAny : P Unit := az <|> azUpper
/-- Models `[Az]` in a rule which skips whitespace. -/
def optAz : P Unit := do let _ ← opt (call az)

/-- Models `Month` (496-499). -/
def month : P Str := slice (lits [str!"január", str!"február", str!"március", str!"április", str!"május", str!"június",
  str!"július", str!"augusztus", str!"szeptember", str!"október", str!"november", str!"december"])

/-- Models `Date` (494). -/
def date : P GDate := do
  let y ← call number
  tok str!"."
  let m ← call month
  let d ← call number
  toks [str!"-án", str!"-jén", str!"-én", str!". napján"]
  pure ⟨y, m, d⟩

/-- Models `HungarianOrdinal` (501-508). -/
def hungarianOrdinal : P Str := slice (lits [str!"első", str!"második", str!"harmadik", str!"negyedik", str!"ötödik",
  str!"hatodik", str!"hetedik", str!"nyolcadik", str!"kilencedik", str!"tizedik",
  str!"tizenegyedik", str!"tizenkettedik", str!"tizenharmadik", str!"tizennegyedik", str!"tizenötödik",
  str!"tizenhatodik", str!"tizenhetedik", str!"tizennyolcadik", str!"tizenkilencedik",
  str!"huszadik", str!"harmincadik", str!"negyvenedik", str!"ötvenedik",
  str!"hatvanadik", str!"hetvenedik", str!"nyolcvanadik", str!"kilencvenedik"])

/-- Models `HungarianOrdinalCapital` (510-519). -/
def hungarianOrdinalCapital : P Str := slice (lits [str!"Első", str!"Második", str!"Harmadik", str!"Negyedik",
  str!"Ötödik", str!"Hatodik", str!"Hetedik", str!"Nyolcadik", str!"Kilencedik", str!"Tizedik",
  str!"Tizenegyedik", str!"Tizenkettedik", str!"Tizenharmadik", str!"Tizennegyedik", str!"Tizenötödik",
  str!"Tizenhatodik", str!"Tizenhetedik", str!"Tizennyolcadik", str!"Tizenkilencedik",
  str!"ELSŐ", str!"MÁSODIK", str!"HARMADIK", str!"NEGYEDIK", str!"ÖTÖDIK",
  str!"HATODIK", str!"HETEDIK", str!"NYOLCADIK", str!"KILENCEDIK", str!"TIZEDIK",
  str!"TIZENEGYEDIK", str!"TIZENKETTEDIK", str!"TIZENHARMADIK", str!"TIZENNEGYEDIK", str!"TIZENÖTÖDIK",
  str!"TIZENHATODIK", str!"TIZENHETEDIK", str!"TIZENNYOLCADIK", str!"TIZENKILENCEDIK"])

/-! ### Quotes -/

/-- Models `!('„' | '”') char` (161). -/
def quoteChar : P Unit := do
  not (toks [str!"„", str!"”"])
  call anyChar

/-- Models `QuoteInner` (160-161). -/
def quoteInnerN : Nat → P Unit
  | 0 => ⟨fun _ => none, fun _ _ _ h => by simp at h⟩
  | n + 1 => do
    let _ ← many quoteChar
    let _ ← many (do
      tok str!"„"
      call (quoteInnerN n)
      tok str!"”"
      let _ ← many quoteChar)

/-- Models `QuoteInner` (160-161). -/
def quoteInner : P Str := slice (fuel quoteInnerN)

/-- Models `Quote` (158). -/
def quote : P Str := do
  tok str!"„"
  let s ← call quoteInner
  tok str!"”"
  pure s

/-! ### References -/

/-- Models `ListSeparator` (163). -/
def listSeparator : P Unit := do
  (do
      let _ ← opt (toks [str!",", str!";"])
      toks [str!"és", str!"valamint", str!"illetve", str!"vagy"])
    <|> toks [str!",", str!";"]
  optAz

/-- Models `@:Part { ListSeparator @:Part }` (82, 100, 110, 120, 130, 140, 178). -/
def listOf {α : Type} (p : P α) : P (List α) := do
  let a ← call p
  let l ← many (do
    call listSeparator
    call p)
  pure (a :: l)

/-- Models `SuffixChar` (165-166). -/
def suffixChar : P Unit :=
  lits [str!"cs", str!"dz", str!"gy", str!"ly", str!"ny", str!"sz", str!"ty", str!"zs"] <|>
  (do let _ ← char lowerAz)

/-- Models `ArticleId` (90-92). -/
def articleId : P Str := slice do
  let _ ← number
  let _ ← opt do
    lit str!"/"
    char upperAz

/-- Models `ArticleSuffix` (93-94). -/
def articleSuffix : P Unit :=
  (do
    lit str!"§-"
    hunLowers1)
  <|> lit str!"§"

/-- Models `[book:Number ":"]` (85). -/
def articleBook : P (Option Str) := opt do
  let b ← call number
  tok str!":"
  pure b

/-- Models the first alternative (87). -/
def articleRange : P IdPart := do
  let a ← call articleId
  let _ ← opt do
    tok str!"."
    call articleSuffix
  call dash
  let _ ← opt do
    let _ ← call number
    tok str!":"
  let b ← call articleId
  tok str!"."
  pure (.range a b)

/-- Models the second alternative (88). -/
def articleSingle : P IdPart := do
  let a ← call articleId
  tok str!"."
  pure (.single a)

/-- Models `ArticleReferencePart` (83-89). -/
def articlePart : P ArticlePart := positioned do
  let book ← articleBook
  let id ← articleRange <|> articleSingle
  pure fun p => ⟨book, id, p⟩

/-- Models `ArticleReference` (82). -/
def articleReference : P (List ArticlePart) := do
  let l ← listOf articlePart
  call articleSuffix
  pure l

/-- Models `SingleArticleReference` (96-97). -/
def singleArticle : P SingleArticle := positioned do
  let a ← call articlePart
  call articleSuffix
  pure fun p => ⟨a, p⟩

/-- Models a suffix like `"bekezdés" {HunLower}` with `@no_skip_ws` (106-107, 116-117, 126-127, 136-137, 146-147). -/
def partSuffix (s : Str) : P Unit := do
  lit s
  hunLowers

/-- Models `ParagraphId` (103-105). -/
def paragraphId : P Str := slice do
  let _ ← number
  let _ ← opt suffixChar

/-- Models `ParagraphReferencePart` (101-102). -/
def paragraphPart : P Part := positioned do
  let id ← (do
      tok str!"("
      let a ← call paragraphId
      tok str!")"
      call dash
      tok str!"("
      let b ← call paragraphId
      tok str!")"
      pure (.range a b))
    <|> (do
      tok str!"("
      let a ← call paragraphId
      tok str!")"
      pure (.single a))
  pure fun p => ⟨id, p⟩

/-- Models `ParagraphReference` (100). -/
def paragraphReference : P (List Part) := do
  let l ← listOf paragraphPart
  call (partSuffix str!"bekezdés")
  pure l

/-- Models `AlphabeticPointId` (113-115). -/
def alphabeticPointId : P Str := slice suffixChar

/-- Models `AlphabeticPointReferencePart` (111-112). -/
def alphabeticPointPart : P Part := positioned do
  let id ← (do
      let a ← call alphabeticPointId
      let _ ← opt (tok str!")")
      call dash
      let b ← call alphabeticPointId
      tok str!")"
      pure (.range a b))
    <|> (do
      let a ← call alphabeticPointId
      tok str!")"
      pure (.single a))
  pure fun p => ⟨id, p⟩

/-- Models `AlphabeticPointReference` (110). -/
def alphabeticPointReference : P (List Part) := do
  let l ← listOf alphabeticPointPart
  call (partSuffix str!"pont")
  pure l

/-- Models `NumericPointId` (123-125). -/
def numericPointId : P Str := slice do
  let _ ← number
  let _ ← opt do
    let _ ← opt (lit str!"/")
    suffixChar

/-- Models a part of the form `start Dash end "." | id "."` (121-122, 141-142). -/
def dottedPart (p : P Str) : P Part := positioned do
  let id ← (do
      let a ← call p
      call dash
      let b ← call p
      tok str!"."
      pure (.range a b))
    <|> (do
      let a ← call p
      tok str!"."
      pure (.single a))
  pure fun p => ⟨id, p⟩

/-- Models `NumericPointReference` (120) with `NumericPointReferencePart` (121-122). -/
def numericPointReference : P (List Part) := do
  let l ← listOf (dottedPart numericPointId)
  call (partSuffix str!"pont")
  pure l

/-- Models `AlphabeticSubpointId` (133-135). -/
def alphabeticSubpointId : P Str := slice do
  let _ ← char lowerAz
  opt (char lowerAz)

/-- Models `AlphabeticSubpointReferencePart` (131-132). -/
def alphabeticSubpointPart : P Part := positioned do
  let id ← (do
      let a ← call alphabeticSubpointId
      tok str!")"
      call dash
      let b ← call alphabeticSubpointId
      tok str!")"
      pure (.range a b))
    <|> (do
      let a ← call alphabeticSubpointId
      tok str!")"
      pure (.single a))
  pure fun p => ⟨id, p⟩

/-- Models `AlphabeticSubpointReference` (130). -/
def alphabeticSubpointReference : P (List Part) := do
  let l ← listOf alphabeticSubpointPart
  call (partSuffix str!"alpont")
  pure l

/-- Models `NumericSubpointReference` (140) with `NumericSubpointReferencePart` (141-142) and
`NumericSubpointId` (143-145). -/
def numericSubpointReference : P (List Part) := do
  let l ← listOf (dottedPart number)
  call (partSuffix str!"alpont")
  pure l

/-- The parts of a reference below the article. -/
structure Tail where
  paragraph : Option (List Part) := none
  alphabeticPoint : Option (List Part) := none
  numericPoint : Option (List Part) := none
  alphabeticSubpoint : Option (List Part) := none
  numericSubpoint : Option (List Part) := none

/-- The reference with these parts. -/
def Tail.reference (article : Option (List ArticlePart)) (t : Tail) (p : Pos) : Reference :=
  ⟨article, t.paragraph, t.alphabeticPoint, t.numericPoint, t.alphabeticSubpoint, t.numericSubpoint, p⟩

/-- Models `[>...]`: nothing if it does not fit. -/
def optTail (p : P Tail) : P Tail := do
  let t ← opt p
  pure (t.getD {})

/-- Models `ReferenceWithSubpoint` (55). -/
def withSubpoint : P Tail :=
  (do
    let l ← call alphabeticSubpointReference
    pure { alphabeticSubpoint := some l })
  <|> (do
    let l ← call numericSubpointReference
    pure { numericSubpoint := some l })

/-- Models `(alphabetic_point:AlphabeticPointReference | numeric_point:NumericPointReference)` (54, 266, 269). -/
def pointTail : P Tail :=
  (do
    let l ← call alphabeticPointReference
    pure { alphabeticPoint := some l })
  <|> (do
    let l ← call numericPointReference
    pure { numericPoint := some l })

/-- Models `ReferenceWithPoint` (54). -/
def withPoint : P Tail := do
  let a ← pointTail
  let t ← optTail withSubpoint
  pure { a with alphabeticSubpoint := t.alphabeticSubpoint, numericSubpoint := t.numericSubpoint }

/-- Models `ReferenceWithParagraph` (53). -/
def withParagraph : P Tail := do
  let l ← call paragraphReference
  let t ← optTail withPoint
  pure { t with paragraph := some l }

/-- Models the first alternative (46). -/
def articleWithParagraph : P (Option (List ArticlePart) × Tail) := do
  let a ← call articleReference
  let t ← withParagraph
  pure (some a, t)

/-- Models the second alternative (47). -/
def articleWithPoint : P (Option (List ArticlePart) × Tail) := do
  let a ← call articleReference
  let t ← optTail withPoint
  pure (some a, t)

/-- Models the other alternatives (48-50). -/
def withoutArticle : P (Option (List ArticlePart) × Tail) := do
  let t ← withParagraph <|> withPoint <|> withSubpoint
  pure (none, t)

/-- Models `Reference` (44-51). -/
def reference : P Reference := positioned do
  let r ← articleWithParagraph <|> articleWithPoint <|> withoutArticle
  pure fun p => r.2.reference r.1 p

/-! ### Acts -/

/-- Models `ActSuffix` (78-79). -/
def actSuffix : P Unit :=
  (do
    lit str!"törvén"
    hunLowers1)
  <|> lit str!"tv."

/-- Models `ActId` (76-77). -/
def actId : P GActId := positioned do
  let y ← call number
  tok str!"."
  tok str!"évi"
  let n ← call roman
  tok str!"."
  call actSuffix
  pure fun p => ⟨y, n, p⟩

/-- Models `!")" char` (74) in a rule with `@no_skip_ws`. -/
def notBracket : P Char := char fun c => c != ')'

/-- Models `PotentialAbbreviation` (72-74). -/
def potentialAbbreviation : P Str := slice (many1 notBracket)

/-- Models `ActId | abbreviation:PotentialAbbreviation` (69). -/
def fromNowOnName : P (Option Str) :=
  (do
    let _ ← call actId
    pure none)
  <|> (do
    let a ← call potentialAbbreviation
    pure (some a))

/-- Models the part in brackets (68-70). -/
def fromNowOn : P (Option Str) := do
  tok str!"("
  tok str!"a"
  tok str!"továbbiakban"
  let _ ← opt (tok str!":")
  let a ← fromNowOnName
  tok str!")"
  pure a

/-- Models `ActIdWithFromNowOn` (66-70) without its check. -/
def actIdWithFromNowOn : P (GActId × Option Str) := do
  let i ← call actId
  let a ← opt fromNowOn
  pure (i, a.join)

/-- Models `store_abbreviation` (lib.rs:35-40). -/
def St.store (s : St) : Option Str → St
  | some a => { s with known := s.known ++ [a] }
  | none => s

def checkedRun (i : Inp) (s : St) : Option (ActReference × Inp) × St :=
  match actIdWithFromNowOn.run i with
  | some ((x, a), j) => (some (.actId x a, j), s.store a)
  | none => (none, s)

/-- Models `ActIdWithFromNowOn` (65-70) with its check. -/
def checkedActId : PS ActReference where
  run := checkedRun
  adv i s a j t h := by
    unfold checkedRun at h
    rcases hp : actIdWithFromNowOn.run i with _ | ⟨⟨x, b⟩, k⟩ <;> rw [hp] at h
    · simp at h
    · cases h; exact actIdWithFromNowOn.adv i _ _ hp

/-- Models `parse_abbreviation` (lib.rs:42-52): the abbreviation, or nothing. -/
def parseAbbreviation (known : List Str) (s : Str) : Option Str := known.find? fun a => a.isPrefixOf s

def abbreviationRun (i : Inp) (s : St) : Option (Str × Inp) × St :=
  match parseAbbreviation s.known i.rest with
  | some a => (some (a, i.drop a.length), s)
  | none => (none, s)

/-- Models `AbbreviationContent` (153-154). -/
def abbreviationContent : PS Str where
  run := abbreviationRun
  adv i s a j t h := by
    unfold abbreviationRun at h
    split at h
    · cases h; exact .drop _ i
    · simp at h

def positionedAbbreviationRun (i : Inp) (s : St) : Option (ActReference × Inp) × St :=
  match (PS.call abbreviationContent).run i s with
  | (some (a, j), t) => (some (.abbreviation a ⟨i.pos, j.pos⟩, j), t)
  | (none, t) => (none, t)

/-- Models `Abbreviation` (150-151). -/
def abbreviation : PS ActReference where
  run := positionedAbbreviationRun
  adv i s a j t h := by
    unfold positionedAbbreviationRun at h
    rcases hp : (PS.call abbreviationContent).run i s with ⟨_ | ⟨b, k⟩, u⟩ <;> rw [hp] at h
    · simp at h
    · cases h; exact (PS.call abbreviationContent).adv i s _ _ _ hp

/-- Models `ActReference` (57-60). -/
def actReference : PS ActReference := PS.call checkedActId <|> PS.call abbreviation

/-- Models the first alternative (41). -/
def compoundWithReferences : PS CompoundReference := do
  let a ← PS.opt (PS.call actReference)
  let r ← PS.lift (call reference)
  let l ← PS.lift (many do
    call listSeparator
    call reference)
  pure ⟨a, r :: l⟩

/-- Models the second alternative (42). -/
def compoundActOnly : PS CompoundReference := do
  let a ← PS.call actReference
  pure ⟨some a, []⟩

/-- Models `CompoundReference` (40-42). -/
def compoundReference : PS CompoundReference := compoundWithReferences <|> compoundActOnly

/-! ### Other references -/

/-- Models `AttachmentReferencePart` (231). -/
def attachmentPart : P Unit := do
  (do
      let _ ← call number
      call dash
      let _ ← call number)
    <|> (do let _ ← call number)
  tok str!"."

/-- Models `AttachmentSuffix` (232-233). -/
def attachmentSuffix : P Unit := do
  let _ ← opt (lit str!"számú ")
  lit str!"melléklet"
  hunLowers

/-- Models `AttachmentJunkIdChar` (244-245). -/
def isJunkIdChar (c : Char) : Bool :=
  lowerAz c || upperAz c || isDigit c || isDashChar c || c == '.' || c == '(' || c == ')'

/-- Models `AttachmentJunkId` (241-242). -/
def attachmentJunkId : P Unit := (do let _ ← quote) <|> (do let _ ← many1 (char isJunkIdChar))

/-- Models `AttachmentJunkId [ListSeparator [Whitespace]]` (237). -/
def attachmentJunkItem : P Unit := do
  attachmentJunkId
  let _ ← opt do
    listSeparator
    opt ws

/-- Models the first alternative (237). -/
def attachmentJunkIds : P Unit := do
  let _ ← many1 attachmentJunkItem
  ws
  lits [str!"pont", str!"alpont", str!"rész", str!"fejezet", str!"sor", str!"oszlop"]
  hunLowers

/-- Models `AttachmentJunk` (235-239). -/
def attachmentJunk : P Unit :=
  attachmentJunkIds
  <|> (do
    lit str!"foglalt táblázat"
    hunLowers)
  <|> (do
    lit str!"cím"
    hunLowers)

/-- Models `AttachmentReference` (227-230). -/
def attachmentReference : P Unit := do
  let _ ← listOf attachmentPart
  call attachmentSuffix
  let _ ← many do
    call attachmentJunk
    opt (call listSeparator)

/-! ### Structural references -/

/-- Models `AfterArticle` (170). -/
def afterArticle : P SingleArticle := do
  optAz
  let a ← call singleArticle
  toks [str!"követően", str!"követő"]
  pure a

/-- Models `BeforeArticle` (171). -/
def beforeArticle : P SingleArticle := do
  optAz
  let a ← call singleArticle
  toks [str!"megelőzően", str!"megelőző", str!"előtti"]
  pure a

/-- Models `ArticleRelativePosition` (172). -/
def articleRelative : P ArticleRelative :=
  (do
    let a ← call beforeArticle
    pure (.before a))
  <|> (do
    let a ← call afterArticle
    pure (.after a))

/-- Models `SubtitleSuffix` (183-184). -/
def subtitleSuffix : P Unit := partSuffix str!"alcím"

/-- Models `SubtitleSuffixPossessive` (187-188). -/
def subtitleSuffixPossessive : P Unit := do
  lits [str!"alcíme", str!"alcímében", str!"alcím címe", str!"alcím címében"]
  not (char isHunLower)

/-- Models `!(["című"] SubtitleSuffixPossessive) AnyToken` (176). -/
def rawTitleToken : P Unit := do
  not do
    let _ ← opt (tok str!"című")
    call subtitleSuffixPossessive
  call anyToken

/-- Models `RawTitle` (175-176). -/
def rawTitle : P Str := slice do
  call capitalizedWord
  many rawTitleToken

/-- Models `SubtitleTitle` (173). -/
def subtitleTitle : P Str := do
  let t ← call quote <|> call rawTitle
  let _ ← opt (tok str!"című")
  call subtitleSuffix
  pure t

/-- Models `Number [["/"] 'A'..'Z']` in a rule which skips whitespace (181-182). -/
def subtitleId : P Str := slice do
  let _ ← call number
  let _ ← opt do
    let _ ← opt (tok str!"/")
    call (char upperAz)

/-- Models `SubtitleReferencePart` (179). -/
def subtitlePart : P IdPart :=
  (do
    let a ← call subtitleId
    let _ ← opt (tok str!".")
    call dash
    let b ← call subtitleId
    tok str!"."
    pure (.range a b))
  <|> (do
    let a ← call subtitleId
    tok str!"."
    pure (.single a))

/-- Models `SubtitlesReference` (178). -/
def subtitlesReference : P (List IdPart) := do
  let l ← listOf subtitlePart
  call subtitleSuffix
  pure l

/-- Models a suffix like `("könyv" | "Könyv" | "KÖNYV") {HunAny}` with `@no_skip_ws` (191-192, 197-198, 201-202,
207-208). -/
def levelSuffix (l : List Str) : P Unit := do
  lits l
  hunAnys

/-- Models `BookReference` (190) with `BookSuffix` (191-192). -/
def bookReference : P Str := do
  let id ← call hungarianOrdinalCapital
  call (levelSuffix [str!"könyv", str!"Könyv", str!"KÖNYV"])
  pure id

/-- Models `ChapterId` (194-195) and `TitleId` (204-205). -/
def romanId : P Str := slice do
  let _ ← call roman
  let _ ← opt do
    let _ ← opt (tok str!"/")
    call (char upperAz)

/-- Models `ChapterReference` (196) with `ChapterSuffix` (197-198). -/
def chapterReference : P Str := do
  let id ← call romanId
  tok str!"."
  call (levelSuffix [str!"fejezet", str!"Fejezet", str!"FEJEZET"])
  pure id

/-- Models `PartReference` (200) with `PartSuffix` (201-202). -/
def partReference : P Str := do
  let id ← call hungarianOrdinalCapital
  call (levelSuffix [str!"rész", str!"Rész", str!"RÉSZ"])
  pure id

/-- Models `TitleReference` (206) with `TitleSuffix` (207-208). -/
def titleReference : P Str := do
  let id ← call romanId
  tok str!"."
  call (levelSuffix [str!"cím", str!"Cím", str!"CÍM"])
  pure id

/-- Models `TitleOnlyToken` (210-211). -/
def titleOnlyToken : P Unit :=
  (do
    lit str!"címe"
    let _ ← opt (lit str!"i"))
  <|> (do
    lit str!"címé"
    hunLowers)

/-- Models the alternatives of `AnyStructuralReference` (217-221). -/
def structuralId : P StructuralId :=
  (do
    let x ← call chapterReference
    pure (.chapter x))
  <|> (do
    let x ← call partReference
    pure (.part x))
  <|> (do
    let x ← call titleReference
    pure (.title x))
  <|> (do
    let x ← call subtitlePart
    call subtitleSuffix
    pure (.subtitle x))
  <|> (do
    let x ← call subtitleTitle
    pure (.subtitleTitle x))

/-- Models `AnyStructuralReference` (213-223). -/
def structuralReference : P StructuralReference := do
  let b ← opt (call bookReference)
  let r ← structuralId
  let t ← opt (call titleOnlyToken)
  pure ⟨b, r, t.isSome⟩

/-! ### Block amendments -/

/-- Models `AmendmentCombinatorJunk` (249). -/
def amendmentCombinatorJunk : P Unit := do
  let _ ← many (toks [str!"és", str!"valamint", str!"ezzel", str!"egyidejűleg"])

/-- Models `TheFollowing` (250-251). -/
def theFollowing : P Unit := do
  let _ ← opt (lits [str!"a ", str!"az "])
  lit str!"következő" <|> (do
    lit str!"alábbi"
    hunLowers)

/-- Models `InsertionToken` (253). -/
def insertionToken : P Unit := do
  call amendmentCombinatorJunk
  call theFollowing

/-- The first alternative of `InsertionReference` (257). -/
def insertion1 : P (List (List ArticlePart) × Tail) := do
  call insertionToken
  let a ← call articleReference
  let p ← call paragraphReference
  pure ([a], { paragraph := some p })

/-- The second alternative (259). -/
def insertion2 : P (List (List ArticlePart) × Tail) := do
  call insertionToken
  let a ← call articleReference
  let b ← opt do
    call listSeparator
    call articleReference
  pure (a :: b.toList, {})

/-- Models `[Az] article:ArticleReference` (261). -/
def azArticle : P (List ArticlePart) := do
  optAz
  call articleReference

/-- The third alternative (261-263). -/
def insertion3 : P (List (List ArticlePart) × Tail) := do
  let a ← opt ((do
      let a ← azArticle
      pure [a])
    <|> (do
      tok str!"a §"
      pure []))
  call insertionToken
  let p ← call paragraphReference
  pure (a.getD [], { paragraph := some p })

/-- The fourth alternative (265-267). -/
def insertion4 : P (List (List ArticlePart) × Tail) := do
  let a ← opt ((do
      let a ← azArticle
      let p ← opt (call paragraphReference)
      pure ([a], p))
    <|> (do
      tok str!"a §"
      pure ([], none))
    <|> (do
      tok str!"a bekezdés"
      pure ([], none)))
  call insertionToken
  let t ← pointTail
  pure ((a.getD ([], none)).1, { t with paragraph := (a.getD ([], none)).2 })

/-- The fifth alternative (269-272). -/
def insertion5 : P (List (List ArticlePart) × Tail) := do
  let a ← azArticle
  let p ← opt (call paragraphReference)
  let t ← pointTail
  call insertionToken
  let s ← withSubpoint
  pure ([a], { t with paragraph := p, alphabeticSubpoint := s.alphabeticSubpoint, numericSubpoint := s.numericSubpoint })

/-- The insertion reference with these parts. -/
def Tail.insertion (article : List (List ArticlePart)) (t : Tail) (p : Pos) : InsertionReference :=
  ⟨article, t.paragraph, t.alphabeticPoint, t.numericPoint, t.alphabeticSubpoint, t.numericSubpoint, p⟩

/-- Models `InsertionReference` (255-273). -/
def insertionReference : P InsertionReference := positioned do
  let r ← insertion1 <|> insertion2 <|> insertion3 <|> insertion4 <|> insertion5
  pure fun p => r.2.insertion r.1 p

/-- Models `SubtitleToken` (276-277). -/
def subtitleToken : P Unit := do
  lit str!"alcím"
  let _ ← opt (lit str!"-")
  hunLowers
  let _ ← opt do
    lit str!" "
    lit str!"cím"
    hunLowers

/-- The first alternative of `ReferenceWithSubtitle` (280). -/
def articleAndSubtitle : P ReferenceWithSubtitle := do
  let a ← call singleArticle
  tok str!"és"
  call az
  let _ ← opt (toks [str!"azt", str!"azokat", str!"§-t"])
  tok str!"megelőző"
  call subtitleToken
  pure ⟨some a, none, none⟩

/-- Models the alternatives in brackets (283-285). -/
def subtitleName : P (Option Str × Option Str) :=
  (do
    let i ← call subtitleId
    tok str!"."
    call subtitleToken
    pure (some i, none))
  <|> (do
    let t ← call quote
    call subtitleToken
    pure (none, some t))
  <|> (do
    call subtitleToken
    pure (none, none))

/-- The second alternative of `ReferenceWithSubtitle` (282-287). -/
def subtitleAndArticle : P ReferenceWithSubtitle := do
  let n ← subtitleName
  let a ← opt do
    tok str!"és"
    call singleArticle
  pure ⟨a, n.1, n.2⟩

/-- Models `ReferenceWithSubtitle` (279-288). -/
def referenceWithSubtitle : P ReferenceWithSubtitle := articleAndSubtitle <|> subtitleAndArticle

/-- Models `AmendmentSuffix` (290-293). -/
def amendmentSuffix : P Unit :=
  (do
    tok str!"helyébe"
    call theFollowing
    toks [str!"rendelkezés lép", str!"rendelkezések lépnek"])
  <|> (do
    call theFollowing
    tok str!"szöveggel lép hatályba")
  <|> (do
    call theFollowing
    tok str!"szerint módosul")

/-- Models `AmendmentSuffixWithSubtitle` (295-296). -/
def amendmentSuffixWithSubtitle : P Unit := do
  tok str!"helyébe"
  call theFollowing
  let _ ← opt (tok str!"rendelkezés és")
  tok str!"alcím"
  let _ ← opt (tok str!"cím")
  let _ ← opt (tok str!"és rendelkezés")
  toks [str!"lép", str!"lépnek"]

/-- Models the optional word (299). -/
def structuralWord : P Unit :=
  (do
    tok str!"alcím"
    let _ ← opt (tok str!"cím"))
  <|> toks [str!"cím", str!"fejezet", str!"Fejezet", str!"rész"]

/-- Models `AmendmentSuffixWithStructural` (298-299). -/
def amendmentSuffixWithStructural : P Unit := do
  tok str!"helyébe"
  call theFollowing
  let _ ← opt structuralWord
  tok str!"lép"

/-- Models `InsertionSuffix` (301-303). -/
def insertionSuffix : P Unit := toks [str!"egészül ki", str!"kiegészülve lép hatályba"]

/-- Models `!("hatálybalépés" | "módosítás" | "összefüggő")` (310). -/
def notTitleWord : P Unit := not (toks [str!"hatálybalépés", str!"módosítás", str!"összefüggő"])

/-- Models `!(ActReference !(...)) AnyToken` (310). -/
def actTitleToken : PS Unit := do
  PS.not do
    let _ ← PS.call actReference
    PS.lift notTitleWord
  PS.lift (call anyToken)

/-- Models the body of `ActTitle` (309-310). -/
def actTitleBody : PS Unit := do
  let _ ← PS.many actTitleToken

def actTitleRun (i : Inp) (s : St) : Option (Unit × Inp) × St :=
  match s.titles.lookup i.pos with
  | some n => (some ((), i.drop n), s)
  | none =>
    match actTitleBody.run i s with
    | (some ((), j), t) =>
      (some ((), j), { t with titles := (i.pos, i.rest.length - j.rest.length) :: t.titles })
    | (none, t) => (none, t)

/-- Models `ActTitle` (308-310) with its memo. -/
def actTitle : PS Unit where
  run := actTitleRun
  adv i s a j t h := by
    unfold actTitleRun at h
    split at h
    · cases h; exact .drop _ i
    · rcases hp : actTitleBody.run i s with ⟨_ | ⟨⟨⟩, k⟩, u⟩ <;> rw [hp] at h
      · simp at h
      · cases h; exact actTitleBody.adv i s _ _ _ hp

/-- Models `ActTitle act_reference:ActReference` (312, 326, 336, 432, 454). -/
def titledActReference : PS ActReference := do
  PS.call actTitle
  PS.call actReference

/-- The first alternative of the brackets in `BlockAmendment` (315). -/
def amendedOnly : PS (Option Reference × Option InsertionReference) := do
  let r ← PS.lift (call reference)
  PS.lift (call amendmentSuffix)
  PS.lift (tok str!":")
  pure (some r, none)

/-- The second alternative (316). -/
def insertedOnly : PS (Option Reference × Option InsertionReference) := do
  let r ← PS.lift (call insertionReference)
  PS.lift (call insertionSuffix)
  PS.lift (tok str!":")
  pure (none, some r)

/-- The third alternative (317-322). -/
def amendedAndInserted : PS (Option Reference × Option InsertionReference) := do
  let r ← PS.lift (call reference)
  PS.lift (call amendmentSuffix)
  let _ ← PS.lift (opt (tok str!","))
  PS.lift (call amendmentCombinatorJunk)
  let _ ← PS.opt do
    PS.lift optAz
    PS.call actReference
  let _ ← PS.lift (opt (call structuralReference))
  let x ← PS.lift (call insertionReference)
  PS.lift (call insertionSuffix)
  PS.lift (tok str!":")
  pure (some r, some x)

/-- Models `BlockAmendment` (312-323). -/
def blockAmendment : PS BlockAmendment := do
  PS.lift (call azAny)
  let a ← titledActReference
  let p ← PS.lift (opt (call structuralReference))
  let r ← amendedOnly <|> insertedOnly <|> amendedAndInserted
  pure ⟨a, p, r.1, r.2⟩

/-- The alternatives of the brackets in `BlockAmendmentWithSubtitle` (329-332). -/
def subtitleAmendment : P (ReferenceWithSubtitle × Bool) :=
  (do
    let r ← call referenceWithSubtitle
    call amendmentSuffix
    tok str!":"
    pure (r, false))
  <|> (do
    let r ← call referenceWithSubtitle
    call amendmentSuffixWithSubtitle
    tok str!":"
    pure (r, false))
  <|> (do
    call insertionToken
    let r ← call referenceWithSubtitle
    call insertionSuffix
    tok str!":"
    pure (r, true))

/-- Models `BlockAmendmentWithSubtitle` (325-333). -/
def blockAmendmentWithSubtitle : PS BlockAmendmentWithSubtitle := do
  PS.lift (call azAny)
  let a ← titledActReference
  let p ← PS.lift (opt (call structuralReference))
  let x ← PS.lift (opt (call articleRelative))
  let r ← PS.lift subtitleAmendment
  pure ⟨a, p, x, r.1, r.2⟩

/-- Models `( AmendmentSuffix | AmendmentSuffixWithStructural ) ":"` (339-340). -/
def structuralSuffix : P Unit := do
  call amendmentSuffix <|> call amendmentSuffixWithStructural
  tok str!":"

/-- The alternatives of the brackets in `BlockAmendmentStructural` (338-343): the parent, the reference, the book
and if it is an insertion. -/
def structuralAmendment : P (Option StructuralReference × StructuralReference × Option Str × Bool) :=
  (do
    let p ← call structuralReference
    let r ← call structuralReference
    structuralSuffix
    pure (some p, r, none, false))
  <|> (do
    let r ← call structuralReference
    structuralSuffix
    pure (none, r, none, false))
  <|> (do
    let p ← call structuralReference
    call insertionToken
    let r ← call structuralReference
    call insertionSuffix
    tok str!":"
    pure (some p, r, none, true))
  <|> (do
    let b ← opt (call bookReference)
    call insertionToken
    let r ← call structuralReference
    call insertionSuffix
    tok str!":"
    pure (none, r, b, true))

/-- Models `BlockAmendmentStructural` (335-344). -/
def blockAmendmentStructural : PS BlockAmendmentStructural := do
  PS.lift (call azAny)
  let a ← titledActReference
  let _ ← PS.lift (opt (call articleRelative))
  let r ← PS.lift structuralAmendment
  pure ⟨a, r.1, r.2.1, r.2.2.1, r.2.2.2⟩

/-! ### Enforcement dates -/

/-- Models `["a" | "e törvény"] ("kihirdetését"| "kihirdetést") "követő"` (350-351, 357-358). -/
def publication : P Unit := do
  let _ ← opt (toks [str!"a", str!"e törvény"])
  toks [str!"kihirdetését", str!"kihirdetést"]
  tok str!"követő"

/-- Models `HungarianOrdinal | NumberWithDot` (352, 361). -/
def ordinal : P Ordinal :=
  (do
    let x ← call hungarianOrdinal
    pure (.word x))
  <|> (do
    let x ← call numberWithDot
    pure (.number x))

/-- Models `AfterPublication` (349-354). -/
def afterPublication : P EnforcementWhen := do
  publication
  let d ← opt ordinal
  tok str!"napon"
  pure (.afterPublication d)

/-- Models `DayInMonth` (356-363). -/
def dayInMonth : P EnforcementWhen := do
  publication
  let m ← opt (call hungarianOrdinal)
  tok str!"hónap"
  let d ← ordinal
  tok str!"napján"
  pure (.dayInMonth m d)

/-- Models `InlineRepeal` (365-370). -/
def inlineRepeal : P GDate := do
  let _ ← opt (tok str!",")
  tok str!"és"
  let _ ← opt do
    toks [str!"ez a", str!"e"]
    tok str!"törvény"
  let d ← call date
  let _ ← opt (tok str!"a")
  tok str!"hatályát veszti"
  pure d

/-- Models `EnforcementDateReference` (395). -/
def enforcementReference : P EnforcementReference :=
  (do
    let r ← call reference
    pure (.reference r))
  <|> (do
    let r ← call structuralReference
    pure (.structural r))
  <|> (do
    let l ← call subtitlesReference
    pure (.subtitles l))
  <|> (do
    call attachmentReference
    pure .attachment)

/-- Models `ExceptionJunk` (397-398). The empty alternative always fits. -/
def exceptionJunk : P Unit := do
  lits [str!"szerinti", str!"foglalt", str!"foglalt", str!""]
  hunLowers
  lit str!" kivétel"
  hunLowers

/-- Models `(("Ez a" | "E") "törvény") | AzUpper` (373-376). -/
def enforcementSubject : P Unit :=
  (do
    toks [str!"Ez a", str!"E"]
    tok str!"törvény")
  <|> call azUpper

/-- Models `[Dash] "a" exception_references:Reference ExceptionJunk [Dash]` (378-381). -/
def enforcementException : P Unit := do
  let _ ← opt (call dash)
  tok str!"a"
  let _ ← call reference
  call exceptionJunk
  let _ ← opt (call dash)

/-- Models `date:Date | date:AfterPublication | date:DayInMonth` (386-388). -/
def enforcementWhen : P EnforcementWhen :=
  (do
    let d ← call date
    pure (.date d))
  <|> call afterPublication
  <|> call dayInMonth

/-- Models `EnforcementDate` (372-393). -/
def enforcementDate : P GEnforcementDate := do
  enforcementSubject
  let _ ← opt enforcementException
  let l ← opt (listOf enforcementReference)
  optAz
  let d ← enforcementWhen
  tok str!"lép hatályba"
  let r ← opt (call inlineRepeal)
  tok str!"."
  pure ⟨l.getD [], d, r⟩

/-! ### Text amendments -/

/-- Models `ArticleTitleToken` (401-402). -/
def articleTitleToken : P Unit := do
  let _ ← opt (lit str!"szakasz")
  lit str!"cím"
  hunLowers1

/-- Models `ArticleTitleReference` (403). -/
def articleTitleReference : P TextReference := do
  let a ← call singleArticle
  call articleTitleToken
  pure (.articleTitle a)

/-- Models `TextAmendmentToken` (447-448). -/
def textAmendmentToken : P Unit := partSuffix str!"szöveg"

/-- Models `IntroToken` (405) and `WrapUpToken` (406) in (411). -/
def partToken : P PartToken :=
  (do
    tok str!"nyitó"
    pure .intro)
  <|> (do
    tok str!"záró"
    pure .wrapUp)

/-- Models `ReferenceWithIntroWrapup` (408-413). -/
def referenceWithIntroWrapup : P TextReference := do
  let r ← call reference
  let t ← opt do
    let t ← partToken
    call textAmendmentToken
    pure t
  pure (.reference r t)

/-- Models `TextAmendmentSubtitleJunk` (415). -/
def subtitleJunk : P Unit :=
  (do
    let _ ← call subtitleTitle
    let _ ← opt (call titleOnlyToken))
  <|> (do
    let _ ← opt (call subtitlePart)
    call subtitleToken)

/-- Models `TextAmendmentStructuralReference` (417-422). -/
def textStructuralReference : P TextReference :=
  (do
    let p ← call structuralReference
    let c ← call articleRelative
    call subtitleJunk
    pure (.structural (some p) (.relative c)))
  <|> (do
    let p ← call structuralReference
    let c ← call structuralReference
    pure (.structural (some p) (.structural c)))
  <|> (do
    let c ← call articleRelative
    call subtitleJunk
    pure (.structural none (.relative c)))
  <|> (do
    let c ← call structuralReference
    pure (.structural none (.structural c)))

/-- Models `TextAmendmentReference` (424-429). -/
def textReference : P TextReference :=
  call articleTitleReference
  <|> call textStructuralReference
  <|> (do
    let l ← call subtitlesReference
    pure (.subtitles l))
  <|> call referenceWithIntroWrapup
  <|> (do
    call attachmentReference
    pure .attachment)

/-- Models `references:TextAmendmentReference [ListSeparator]` (433, 455). -/
def textReferenceItem : P TextReference := do
  let r ← call textReference
  let _ ← opt (call listSeparator)
  pure r

/-- Models `TextAmendmentPart` (438-445). -/
def textAmendmentPart : P (Str × Str) := do
  optAz
  let a ← call quote
  call textAmendmentToken
  toks [str!"helyébe", str!"helyett"]
  optAz
  let b ← call quote
  and (call listSeparator) <|> call textAmendmentToken
  pure (a, b)

/-- Models `TextAmendment` (431-436). -/
def textAmendment : PS GTextAmendment := do
  PS.lift (call azAny)
  let a ← titledActReference
  let l ← PS.lift (many1 textReferenceItem)
  let p ← PS.lift (listOf textAmendmentPart)
  let _ ← PS.lift (opt (tok str!","))
  PS.lift (tok str!"lép")
  let _ ← PS.lift (opt (tok str!"hatályba"))
  PS.lift (tok str!".")
  pure ⟨a, l, p⟩

/-- Models `[Az] texts:Quote [TextAmendmentToken] [ListSeparator]` (456). -/
def repealText : P Str := do
  optAz
  let t ← call quote
  let _ ← opt (call textAmendmentToken)
  let _ ← opt (call listSeparator)
  pure t

/-- Models `Repeal` (452-458). -/
def repeal : PS GRepeal := do
  PS.lift (toks [str!"Nem lép hatályba", str!"Hatályát veszti", str!"Hatályát veszíti"])
  PS.lift (call az)
  let a ← titledActReference
  let l ← PS.lift (many textReferenceItem)
  let t ← PS.lift (many repealText)
  PS.lift (tok str!".")
  pure ⟨a, l, t⟩

/-! ### The whole text -/

/-- Models `AnySimpleExpression` (34-38). -/
def simpleExpression : PS SimpleExpression :=
  (do
    let q ← PS.lift (call quote)
    pure (.quote q))
  <|> (do
    let r ← PS.call compoundReference
    pure (.compound r))
  <|> (do
    PS.lift (call attachmentReference)
    pure .attachment)
  <|> (do
    PS.lift (call anyToken)
    pure .token)

/-- Models `ListOfSimpleExpressions` (31-32). -/
def simpleExpressions : PS (List SimpleExpression) := PS.many1 (PS.call simpleExpression)

/-- Models `content:X $` (21-27). -/
def entire {α : Type} (p : PS α) (f : α → Root) : PS Root := do
  let x ← PS.call p
  PS.lift (call eoi)
  pure (f x)

/-- Models `Root` (19-27). -/
def root : PS Root :=
  entire blockAmendment .blockAmendment
  <|> entire blockAmendmentWithSubtitle .blockAmendmentWithSubtitle
  <|> entire blockAmendmentStructural .blockAmendmentStructural
  <|> entire textAmendment .textAmendment
  <|> entire (PS.lift enforcementDate) .enforcementDate
  <|> entire repeal .repeal
  <|> entire simpleExpressions .simple

/-- Models `grammar_parse` (lib.rs:28-33). -/
def parse (s : Str) (known : List Str) : Option Root :=
  match (root.run ⟨0, s⟩ ⟨known, []⟩).1 with
  | some (r, _) => some r
  | none => none

end HunLaw.Grammar
