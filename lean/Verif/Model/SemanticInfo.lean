import Verif.Model.Outgoing
import Verif.Model.Walker

/-!
Model of the rest of /repo/src/parser/semantic_info: structural_reference.rs, block_amendment.rs,
enforcement_date.rs, text_amendment.rs, repeal.rs, sae.rs and mod.rs.

An error is `none`; its message is not modelled.
-/

set_option autoImplicit false

namespace HunLaw.Semantic

open HunLaw

/-! ### structural_reference.rs -/

/-- Models `TryFrom<&SubtitleReferencePart> for StructuralReferenceParent` (structural_reference.rs:102-118). -/
def convertSubtitlePart : Grammar.IdPart → Option StructuralRefParent
  | .single s => do
    let a ← NumericId.parse s
    some (.subtitleId a)
  | .range s t => do
    let a ← NumericId.parse s
    let b ← NumericId.parse t
    some (.subtitleRange ⟨a, b⟩)

/-- Models `TryFrom<&AnyStructuralReference_reference> for StructuralReferenceParent`
(structural_reference.rs:58-100, 120-130). -/
def convertStructuralId : Grammar.StructuralId → Option StructuralRefParent
  | .chapter s => do
    let i ← SEType.chapter.parseIdentifier s
    some (.chapter i)
  | .part s => do
    let i ← (SEType.part false).parseIdentifier s
    some (.part i)
  | .subtitle x => convertSubtitlePart x
  | .subtitleTitle s => some (.subtitleTitle s)
  | .title s => do
    let i ← SEType.title.parseIdentifier s
    some (.title i)

/-- Models `TryFrom<&AnyStructuralReference> for StructuralReferenceParent` (structural_reference.rs:45-56). -/
def convertParent (x : Grammar.StructuralReference) : Option StructuralRefParent :=
  if x.titleOnly then none else convertStructuralId x.reference

/-- Models `elem.parent.as_ref().map(|p| p.try_into()).transpose()` (block_amendment.rs:63, 129,
text_amendment.rs:121-125). -/
def convertParent? : Option Grammar.StructuralReference → Option (Option StructuralRefParent)
  | none => some none
  | some x => do
    let p ← convertParent x
    some (some p)

/-- Models `value.book.as_ref().map(TryFrom::try_from).transpose()` (structural_reference.rs:37, 147-153). -/
def convertBookRef : Option Str → Option (Option NumericId)
  | none => some none
  | some s => do
    let b ← SEType.book.parseIdentifier s
    some (some b)

/-- Models `TryFrom<&AnyStructuralReference> for StructuralReference` (structural_reference.rs:31-43). -/
def convertStructural (x : Grammar.StructuralReference) : Option StructuralRef := do
  let book ← convertBookRef x.book
  let e ← convertStructuralId x.reference
  some ⟨none, book, none, e.toElement, x.titleOnly⟩

/-- Models `TryFrom<&ArticleRelativePosition> for StructuralReferenceElement`
(structural_reference.rs:132-145). -/
def convertArticleRelative : Grammar.ArticleRelative → Option StructuralRefElement
  | .after a => do
    let i ← convertSingleArticle a
    some (.subtitleAfterArticle i)
  | .before a => do
    let i ← convertSingleArticle a
    some (.subtitleBeforeArticle i)

/-! ### block_amendment.rs -/

/-- `Iterator::min`: the first of the smallest. -/
def minOf {α : Type} [RustOrd α] : List α → Option α
  | [] => none
  | a :: l => some (l.foldl (fun x y => if cmp x y = .gt then y else x) a)

/-- `Iterator::max`: the last of the largest. -/
def maxOf {α : Type} [RustOrd α] : List α → Option α
  | [] => none
  | a :: l => some (l.foldl (fun x y => if cmp x y = .gt then x else y) a)

/-- The references below the act (block_amendment.rs:37-42). -/
def amendedPositions (l : List OutgoingRef) : List Ref := (l.map (·.reference)).filter fun r => !r.isActOnly

/-- The reference over all positions (block_amendment.rs:44-54). -/
def coveringRange (l : List Ref) : Option Ref := do
  let first ← minOf (l.map Ref.firstInRange)
  let last ← maxOf (l.map Ref.lastInRange)
  Ref.makeRange first last

/-- Models the result (block_amendment.rs:56-74). -/
def blockAmendmentPhrase (x : Grammar.BlockAmendment) (position : Ref) : Option SpecialPhrase :=
  match position.getLastPart with
  | .article a => do
    let parent ← convertParent? x.parent
    some (.structuralBlockAmendment ⟨position.act, none, parent, .article a, false⟩ x.amended.isNone)
  | _ => some (.blockAmendment position x.amended.isNone)

/-- Models `convert_block_amendment` (block_amendment.rs:33-75). -/
def convertBlockAmendment (c : Cache) (x : Grammar.BlockAmendment) : Option SpecialPhrase := do
  let refs ← blockAmendmentRefs c x
  let position ← coveringRange (amendedPositions refs)
  blockAmendmentPhrase x position

/-- Models `if let Some(book) = &elem.book { position.book = .. }` (block_amendment.rs:99-101). -/
def withBook (s : Option Str) (r : StructuralRef) : Option StructuralRef :=
  match s with
  | none => some r
  | some s => do
    let b ← SEType.book.parseIdentifier s
    some { r with book := some b }

/-- Models `convert_structural_block_amendment` (block_amendment.rs:77-106). -/
def convertStructuralBlockAmendment (c : Cache) (x : Grammar.BlockAmendmentStructural) : Option SpecialPhrase := do
  let act ← convertActReference c x.actReference
  let parent ← convertParent? x.parent
  let r ← convertStructural x.reference
  let r ← withBook x.book { r with act := some act, parent := parent }
  some (.structuralBlockAmendment r x.isInsertion)

/-- The place of the subtitle (block_amendment.rs:113-128). -/
def subtitlePlace (x : Grammar.BlockAmendmentWithSubtitle) : Option StructuralRefElement :=
  match x.reference.article with
  | some a => do
    let i ← convertSingleArticle a
    some (.subtitleBeforeArticleInclusive i)
  | none =>
    match x.articleRelative with
    | some r => convertArticleRelative r
    | none =>
      match x.reference.title with
      | some t => some (.subtitleTitle t)
      | none =>
        match x.reference.id with
        | some s => do
          let i ← NumericId.parse s
          some (.subtitleId i)
        | none => if x.isInsertion then some .subtitleUnknown else none

/-- Models `convert_subtitle_block_amendment` (block_amendment.rs:108-144). -/
def convertSubtitleBlockAmendment (c : Cache) (x : Grammar.BlockAmendmentWithSubtitle) : Option SpecialPhrase := do
  let e ← subtitlePlace x
  let parent ← convertParent? x.parent
  let act ← convertActReference c x.actReference
  some (.structuralBlockAmendment ⟨some act, none, parent, e, false⟩ x.isInsertion)

/-! ### enforcement_date.rs -/

/-- `NaiveDate::from_ymd_opt` for every year: chrono's calendar goes from the year -262143 to 262142 (one year more
on both ends in its older releases). -/
def calendarDate (y : Int) (m d : Nat) : Option Date :=
  if -262143 ≤ y ∧ y ≤ 262142 then Date.ofYmd y m d else none

/-- Models `convert_date` (enforcement_date.rs:115-122). -/
def convertDate (x : Grammar.GDate) : Option Date := do
  let year ← parseI32 x.year
  let month ← monthFromHungarian x.month
  let day ← parseUnsigned 4294967295 x.day
  calendarDate year.val month day

/-- Conversion of the table value of `from_hungarian` to `u8` or `u16`. -/
def hunFin (n : Nat) (s : Str) : Option (Fin n) :=
  match fromHungarian s with
  | some v => if h : v < n then some ⟨v, h⟩ else none
  | none => none

/-- Models the days (enforcement_date.rs:96-100, 133-136). -/
def convertOrdinal : Grammar.Ordinal → Option U16
  | .word s => hunFin 65536 s
  | .number s => parseFin 65536 s

/-- Models the month (enforcement_date.rs:128-132). -/
def convertMonth : Option Str → Option (Option U8)
  | none => some none
  | some s => do
    let m ← hunFin 256 s
    some (some m)

/-- Models `TryFrom<&EnforcementDate_date> for EnforcementDateType` (enforcement_date.rs:78-113, 124-139). -/
def convertWhen : Grammar.EnforcementWhen → Option EnforcementDateType
  | .afterPublication none => some (.daysAfterPublication 1)
  | .afterPublication (some x) => do
    let n ← convertOrdinal x
    some (.daysAfterPublication n)
  | .date d => do
    let d ← convertDate d
    some (.date d)
  | .dayInMonth m d => do
    let m ← convertMonth m
    let d ← convertOrdinal d
    some (.dayInMonthAfterPublication m d)

/-- The structural reference to a subtitle (enforcement_date.rs:44-50, text_amendment.rs:91-98). -/
def subtitleRef (act : Option ActId) (x : Grammar.IdPart) : Option StructuralRef := do
  let p ← convertSubtitlePart x
  some ⟨act, none, none, p.toElement, false⟩

/-- The structural positions of one reference (enforcement_date.rs:38-53). -/
def enforcementStructural : Grammar.EnforcementReference → Option (List StructuralRef)
  | .structural r => do
    let r ← convertStructural r
    some [r]
  | .subtitles l => l.mapM (subtitleRef none)
  | .attachment => some []
  | .reference _ => some []

/-- Models the inline repeal (enforcement_date.rs:62-66). -/
def convertDate? : Option Grammar.GDate → Option (Option Date)
  | none => some none
  | some d => do
    let d ← convertDate d
    some (some d)

/-- Models `convert_enforcement_date` (enforcement_date.rs:31-76). The two kinds of references are converted in
separate loops; this is the same, as an error is an error in both. -/
def convertEnforcementDate (x : Grammar.GEnforcementDate) : Option EnforcementDate := do
  let refs ← enforcementRefs x
  let structural ← x.references.mapM enforcementStructural
  let date ← convertWhen x.date
  let repeal ← convertDate? x.inlineRepeal
  some ⟨refs.map (·.reference), structural.flatten, x.references.isEmpty, date, repeal⟩

/-! ### text_amendment.rs -/

/-- Models `convert_intro_wrapup_token` (text_amendment.rs:49-57). -/
def convertPartToken : Option Grammar.PartToken → TextAmendmentPart
  | some .intro => .introOnly
  | some .wrapUp => .wrapUpOnly
  | none => .all

/-- Models the child (text_amendment.rs:127-143). -/
def convertStructuralChild (parent : Option StructuralRefParent) :
    Grammar.StructuralChild → Option StructuralRef
  | .structural r => do
    let r ← convertStructural r
    some { r with parent := parent }
  | .relative a => do
    let e ← convertArticleRelative a
    some ⟨none, none, parent, e, false⟩

/-- Models `TryFrom<&TextAmendmentStructuralReference> for StructuralReference` (text_amendment.rs:117-145). -/
def convertTextStructural (parent : Option Grammar.StructuralReference) (child : Grammar.StructuralChild) :
    Option StructuralRef := do
  let parent ← convertParent? parent
  convertStructuralChild parent child

/-- `ref_builder.take_result()` without the acts (text_amendment.rs:81-82, 105-106). -/
def taken (b : Builder) : List Ref := amendedPositions b.result

/-- Models `take_result` (reference.rs:220-222). -/
def Builder.cleared (b : Builder) : Builder := { b with result := [] }

/-- Models one round of the loop (text_amendment.rs:70-113). -/
def convertTextReference (act : ActId) (x : Grammar.TextReference) (b : Builder) :
    Option (List TextAmendmentRef × Builder) :=
  match x with
  | .structural parent child => do
    let r ← convertTextStructural parent child
    some ([.structural { r with act := some act }], b)
  | .articleTitle a => do
    let b ← Builder.feedSingleArticle a b
    some ((taken b).map .articleTitle, b.cleared)
  | .subtitles l => do
    let l ← l.mapM (subtitleRef (some act))
    some (l.map .structural, b)
  | .reference r t => do
    let b ← Builder.feedReference r b
    some ((taken b).map fun y => .sae y (convertPartToken t), b.cleared)
  | .attachment => some ([], b)

/-- Models the loop (text_amendment.rs:69-113). -/
def convertTextLoop (act : ActId) : List Grammar.TextReference → Builder → Option (List TextAmendmentRef)
  | [], _ => some []
  | x :: l, b => do
    let r ← convertTextReference act x b
    let rest ← convertTextLoop act l r.2
    some (r.1 ++ rest)

/-- Models `convert_text_amendment_references` (text_amendment.rs:59-115). -/
def convertTextReferences (c : Cache) (a : Grammar.ActReference) (l : List Grammar.TextReference) :
    Option (List TextAmendmentRef) := do
  let act ← convertActReference c a
  let b ← Builder.feedAct c a Builder.new
  convertTextLoop act l b

/-- Models `convert_text_amendment` (text_amendment.rs:26-47); feeding the act here has no effect but an error,
which is also one in `convert_text_amendment_references`. -/
def convertTextAmendment (c : Cache) (x : Grammar.GTextAmendment) : Option (List TextAmendment) := do
  let _ ← Builder.feedAct c x.actReference Builder.new
  let refs ← convertTextReferences c x.actReference x.references
  some (refs.flatMap fun r => x.parts.map fun p => ⟨r, p.1, p.2⟩)

/-! ### repeal.rs -/

/-- Models the conversion of a reference (repeal.rs:61-78). -/
def convertRepealRef : TextAmendmentRef → Option RepealRef
  | .sae r p => if p = .all then some (.reference r) else none
  | .structural r => some (.structural r)
  | .articleTitle _ => none

/-- Models the case of the whole act (repeal.rs:80-83). -/
def wholeAct (c : Cache) (x : Grammar.GRepeal) : Option (List RepealRef) :=
  if x.references.isEmpty then do
    let a ← convertActReference c x.actReference
    some [.reference (Ref.ofAct a)]
  else some []

/-- Models `convert_element_repeal` (repeal.rs:51-85). -/
def convertElementRepeal (c : Cache) (x : Grammar.GRepeal) : Option (List RepealRef) := do
  let refs ← convertTextReferences c x.actReference x.references
  let l ← refs.mapM convertRepealRef
  let w ← wholeAct c x
  some (l ++ w)

/-- Models the case with texts (repeal.rs:32-48). -/
def convertTextRepeal (c : Cache) (x : Grammar.GRepeal) : Option (List TextAmendment) := do
  let _ ← Builder.feedAct c x.actReference Builder.new
  let refs ← convertTextReferences c x.actReference x.references
  some (refs.flatMap fun r => x.texts.map fun t => ⟨r, t, []⟩)

/-- Models `convert_repeal` (repeal.rs:25-50). -/
def convertRepeal (c : Cache) (x : Grammar.GRepeal) : Option SpecialPhrase :=
  if x.texts.isEmpty then do
    let l ← convertElementRepeal c x
    some (.repeal l)
  else do
    let l ← convertTextRepeal c x
    some (.textAmendment l)

/-! ### sae.rs -/

/-- Models `extract_special_phrase` (sae.rs:197-220). -/
def extractSpecialPhrase (c : Cache) : Grammar.Root → Option (Option SpecialPhrase)
  | .simple _ => some none
  | .blockAmendment x => do
    let p ← convertBlockAmendment c x
    some (some p)
  | .blockAmendmentStructural x => do
    let p ← convertStructuralBlockAmendment c x
    some (some p)
  | .blockAmendmentWithSubtitle x => do
    let p ← convertSubtitleBlockAmendment c x
    some (some p)
  | .enforcementDate x => do
    let p ← convertEnforcementDate x
    some (some (.enforcementDate p))
  | .repeal x => do
    let p ← convertRepeal c x
    some (some p)
  | .textAmendment x => do
    let p ← convertTextAmendment c x
    some (some (.textAmendment p))

/-- The endings that are cut off, in this order (sae.rs:153-162). -/
def junkEndings : List Str :=
  [str!" a", str!" és", str!" valamint", str!" illetve", str!" vagy", str!" továbbá", str!";", str!","]

/-- Models the loop (sae.rs:153-166). -/
def stripJunk (middle : Str) : Str := junkEndings.foldl (fun m j => (stripSuffix m j).getD m) middle

/-- Models `middle.ends_with(['.', ':', '!', '?'])` (sae.rs:168). -/
def endsSentence (s : Str) : Bool :=
  match s.getLast? with
  | some c => c == '.' || c == ':' || c == '!' || c == '?'
  | none => false

/-- Models `assemble_to_be_parsed_text` (sae.rs:151-176). -/
def assemble (pre middle post : Str) : Str :=
  if post = [] then
    if endsSentence (stripJunk middle) then pre ++ stripJunk middle
    else pre ++ stripJunk middle ++ ['.']
  else pre ++ stripJunk middle ++ post

/-- Models `adjust_outgoing_reference` (sae.rs:178-195). -/
def adjust (prefixLen textLen : Nat) (r : OutgoingRef) : Option OutgoingRef :=
  if r.fin > prefixLen ∧ r.fin ≤ textLen then
    some ⟨r.start - prefixLen, r.fin - prefixLen, r.reference⟩
  else none

/-- Models `struct SemanticInfoAdder` (sae.rs:39-45). The last element of the stacks is the first in the
lists. -/
structure Adder where
  prefixes : List Str
  postfixes : List Str
  cache : Cache
  deriving Repr, DecidableEq

namespace Adder

/-- Models `new` (sae.rs:109-115). -/
def new (c : Cache) : Adder := ⟨[], [], c⟩

/-- Models `prefix` (sae.rs:117-119). -/
def pre (a : Adder) : Str := a.prefixes.head?.getD []
/-- Models `postfix` (sae.rs:120-122). -/
def post (a : Adder) : Str := a.postfixes.head?.getD []

end Adder

/-- Models the end of `extract_semantic_info` (sae.rs:133-147), after the abbreviations were added. -/
def infoOf (c : Cache) (prefixLen textLen : Nat) (r : Grammar.Root) (new : List (Str × ActId)) :
    Option SemanticInfo := do
  let refs ← outgoingRefs c r
  let phrase ← extractSpecialPhrase c r
  some ⟨refs.filterMap (adjust prefixLen textLen), mapCollect new, phrase⟩

/-- The text to be parsed for an element (sae.rs:129). -/
def Adder.text (a : Adder) (middle : Str) : Str := assemble a.pre middle a.post

/-- Models `extract_semantic_info` (sae.rs:124-148). The cache keeps what was added to it also if there is an
error. -/
def Adder.extract (a : Adder) (middle : Str) : Adder × Option SemanticInfo :=
  match Grammar.parse (a.text middle) a.cache.allAbbreviations with
  | none => (a, none)
  | some r =>
    match getNewAbbreviations r with
    | none => (a, none)
    | some new =>
      ({ a with cache := a.cache.addMultiple new },
        infoOf (a.cache.addMultiple new) (byteLen a.pre) (byteLen (a.text middle) - byteLen a.post) r new)

/-- Only these stay in an intro (sae.rs:74-81). -/
def introPhrase : Option SpecialPhrase → Option SpecialPhrase
  | some (.blockAmendment p i) => some (.blockAmendment p i)
  | some (.structuralBlockAmendment p i) => some (.structuralBlockAmendment p i)
  | _ => none

namespace Adder

/-- Models the pushes (sae.rs:83-89). -/
def push (a : Adder) (intro : Str) (wrapUp : Option Str) : Adder :=
  { a with
    prefixes := (a.pre ++ intro ++ [' ']) :: a.prefixes
    postfixes := (match wrapUp with
      | some w => ' ' :: w ++ a.post
      | none => a.post) :: a.postfixes }

/-- Models `pop` (sae.rs:100-103). -/
def pop (a : Adder) : Adder := { a with prefixes := a.prefixes.tail, postfixes := a.postfixes.tail }

/-- Models `on_enter` (sae.rs:48-93). -/
def onEnter {I C : Type} (e : SAE I C) (a : Adder) : SAE I C × Adder × Res Unit :=
  match e.body with
  | .text t =>
    match a.extract t with
    | (a', some i) => ({ e with semanticInfo := i }, a', .ok ())
    | (a', none) => (e, a', .err)
  | .children intro _ wrapUp =>
    match a.extract intro with
    | (a', some i) =>
      ({ e with semanticInfo := { i with specialPhrase := introPhrase i.specialPhrase } },
        a'.push intro wrapUp, .ok ())
    | (a', none) => (e, a', .err)

/-- Models `on_exit` (sae.rs:95-105). -/
def onExit {I C : Type} (e : SAE I C) (a : Adder) : SAE I C × Adder × Res Unit :=
  match e.body with
  | .text _ => (e, a, .ok ())
  | .children _ _ _ => (e, a.pop, .ok ())

/-- Models `SAEVisitorMut for SemanticInfoAdder` (sae.rs:47-106). -/
def visitor (A : Type) : VisitorMut A Adder where
  onEnter _ _ e a := onEnter e a
  onExit _ _ e a := onExit e a

end Adder

/-! ### mod.rs -/

/-- Models `Act::add_semantic_info` (mod.rs:35-42): the act and if its abbreviations have changed. -/
def addSemanticInfo {A : Type} (act : Act A) : Act A × Res Bool :=
  match Walk.actMut (Adder.visitor A) act (Adder.new (Cache.ofMap act.containedAbbreviations)) with
  | (act', a, .ok ()) => ({ act' with containedAbbreviations := a.cache.cache }, .ok a.cache.hasChanged)
  | (act', _, .err) => (act', .err)
  | (act', _, .panic) => (act', .panic)

/-- Changes the article with the identifier, the first one if there are more of it (`Act::article_mut`,
structure.rs:126-128). -/
def updateArticle {A S : Type} (id : ArticleId) (f : Article A → S → Article A × S × Res Unit) :
    List (ActChild A) → S → Option (List (ActChild A) × S × Res Unit)
  | [], _ => none
  | .article x :: l, s =>
    if x.identifier = id then
      match f x s with
      | (x', s', r) => some (.article x' :: l, s', r)
    else
      match updateArticle id f l s with
      | some (l', s', r) => some (.article x :: l', s', r)
      | none => none
  | c :: l, s =>
    match updateArticle id f l s with
    | some (l', s', r) => some (c :: l', s', r)
    | none => none

/-- The error if there is no such article (mod.rs:54). The message has the act in it, so it may panic. -/
def missingArticle (act : ActId) : Res Bool := do
  let _ ← act.display
  .err

/-- Models `Act::add_semantic_info_to_article` (mod.rs:44-59). -/
def addSemanticInfoToArticle {A : Type} (act : Act A) (id : ArticleId) : Act A × Res Bool :=
  match updateArticle id (Walk.article (Adder.visitor A) (Ref.ofAct act.identifier)) act.children
      (Adder.new (Cache.ofMap act.containedAbbreviations)) with
  | none => (act, missingArticle act.identifier)
  | some (l, a, .ok ()) =>
    ({ act with children := l, containedAbbreviations := a.cache.cache }, .ok a.cache.hasChanged)
  | some (l, _, .err) => ({ act with children := l }, .err)
  | some (l, _, .panic) => ({ act with children := l }, .panic)

end HunLaw.Semantic
