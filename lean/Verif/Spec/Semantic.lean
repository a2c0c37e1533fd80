import Verif.Model.SemanticInfo

/-! Specifications for the semantic information, C44 to C50. -/

set_option autoImplicit false

namespace HunLaw.Spec

open HunLaw

/-! ### Abbreviations -/

/-- What an abbreviation was last defined as in a list of definitions. -/
def lastDefined (k : Str) : List (Str × ActId) → Option ActId
  | [] => none
  | (k', v) :: l =>
    match lastDefined k l with
    | some w => some w
    | none => if k' = k then some v else none

/-- The abbreviations are in increasing order of their code points, so all of them are different. -/
def Increasing : List Str → Prop
  | [] => True
  | k :: l => (∀ k' ∈ l, k.map Char.toNat < k'.map Char.toNat) ∧ Increasing l

/-- The text has a place which introduces the abbreviation: "továbbiakban: ABBREVIATION)". The spaces and the colon before
it do not belong to it. -/
def Introduces (text a : Str) : Prop :=
  ∃ before sep after, text = before ++ str!"továbbiakban" ++ sep ++ a ++ ')' :: after ∧
    (∀ c ∈ sep, Grammar.P.isWs c = true ∨ c = ':') ∧ a ≠ [] ∧ ')' ∉ a ∧
    (∀ c, a.head? = some c → Grammar.P.isWs c = false) ∧ (a.head? = some ':' → ':' ∈ sep)

/-- The abbreviation is the first one of the list with which the text begins. -/
def FirstPrefix (known : List Str) (text a : Str) : Prop :=
  ∃ before after, known = before ++ a :: after ∧ a <+: text ∧ ∀ b ∈ before, ¬ b <+: text

/-! ### Positions in a text -/

/-- The first `n` bytes of the text are whole characters. -/
def CharBoundary (text : Str) (n : Nat) : Prop :=
  ∃ before after, text = before ++ after ∧ byteLen before = n

/-- The ranges are not empty, each begins where the one before it ends or later, and all of them begin and end
between two characters of the text. -/
def RangesInOrder (text : Str) : Nat → List (Nat × Nat) → Prop
  | _, [] => True
  | lo, (s, e) :: l => lo ≤ s ∧ s < e ∧ CharBoundary text s ∧ CharBoundary text e ∧ RangesInOrder text e l

/-- The byte ranges of references. -/
def ranges (l : List OutgoingRef) : List (Nat × Nat) := l.map fun r => (r.start, r.fin)

/-! ### The context in which the elements of an act are read -/

/-- An ancestor of an element: what stands before and after its children. -/
structure Ancestor where
  intro : Str
  wrapUp : Option Str
  deriving Repr, DecidableEq

/-- What stands before the element; the outermost ancestor comes first in the list. -/
def contextBefore (l : List Ancestor) : Str := l.flatMap fun a => a.intro ++ [' ']

/-- What stands after the element. -/
def contextAfter (l : List Ancestor) : Str :=
  l.reverse.flatMap fun a => match a.wrapUp with
    | some w => ' ' :: w
    | none => []

/-- A text of an act in its context: the text of an element or the intro of its children. -/
structure Reading where
  before : Str
  text : Str
  after : Str
  isIntro : Bool
  deriving Repr, DecidableEq

/-- The texts of an element and of those in it with the semantic information they have. -/
def elementReadings {I C : Type} (inner : List Ancestor → C → List (Reading × SemanticInfo)) (l : List Ancestor)
    (e : SAE I C) : List (Reading × SemanticInfo) :=
  match e.body with
  | .text t => [(⟨contextBefore l, t, contextAfter l, false⟩, e.semanticInfo)]
  | .children i c w =>
    (⟨contextBefore l, i, contextAfter l, true⟩, e.semanticInfo) :: inner (l ++ [⟨i, w⟩]) c

def noReadings (_ : List Ancestor) (c : NoChildren) : List (Reading × SemanticInfo) := nomatch c

def alphabeticPointReadings (l : List Ancestor) : AlphabeticPointChildren → List (Reading × SemanticInfo)
  | .alphabeticSubpoint c => c.flatMap (elementReadings noReadings l)
  | .numericSubpoint c => c.flatMap (elementReadings noReadings l)

def numericPointReadings (l : List Ancestor) : NumericPointChildren → List (Reading × SemanticInfo)
  | .alphabeticSubpoint c => c.flatMap (elementReadings noReadings l)

def paragraphReadings {A : Type} (l : List Ancestor) : ParagraphChildren A → List (Reading × SemanticInfo)
  | .alphabeticPoint c => c.flatMap (elementReadings alphabeticPointReadings l)
  | .numericPoint c => c.flatMap (elementReadings numericPointReadings l)
  | .quotedBlock _ => []
  | .amendment _ => []

def articleReadings {A : Type} (a : Article A) : List (Reading × SemanticInfo) :=
  a.children.flatMap (elementReadings paragraphReadings [])

/-- All texts of an act in document order, each in its context. -/
def actReadings {A : Type} (a : Act A) : List (Reading × SemanticInfo) := a.articles.flatMap articleReadings

/-- The references which end in the text, by their places in it. One that begins in the context begins at 0. -/
def ownReferences (before after whole : Nat) (l : List OutgoingRef) : List OutgoingRef :=
  (l.filter fun r => decide (before < r.fin ∧ r.fin + after ≤ whole)).map fun r =>
    ⟨r.start - before, r.fin - before, r.reference⟩

/-- The words and signs which connect the items of a list. -/
def connectives : List Str :=
  [str!" a", str!" és", str!" valamint", str!" illetve", str!" vagy", str!" továbbá", str!";", str!","]

/-- The text without the connectives at its end. Each is taken off at most once, in the order of the list. -/
def withoutConnectives (text : Str) : Str :=
  connectives.foldl (fun t e => if e <:+ t then t.take (t.length - e.length) else t) text

/-- The text ends as a sentence does. -/
def sentenceEnds (text : Str) : Bool :=
  match text.reverse with
  | c :: _ => c ∈ ['.', ':', '!', '?']
  | [] => false

/-- The whole sentence in which the text stands. -/
def wholeSentence (before text after : Str) : Str :=
  before ++ withoutConnectives text ++
    (if after ≠ [] then after else if sentenceEnds (withoutConnectives text) then [] else ['.'])

/-- In an intro only the phrases count which say what the following quoted block is. -/
def keptInIntro : Option SpecialPhrase → Option SpecialPhrase
  | none => none
  | some p => match p with
    | .blockAmendment .. => some p
    | .structuralBlockAmendment .. => some p
    | .enforcementDate .. => none
    | .repeal .. => none
    | .textAmendment .. => none

open Semantic in
/-- What is read out of a text in its context, and the abbreviations known after it. -/
def readText (c : Cache) (r : Reading) : Option (SemanticInfo × Cache) := do
  let whole := wholeSentence r.before r.text r.after
  let root ← Grammar.parse whole c.allAbbreviations
  let new ← getNewAbbreviations root
  let refs ← outgoingRefs (c.addMultiple new) root
  let phrase ← extractSpecialPhrase (c.addMultiple new) root
  some (⟨ownReferences (byteLen r.before) (byteLen r.after) (byteLen whole) refs, mapCollect new,
    if r.isIntro then keptInIntro phrase else phrase⟩, c.addMultiple new)

/-- The texts are read one after the other. -/
def readTexts (c : Semantic.Cache) : List Reading → Option (List SemanticInfo × Semantic.Cache)
  | [] => some ([], c)
  | r :: l => do
    let x ← readText c r
    let y ← readTexts x.2 l
    some (x.1 :: y.1, y.2)

end HunLaw.Spec
