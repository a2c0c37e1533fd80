import Verif.Spec.Places

/-!
How amendments of parts of the structure of an act are written in the usual form, such as

  A közbeszerzésekről szóló 2015. évi CXLIII. törvény III. Fejezet 12. alcíme helyébe a következő alcím lép:
  Az Szja. tv. Második Része a következő III/A. Fejezettel egészül ki:

and what they mean. Nothing here uses the parser.
-/

set_option autoImplicit false

namespace HunLaw.Spec

open HunLaw

/-- The beginning of an amending sentence: the article, the title of the act, its number or abbreviation, and perhaps the
abbreviation which it will have in the following. -/
structure ActIntro where
  article : Str
  title : Str
  act : ActName
  introduces : Option Str

/-- " (a továbbiakban: Kbt.)" -/
def introduction : Option Str → Str
  | none => []
  | some name => str!" (a továbbiakban: " ++ name ++ str!")"

/-- The text of it. -/
def ActIntro.text (i : ActIntro) : Str := i.article ++ str!" " ++ i.title ++ i.act.text ++ introduction i.introduces

/-- The abbreviation which is introduced, and its meaning. -/
def ActIntro.new (i : ActIntro) : List (Str × ActId) := i.introduces.toList.map fun name => (name, i.act.act)

/-- The usual form, when these abbreviations are known and this is the text after it: the title is of ordinary words,
and no abbreviation begins in it. The abbreviation of the act is followed by nothing that makes it another one. An
abbreviation is introduced only for an act given by its number; it begins with a letter and has no bracket in it. -/
structure ActIntro.Usual (i : ActIntro) (known : List Str) (rest : Str) : Prop where
  article : i.article ∈ [str!"A", str!"Az", str!"a", str!"az"]
  words : Ordinary i.title
  spaced : i.title = [] ∨ ∃ y, i.title = y ++ str!" "
  start : ∀ c, i.title.head? = some c → c ≠ ' '
  act : i.act.Usual
  abbreviations : ∀ b ∈ known, ∀ x y,
    i.title ++ i.act.text ++ introduction i.introduces ++ rest = x ++ b ++ y → x.length ≤ i.title.length →
    x = i.title ∧ ∃ a, i.act = .short b a
  known : ∀ b a, i.act = .short b a → b ∈ known
  introduces : ∀ name, i.introduces = some name → (∃ a e, i.act = .number a e) ∧ ')' ∉ name ∧
    ∃ c, name.head? = some c ∧ (c ∈ lowerLetters ∨ c ∈ upperLetters)

/-- "a következő", "az alábbi", "az alábbiak" -/
def Following (f : Str) : Prop := f = str!"a következő" ∨ ∃ e, f = str!"az alábbi" ++ e ∧ Ending e

/-- The end of a sentence which replaces a part. -/
inductive ReplacementEnd : Str → Prop
  | provision {f w : Str} (hf : Following f) (hw : w ∈ [str!"rendelkezés lép", str!"rendelkezések lépnek"]) :
      ReplacementEnd (str!"helyébe " ++ f ++ str!" " ++ w)
  | changes {f w : Str} (hf : Following f) (hw : w ∈ [str!"szöveggel lép hatályba", str!"szerint módosul"]) :
      ReplacementEnd (f ++ str!" " ++ w)
  | named {f w : Str} (hf : Following f)
      (hw : w ∈ [str!"alcím", str!"alcímcím", str!"cím", str!"fejezet", str!"Fejezet", str!"rész"]) :
      ReplacementEnd (str!"helyébe " ++ f ++ str!" " ++ w ++ str!" lép")

/-- The ends of sentences which insert a part. -/
def insertionEnds : List Str := [str!"egészül ki", str!"kiegészülve lép hatályba"]

/-- What is between the act and the part which is amended. -/
inductive Container where
  | act
  | place (p : Place)
  | book (b : BookText)

/-- The text of it. -/
def Container.text : Container → Str
  | .act => []
  | .place p => str!" " ++ p.text
  | .book b => str!" " ++ b.text

/-- A sentence which amends a part of the structure. If there is a `following`, the part is inserted. -/
structure StructuralSentence where
  intro : ActIntro
  container : Container
  following : Option Str
  element : Place
  ending : Str

/-- What is after the act. -/
def StructuralSentence.rest (s : StructuralSentence) : Str :=
  s.container.text ++ ((s.following.map fun f => str!" " ++ f).getD []) ++ str!" " ++ s.element.text ++ str!" " ++ s.ending ++ str!":"

/-- The text of the sentence. -/
def StructuralSentence.text (s : StructuralSentence) : Str := s.intro.text ++ s.rest

/-- The end fits what is done; the title alone of a part is not inserted. -/
structure StructuralSentence.Usual (s : StructuralSentence) : Prop where
  replaced : s.following = none → ReplacementEnd s.ending
  inserted : ∀ f, s.following = some f → Following f ∧ s.ending ∈ insertionEnds ∧ s.element.title = none

/-- One subtitle, by its number, or by its title without "című". -/
def PlaceText.OneSubtitle : PlaceText → Prop
  | .subtitles (.one _) _ => True
  | .named _ false _ => True
  | _ => False

/-- The end names something else than a subtitle. -/
def EndsOther (e : Str) : Prop :=
  ∃ f w, Following f ∧ w ∈ [str!"cím", str!"fejezet", str!"Fejezet", str!"rész"] ∧ e = str!"helyébe " ++ f ++ str!" " ++ w ++ str!" lép"

/-- One subtitle in a part is replaced, or the title of it. -/
def StructuralSentence.AboutSubtitle (s : StructuralSentence) : Prop :=
  (∃ q, s.container = .place q) ∧ s.element.part.OneSubtitle ∧ ¬ EndsOther s.ending

/-- What is meant by a sentence: the part of the structure, and whether it is inserted. -/
inductive StructuralSentence.Means : StructuralSentence → StructuralRef → Prop
  /-- a part of the act -/
  | act {i : ActIntro} {f : Option Str} {p : Place} {end_ : Str} {b : Option NumericId} {e : StructuralRefParent} {o : Bool}
      (hp : p.Means b e o) : Means ⟨i, .act, f, p, end_⟩ ⟨some i.act.act, b, none, e.toElement, o⟩
  /-- a part of a part, which may be in a book -/
  | place {i : ActIntro} {f : Option Str} {q p : Place} {end_ : Str} {b : Option NumericId} {d e : StructuralRefParent} {o : Bool}
      (hq : q.Means b d false) (hp : p.Means none e o) :
      Means ⟨i, .place q, f, p, end_⟩ ⟨some i.act.act, b, some d, e.toElement, o⟩
  /-- a part inserted into a book -/
  | book {i : ActIntro} {f : Str} {k : BookText} {p : Place} {end_ : Str} {b : NumericId} {e : StructuralRefParent} {o : Bool}
      (hk : k.Means b) (hp : p.Means none e o) :
      Means ⟨i, .book k, some f, p, end_⟩ ⟨some i.act.act, some b, none, e.toElement, o⟩

/-- A part of the structure without the book of the part which contains it. -/
def bookless (r : StructuralRef) : StructuralRef := if r.parent.isSome then { r with book := none } else r

/-- The same for a place where words are changed. -/
def booklessPlace : TextAmendmentRef → TextAmendmentRef
  | .structural r => .structural (bookless r)
  | x => x

/-- The same for what is repealed. -/
def booklessRepeal : RepealRef → RepealRef
  | .structural r => .structural (bookless r)
  | x => x

/-- The same for a phrase. -/
def booklessPhrase : SpecialPhrase → SpecialPhrase
  | .repeal l => .repeal (l.map booklessRepeal)
  | .textAmendment l => .textAmendment (l.map fun x => { x with reference := booklessPlace x.reference })
  | .structuralBlockAmendment r i => .structuralBlockAmendment (bookless r) i
  | x => x

/-- What is recorded for what is meant: the book of a containing part is lost, and so is it that only the title is meant of
a subtitle in another part. -/
structure StructuralSentence.Recorded (s : StructuralSentence) (meant recorded : StructuralRef) : Prop where
  act : recorded.act = meant.act
  parent : recorded.parent = meant.parent
  element : recorded.element = meant.element
  inBook : (∃ q, s.container = .place q) → recorded.book = none
  book : (¬ ∃ q, s.container = .place q) → recorded.book = meant.book
  subtitle : s.AboutSubtitle → recorded.titleOnly = false
  titleOnly : ¬ s.AboutSubtitle → recorded.titleOnly = meant.titleOnly

end HunLaw.Spec
