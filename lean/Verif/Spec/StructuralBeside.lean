import Verif.Spec.Subtitles

/-!
Amendments of parts of the structure of an act which also tell the article beside which the part is, such as

  A közbeszerzésekről szóló 2015. évi CXLIII. törvény a 12. §-t megelőzően a következő III/A. Fejezettel egészül ki:

Nothing here uses the parser.
-/

set_option autoImplicit false

namespace HunLaw.Spec

open HunLaw

/-- The sentence, and the place which is between the act and the rest of it. -/
structure BesideSentence where
  sentence : StructuralSentence
  beside : Beside

/-- What is after the act. -/
def BesideSentence.rest (s : BesideSentence) : Str := str!" " ++ s.beside.text ++ s.sentence.rest

/-- The text of the sentence. -/
def BesideSentence.text (s : BesideSentence) : Str := s.sentence.intro.text ++ s.rest

/-- The usual form. It is not about one subtitle of the act, which is a `SubtitleSentence`. -/
structure BesideSentence.Usual (s : BesideSentence) : Prop where
  sentence : s.sentence.Usual
  beside : s.beside.Usual
  part : s.sentence.container = .act → s.sentence.element.part.OneSubtitle → s.sentence.element.book = none → EndsOther s.sentence.ending

/-- What is recorded for what is meant: the book of a containing part is lost. -/
structure BesideSentence.Recorded (s : BesideSentence) (meant recorded : StructuralRef) : Prop where
  act : recorded.act = meant.act
  parent : recorded.parent = meant.parent
  element : recorded.element = meant.element
  inBook : (∃ q, s.sentence.container = .place q) → recorded.book = none
  book : (¬ ∃ q, s.sentence.container = .place q) → recorded.book = meant.book
  titleOnly : recorded.titleOnly = meant.titleOnly

end HunLaw.Spec
