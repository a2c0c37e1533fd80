import Verif.Spec.ActSentences
import Verif.Spec.ExactAmendment
import Verif.Spec.Walker

/-! What becomes of the paragraphs of an act with amendments, by what their texts tell (C133). Nothing here uses the parser. -/

set_option autoImplicit false

namespace HunLaw.Spec

open HunLaw

/-- The paragraphs of all articles. -/
def paragraphsOf {A : Type} (a : Act A) : List (Paragraph A) := a.articles.flatMap (·.children)

/-- How many texts there are in a paragraph. -/
def textCount {A : Type} (p : Paragraph A) : Nat := (elementReadings paragraphReadings [] p).length

/-- The phrase announces that the only quoted block after the text is an amendment. -/
def AnnouncedBy (t : Told) (phrase : SpecialPhrase) : Prop := keptInIntro t.phrase = some phrase

/-- What a paragraph becomes whose texts tell `ts`. A single quoted block becomes the amendment which is announced for it; other
quoted blocks, the text and the points stay as they are, but for what is recorded about the points. -/
def Becomes (upper : Char → Bool) (p : Paragraph Empty) (ts : List Told) (q : Paragraph Amendment) : Prop :=
  q.identifier = p.identifier ∧ (∀ text, p.body = .text text → q.body = .text text) ∧
  (∀ i l w, p.body = .children i (.alphabeticPoint l) w → ∃ l', q.body = .children i (.alphabeticPoint l') w ∧
    l'.map (bareSae bareAlphabeticPointChildren) = l.map (bareSae bareAlphabeticPointChildren)) ∧
  (∀ i l w, p.body = .children i (.numericPoint l) w → ∃ l', q.body = .children i (.numericPoint l') w ∧
    l'.map (bareSae bareNumericPointChildren) = l.map (bareSae bareNumericPointChildren)) ∧
  ∀ i bs w, p.body = .children i (.quotedBlock bs) w → ∃ t, ts = [t] ∧
    (∀ b phrase, bs = [b] → AnnouncedBy t phrase → ∃ a, AmendmentIs upper (some phrase) b a ∧ q.body = .children i (.amendment a) w) ∧
    ((∀ b phrase, bs = [b] → ¬ AnnouncedBy t phrase) → q.body = .children i (.quotedBlock bs) w)

/-- The quoted block of a paragraph whose texts tell `ts` is the amendment which is announced for it. -/
def Fulfils (upper : Char → Bool) (p : Paragraph Empty) (ts : List Told) : Prop :=
  ∀ i b w t phrase, p.body = .children i (.quotedBlock [b]) w → ts = [t] → AnnouncedBy t phrase →
    NoTrailingSpace b.lines ∧ (AnnouncesArticles (some phrase) → HeadersOutside b.lines) ∧ ∃ a, AmendmentIs upper (some phrase) b a

end HunLaw.Spec
