import Verif.Spec.Structural
import Verif.Spec.Subtitles
import Verif.Spec.Passage

/-!
How amendments of words of an act, and repeals are written in the usual form, such as

  A közbeszerzésekről szóló 2015. évi CXLIII. törvény 3. § (2) bekezdésében és 5. § címében az „üzlet” szövegrész helyébe
  a „bolt” szöveg lép.
  Hatályát veszti a közbeszerzésekről szóló 2015. évi CXLIII. törvény III. Fejezete és 12. §-a.

and what they mean. Nothing here uses the parser.
-/

set_option autoImplicit false

namespace HunLaw.Spec

open HunLaw

/-- "nyitó szövegrésze" or "záró szövegrésze": the words before or after the points of a provision. -/
structure PartWord where
  opening : Bool
  ending : Str

/-- The text of it. -/
def PartWord.text (p : PartWord) : Str := (if p.opening then str!" nyitó szöveg" else str!" záró szöveg") ++ p.ending

/-- What is meant. -/
def PartWord.meant (p : PartWord) : TextAmendmentPart := if p.opening then .introOnly else .wrapUpOnly

/-- What the subtitle beside an article is called. -/
inductive BesideName where
  /-- "„Az eljárás” című alcíme" -/
  | titled (t : Str) (called : Bool) (word : Inflected) (title : Option Str)
  /-- "alcíme", "5. alcím címe", "alcím-címe" -/
  | word (ids : Option (Span NumericId)) (dash : Bool) (ending : Str) (title : Option Str)

/-- The text of it. -/
def BesideName.text : BesideName → Str
  | .titled t called w title => (PlaceText.named t called w).text ++ (title.map fun x => str!" " ++ x).getD []
  | .word ids dash e title => (ids.map fun x => slashedSpan x ++ str!" ").getD [] ++ str!"alcím" ++ (if dash then str!"-" else []) ++ e ++
      (title.map fun x => str!" cím" ++ x).getD []

/-- The usual form. -/
def BesideName.Usual : BesideName → Prop
  | .titled t _ w title => QuotedUsual t ∧ w.Of [str!"alcím"] ∧ ∀ x, title = some x → TitleWord x
  | .word ids _ e title => (∀ x, ids = some x → ∃ m, SubtitlesMean x m) ∧ Ending e ∧ ∀ x, title = some x → Ending x

/-- Where the words are. -/
inductive Target where
  /-- "3. § (2) bekezdése", "3. § (2) bekezdés nyitó szövegrésze" -/
  | provisions (what : Phrase) (part : Option PartWord)
  /-- "3. § címe" -/
  | heading (articles : Span ArticleId) (sign : Str) (word : Inflected)
  /-- "III. Fejezet", "12. alcím címe" -/
  | place (p : Place)
  /-- "III. Fejezet 12. alcíme" -/
  | placeIn (q p : Place)
  /-- "12., 13. és 15–17. alcíme" -/
  | subtitles (l : Listing NumericId)
  /-- "12. §-t megelőző alcíme", "III. Fejezet 12. §-t megelőző 5. alcím címe" -/
  | beside (q : Option Place) (b : Beside) (name : BesideName)
  /-- "1. és 2. melléklete" -/
  | attachments (a : Attachment)

/-- The text of it. -/
def Target.text : Target → Str
  | .provisions w p => w.text ++ (p.map PartWord.text).getD []
  | .heading a sign w => articleSpan a ++ str!" §" ++ sign ++ str!" " ++ w.text
  | .place p => p.text
  | .placeIn q p => q.text ++ str!" " ++ p.text
  | .subtitles l => (l.words slashedSpan str!" alcím").text
  | .beside q b name => (q.map fun q => q.text ++ str!" ").getD [] ++ b.text ++ str!" " ++ name.text
  | .attachments a => a.text

/-- The usual form. -/
def Target.Usual : Target → Prop
  | .provisions w p => w.Usual ∧ ∀ x, p = some x → Ending x.ending
  | .heading a sign w => ArticleUsual a ∧ (sign = [] ∨ ∃ e, sign = '-' :: e ∧ e ≠ [] ∧ Ending e) ∧
      w.Of [str!"cím", str!"szakaszcím"] ∧ w.ending ≠ []
  | .place p => ∃ b e o, p.Means b e o
  | .placeIn q p => (∃ b d, q.Means b d false) ∧ ∃ e o, p.Means none e o
  | .subtitles l => (∃ es, List.Forall₂ SubtitlesMean l.spans es) ∧ (∀ x ∈ l.others, x.1 ∈ separators) ∧ l.others ≠ [] ∧ Ending l.ending
  | .beside q b name => (∀ x, q = some x → ∃ k d, x.Means k d false) ∧ b.Usual ∧ (q = none → b.the = []) ∧ name.Usual
  | .attachments a => a.Usual

/-- The part of the structure which contains it, if it is written. -/
def Target.container : Target → Option Place
  | .placeIn q _ => some q
  | .beside q _ _ => q
  | _ => none

/-- The place beside an article, if it is such a subtitle. -/
def Target.besideOf : Target → Option Beside
  | .beside _ b _ => some b
  | _ => none

/-- It names an article or a part of the structure, so it can come directly after the act. -/
def Target.OfAct : Target → Prop
  | .provisions w _ => w.article ≠ none
  | _ => True

/-- The provisions which it names, by level. -/
def Target.levels : Target → Option (List (List AnyReferencePart))
  | .provisions w _ => some w.levels
  | .heading a _ _ => some [[.article a.range]]
  | .beside _ b _ => some [[.article b.article.span.range]]
  | _ => none

/-- The next one of these which names a provision names its article. -/
def NextArticle (l : List Target) : Prop := ∀ t, l.find? (fun t => t.levels.isSome) = some t → t.OfAct

/-- What is meant by targets which follow each other: a reference to provisions continues from the one before. -/
inductive Places (act : ActId) : Ref → List Target → List TextAmendmentRef → Prop
  | nil {base : Ref} : Places act base [] []
  | provisions {base : Ref} {w : Phrase} {p : Option PartWord} {l : List Target} {m : List TextAmendmentRef}
      (hw : ∀ r ∈ alternatives base w.levels, WellFormed r) (hl : Places act ((alternatives base w.levels).getLastD base) l m) :
      Places act base (.provisions w p :: l) ((alternatives base w.levels).map (fun r => .sae r ((p.map PartWord.meant).getD .all)) ++ m)
  | heading {base : Ref} {a : Span ArticleId} {sign : Str} {w : Inflected} {l : List Target} {m : List TextAmendmentRef}
      (hw : WellFormed (put base (.article a.range))) (hl : Places act (put base (.article a.range)) l m) :
      Places act base (.heading a sign w :: l) (.articleTitle (put base (.article a.range)) :: m)
  | place {base : Ref} {p : Place} {b : Option NumericId} {e : StructuralRefParent} {o : Bool} {l : List Target} {m : List TextAmendmentRef}
      (hp : p.Means b e o) (hl : Places act base l m) :
      Places act base (.place p :: l) (.structural ⟨some act, b, none, e.toElement, o⟩ :: m)
  | placeIn {base : Ref} {q p : Place} {b : Option NumericId} {d e : StructuralRefParent} {o : Bool} {l : List Target}
      {m : List TextAmendmentRef} (hq : q.Means b d false) (hp : p.Means none e o) (hl : Places act base l m) :
      Places act base (.placeIn q p :: l) (.structural ⟨some act, b, some d, e.toElement, o⟩ :: m)
  | subtitles {base : Ref} {k : Listing NumericId} {es : List StructuralRefParent} {l : List Target} {m : List TextAmendmentRef}
      (hk : List.Forall₂ SubtitlesMean k.spans es) (hl : Places act base l m) :
      Places act base (.subtitles k :: l) (es.map (fun e => .structural ⟨some act, none, none, e.toElement, false⟩) ++ m)
  /-- The subtitle beside the article is meant, its title is not set apart. What comes after this does not continue from
  the article, so it has to name its own. -/
  | beside {base : Ref} {b : Beside} {name : BesideName} {l : List Target} {m : List TextAmendmentRef}
      (hw : WellFormed (put base (.article b.article.span.range))) (hn : NextArticle l) (hl : Places act base l m) :
      Places act base (.beside none b name :: l) (.structural ⟨some act, none, none, b.meant, false⟩ :: m)
  | besideIn {base : Ref} {q : Place} {b : Beside} {name : BesideName} {k : Option NumericId} {d : StructuralRefParent} {l : List Target}
      {m : List TextAmendmentRef} (hq : q.Means k d false) (hw : WellFormed (put base (.article b.article.span.range)))
      (hn : NextArticle l) (hl : Places act base l m) :
      Places act base (.beside (some q) b name :: l) (.structural ⟨some act, k, some d, b.meant, false⟩ :: m)
  /-- There is nothing to say about attachments. -/
  | attachments {base : Ref} {a : Attachment} {l : List Target} {m : List TextAmendmentRef} (hl : Places act base l m) :
      Places act base (.attachments a :: l) m

/-- Attachments are followed by something which does not belong to them; places in them are at the end of the list. -/
def TargetChain (l : List (Str × Target)) : Prop :=
  l.IsChain fun r s => ∀ a, r.2 = .attachments a → a.places = [] ∧ Closing s.1

/-- "„üzlet” szövegrész helyébe a „bolt” szöveg" -/
structure TextChange where
  old : Str
  oldEnding : Str
  how : Str
  article : Str
  new : Str
  newEnding : Option Str

/-- The text of it. The last word may be left out. -/
def TextChange.text (x : TextChange) : Str :=
  str!"„" ++ x.old ++ str!"” szöveg" ++ x.oldEnding ++ str!" " ++ x.how ++ str!" " ++ x.article ++ str!"„" ++ x.new ++ str!"”" ++
    (x.newEnding.map fun e => str!" szöveg" ++ e).getD []

/-- The usual form. -/
structure TextChange.Usual (x : TextChange) : Prop where
  old : QuotedUsual x.old
  oldEnding : Ending x.oldEnding
  how : x.how ∈ [str!"helyébe", str!"helyett"]
  article : x.article ∈ [[], str!"a ", str!"az "]
  new : QuotedUsual x.new
  newEnding : ∀ e, x.newEnding = some e → Ending e

/-- The text of a list after its first element: the separators are before the elements. -/
def listText {α : Type} (f : α → Str) (l : List (Str × α)) : Str := l.flatMap fun x => x.1 ++ f x.2

/-- A sentence which changes words. -/
structure TextSentence where
  intro : ActIntro
  first : Target
  others : List (Str × Target)
  article : Str
  change : TextChange
  changes : List (Str × TextChange)
  comma : Bool
  inForce : Bool

/-- All its targets. -/
def TextSentence.targets (s : TextSentence) : List Target := s.first :: s.others.map Prod.snd

/-- All its changes. -/
def TextSentence.allChanges (s : TextSentence) : List TextChange := s.change :: s.changes.map Prod.snd

/-- What is after the act. -/
def TextSentence.rest (s : TextSentence) : Str :=
  str!" " ++ s.first.text ++ listText Target.text s.others ++ str!" " ++ s.article ++ str!" " ++ s.change.text ++
    listText TextChange.text s.changes ++ (if s.comma then str!"," else []) ++ str!" lép" ++ (if s.inForce then str!" hatályba" else []) ++
    str!"."

/-- The text of the sentence. -/
def TextSentence.text (s : TextSentence) : Str := s.intro.text ++ s.rest

/-- The usual form. The last change has its last word. -/
structure TextSentence.Usual (s : TextSentence) : Prop where
  first : s.first.Usual ∧ s.first.OfAct
  others : ∀ x ∈ s.others, x.1 ∈ separators ∧ x.2.Usual
  article : s.article ∈ [str!"a", str!"az"]
  change : s.change.Usual
  changes : ∀ x ∈ s.changes, x.1 ∈ separators ∧ x.2.Usual
  last : ∀ x, s.allChanges.getLast? = some x → x.newEnding ≠ none
  attachments : TargetChain (([], s.first) :: s.others)

/-- The reference to a whole act. -/
def wholeActRef (a : ActId) : Ref := ⟨some a, none, none, none, none⟩

/-- What is meant by it: every change in every place. -/
def TextSentence.Means (s : TextSentence) (phrase : SpecialPhrase) : Prop :=
  ∃ places, Places s.intro.act.act (wholeActRef s.intro.act.act) s.targets places ∧
    phrase = .textAmendment (places.flatMap fun place => s.allChanges.map fun x => ⟨place, x.old, x.new⟩)

/-- The references meant by it. -/
def TextSentence.meant (s : TextSentence) : List Ref :=
  chain Ref.empty ([[.act s.intro.act.act]] :: s.targets.filterMap Target.levels)

/-- Words which are repealed: "„üzlet” szövegrésze", or without the last word. -/
structure RepealedText where
  words : Str
  ending : Option Str

/-- The text of it. -/
def RepealedText.text (x : RepealedText) : Str := str!"„" ++ x.words ++ str!"”" ++ (x.ending.map fun e => str!" szöveg" ++ e).getD []

/-- The usual form. -/
structure RepealedText.Usual (x : RepealedText) : Prop where
  words : QuotedUsual x.words
  ending : ∀ e, x.ending = some e → Ending e

/-- The beginnings of a repeal. -/
def repealVerbs : List Str := [str!"Nem lép hatályba", str!"Hatályát veszti", str!"Hatályát veszíti"]

/-- A sentence which repeals an act, some of its parts, or words of these. The first target and the first text have a
space, and a space and an article as their separators. -/
structure RepealSentence where
  verb : Str
  intro : ActIntro
  targets : List (Str × Target)
  texts : List (Str × RepealedText)

/-- What is after the act. -/
def RepealSentence.rest (s : RepealSentence) : Str :=
  listText Target.text s.targets ++ listText RepealedText.text s.texts ++ str!"."

/-- The text of the sentence. -/
def RepealSentence.text (s : RepealSentence) : Str := s.verb ++ str!" " ++ s.intro.text ++ s.rest

/-- The usual form: if words are repealed then there are places for them. -/
structure RepealSentence.Usual (s : RepealSentence) : Prop where
  verb : s.verb ∈ repealVerbs
  article : s.intro.article ∈ [str!"a", str!"az"]
  first : ∀ x, s.targets.head? = some x → x.1 = str!" " ∧ x.2.OfAct
  others : ∀ x ∈ s.targets.tail, x.1 ∈ separators
  targets : ∀ x ∈ s.targets, x.2.Usual
  firstText : ∀ x, s.texts.head? = some x → x.1 ∈ [str!" a ", str!" az "]
  otherTexts : ∀ x ∈ s.texts.tail, x.1 ∈ separators
  texts : ∀ x ∈ s.texts, x.2.Usual
  placed : s.texts ≠ [] → s.targets ≠ []
  attachments : TargetChain s.targets

/-- A repealed place. -/
inductive Repealed : TextAmendmentRef → RepealRef → Prop
  | provision {r : Ref} : Repealed (.sae r .all) (.reference r)
  | structural {r : StructuralRef} : Repealed (.structural r) (.structural r)

/-- What is meant by a sentence. -/
inductive RepealSentence.Means : RepealSentence → SpecialPhrase → Prop
  /-- the act is repealed -/
  | act {s : RepealSentence} (ht : s.targets = []) (hx : s.texts = []) : Means s (.repeal [.reference (wholeActRef s.intro.act.act)])
  /-- some of its parts are repealed -/
  | places {s : RepealSentence} {places : List TextAmendmentRef} {refs : List RepealRef} (ht : s.targets ≠ []) (hx : s.texts = [])
      (hp : Places s.intro.act.act (wholeActRef s.intro.act.act) (s.targets.map Prod.snd) places) (hr : List.Forall₂ Repealed places refs) :
      Means s (.repeal refs)
  /-- words are repealed -/
  | texts {s : RepealSentence} {places : List TextAmendmentRef} (ht : s.targets ≠ []) (hx : s.texts ≠ [])
      (hp : Places s.intro.act.act (wholeActRef s.intro.act.act) (s.targets.map Prod.snd) places) :
      Means s (.textAmendment (places.flatMap fun place => s.texts.map fun x => ⟨place, x.2.words, []⟩))

/-- The references meant by it. -/
def RepealSentence.meant (s : RepealSentence) : List Ref :=
  chain Ref.empty ([[.act s.intro.act.act]] :: s.targets.filterMap fun x => x.2.levels)

end HunLaw.Spec
