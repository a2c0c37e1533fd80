import Verif.Spec.Passage
import Verif.Model.MkAct

/-! Sentences about the day of coming into force, in the usual form. -/

set_option autoImplicit false

namespace HunLaw.Spec

open HunLaw

/-- The names of the months. -/
def monthWords : List Str :=
  [str!"január", str!"február", str!"március", str!"április", str!"május", str!"június",
   str!"július", str!"augusztus", str!"szeptember", str!"október", str!"november", str!"december"]

/-- A day of the calendar as it is written: "2024. január 1-jén". -/
structure DayText where
  year : Nat
  month : Str
  day : Nat
  ending : Str

/-- The text of the day. -/
def DayText.text (d : DayText) : Str := dec d.year ++ str!". " ++ d.month ++ str!" " ++ dec d.day ++ d.ending

/-- The day which is meant. -/
def DayText.meant (d : DayText) : Date := ⟨d.year, monthWords.idxOf d.month + 1, d.day⟩

/-- The number of days of a month of a year. -/
def monthLength (year month : Nat) : Nat :=
  if month = 2 then (if year % 4 = 0 ∧ (year % 100 ≠ 0 ∨ year % 400 = 0) then 29 else 28)
  else if month ∈ [4, 6, 9, 11] then 30 else 31

/-- A day which exists, with a usual ending. The calendar of the program ends with the year 262142. -/
structure DayText.Usual (d : DayText) : Prop where
  year : d.year ≤ 262142
  month : d.month ∈ monthWords
  day : 1 ≤ d.day ∧ d.day ≤ monthLength d.year (monthWords.idxOf d.month + 1)
  ending : d.ending ∈ [str!"-án", str!"-én", str!"-jén", str!". napján"]

/-- The numbers which can be written as one word. -/
def ordinalWords : List (Str × Nat) :=
  [(str!"első", 1), (str!"második", 2), (str!"harmadik", 3), (str!"negyedik", 4), (str!"ötödik", 5),
   (str!"hatodik", 6), (str!"hetedik", 7), (str!"nyolcadik", 8), (str!"kilencedik", 9), (str!"tizedik", 10),
   (str!"tizenegyedik", 11), (str!"tizenkettedik", 12), (str!"tizenharmadik", 13), (str!"tizennegyedik", 14),
   (str!"tizenötödik", 15), (str!"tizenhatodik", 16), (str!"tizenhetedik", 17), (str!"tizennyolcadik", 18),
   (str!"tizenkilencedik", 19), (str!"huszadik", 20), (str!"harmincadik", 30), (str!"negyvenedik", 40),
   (str!"ötvenedik", 50), (str!"hatvanadik", 60), (str!"hetvenedik", 70), (str!"nyolcvanadik", 80),
   (str!"kilencvenedik", 90)]

/-- A number as a word or in digits. -/
inductive OrdinalText where
  | word (w : Str)
  | digits (n : U16)

/-- The text of the number. -/
def OrdinalText.text : OrdinalText → Str
  | .word w => w
  | .digits n => dec n.val ++ str!"."

/-- The number which is meant. -/
def OrdinalText.Means : OrdinalText → Nat → Prop
  | .word w, n => (w, n) ∈ ordinalWords
  | .digits m, n => n = m.val

/-- When something comes into force, as it is written. -/
inductive WhenText where
  /-- "2024. január 1-jén" -/
  | day (d : DayText)
  /-- "a kihirdetését követő napon" -/
  | nextDay (publication : Str)
  /-- "a kihirdetését követő nyolcadik napon" -/
  | days (publication : Str) (n : OrdinalText)
  /-- "a kihirdetését követő hónap első napján", "a kihirdetését követő második hónap 15. napján" -/
  | dayInMonth (publication : Str) (month : Option Str) (day : OrdinalText)

/-- The text of the time. -/
def WhenText.text : WhenText → Str
  | .day d => d.text
  | .nextDay p => p ++ str!" követő napon"
  | .days p n => p ++ str!" követő " ++ n.text ++ str!" napon"
  | .dayInMonth p m d => p ++ str!" követő " ++ (m.map (· ++ str!" ")).getD [] ++ str!"hónap " ++ d.text ++ str!" napján"

/-- The publication in these. -/
def publications : List Str :=
  [str!"", str!"e törvény "].flatMap fun e => [e ++ str!"kihirdetését", e ++ str!"kihirdetést"]

/-- What is meant by the time. -/
inductive WhenText.Means : WhenText → EnforcementDateType → Prop
  | day {d : DayText} (h : d.Usual) : Means (.day d) (.date d.meant)
  | nextDay {p : Str} (h : p ∈ publications) : Means (.nextDay p) (.daysAfterPublication 1)
  | days {p : Str} {n : OrdinalText} {k : U16} (h : p ∈ publications) (hn : n.Means k.val) :
      Means (.days p n) (.daysAfterPublication k)
  | dayInNext {p : Str} {n : OrdinalText} {k : U16} (h : p ∈ publications) (hn : n.Means k.val) :
      Means (.dayInMonth p none n) (.dayInMonthAfterPublication none k)
  | dayInMonth {p m : Str} {n : OrdinalText} {j : U8} {k : U16} (h : p ∈ publications) (hm : (m, j.val) ∈ ordinalWords)
      (hn : n.Means k.val) : Means (.dayInMonth p (some m) n) (.dayInMonthAfterPublication (some j) k)

/-- A part of the act which comes into force, as it is written. -/
inductive ForcePart where
  /-- "3. § (2) bekezdése" -/
  | provisions (w : Phrase)
  /-- "III. Fejezet", "12. alcím", "Második Könyv Első Része" -/
  | place (p : Place)
  /-- "12., 13. és 15–17. alcím" -/
  | subtitles (l : Listing NumericId)
  /-- "1. és 2. melléklet", "3. melléklet 2. pontja" -/
  | attachments (a : Attachment)

/-- The text of the part. -/
def ForcePart.text : ForcePart → Str
  | .provisions w => w.text
  | .place p => p.text
  | .subtitles l => (l.words slashedSpan str!" alcím").text
  | .attachments a => a.text

/-- It is written in the usual form, and these parts of the structure are meant. There are none when provisions
or attachments are meant. A list of subtitles has at least two elements. -/
inductive ForcePart.Means : ForcePart → List StructuralRef → Prop
  | provisions {w : Phrase} (h : w.Usual) : Means (.provisions w) []
  | place {p : Place} {b : Option NumericId} {e : StructuralRefParent} {o : Bool} (h : p.Means b e o) :
      Means (.place p) [⟨none, b, none, e.toElement, o⟩]
  | subtitles {l : Listing NumericId} {es : List StructuralRefParent} (h : List.Forall₂ SubtitlesMean l.spans es)
      (hsep : ∀ x ∈ l.others, x.1 ∈ separators) (hmore : l.others ≠ []) (he : Ending l.ending) :
      Means (.subtitles l) (es.map fun e => ⟨none, none, none, e.toElement, false⟩)
  | attachments {a : Attachment} (h : a.Usual) : Means (.attachments a) []

/-- The provisions which are meant by a part. -/
def ForcePart.levels : ForcePart → List (List (List AnyReferencePart))
  | .provisions w => [w.levels]
  | _ => []

/-- The pieces of the text of a part; those which are marked are the references to provisions. -/
def ForcePart.pieces : ForcePart → List (Str × Bool)
  | .provisions w => wordPieces [] w.words
  | x => [(x.text, false)]

/-- An exception, as it is written, with some word before "kivétel": " – a (2) bekezdésben foglalt kivétellel –",
"a 3. §-ban írtak kivételével". -/
structure ExceptionText where
  dash : Option Char
  provisions : Phrase
  word : Str
  ending : Str

/-- The dash around the exception, if there is one. -/
def ExceptionText.mark (x : ExceptionText) : Str := (x.dash.map fun d => [' ', d]).getD []

/-- The text of the exception, with the space before it. -/
def ExceptionText.text (x : ExceptionText) : Str :=
  x.mark ++ str!" a " ++ x.provisions.text ++ str!" " ++ x.word ++ str!" kivétel" ++ x.ending ++ x.mark

/-- It is written in the usual form. -/
structure ExceptionText.Usual (x : ExceptionText) : Prop where
  dash : ∀ d, x.dash = some d → d ∈ dashes
  provisions : x.provisions.Usual
  word : x.word ≠ [] ∧ Ending x.word
  ending : Ending x.ending

/-- A sentence about coming into force: of the whole act ("Ez a törvény 2024. január 1-jén lép hatályba."), or of some of
its parts ("A 3. §, az 5. § (2) bekezdése és a III. Fejezet a kihirdetését követő napon lép hatályba."). There may be an
exception ("E törvény – a (2) bekezdésben foglalt kivétellel – …"). It may also say when the act loses its force. -/
structure EnforcementSentence where
  subject : Str
  exception : Option ExceptionText := none
  references : List (Str × ForcePart)
  article : Str
  time : WhenText
  repeal : Option (Str × DayText)

/-- The beginning of the sentence. -/
def EnforcementSentence.opening (x : EnforcementSentence) : Str := x.subject ++ (x.exception.map ExceptionText.text).getD []

/-- The text of the sentence. -/
def EnforcementSentence.text (x : EnforcementSentence) : Str :=
  x.opening ++ str!" " ++ (x.references.flatMap fun r => r.1 ++ r.2.text) ++ (if x.references.isEmpty then [] else str!" ") ++
    x.article ++ x.time.text ++ str!" lép hatályba" ++
    (x.repeal.map fun r => r.1 ++ r.2.text ++ str!" hatályát veszti").getD [] ++ str!"."

/-- The provisions of the act which are meant. -/
def EnforcementSentence.parts (x : EnforcementSentence) : List Ref := chain Ref.empty (x.references.flatMap fun r => r.2.levels)

/-- The pieces of the text of the parts. -/
def EnforcementSentence.pieces (x : EnforcementSentence) : List (Str × Bool) :=
  x.references.flatMap fun r => (r.1, false) :: r.2.pieces

/-- What may be before the day of the loss of force. -/
def repealJoints : List Str :=
  [str!" és", str!", és"].flatMap fun j => [j ++ str!" ", j ++ str!" e törvény ", j ++ str!" ez a törvény "]

/-- The act as it is named at the beginning of the sentence. -/
def actSubjects : List Str := [str!"Ez a törvény", str!"E törvény"]

/-- A subtitle which is named by its title: "„Záró rendelkezések” alcím". -/
def ForcePart.Titled (x : ForcePart) : Prop := ∃ b t called w o, x = .place ⟨b, .named t called w, o⟩

/-- A sentence in the usual form. The parts are in the usual form as well, see `ForcePart.Means`. -/
structure EnforcementSentence.Usual (x : EnforcementSentence) : Prop where
  subject : x.subject ∈ actSubjects ∨ x.subject ∈ [str!"A", str!"Az"] ∧ x.references ≠ [] ∧ x.exception = none
  exception : ∀ y, x.exception = some y → y.Usual
  first : ∀ r, x.references.head? = some r → r.1 = []
  others : ∀ r ∈ x.references.tail, r.1 ∈ separators
  article : x.article ∈ [[], str!"a ", str!"az "]
  repeal : ∀ r, x.repeal = some r → r.1 ∈ repealJoints ∧ r.2.Usual
  /-- Nothing else looks like an exception. -/
  noException : x.exception = none → ¬ str!" kivétel" <:+: x.text
  /-- Titles do not have the words of changes in them. -/
  titles : (∃ r ∈ x.references, r.2.Titled) → ¬ str!"helyébe" <:+: x.text ∧ ¬ str!"helyett" <:+: x.text
  /-- Places in attachments are at the end of the list. -/
  inner : x.references.IsChain fun r s => ∀ a, r.2 = .attachments a → a.places = [] ∧ Closing s.1
  /-- After attachments the time of publication has its article. -/
  outer : ∀ r, x.references.getLast? = some r → (∃ a, r.2 = .attachments a) → x.article = [] → ∃ d, x.time = .day d

/-- The parts of the structure which are meant. -/
def EnforcementSentence.Structure (x : EnforcementSentence) (l : List StructuralRef) : Prop :=
  ∃ ls, List.Forall₂ (fun r m => r.2.Means m) x.references ls ∧ l = ls.flatten

end HunLaw.Spec
