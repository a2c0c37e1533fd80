import Verif.Spec.Written

/-!
How places of the structure of an act are written in the usual form, such as

  Második Könyv III. Fejezete,  12/A. alcím címe,  a „Záró rendelkezések” alcím

and what they mean. Nothing here uses the parser.
-/

set_option autoImplicit false

namespace HunLaw.Spec

open HunLaw

/-- The numbers of books and parts, as they are written. -/
def capitalNumbers : List (Str × U16) :=
  [(str!"Első", 1), (str!"Második", 2), (str!"Harmadik", 3), (str!"Negyedik", 4), (str!"Ötödik", 5), (str!"Hatodik", 6),
   (str!"Hetedik", 7), (str!"Nyolcadik", 8), (str!"Kilencedik", 9), (str!"Tizedik", 10), (str!"Tizenegyedik", 11),
   (str!"Tizenkettedik", 12), (str!"Tizenharmadik", 13), (str!"Tizennegyedik", 14), (str!"Tizenötödik", 15),
   (str!"Tizenhatodik", 16), (str!"Tizenhetedik", 17), (str!"Tizennyolcadik", 18), (str!"Tizenkilencedik", 19),
   (str!"ELSŐ", 1), (str!"MÁSODIK", 2), (str!"HARMADIK", 3), (str!"NEGYEDIK", 4), (str!"ÖTÖDIK", 5), (str!"HATODIK", 6),
   (str!"HETEDIK", 7), (str!"NYOLCADIK", 8), (str!"KILENCEDIK", 9), (str!"TIZEDIK", 10), (str!"TIZENEGYEDIK", 11),
   (str!"TIZENKETTEDIK", 12), (str!"TIZENHARMADIK", 13), (str!"TIZENNEGYEDIK", 14), (str!"TIZENÖTÖDIK", 15),
   (str!"TIZENHATODIK", 16), (str!"TIZENHETEDIK", 17), (str!"TIZENNYOLCADIK", 18), (str!"TIZENKILENCEDIK", 19)]

/-- The number of a chapter or a title: "XIV", "XIV/A". -/
def romanText (i : NumericId) : Str :=
  (romanTo i.num.val).getD [] ++ ((i.suffix.map fun c => '/' :: c.displayUpper).getD [])

/-- The numbers of subtitles: "12/A.", "12–14." -/
def slashedSpan : Span NumericId → Str
  | .one a => a.displaySlash ++ str!"."
  | .upTo d a b => a.displaySlash ++ d :: b.displaySlash ++ str!"."

/-- A word like "Fejezetében": how it is written in the dictionary, and its ending. -/
structure Inflected where
  word : Str
  ending : Str

/-- The text of the word. -/
def Inflected.text (w : Inflected) : Str := w.word ++ w.ending

/-- The word is one of these, with a usual ending. -/
def Inflected.Of (l : List Str) (w : Inflected) : Prop := w.word ∈ l ∧ Ending w.ending

/-- A part of the structure as it is written. -/
inductive PlaceText where
  /-- "II/A. Fejezet" -/
  | chapter (id : NumericId) (w : Inflected)
  /-- "Első Rész" -/
  | part (number : Str) (w : Inflected)
  /-- "II. Cím" -/
  | title (id : NumericId) (w : Inflected)
  /-- "12/A. alcím", "12–14. alcím" -/
  | subtitles (ids : Span NumericId) (w : Inflected)
  /-- "„Záró rendelkezések” alcím", also with "című" before the last word -/
  | named (title : Str) (called : Bool) (w : Inflected)

/-- The text of the part. -/
def PlaceText.text : PlaceText → Str
  | .chapter id w => romanText id ++ str!". " ++ w.text
  | .part n w => n ++ str!" " ++ w.text
  | .title id w => romanText id ++ str!". " ++ w.text
  | .subtitles ids w => slashedSpan ids ++ str!" " ++ w.text
  | .named t called w => str!"„" ++ t ++ str!"” " ++ (if called then str!"című " else []) ++ w.text

/-- A number with a Roman form, and at most one letter, which is not a digraph. -/
def RomanUsual (i : NumericId) : Prop := (1 ≤ i.num.val ∧ i.num.val ≤ 3999) ∧ ∀ c, i.suffix = some c → Plain c

/-- A text in quotes: there are no other quotes, nor spaces at its ends. -/
structure QuotedUsual (s : Str) : Prop where
  quotes : '„' ∉ s ∧ '”' ∉ s
  first : ∀ c, s.head? = some c → c ∉ str!" \t\n\r\x0c"
  last : ∀ c, s.getLast? = some c → c ∉ str!" \t\n\r\x0c"

/-- What is meant. -/
inductive PlaceText.Means : PlaceText → StructuralRefParent → Prop
  | chapter {i : NumericId} {w : Inflected} (hi : RomanUsual i) (hw : w.Of [str!"fejezet", str!"Fejezet", str!"FEJEZET"]) :
      Means (.chapter i w) (.chapter i)
  | part {s : Str} {n : U16} {w : Inflected} (hs : (s, n) ∈ capitalNumbers) (hw : w.Of [str!"rész", str!"Rész", str!"RÉSZ"]) :
      Means (.part s w) (.part ⟨n, none⟩)
  | title {i : NumericId} {w : Inflected} (hi : RomanUsual i) (hw : w.Of [str!"cím", str!"Cím", str!"CÍM"]) :
      Means (.title i w) (.title i)
  | subtitle {i : NumericId} {w : Inflected} (hi : ∀ c, i.suffix = some c → Plain c) (hw : w.Of [str!"alcím"]) :
      Means (.subtitles (.one i) w) (.subtitleId i)
  | subtitleRange {i j : NumericId} {d : Char} {w : Inflected} (hd : d ∈ dashes) (hi : ∀ c, i.suffix = some c → Plain c)
      (hj : ∀ c, j.suffix = some c → Plain c) (hw : w.Of [str!"alcím"]) :
      Means (.subtitles (.upTo d i j) w) (.subtitleRange ⟨i, j⟩)
  | named {t : Str} {called : Bool} {w : Inflected} (ht : QuotedUsual t) (hw : w.Of [str!"alcím"]) :
      Means (.named t called w) (.subtitleTitle t)

/-- "Második Könyv" -/
structure BookText where
  number : Str
  word : Inflected

/-- The text of a book. -/
def BookText.text (b : BookText) : Str := b.number ++ str!" " ++ b.word.text

/-- The book which is meant. -/
def BookText.Means (b : BookText) (i : NumericId) : Prop :=
  i.suffix = none ∧ (b.number, i.num) ∈ capitalNumbers ∧ b.word.Of [str!"könyv", str!"Könyv", str!"KÖNYV"]

/-- A place: a part of the structure, perhaps in a book, perhaps only its title. -/
structure Place where
  book : Option BookText
  part : PlaceText
  title : Option Str

/-- The text of a place. -/
def Place.text (p : Place) : Str :=
  (p.book.map fun b => b.text ++ str!" ").getD [] ++ p.part.text ++ (p.title.map fun t => str!" " ++ t).getD []

/-- "címe", "címei", "címének", … -/
def TitleWord (t : Str) : Prop := t ∈ [str!"címe", str!"címei"] ∨ ∃ e, t = str!"címé" ++ e ∧ Ending e

/-- What is meant by a place. -/
structure Place.Means (p : Place) (book : Option NumericId) (e : StructuralRefParent) (titleOnly : Bool) : Prop where
  noBook : p.book = none → book = none
  book : ∀ b, p.book = some b → ∃ i, book = some i ∧ b.Means i
  part : p.part.Means e
  title : ∀ t, p.title = some t → TitleWord t
  titleOnly : titleOnly = p.title.isSome

/-- The subtitles which are meant by one element of a list. -/
inductive SubtitlesMean : Span NumericId → StructuralRefParent → Prop
  | one {i : NumericId} (hi : ∀ c, i.suffix = some c → Plain c) : SubtitlesMean (.one i) (.subtitleId i)
  | upTo {d : Char} {i j : NumericId} (hd : d ∈ dashes) (hi : ∀ c, i.suffix = some c → Plain c)
      (hj : ∀ c, j.suffix = some c → Plain c) : SubtitlesMean (.upTo d i j) (.subtitleRange ⟨i, j⟩)

end HunLaw.Spec
