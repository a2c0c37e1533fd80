import Verif.Spec.Written
import Verif.Spec.Places
import Verif.Spec.Structural

/-!
Running text with references, with mentions of attachments, with quotations, with numbers and with asides in it, such as

  a Btk. 3. § (1) bekezdése szerint (kivételesen), az 1. melléklet 2. és 3. pontja szerinti esetben 2024. január 1-jén a „3. § szerint” szöveg

and what is meant by it. Nothing here uses the parser.
-/

set_option autoImplicit false

namespace HunLaw.Spec

open HunLaw

/-! ### Attachments -/

/-- What is named in an attachment. -/
inductive AttachmentPlace where
  /-- "2., 3. és 5. pontja": the identifiers with the separators before each but the first, the word and its ending. -/
  | part (first : Str) (others : List (Str × Str)) (word ending : Str)
  /-- "foglalt táblázat" -/
  | table (ending : Str)
  /-- "cím" -/
  | title (ending : Str)

/-- Its text. -/
def AttachmentPlace.text : AttachmentPlace → Str
  | .part first others word ending => first ++ others.flatMap (fun x => x.1 ++ x.2) ++ ' ' :: word ++ ending
  | .table ending => str!"foglalt táblázat" ++ ending
  | .title ending => str!"cím" ++ ending

/-- "1. és 2. melléklete 3. pontja": the numbers of the attachments with the ending of the word "melléklet", whether the
word "számú" is before it, and the places with what is before each of them. -/
structure Attachment where
  numbers : Listing NumericId
  numbered : Bool
  places : List (Str × AttachmentPlace)

/-- Its text. -/
def Attachment.text (a : Attachment) : Str :=
  (a.numbers.words dottedSpan (if a.numbered then str!" számú melléklet" else str!" melléklet")).text ++
    a.places.flatMap fun x => x.1 ++ x.2.text

/-- The words for parts of an attachment. -/
def attachmentParts : List Str := [str!"pont", str!"alpont", str!"rész", str!"fejezet", str!"sor", str!"oszlop"]

/-- The words between the elements of lists. -/
def joiningWords : List Str := [str!"és", str!"valamint", str!"illetve", str!"vagy"]

/-- The characters of identifiers. -/
def identifierChars : Str := str!"abcdefghijklmnopqrstuvwxyzABCDEFGHIJKLMNOPQRSTUVWXYZ0123456789-–−.()"

/-- "2.", "II.", "a)", "1.1.": an identifier of a part ends with a mark. -/
def PartId (s : Str) : Prop :=
  (∀ c ∈ s, c ∈ identifierChars) ∧ (∃ y c, s = y ++ [c] ∧ c ∈ str!".)") ∧ ∀ w ∈ joiningWords, ¬ w <+: s

/-- A place in the usual form. -/
def AttachmentPlace.Usual : AttachmentPlace → Prop
  | .part first others word ending => PartId first ∧ (∀ x ∈ others, x.1 ∈ separators ∧ PartId x.2) ∧
      word ∈ attachmentParts ∧ Ending ending
  | .table ending => Ending ending
  | .title ending => Ending ending

/-- A mention of attachments in the usual form. -/
structure Attachment.Usual (a : Attachment) : Prop where
  numbers : a.numbers.Fits (Span.Fits fun i => i.suffix = none)
  ending : Ending a.numbers.ending
  places : ∀ x ∈ a.places, x.2.Usual
  first : ∀ x, a.places.head? = some x → x.1 = str!" "
  others : ∀ x ∈ a.places.tail, x.1 = str!" " ∨ x.1 ∈ separators

/-- What is after a mention of attachments does not belong to it: it is the end of the text, or what is next is not an
identifier, or it is a word which is not followed by the name of a part, nor by another word in a list. -/
inductive Attachment.Ended (a : Attachment) : Str → Prop
  | nothing : a.Ended []
  | other (space : Str) (c : Char) (rest : Str) (none : a.places = []) (one : space = [] ∨ space = str!" ")
      (what : (c ∈ lowerLetters ∨ c ∈ upperLetters ∨ c ∈ str!",;!?") ∧ c ∉ identifierChars) : a.Ended (space ++ c :: rest)
  | word (space w rest : Str) (one : space = [] ∨ space = str!" ") (some : w ≠ [])
      (chars : ∀ c ∈ w, c ∈ lowerLetters ∨ c ∈ upperLetters ∨ c ∈ str!".!?")
      (alone : ∀ x ∈ joiningWords, ¬ x <+: w) (inner : ¬ str!"és" <:+: w)
      (title : ¬ str!"cím" <+: w) (table : ¬ str!"foglalt" <+: w)
      (next : rest = [] ∨ ∃ r, rest = ' ' :: r ∧ (∀ c, r.head? = Option.some c → c ∈ lowerLetters ∨ c ∈ upperLetters ∨ c ∈ str!"0123456789(.") ∧
        ∀ x ∈ joiningWords ++ attachmentParts, ¬ x <+: r) : a.Ended (space ++ w ++ rest)

/-- Something in a list ends a mention of attachments without places: it begins with a comma, with a semicolon or with "és". -/
def Closing (sep : Str) : Prop := ∃ c ∈ str!",;é", ∃ r, sep = c :: r ∨ sep = ' ' :: c :: r

/-! ### Numbers -/

/-- How a word, a number, a bracket or a quotation begins. -/
def Begins (c : Char) : Prop := c ∈ lowerLetters ∨ c ∈ upperLetters ∨ c ∈ str!"0123456789(„"

/-- What makes an identifier of a number with a dot. -/
def identified : List Str := [str!"§", str!"évi", str!"pont", str!"alpont", str!"melléklet", str!"számú melléklet"]

/-- What is after a number does not make it an identifier: it is the end of the text, or a mark, or a space with something
else, or a dot. What is after the dot of a number without an ending is neither the name of what is numbered nor another word in a list. -/
inductive NumberEnded (ending : Str) : Str → Prop
  | nothing : NumberEnded ending []
  | mark (c : Char) (rest : Str) (what : c ∈ str!",;!?") : NumberEnded ending (c :: rest)
  | space (c : Char) (rest : Str) (what : Begins c) : NumberEnded ending (' ' :: c :: rest)
  | last : NumberEnded ending str!"."
  | dot (c : Char) (rest : Str) (what : Begins c)
      (alone : ending ≠ [] ∨ ∀ x ∈ joiningWords ++ identified, ¬ x <+: c :: rest) : NumberEnded ending ('.' :: ' ' :: c :: rest)

/-! ### Running text -/

/-- " (a továbbiakban: Kbt.)", or without the colon. -/
def introducedAs (colon : Bool) (name : Str) : Str :=
  str!" (a továbbiakban" ++ (if colon then str!":" else []) ++ str!" " ++ name ++ str!")"

/-- What is in a text besides words and marks. -/
inductive PassageItem where
  | group (g : PhraseGroup)
  /-- "2015. évi CXLIII. törvény (a továbbiakban: Kbt.) 4. §-a": a group which introduces an abbreviation of its act, with a colon or without it. -/
  | introducing (a : ActId) (word : Str) (colon : Bool) (name : Str) (references : List (Str × Phrase))
  | attachment (a : Attachment)
  | quoted (s : Str)
  /-- "30", "2024", "1-jén": a number, which is not an identifier, with its ending. -/
  | number (k : Nat) (ending : Str)
  /-- "(kivételes esetben)": words in brackets, with the last one. -/
  | aside (words last : Str)
  /-- "(": the beginning of something in brackets. -/
  | opening
  /-- ")", "esetben)": the end of something in brackets, with the last word of it, if it ends with a word. -/
  | closing (last : Str)

/-- Its text. -/
def PassageItem.text : PassageItem → Str
  | .group g => g.text
  | .introducing a word colon name references => (ActName.number a word).text ++ introducedAs colon name ++
      references.flatMap fun x => x.1 ++ x.2.text
  | .attachment a => a.text
  | .quoted s => str!"„" ++ s ++ str!"”"
  | .number k ending => dec k ++ ending
  | .aside words last => '(' :: words ++ last ++ str!")"
  | .opening => str!"("
  | .closing last => last ++ str!")"

/-- A text: the items, each with the words before it, and the words after the last one. -/
structure Passage where
  items : List (Str × PassageItem)
  after : Str

/-- The text from some item on. -/
def passageText : List (Str × PassageItem) → Str → Str
  | [], after => after
  | (before, i) :: l, after => before ++ (i.text ++ passageText l after)

/-- The whole text. -/
def Passage.text (p : Passage) : Str := passageText p.items p.after

/-- Only references which are well formed are meant; if some of a group are not, none of it is. -/
noncomputable def PassageItem.meant : PassageItem → List Ref
  | .group g => open Classical in if ∀ x ∈ g.meant, WellFormed x then g.meant else []
  | .introducing a word _ _ references => open Classical in
      let g : PhraseGroup := ⟨some (.number a word), references⟩
      if ∀ x ∈ g.meant, WellFormed x then g.meant else []
  | _ => []

/-- The references meant. -/
noncomputable def Passage.meant (p : Passage) : List Ref := p.items.flatMap fun x => x.2.meant

/-- The pieces of an item; those with references are marked. -/
noncomputable def PassageItem.pieces : PassageItem → List (Str × Bool)
  | .group g => open Classical in if ∀ x ∈ g.meant, WellFormed x then g.pieces else [(g.text, false)]
  | .introducing a word colon name references => open Classical in
      let g : PhraseGroup := ⟨some (.number a word), references⟩
      if ∀ x ∈ g.meant, WellFormed x then
        ((ActName.number a word).text, true) :: (introducedAs colon name, false) ::
          references.flatMap fun x => (x.1, false) :: wordPieces [] x.2.words
      else [((PassageItem.introducing a word colon name references).text, false)]
  | i => [(i.text, false)]

/-- The pieces of the text. -/
noncomputable def Passage.pieces (p : Passage) : List (Str × Bool) :=
  p.items.flatMap (fun x => (x.1, false) :: x.2.pieces) ++ [(p.after, false)]

/-- The abbreviation introduced by an item, and its meaning. -/
def PassageItem.new : PassageItem → List (Str × ActId)
  | .introducing a _ _ name _ => [(name, a)]
  | _ => []

/-- The abbreviations introduced by the text, in its order. -/
def Passage.new (p : Passage) : List (Str × ActId) := p.items.flatMap fun x => x.2.new

/-- The abbreviations with which the acts are named are known, or they have been introduced before. -/
def nameable (known : List Str) : List (Str × PassageItem) → Prop
  | [] => True
  | (_, i) :: l => (∀ g s a, i = .group g → g.act = some (.short s a) → s ∈ known) ∧ nameable (known ++ i.new.map Prod.fst) l

/-! ### Which texts are in the usual form -/

/-- An item in the usual form. -/
def PassageItem.Usual : PassageItem → Prop
  | .group g => g.Usual
  | .introducing a word colon name references => PhraseGroup.Usual ⟨some (.number a word), references⟩ ∧ ')' ∉ name ∧
      ∃ c, name.head? = some c ∧ (c ∈ lowerLetters ∨ c ∈ upperLetters)
  | .attachment a => a.Usual
  | .quoted s => QuotedUsual s
  | .number _ ending => ending = [] ∨ ∃ e, ending = '-' :: e ∧ Ending e ∧ e ≠ []
  | .aside words last => Ordinary words ∧ (words = [] ∨ ∃ y, words = y ++ str!" ") ∧ 3 ≤ last.length ∧
      (∀ c ∈ last, c ∈ lowerLetters ∨ c ∈ upperLetters) ∧ ¬ str!"továbbiakban" <:+: words ++ last
  | .opening => True
  | .closing last => last = [] ∨ 3 ≤ last.length ∧ ∀ c ∈ last, c ∈ lowerLetters ∨ c ∈ upperLetters

/-- What is in brackets does not begin with the number of a paragraph, nor with the words which introduce an abbreviation. -/
structure Opened (s : Str) : Prop where
  number : (∀ c, s.head? = some c → c ∉ str!" \t\n\r\x0c0123456789") ∨
    ∃ k c r, s = dec k ++ c :: r ∧ (c ∈ str!".:/,;–-" ∨ c = ' ' ∧ ∀ d, r.head? = some d → Begins d)
  short : ¬ ∃ w r, s = 'a' :: (w ++ (str!"továbbiakban" ++ r)) ∧ ∀ c ∈ w, c ∈ str!" \t\n\r\x0c"

/-- Items which can be next to each other: a bracket, and what is in it. -/
def Touching : PassageItem → PassageItem → Prop
  | .opening, .closing last => last ≠ []
  | .opening, _ => True
  | .group _, .closing last => last = []
  | .introducing _ _ _ _ _, .closing last => last = []
  | .quoted _, .closing last => last = []
  | _, _ => False

/-- A group which names its act, by its number or by an abbreviation with a capital letter. -/
def PhraseGroup.OfAct (g : PhraseGroup) : Prop :=
  ∃ a, g.act = some a ∧ ∀ s x, a = .short s x → ∃ c, s.head? = some c ∧ c ∈ upperLetters

/-- A text without its spaces. -/
def squeezed (s : Str) : Str := s.filter (· ≠ ' ')

/-- The words between two items, with what the first one is, and the text after it: they are not the continuation of
the last word of the item, they end with a space if there are any, and they do not make a list of two groups, unless the
second one names its act. A group and something else can be in a list, and brackets can be right after a group. -/
def Between (i j : PassageItem) (words rest : Str) : Prop :=
  Ordinary words ∧ (i = .opening ∨ ∀ c, words.head? = some c → c ∉ lowerLetters) ∧
    ((∃ y, words = y ++ str!" ") ∧ j ≠ .closing [] ∨ words = [] ∧ Touching i j) ∧
    match i, j with
    | .group _, .group g | .introducing _ _ _ _ _, .group g => (words ∈ separators ∧ g.OfAct) ∨ squeezed words ∉ [] :: separators.map squeezed
    | .group _, .aside _ _ | .introducing _ _ _ _ _, .aside _ _ => words = str!" " ∨ words ∈ separators ∨ squeezed words ∉ [] :: separators.map squeezed
    | .group _, .opening | .introducing _ _ _ _ _, .opening => words = str!" " ∨ words ∈ separators ∨ squeezed words ∉ [] :: separators.map squeezed
    | .group _, .closing last | .introducing _ _ _ _ _, .closing last => words = [] ∨ (words = str!" " ∧ ∀ x ∈ joiningWords, ¬ x <+: last) ∨ squeezed words ∉ [] :: separators.map squeezed
    | .group _, _ | .introducing _ _ _ _ _, _ => words ∈ separators ∨ squeezed words ∉ [] :: separators.map squeezed
    | .attachment a, _ => a.Ended rest
    | .quoted _, _ => True
    | .number _ ending, _ => NumberEnded ending rest
    | .aside _ _, _ => True
    | .opening, _ => Opened rest
    | .closing _, _ => True

/-- The words after the last item. -/
def Last (i : PassageItem) (words : Str) : Prop :=
  Ordinary words ∧ (i = .opening ∨ ∀ c, words.head? = some c → c ∉ lowerLetters) ∧
    match i with
    | .opening => Opened words
    | .attachment a => a.Ended words
    | .number _ ending => NumberEnded ending words
    | _ => True

/-- The items after an item, and the words around them. -/
def passageUsual (i : PassageItem) : List (Str × PassageItem) → Str → Prop
  | [], after => Last i after
  | (before, j) :: l, after => j.Usual ∧ Between i j before (passageText ((before, j) :: l) after) ∧ passageUsual j l after

/-- A text in the usual form. -/
def Passage.Usual (p : Passage) : Prop :=
  match p.items with
  | [] => Ordinary p.after
  | (before, i) :: l =>
    Ordinary before ∧ (before = [] ∨ ∃ y, before = y ++ str!" ") ∧ i.Usual ∧ (∀ last, i ≠ .closing last) ∧ passageUsual i l p.after

/-- The part of an item which is made of words. -/
def PassageItem.words : PassageItem → Str
  | .number _ ending => ending
  | .aside words last => words ++ last ++ str!")"
  | .closing last => last ++ str!")"
  | _ => []

/-- The known abbreviations are only where they name the act of a group: nothing in the words begins with one. -/
def clear (known : List Str) : List (Str × PassageItem) → Str → Prop
  | [], after => ∀ x y, after = x ++ y → ∀ b ∈ known, ¬ b <+: y
  | (before, i) :: l, after =>
    (∀ x y, before = x ++ y → y ≠ [] → ∀ b ∈ known, ¬ b <+: y ++ (i.text ++ passageText l after)) ∧
    (∀ b ∈ known, b <+: i.text ++ passageText l after → ∃ g a, i = .group g ∧ g.act = some (.short b a)) ∧
    clear known l after ∧
    ∀ x y, i.words = x ++ y → y ≠ [] → ∀ b ∈ known, ¬ b <+: y ++ passageText l after

end HunLaw.Spec
