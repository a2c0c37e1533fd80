import Verif.Spec.Amendments

/-!
How references are written in the usual form, such as

  a 2012. évi C. törvény 3. § (1), (2) és (5)–(7) bekezdés a) és b) pontja

and what they mean. Nothing here uses the parser.
-/

set_option autoImplicit false

namespace HunLaw.Spec

open HunLaw

/-- An element or a range of elements: "a)" or "a)–c)". -/
inductive Span (α : Type) where
  | one (a : α)
  | upTo (dash : Char) (a b : α)

/-- The range of identifiers meant. -/
def Span.range {α : Type} : Span α → IdRange α
  | .one a => ⟨a, a⟩
  | .upTo _ a b => ⟨a, b⟩

/-- The same in other terms. -/
def Span.map {α β : Type} (f : α → β) : Span α → Span β
  | .one a => .one (f a)
  | .upTo d a b => .upTo d (f a) (f b)

/-- "1., 2. és 4–6. §-a": the elements with the separator before each but the first, and the ending of the word
after them. -/
structure Listing (α : Type) where
  first : Span α
  others : List (Str × Span α)
  ending : Str

/-- All elements of a list. -/
def Listing.spans {α : Type} (l : Listing α) : List (Span α) := l.first :: l.others.map Prod.snd

/-! ### The text of one level -/

/-- "3." or "3/A–5.", also with the number of a book as in "6:3." -/
def articleSpan : Span ArticleId → Str
  | .one a => a.display ++ str!"."
  | .upTo d a b => a.display ++ d :: b.display ++ str!"."

/-- "(1)" or "(1)–(3)" -/
def paragraphSpan : Span NumericId → Str
  | .one a => '(' :: a.display ++ str!")"
  | .upTo d a b => '(' :: a.display ++ str!")" ++ d :: '(' :: b.display ++ str!")"

/-- "1." or "1–3." -/
def dottedSpan : Span NumericId → Str
  | .one a => a.display ++ str!"."
  | .upTo d a b => a.display ++ d :: b.display ++ str!"."

/-- "a)" or "a)–c)" -/
def letterSpan : Span HunChar → Str
  | .one a => a.display ++ str!")"
  | .upTo d a b => a.display ++ str!")" ++ d :: b.display ++ str!")"

/-- "aa)" or "aa)–ac)" -/
def prefixedSpan : Span PrefixedId → Str
  | .one a => a.display ++ str!")"
  | .upTo d a b => a.display ++ str!")" ++ d :: b.display ++ str!")"

/-- The texts of a level: its elements with the separators, and the word after them. -/
structure Words where
  first : Str
  others : List (Str × Str)
  ending : Str

/-- The whole text of a level. -/
def Words.text (w : Words) : Str := w.first ++ w.others.flatMap (fun x => x.1 ++ x.2) ++ w.ending

/-- The texts of a list; `word` is what stands after its elements. -/
def Listing.words {α : Type} (span : Span α → Str) (word : Str) (l : Listing α) : Words :=
  ⟨span l.first, l.others.map fun x => (x.1, span x.2), word ++ l.ending⟩

/-! ### References -/

/-- A reference as it is written: the levels which are named. -/
structure Phrase where
  article : Option (Listing ArticleId) := none
  paragraph : Option (Listing NumericId) := none
  numericPoint : Option (Listing NumericId) := none
  alphabeticPoint : Option (Listing HunChar) := none
  numericSubpoint : Option (Listing NumericId) := none
  alphabeticSubpoint : Option (Listing PrefixedId) := none

/-- The texts of its levels from the top. -/
def Phrase.words (w : Phrase) : List Words :=
  w.article.toList.map (Listing.words articleSpan str!" §") ++
  w.paragraph.toList.map (Listing.words paragraphSpan str!" bekezdés") ++
  w.numericPoint.toList.map (Listing.words dottedSpan str!" pont") ++
  w.alphabeticPoint.toList.map (Listing.words letterSpan str!" pont") ++
  w.numericSubpoint.toList.map (Listing.words dottedSpan str!" alpont") ++
  w.alphabeticSubpoint.toList.map (Listing.words prefixedSpan str!" alpont")

/-- Its text: the levels after each other. -/
def Phrase.text (w : Phrase) : Str := List.intercalate str!" " (w.words.map Words.text)

/-- The elements of a level. -/
def listed {α : Type} (f : IdRange α → AnyReferencePart) (l : Option (Listing α)) : List AnyReferencePart :=
  (l.map Listing.spans |>.getD []).map fun s => f s.range

/-- The elements of its levels from the top. -/
def Phrase.levels (w : Phrase) : List (List AnyReferencePart) :=
  [listed .article w.article, listed .paragraph w.paragraph,
    listed (fun r => .point (.numeric r)) w.numericPoint, listed (fun r => .point (.alphabetic r)) w.alphabeticPoint,
    listed (fun r => .subpoint (.numeric r)) w.numericSubpoint,
    listed (fun r => .subpoint (.alphabetic r)) w.alphabeticSubpoint]

/-- How an act is named: by its number, with the word "törvény" and its ending or with "tv.", or by an abbreviation, which
is meant to be that of the given act. -/
inductive ActName where
  | number (act : ActId) (word : Str)
  | short (name : Str) (act : ActId)

/-- The act. -/
def ActName.act : ActName → ActId
  | .number a _ => a
  | .short _ a => a

/-- Its name: "2012. évi C. törvény", "2012. évi C. törvénynek", "2012. évi C. tv."; or the abbreviation. -/
def ActName.text : ActName → Str
  | .number a word => decInt a.year.val ++ str!". évi " ++ (romanTo a.number.val.toNat).getD [] ++ str!". " ++ word
  | .short name _ => name

/-- The name of an act and references into it, or only one of these: "2012. évi C. törvény 3. §-a és 5. §-a". -/
structure PhraseGroup where
  act : Option ActName
  references : List (Str × Phrase)

/-- The text of a group. The first of the references has what is between the act and it as its separator. -/
def PhraseGroup.text (g : PhraseGroup) : Str :=
  (g.act.map ActName.text).getD [] ++ g.references.flatMap fun x => x.1 ++ x.2.text

/-- The references meant by a group: a reference continues from that before it. -/
def PhraseGroup.meant (g : PhraseGroup) : List Ref :=
  chain Ref.empty (g.act.toList.map (fun a => [[.act a.act]]) ++ g.references.map fun x => x.2.levels)

/-! ### Which texts are in the usual form -/

/-- The words and marks between the elements of a list. -/
def joints : List Str :=
  let marks := [str!",", str!";"]
  let words := [str!" és", str!" valamint", str!" illetve", str!" vagy"]
  marks ++ words ++ marks.flatMap fun m => words.map fun w => m ++ w

/-- The same with a space, or with an article of the noun after them. -/
def separators : List Str := joints.flatMap fun j => [j ++ str!" ", j ++ str!" a ", j ++ str!" az "]

/-- The lower case letters. -/
def lowerLetters : Str := str!"aábcdeéfghiíjklmnoóöőpqrstuúüűvwxyz"
/-- The upper case letters. -/
def upperLetters : Str := str!"AÁBCDEÉFGHIÍJKLMNOÓÖŐPQRSTUÚÜŰVWXYZ"

/-- The ending of a word. -/
def Ending (s : Str) : Prop := ∀ c ∈ s, c ∈ lowerLetters

/-- The dashes used for ranges. -/
def dashes : Str := str!"-–−"

/-- The elements have the property, and a range is written with a dash. -/
def Span.Fits {α : Type} (p : α → Prop) : Span α → Prop
  | .one a => p a
  | .upTo d a b => d ∈ dashes ∧ p a ∧ p b

/-- The elements have the property, and the separators are some of those above. -/
def Listing.Fits {α : Type} (p : Span α → Prop) (l : Listing α) : Prop :=
  p l.first ∧ ∀ x ∈ l.others, x.1 ∈ separators ∧ p x.2

/-- An article number has at most one letter, which is not a digraph; the articles of a range are in one book. -/
def ArticleUsual : Span ArticleId → Prop
  | .one a => ∀ c, a.identifier.suffix = some c → Plain c
  | .upTo d a b => d ∈ dashes ∧ a.book = b.book ∧ (∀ c, a.identifier.suffix = some c → Plain c) ∧
      ∀ c, b.identifier.suffix = some c → Plain c

/-- A subpoint has one or two letters, which are not digraphs. -/
def PrefixedUsual (p : PrefixedId) : Prop := (∀ c, p.pfx = some c → Plain c) ∧ Plain p.chr

/-- A reference in the usual form: something is named, a subpoint is in a point, and there are not both kinds of
points or of subpoints. -/
structure Phrase.Usual (w : Phrase) : Prop where
  article : ∀ l, w.article = some l → l.Fits ArticleUsual ∧ (l.ending = [] ∨ ∃ e, l.ending = '-' :: e ∧ e ≠ [] ∧ Ending e)
  paragraph : ∀ l, w.paragraph = some l → l.Fits (Span.Fits fun _ => True) ∧ Ending l.ending
  numericPoint : ∀ l, w.numericPoint = some l → l.Fits (Span.Fits fun _ => True) ∧ Ending l.ending
  alphabeticPoint : ∀ l, w.alphabeticPoint = some l → l.Fits (Span.Fits fun _ => True) ∧ Ending l.ending
  numericSubpoint : ∀ l, w.numericSubpoint = some l →
    l.Fits (Span.Fits fun i => i.suffix = none) ∧ Ending l.ending
  alphabeticSubpoint : ∀ l, w.alphabeticSubpoint = some l → l.Fits (Span.Fits PrefixedUsual) ∧ Ending l.ending
  onePoint : w.numericPoint = none ∨ w.alphabeticPoint = none
  oneSubpoint : w.numericSubpoint = none ∨ w.alphabeticSubpoint = none
  inPoint : (w.numericSubpoint ≠ none ∨ w.alphabeticSubpoint ≠ none) → (w.article ≠ none ∨ w.paragraph ≠ none) →
    (w.numericPoint ≠ none ∨ w.alphabeticPoint ≠ none)
  named : w.words ≠ []

/-- A text of words, spaces and marks. -/
def Ordinary (s : Str) : Prop := ∀ c ∈ s, c ∈ lowerLetters ∨ c ∈ upperLetters ∨ c ∈ str!" .,;!?"

/-- "törvény", "törvénynek", "törvénnyel", or "tv." -/
def ActWord (w : Str) : Prop := (∃ e, w = str!"törvén" ++ e ∧ Ending e ∧ e ≠ []) ∨ w = str!"tv."

/-- An act with a number that can be written, or an abbreviation which begins with a letter. -/
def ActName.Usual : ActName → Prop
  | .number a word => 0 ≤ a.year.val ∧ 1 ≤ a.number.val ∧ a.number.val ≤ 3999 ∧ ActWord word
  | .short name _ => Ordinary name ∧ ∃ c, name.head? = some c ∧ (c ∈ lowerLetters ∨ c ∈ upperLetters)

/-- A group in the usual form. -/
structure PhraseGroup.Usual (g : PhraseGroup) : Prop where
  act : ∀ a, g.act = some a → a.Usual
  references : ∀ x ∈ g.references, x.2.Usual
  first : ∀ x, g.references.head? = some x → x.1 = if g.act = none then [] else str!" "
  others : ∀ x ∈ g.references.tail, x.1 ∈ separators
  named : g.act ≠ none ∨ g.references ≠ []

/-- The text before and after a group: words, spaces and marks. What is before it ends with a space; what is after it
does not continue its last word. -/
structure Around (pre post : Str) : Prop where
  before : Ordinary pre
  space : pre = [] ∨ ∃ y, pre = y ++ str!" "
  after : Ordinary post
  ended : ∀ c, post.head? = some c → c ∉ lowerLetters

/-! ### Where the references are -/

/-- The pieces of the elements of a level, and the text of the last one. The separators are not marked. -/
def itemPieces (before first : Str) : List (Str × Str) → List (Str × Bool) × Str
  | [] => ([], before ++ first)
  | (sep, x) :: l => ((before ++ first, true) :: (sep, false) :: (itemPieces [] x l).1, (itemPieces [] x l).2)

/-- The pieces of a reference: every element of a list is one, the last one together with the lower levels, the
first one together with the higher levels. -/
def wordPieces (before : Str) : List Words → List (Str × Bool)
  | [] => [(before, true)]
  | w :: ws =>
    (itemPieces before w.first w.others).1 ++
      wordPieces ((itemPieces before w.first w.others).2 ++ w.ending ++ if ws = [] then [] else str!" ") ws

/-- The pieces of a group; the act is a piece of its own. -/
def PhraseGroup.pieces (g : PhraseGroup) : List (Str × Bool) :=
  g.act.toList.map (fun a => (a.text, true)) ++
    g.references.flatMap fun x => (x.1, false) :: wordPieces [] x.2.words

/-- The byte ranges of the marked pieces of a text which begins at byte `n`. -/
def markedRanges (n : Nat) : List (Str × Bool) → List (Nat × Nat)
  | [] => []
  | (t, true) :: l => (n, n + byteLen t) :: markedRanges (n + byteLen t) l
  | (t, false) :: l => markedRanges (n + byteLen t) l

end HunLaw.Spec
