import Verif.Model.Line
import Verif.Spec.Identifiers

/-! Independent specifications for the line and quote properties C23-C28. -/

set_option autoImplicit false

namespace HunLaw.Spec

/-- A character as one sees it on the page: its horizontal position, itself, and whether it is bold. -/
structure Glyph where
  x : Rat
  char : Char
  bold : Bool
  deriving DecidableEq, Repr

/-- The characters of a line from a position on; each part is given relative to the one before. -/
def glyphsFrom (x : Rat) : List LinePart → List Glyph
  | [] => []
  | p :: ps => ⟨x + p.dx, p.content, p.bold⟩ :: glyphsFrom (x + p.dx) ps

/-- The characters of a line. -/
def glyphs (l : Line) : List Glyph := glyphsFrom 0 l.parts

/-- A position in a text of `n` characters: negative ones count from the end, those outside are moved
to the nearest end. -/
def clampIndex (n : Nat) (i : Int) : Nat :=
  if i < 0 then n - i.natAbs else if i.natAbs ≤ n then i.natAbs else n

/-- The part of a list from position `f` until before position `t`. -/
def window {α : Type} (f t : Nat) (l : List α) : List α := (l.drop f).take (t - f)

/-- What stands between two joined pieces of text. -/
def separator (a b : Str) : Str :=
  if a.getLast? = some '-' ∧ b.take 3 ≠ str!"és " ∧ b.take 5 ≠ str!"vagy " then []
  else [' ']

/-- Non-empty pieces of text, joined: each pair of neighbours has its separator. -/
def Joined : List Str → Str → Prop
  | [], t => t = []
  | [a], t => t = a
  | a :: b :: rest, t => ∃ u, Joined (b :: rest) u ∧ t = a ++ separator a b ++ u

/-- Number of opening quotes in a text. -/
def opening (s : Str) : Nat := s.count '„' + s.count '“'
/-- Number of closing quotes in a text. -/
def closing (s : Str) : Nat := s.count '”'

/-- The text of lines, one after the other. -/
def allText (ls : List Line) : Str := ls.flatMap Line.content

/-! ### headers -/

/-- A text of spaces only, at least one. -/
def Blank (sp : Str) : Prop := sp ≠ [] ∧ ∀ c ∈ sp, c = ' '

/-- The text `s` is a header with the identifier text `t`, followed by the text `r`: an opening text, the
identifier, a closing text, spaces, and the rest, which has no line feed and none of the excluded words
at its start. -/
def HeaderLine (op : Str) (IdText Closing : Str → Prop) (excluded : List Str) (s t r : Str) : Prop :=
  ∃ cl sp, s = op ++ t ++ cl ++ sp ++ r ∧ IdText t ∧ Closing cl ∧ Blank sp ∧
    r.head? ≠ some ' ' ∧ '\n' ∉ r ∧ ∀ w ∈ excluded, ¬ w <+: r

/-- A non-empty text of digits. -/
def Digits (s : Str) : Prop := s ≠ [] ∧ AllDigits s
def LowerLetter (c : Char) : Prop := 'a'.toNat ≤ c.toNat ∧ c.toNat ≤ 'z'.toNat
def UpperLetter (c : Char) : Prop := 'A'.toNat ≤ c.toNat ∧ c.toNat ≤ 'Z'.toNat

/-- `12`, `12a` -/
def ParagraphIdText (t : Str) : Prop :=
  ∃ d, Digits d ∧ (t = d ∨ ∃ c, LowerLetter c ∧ t = d ++ [c])
/-- `12`, `12a`, `12/a` -/
def NumericIdText (t : Str) : Prop :=
  ∃ d, Digits d ∧ (t = d ∨ ∃ c, LowerLetter c ∧ (t = d ++ [c] ∨ t = d ++ ['/', c]))
/-- `a`, `cs` -/
def AlphabeticIdText (t : Str) : Prop := t ∈ alphabet
/-- `a`, `ab` -/
def PrefixedIdText (t : Str) : Prop :=
  ∃ c, LowerLetter c ∧ (t = [c] ∨ ∃ b, LowerLetter b ∧ t = [b, c])
/-- `12`, `12/A`, `3:12`, `3:12/A` -/
def ArticleIdText (t : Str) : Prop :=
  ∃ book d, (book = [] ∨ ∃ b, Digits b ∧ book = b ++ [':']) ∧ Digits d ∧
    (t = book ++ d ∨ ∃ c, UpperLetter c ∧ t = book ++ d ++ ['/', c])

/-- Headers `(1) rest` -/
def ParagraphHeader := HeaderLine str!"(" ParagraphIdText (· = str!")") [str!"bekezdés"]
/-- Headers `1. rest` -/
def NumericHeader := HeaderLine [] NumericIdText (· = str!".") [str!"pont", str!"alpont"]
/-- Headers `a) rest` -/
def AlphabeticHeader := HeaderLine [] AlphabeticIdText (· = str!")") [str!"pont", str!"alpont"]
/-- Headers `ab) rest` -/
def PrefixedHeader := HeaderLine [] PrefixedIdText (· = str!")") [str!"pont", str!"alpont"]
/-- Headers `1. § rest` and `1.§ rest` -/
def ArticleHeader := HeaderLine [] ArticleIdText (fun c => c = str!". §" ∨ c = str!".§") []

end HunLaw.Spec
