import Verif.Model.PdfLines
import Verif.Spec.Line

/-! Independent specifications for the assembly of lines from the characters of a page: C53, C54, C63. -/

set_option autoImplicit false

namespace HunLaw.Spec

open HunLaw.Pdf (PChar)

/-- Two characters next to each other are apart by more than half a space, or the second opens a quote. -/
def Apart (a b : PChar) : Prop := b.x > a.x + a.width + a.widthOfSpace / 2 ∨ b.content = '„'

instance (a b : PChar) : Decidable (Apart a b) := inferInstanceAs (Decidable (_ ∨ _))

/-- Characters in order, with one space between those that are apart. -/
def spaced : List PChar → Str
  | [] => []
  | [a] => [a.content]
  | a :: b :: rest => a.content :: (if Apart a b then [' '] else []) ++ spaced (b :: rest)

/-- The line shows the characters, each where it was on the page and as bold as it was, with spaces
between those that are apart. -/
def Shows (row : List PChar) (l : Line) : Prop :=
  l.content = spaced row ∧
    (glyphs l).filter (fun g => g.char ≠ ' ') = row.map fun c => ⟨c.x, c.content, c.bold⟩

/-- The row ends less than 0.8 spaces before the right edge of the characters of the page, and this edge
is not left of the page. -/
def ReachesMargin (chars row : List PChar) : Prop :=
  ∃ last, row.getLast? = some last ∧
    0 ≤ last.x + last.width + last.widthOfSpace * (4 / 5) ∧
    ∀ c ∈ chars, c.x + c.width ≤ last.x + last.width + last.widthOfSpace * (4 / 5)

/-- A row of characters: from left to right, the highest one at `top`, all less than half a point below. -/
def IsRow (top : Rat) (row : List PChar) : Prop :=
  (∃ c ∈ row, c.y = top) ∧ (∀ c ∈ row, c.y ≤ top ∧ top - 1 / 2 < c.y) ∧
    row.Pairwise fun a b => a.x ≤ b.x

/-- The lines of a page show its rows from top to bottom, with an empty line where a row is more than 16
points below the one before. -/
inductive PageShows (chars : List PChar) : List (Rat × List PChar) → List Line → Prop
  | last {top : Rat} {row : List PChar} {l : Line} :
    IsRow top row → Shows row l → (l.justified = true ↔ ReachesMargin chars row) →
    PageShows chars [(top, row)] [l]
  | near {top next : Rat} {row row' : List PChar} {l : Line} {rows : List (Rat × List PChar)}
    {ls : List Line} : IsRow top row → Shows row l → (l.justified = true ↔ ReachesMargin chars row) →
    next ≤ top - 1 / 2 → ¬ next < top - 16 → PageShows chars ((next, row') :: rows) ls →
    PageShows chars ((top, row) :: (next, row') :: rows) (l :: ls)
  | far {top next : Rat} {row row' : List PChar} {l : Line} {rows : List (Rat × List PChar)}
    {ls : List Line} : IsRow top row → Shows row l → (l.justified = true ↔ ReachesMargin chars row) →
    next < top - 16 → PageShows chars ((next, row') :: rows) ls →
    PageShows chars ((top, row) :: (next, row') :: rows) (l :: Line.emptyLine :: ls)

end HunLaw.Spec
