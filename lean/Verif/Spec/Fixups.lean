import Verif.Model.Fixups
import Verif.Spec.Line

/-! Independent specifications for the fixup properties C29-C32 and C58-C60. -/

set_option autoImplicit false

namespace HunLaw.Spec

/-- The lines `needle` stand in `hay`, beginning at line `i`. -/
def OccursAt (needle hay : List Str) (i : Nat) : Prop :=
  ∃ before after, hay = before ++ needle ++ after ∧ before.length = i

/-- The texts of lines. -/
def texts (lines : List Line) : List Str := lines.map Line.content

/-- `i` is the only place where the context of a fixup and its old line are found. -/
def OnlyPlace (f : Fixup) (lines : List Line) (i : Nat) : Prop :=
  OccursAt (f.after ++ [f.old]) (texts lines) i ∧ ∀ j, OccursAt (f.after ++ [f.old]) (texts lines) j → j = i

/-- The fixup asks for a change. -/
def Useful (f : Fixup) : Prop := f.old ≠ f.new ∨ f.setBold = true

/-- The two texts agree on their first `n` characters. -/
def SharePrefix (n : Nat) (a b : Str) : Prop := n ≤ a.length ∧ n ≤ b.length ∧ a.take n = b.take n
/-- The two texts agree on their last `n` characters. -/
def ShareSuffix (n : Nat) (a b : Str) : Prop :=
  n ≤ a.length ∧ n ≤ b.length ∧ a.drop (a.length - n) = b.drop (b.length - n)

/-- `n` is the length of the longest common prefix. -/
def LongestPrefix (n : Nat) (a b : Str) : Prop := SharePrefix n a b ∧ ∀ m, SharePrefix m a b → m ≤ n

/-- The positions of characters do not go back. -/
def InOrder (gs : List Glyph) : Prop := gs.Pairwise fun a b => a.x ≤ b.x

/-- What a line of the act becomes: unchanged if the edited text equals the old, otherwise the edited
text without the bold marker, which makes the line bold unless it becomes empty. -/
def EditedTo (l : Line) (new : Str) (l' : Line) : Prop :=
  if l.content = new then l' = l
  else if containsStr new str!"<BOLD>" = true then
    l'.content = trim (removeStr str!"<BOLD>" new) ∧ (l'.content ≠ [] → l'.isBold = true)
  else l'.content = new

/-- How many quotations are open after the first `n` lines: the opening marks less the closing ones. -/
def openQuotes (body : List Line) (n : Nat) : Int :=
  let text := ((texts body).take n).flatten
  text.count '„' + text.count '“' - text.count '”'

/-- A line of the file given to the editor: how many quotations are open after the line, in four places, and the text of the
line after one space for every 5 points of its indentation. -/
def editorLine (openAfter : Int) (l : Line) (shown : Str) : Prop :=
  ∃ pad spaces : Nat, shown = List.replicate pad ' ' ++ decInt openAfter ++ ' ' :: List.replicate spaces ' ' ++ l.content ∧
    (pad + (decInt openAfter).length = 4 ∨ pad = 0 ∧ 4 < (decInt openAfter).length) ∧
    (0 ≤ l.indent → spaces * 5 ≤ l.indent ∧ l.indent < (spaces + 1) * 5)

end HunLaw.Spec
