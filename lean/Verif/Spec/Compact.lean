import Verif.Spec.Dates
import Verif.Spec.Reference

/-! Independent specification of compact references: C126. -/

set_option autoImplicit false

namespace HunLaw.Spec

/-- A number, perhaps with a plus sign. -/
def WritesUnsigned (s : Str) (n : Nat) : Prop := WritesNumber s n ∨ ∃ t, s = '+' :: t ∧ WritesNumber t n

/-- A number, perhaps with a sign. -/
def WritesInteger (s : Str) (z : Int) : Prop :=
  (∃ n : Nat, WritesUnsigned s n ∧ z = n) ∨ ∃ (t : Str) (n : Nat), s = '-' :: t ∧ WritesNumber t n ∧ z = -(n : Int)

/-- An act: the year and the number with a dot between them. -/
def CompactAct (s : Str) (a : ActId) : Prop :=
  ∃ y n, s = y ++ '.' :: n ∧ WritesInteger y a.year.val ∧ WritesInteger n a.number.val

/-- A number with an optional letter. -/
def CompactNumeric (s : Str) (i : NumericId) : Prop := DenotesNumeric s i.num.val (i.suffix.map HunChar.display)

/-- An article: its number, after that of the book and a dot if there is a book. -/
def CompactArticle (s : Str) (a : ArticleId) : Prop :=
  match a.book with
  | none => CompactNumeric s a.identifier
  | some b => ∃ t u, s = t ++ '.' :: u ∧ WritesUnsigned t b.val ∧ CompactNumeric u a.identifier

/-- A letter of the Hungarian alphabet. -/
def CompactLetter (s : Str) (c : HunChar) : Prop := IsLetterText c.display s

/-- A subpoint: one letter, or two single letters. -/
def CompactSubpoint (s : Str) (p : PrefixedId) : Prop :=
  match p.pfx with
  | none => s.length = 1 ∧ CompactLetter s p.chr
  | some q => ∃ c d, s = [c, d] ∧ CompactLetter [c] q ∧ CompactLetter [d] p.chr

/-- One identifier, or the two ends of a range with a hyphen between them. -/
def CompactRange {α : Type} (P : Str → α → Prop) (s : Str) (r : IdRange α) : Prop :=
  P s r.start ∧ r.fin = r.start ∨ ∃ t u, s = t ++ '-' :: u ∧ P t r.start ∧ P u r.fin

/-- A point: numbers or letters. -/
def CompactPoints (s : Str) : RefPartPoint → Prop
  | .numeric r => CompactRange CompactNumeric s r
  | .alphabetic r => CompactRange CompactLetter s r

def CompactSubpoints (s : Str) : RefPartSubpoint → Prop
  | .numeric r => CompactRange CompactNumeric s r
  | .alphabetic r => CompactRange CompactSubpoint s r

/-- A part which may be missing: then its text is empty. -/
def CompactPart {α : Type} (P : Str → α → Prop) (s : Str) : Option α → Prop
  | none => s = []
  | some x => P s x

/-- A reference: its five parts with underscores between them. -/
def CompactRef (s : Str) (r : Ref) : Prop :=
  ∃ act article paragraph point subpoint,
    s = act ++ '_' :: (article ++ '_' :: (paragraph ++ '_' :: (point ++ '_' :: subpoint))) ∧
    CompactPart CompactAct act r.act ∧ CompactPart (CompactRange CompactArticle) article r.article ∧
    CompactPart (CompactRange CompactNumeric) paragraph r.paragraph ∧ CompactPart CompactPoints point r.point ∧
    CompactPart CompactSubpoints subpoint r.subpoint

end HunLaw.Spec
