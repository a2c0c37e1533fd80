import Verif.Spec.Identifiers

/-! Independent specifications of numerals: C12, C13. -/

set_option autoImplicit false

namespace HunLaw.Spec

/-- A decimal digit in Roman numerals, with the symbols of one, five and ten. -/
def romanGroup (one five ten : Char) : Nat → Str
  | 1 => [one]
  | 2 => [one, one]
  | 3 => [one, one, one]
  | 4 => [one, five]
  | 5 => [five]
  | 6 => [five, one]
  | 7 => [five, one, one]
  | 8 => [five, one, one, one]
  | 9 => [one, ten]
  | _ => []

/-- A number below 4000 in Roman numerals, digit by digit. -/
def romanNumeral (n : Nat) : Str :=
  List.replicate (n / 1000) 'M' ++ romanGroup 'C' 'D' 'M' (n / 100 % 10) ++ romanGroup 'X' 'L' 'C' (n / 10 % 10) ++
    romanGroup 'I' 'V' 'X' (n % 10)

/-- The text denotes the number in Roman numerals, with the optional letter suffix given by its lower case text, after a slash
or right after the number, if it cannot be read as a part of the number. -/
def DenotesRoman (s : Str) (n : Nat) (suffix : Option Str) : Prop :=
  1 ≤ n ∧ n ≤ 3999 ∧
    match suffix with
    | none => s = romanNumeral n
    | some low => ∃ t, IsLetterText low t ∧
        (s = romanNumeral n ++ '/' :: t ∨ s = romanNumeral n ++ t ∧ ∀ c, t.head? = some c → c ∉ str!"IVXLCDM")

/-- The ordinal numerals from 0 to 100. -/
def ordinalNames : List Str :=
  [str!"nulladik", str!"első", str!"második", str!"harmadik", str!"negyedik", str!"ötödik", str!"hatodik",
   str!"hetedik", str!"nyolcadik", str!"kilencedik", str!"tizedik", str!"tizenegyedik", str!"tizenkettedik",
   str!"tizenharmadik", str!"tizennegyedik", str!"tizenötödik", str!"tizenhatodik", str!"tizenhetedik",
   str!"tizennyolcadik", str!"tizenkilencedik", str!"huszadik", str!"huszonegyedik", str!"huszonkettedik",
   str!"huszonharmadik", str!"huszonnegyedik", str!"huszonötödik", str!"huszonhatodik", str!"huszonhetedik",
   str!"huszonnyolcadik", str!"huszonkilencedik", str!"harmincadik", str!"harmincegyedik", str!"harminckettedik",
   str!"harmincharmadik", str!"harmincnegyedik", str!"harmincötödik", str!"harminchatodik", str!"harminchetedik",
   str!"harmincnyolcadik", str!"harminckilencedik", str!"negyvenedik", str!"negyvenegyedik", str!"negyvenkettedik",
   str!"negyvenharmadik", str!"negyvennegyedik", str!"negyvenötödik", str!"negyvenhatodik", str!"negyvenhetedik",
   str!"negyvennyolcadik", str!"negyvenkilencedik", str!"ötvenedik", str!"ötvenegyedik", str!"ötvenkettedik",
   str!"ötvenharmadik", str!"ötvennegyedik", str!"ötvenötödik", str!"ötvenhatodik", str!"ötvenhetedik",
   str!"ötvennyolcadik", str!"ötvenkilencedik", str!"hatvanadik", str!"hatvanegyedik", str!"hatvankettedik",
   str!"hatvanharmadik", str!"hatvannegyedik", str!"hatvanötödik", str!"hatvanhatodik", str!"hatvanhetedik",
   str!"hatvannyolcadik", str!"hatvankilencedik", str!"hetvenedik", str!"hetvenegyedik", str!"hetvenkettedik",
   str!"hetvenharmadik", str!"hetvennegyedik", str!"hetvenötödik", str!"hetvenhatodik", str!"hetvenhetedik",
   str!"hetvennyolcadik", str!"hetvenkilencedik", str!"nyolcvanadik", str!"nyolcvanegyedik", str!"nyolcvankettedik",
   str!"nyolcvanharmadik", str!"nyolcvannegyedik", str!"nyolcvanötödik", str!"nyolcvanhatodik",
   str!"nyolcvanhetedik", str!"nyolcvannyolcadik", str!"nyolcvankilencedik", str!"kilencvenedik",
   str!"kilencvenegyedik", str!"kilencvenkettedik", str!"kilencvenharmadik", str!"kilencvennegyedik",
   str!"kilencvenötödik", str!"kilencvenhatodik", str!"kilencvenhetedik", str!"kilencvennyolcadik",
   str!"kilencvenkilencedik", str!"századik"]

/-- Upper case of the letters of Hungarian, other characters unchanged. -/
def upHungarian (c : Char) : Char :=
  if 'a'.toNat ≤ c.toNat ∧ c.toNat ≤ 'z'.toNat then Char.ofNat (c.toNat - 32)
  else ((str!"áéíóöőúüű").zip str!"ÁÉÍÓÖŐÚÜŰ" |>.lookup c).getD c

/-- A way of writing a word: as it is, in capitals, or with a capital first letter. -/
def IsWordText (low t : Str) : Prop :=
  t = low ∨ t = low.map upHungarian ∨ ∃ c cs, low = c :: cs ∧ t = upHungarian c :: cs

end HunLaw.Spec
