import Verif.Model.Identifiers

/-! Independent specifications for the identifier properties C01-C13. -/

set_option autoImplicit false

namespace HunLaw.Spec

/-- The Hungarian alphabet without the accented letters, written out in its order. -/
def alphabet : List Str :=
  [str!"a", str!"b", str!"c", str!"cs", str!"d", str!"dz", str!"e", str!"f", str!"g", str!"gy",
   str!"h", str!"i", str!"j", str!"k", str!"l", str!"ly", str!"m", str!"n", str!"ny", str!"o",
   str!"p", str!"q", str!"r", str!"s", str!"sz", str!"t", str!"ty", str!"u", str!"v", str!"w",
   str!"x", str!"y", str!"z", str!"zs"]

/-- Upper case of an ASCII letter, other characters unchanged. -/
def upAscii (c : Char) : Char :=
  if 'a'.toNat ≤ c.toNat ∧ c.toNat ≤ 'z'.toNat then Char.ofNat (c.toNat - 32) else c

/-- `t` is a way of writing the letter whose lower case text is `low`: as it is, with a capital first
letter, or all in capitals. -/
def IsLetterText (low t : Str) : Prop :=
  t = low ∨ t = low.map upAscii ∨ ∃ c cs, low = c :: cs ∧ t = upAscii c :: cs

/-- Value of a string of decimal digits. -/
def decimalValue (s : Str) : Nat := s.foldl (fun acc c => 10 * acc + (c.toNat - '0'.toNat)) 0

/-- All characters are decimal digits. -/
def AllDigits (s : Str) : Prop := ∀ c ∈ s, '0'.toNat ≤ c.toNat ∧ c.toNat ≤ '9'.toNat

/-- The text `s` denotes the number `n` with the optional letter suffix given by its lower case text:
digits, then nothing or an optional slash and a letter. -/
def DenotesNumeric (s : Str) (n : Nat) (suffix : Option Str) : Prop :=
  ∃ digits tail, s = digits ++ tail ∧ digits ≠ [] ∧ AllDigits digits ∧ decimalValue digits = n ∧
    match suffix with
    | none => tail = []
    | some low => ∃ t, IsLetterText low t ∧ (tail = t ∨ tail = '/' :: t)

/-- A letter identifier that is a single letter. -/
def Plain (c : HunChar) : Prop := ∃ i, c = HunChar.latin i

end HunLaw.Spec
