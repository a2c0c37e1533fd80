import Verif.Spec.MkAct
import Verif.Spec.Identifiers

/-! Independent specification of the dates that are read: C125. -/

set_option autoImplicit false

namespace HunLaw.Spec

/-- A text of decimal digits with its value. -/
def WritesNumber (s : Str) (n : Nat) : Prop := s ≠ [] ∧ AllDigits s ∧ decimalValue s = n

/-- The text begins with a date: a year of four digits, a character (the full stop), the name of the month and the day. What
follows the day is `rest`. -/
def BeginsWithDate (s : Str) (d : Date) (day rest : Str) : Prop :=
  RealDate d ∧ ∃ (year month : Str) (x : Char) (y : Nat), s = year ++ x :: ' ' :: month ++ ' ' :: day ++ rest ∧ x ≠ '\n' ∧
    year.length = 4 ∧ WritesNumber year y ∧ d.year = y ∧ monthNames[d.month - 1]? = some month ∧ WritesNumber day d.day

/-- The first character of a text. -/
def Starts (p : Char → Bool) (s : Str) : Prop := ∃ c cs, s = c :: cs ∧ p c = true

end HunLaw.Spec
