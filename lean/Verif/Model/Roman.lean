import Verif.Model.Basic

/-!
Model of the `roman` crate used by /repo (its source is not in /repo). Assumption: `roman::to`
writes 1..=3999 with the usual subtractive notation and refuses all else; `roman::from` reads back
exactly the strings `roman::to` writes.
-/

set_option autoImplicit false

namespace HunLaw

/-- The symbols of `roman::to`, the largest first. -/
def romanPairs : List (Str × Nat) :=
  [(str!"M", 1000), (str!"CM", 900), (str!"D", 500), (str!"CD", 400), (str!"C", 100),
   (str!"XC", 90), (str!"L", 50), (str!"XL", 40), (str!"X", 10), (str!"IX", 9), (str!"V", 5),
   (str!"IV", 4), (str!"I", 1)]

/-- `k` copies of a symbol. -/
def repeatStr (s : Str) : Nat → Str
  | 0 => []
  | k + 1 => s ++ repeatStr s k

/-- The loop of `roman::to`: as many of each symbol as fit. -/
def romanLoop : List (Str × Nat) → Nat → Str
  | [], _ => []
  | (sym, v) :: ps, n => repeatStr sym (n / v) ++ romanLoop ps (n % v)

/-- `roman::to` for a non-negative number. -/
def romanTo (n : Nat) : Option Str :=
  if 1 ≤ n ∧ n ≤ 3999 then some (romanLoop romanPairs n) else none

/-- Value of one symbol. -/
def romanDigit (c : Char) : Option Nat :=
  if c = 'I' then some 1 else if c = 'V' then some 5 else if c = 'X' then some 10
  else if c = 'L' then some 50 else if c = 'C' then some 100 else if c = 'D' then some 500
  else if c = 'M' then some 1000 else none

/-- Value of a string of symbols: a symbol before a larger one is subtracted. -/
def romanLax : Str → Option Int
  | [] => some 0
  | c :: cs => match romanDigit c, romanLax cs with
    | some v, some rest =>
      match cs with
      | [] => some v
      | d :: _ => if (romanDigit d).any (fun w => v < w) then some (rest - v) else some (rest + v)
    | _, _ => none

/-- `roman::from` -/
def romanFrom (s : Str) : Option Nat :=
  match romanLax s with
  | some v => if romanTo v.toNat = some s then some v.toNat else none
  | none => none

/-- `ROMAN_DIGITS` (src/util/mod.rs:28). -/
def isRomanDigit (c : Char) : Bool :=
  c == 'I' || c == 'V' || c == 'X' || c == 'L' || c == 'C' || c == 'D' || c == 'M'

end HunLaw
