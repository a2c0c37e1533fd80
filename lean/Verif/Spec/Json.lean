import Verif.Model.Serde
import Verif.Spec.Identifiers

/-!
How a text in JSON is read (RFC 8259). Nothing here uses the writer.

The meaning of numbers with a fraction or an exponent is a parameter, because rounding is not modelled.
-/

set_option autoImplicit false

namespace HunLaw.Spec.Json

open HunLaw HunLaw.Serde

/-- Without the insignificant white space at its beginning. -/
def skip (s : Str) : Str := s.dropWhile (· ∈ str!" \t\n\r")

/-- The value of a hexadecimal digit. -/
def hexValue (c : Char) : Option Nat :=
  if '0' ≤ c ∧ c ≤ '9' then some (c.toNat - '0'.toNat)
  else if 'a' ≤ c ∧ c ≤ 'f' then some (c.toNat - 'a'.toNat + 10)
  else if 'A' ≤ c ∧ c ≤ 'F' then some (c.toNat - 'A'.toNat + 10)
  else none

/-- Four hexadecimal digits. -/
def unit : Str → Option (Nat × Str)
  | a :: b :: c :: d :: r => do
    some (16 * (16 * (16 * (← hexValue a) + (← hexValue b)) + (← hexValue c)) + (← hexValue d), r)
  | _ => none

/-- What is after a backslash. Characters beyond the first 65536 are written as two surrogates. -/
def escape : Str → Option (Char × Str)
  | [] => none
  | c :: r =>
    if c ∈ str!"\"\\/" then some (c, r)
    else if c = 'b' then some ('\x08', r)
    else if c = 'f' then some ('\x0C', r)
    else if c = 'n' then some ('\n', r)
    else if c = 'r' then some ('\r', r)
    else if c = 't' then some ('\t', r)
    else if c = 'u' then do
      let (n, r) ← unit r
      if 0xD800 ≤ n ∧ n < 0xDC00 then
        match r with
        | '\\' :: 'u' :: r => do
          let (m, r) ← unit r
          if 0xDC00 ≤ m ∧ m < 0xE000 then some (Char.ofNat (0x10000 + 0x400 * (n - 0xD800) + (m - 0xDC00)), r) else none
        | _ => none
      else if 0xDC00 ≤ n ∧ n < 0xE000 then none
      else some (Char.ofNat n, r)
    else none

/-- The rest of a string, after its opening quotation mark. -/
def string : Nat → Str → Option (Str × Str)
  | n + 1, c :: r =>
    if c = '"' then some ([], r)
    else if c = '\\' then do
      let (c, r) ← escape r
      let (s, r) ← string n r
      some (c :: s, r)
    else if c.toNat < 32 then none
    else do
      let (s, r) ← string n r
      some (c :: s, r)
  | _, _ => none

/-- The characters of numbers. -/
def numberChars : Str := str!"0123456789-+.eE"

/-- Digits without a needless zero at the beginning. -/
def Plain (s : Str) : Prop := s ≠ [] ∧ AllDigits s ∧ (s.head? = some '0' → s.length = 1)

instance (s : Str) : Decidable (Plain s) := by unfold Plain AllDigits; infer_instance

/-- A number: an integer, or something with a fraction or an exponent. -/
def number (decimals : Str → Option Rat) (s : Str) : Option Value :=
  if Plain s then some (.int (decimalValue s))
  else if s.head? = some '-' ∧ Plain s.tail then some (.int (-(decimalValue s.tail : Int)))
  else (decimals s).map .float

mutual

/-- A value at the beginning of a text, with the rest. -/
def value (decimals : Str → Option Rat) : Nat → Str → Option (Value × Str)
  | 0, _ => none
  | n + 1, s =>
    let s := skip s
    if str!"null" <+: s then some (.null, s.drop 4)
    else if str!"true" <+: s then some (.bool true, s.drop 4)
    else if str!"false" <+: s then some (.bool false, s.drop 5)
    else match s with
    | [] => none
    | c :: r =>
      if c = '"' then (string r.length r).map fun x => (.str x.1, x.2)
      else if c = '[' then
        if (skip r).head? = some ']' then some (.seq [], (skip r).tail)
        else (elements decimals n r).map fun x => (.seq x.1, x.2)
      else if c = '{' then
        if (skip r).head? = some '}' then some (.map [], (skip r).tail)
        else (members decimals n r).map fun x => (.map x.1, x.2)
      else (number decimals (s.takeWhile (· ∈ numberChars))).map fun v => (v, s.dropWhile (· ∈ numberChars))

/-- The elements of an array, up to its end. -/
def elements (decimals : Str → Option Rat) : Nat → Str → Option (List Value × Str)
  | 0, _ => none
  | n + 1, s =>
    match value decimals n s with
    | none => none
    | some (v, r) =>
      if (skip r).head? = some ',' then (elements decimals n (skip r).tail).map fun x => (v :: x.1, x.2)
      else if (skip r).head? = some ']' then some ([v], (skip r).tail)
      else none

/-- The members of an object, up to its end. -/
def members (decimals : Str → Option Rat) : Nat → Str → Option (List (Str × Value) × Str)
  | 0, _ => none
  | n + 1, s =>
    if (skip s).head? = some '"' then
      match string (skip s).length (skip s).tail with
      | none => none
      | some (k, r) =>
        if (skip r).head? = some ':' then
          match value decimals n (skip r).tail with
          | none => none
          | some (v, r) =>
            if (skip r).head? = some ',' then (members decimals n (skip r).tail).map fun x => ((k, v) :: x.1, x.2)
            else if (skip r).head? = some '}' then some ([(k, v)], (skip r).tail)
            else none
        else none
    else none

end

/-- The document of a text. -/
def document (decimals : Str → Option Rat) (s : Str) : Option Value :=
  match value decimals (s.length + 1) s with
  | some (v, r) => if skip r = [] then some v else none
  | none => none

/-- Numbers which are not integers are written as such, and they can be read. -/
structure Faithful (float : Rat → Str) (decimals : Str → Option Rat) : Prop where
  read : ∀ x, decimals (float x) = some x
  chars : ∀ x, ∀ c ∈ float x, c ∈ numberChars
  fraction : ∀ x, ∃ c ∈ float x, c ∈ str!".e"
  first : ∀ x, ∃ c ∈ str!"0123456789-", (float x).head? = some c

end HunLaw.Spec.Json
