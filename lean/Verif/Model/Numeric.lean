import Verif.Model.Alphabetic
import Verif.Model.CompactString
import Verif.Model.HunStr
import Verif.Model.Roman

/-! Model of /repo/src/identifier/numeric.rs. -/

set_option autoImplicit false

namespace HunLaw

/-- `u16` -/
abbrev U16 := Fin 65536
/-- `u8` -/
abbrev U8 := Fin 256

/-- `str::parse::<uN>()` with the result in the type. -/
def parseFin (n : Nat) (s : Str) : Option (Fin n) :=
  match parseUnsigned (n - 1) s with
  | some v => if h : v < n then some ⟨v, h⟩ else none
  | none => none

/-- `a.wrapping_sub(b)` for an unsigned type with `n` values. -/
def wrappingSub {n : Nat} (a b : Fin n) : Nat := (a.val + n - b.val) % n

/-- Models `struct NumericIdentifier` (numeric.rs:30-36). -/
structure NumericId where
  num : U16
  suffix : Option HunChar
  deriving Repr, DecidableEq

namespace NumericId

/-- The derived `Ord` (numeric.rs:30): lexicographic in the order of the fields. -/
instance : RustOrd NumericId where
  cmp a b := cmp (a.num, a.suffix) (b.num, b.suffix)

/-- Models `split_suffix` (numeric.rs:47-69). `allowed` is membership in `allowed_chars`. -/
def splitSuffix (allowed : Char → Bool) (s : Str) : Option (Str × Option HunChar) :=
  let pre := s.takeWhile allowed
  match s.dropWhile allowed with
  | [] => some (s, none)
  | c :: cs =>
    if c = '/' then
      if cs = [] then none
      else match HunChar.parse cs with
        | some h => some (pre, some h)
        | none => none
    else match HunChar.parse (c :: cs) with
      | some h => some (pre, some h)
      | none => none

/-- Models `from_roman` (numeric.rs:39-45). The cast to `u16` never truncates as `romanFrom` yields
at most 3999. -/
def fromRoman (s : Str) : Option NumericId :=
  match splitSuffix isRomanDigit s with
  | some (numStr, suffix) => match romanFrom numStr with
    | some n => if h : n < 65536 then some ⟨⟨n, h⟩, suffix⟩ else none
    | none => none
  | none => none

/-- The `/x` written by `to_hungarian` and `to_roman`. -/
def slashSuffix : Option HunChar → Str
  | some c => '/' :: c.display
  | none => []

/-- Models `to_hungarian` (numeric.rs:75-81). -/
def toHungarian (i : NumericId) : Option Str :=
  (HunLaw.toHungarian i.num.val).map (· ++ slashSuffix i.suffix)

/-- Models `to_roman` (numeric.rs:82-89). -/
def toRoman (i : NumericId) : Option Str :=
  (romanTo i.num.val).map (· ++ slashSuffix i.suffix)

/-- Models `is_next_from` (numeric.rs:93-99). -/
def isNextFrom (self other : NumericId) : Bool :=
  match self.suffix, other.suffix with
  | none, _ => wrappingSub self.num other.num == 1
  | some ss, none => self.num == other.num && IdentifierCommon.isFirst ss
  | some ss, some so => self.num == other.num && HunChar.isNextFrom ss so

/-- Models `From<u16>` (numeric.rs:163-170). -/
def ofNum (n : U16) : NumericId := ⟨n, none⟩

/-- Models `impl IdentifierCommon for NumericIdentifier` (numeric.rs:92-108). -/
instance : IdentifierCommon NumericId where
  isFirst i := i == ⟨1, none⟩
  isNextFrom := isNextFrom

/-- Models `FromStr` (numeric.rs:110-122). -/
def parse (s : Str) : Option NumericId :=
  match splitSuffix isDigit s with
  | some (numStr, suffix) =>
    if numStr = [] then none
    else match parseFin 65536 numStr with
      | some n => some ⟨n, suffix⟩
      | none => none
  | none => none

/-- Models `Display` (numeric.rs:124-131). -/
def display (i : NumericId) : Str :=
  match i.suffix with
  | some c => dec i.num.val ++ c.display
  | none => dec i.num.val

/-- Models `Display for NumericIdentifierWithSlash` (numeric.rs:177-184). -/
def displaySlash (i : NumericId) : Str :=
  match i.suffix with
  | some c => dec i.num.val ++ '/' :: c.displayUpper
  | none => dec i.num.val

/-- Models `impl CompactString` (numeric.rs:145-153). -/
instance : CompactString NumericId where
  fmtCompact := display
  fromCompact := parse

end NumericId

/-- Models `impl CompactString for HungarianIdentifierChar` (alphabetic.rs:203-211). -/
instance : CompactString HunChar where
  fmtCompact := HunChar.display
  fromCompact := HunChar.parse

end HunLaw
