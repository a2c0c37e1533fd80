import Verif.Model.Basic

/-! Model of the ordinal numerals of /repo/build.rs and /repo/src/util/hun_str.rs. -/

set_option autoImplicit false

namespace HunLaw

/-- `char::to_uppercase` on the letters that occur in the numerals (ASCII and `áéíóöőúüű`). -/
def hunUpper (c : Char) : Char :=
  if 97 ≤ c.toNat ∧ c.toNat ≤ 122 then Char.ofNat (c.toNat - 32)
  else if c = 'á' then 'Á' else if c = 'é' then 'É' else if c = 'í' then 'Í'
  else if c = 'ó' then 'Ó' else if c = 'ö' then 'Ö' else if c = 'ő' then 'Ő'
  else if c = 'ú' then 'Ú' else if c = 'ü' then 'Ü' else if c = 'ű' then 'Ű' else c

/-- `str::to_uppercase` on these strings. -/
def upperStr (s : Str) : Str := s.map hunUpper

/-- Models `capitalize` (build.rs:24-30). -/
def capitalizeStr : Str → Str
  | [] => []
  | c :: cs => hunUpper c :: cs

/-- Models `special_values` (build.rs:33-46). -/
def hunSpecial : List (Nat × Str) :=
  [(1, str!"első"), (2, str!"második"), (10, str!"tizedik"), (20, str!"huszadik"),
   (30, str!"harmincadik"), (40, str!"negyvenedik"), (50, str!"ötvenedik"),
   (60, str!"hatvanadik"), (70, str!"hetvenedik"), (80, str!"nyolcvanadik"),
   (90, str!"kilencvenedik"), (100, str!"századik")]

/-- Models `ones_digit` (build.rs:47-58). -/
def hunOnes : List Str :=
  [str!"nulladik", str!"egyedik", str!"kettedik", str!"harmadik", str!"negyedik", str!"ötödik",
   str!"hatodik", str!"hetedik", str!"nyolcadik", str!"kilencedik"]

/-- Models `tens_digit` (build.rs:59-70). -/
def hunTens : List Str :=
  [str!"", str!"tizen", str!"huszon", str!"harminc", str!"negyven", str!"ötven", str!"hatvan",
   str!"hetven", str!"nyolcvan", str!"kilencven"]

/-- Models `generate_hun_strs` (build.rs:32-84), the table `INT_TO_STR_HUN`. -/
def hunTable : List Str :=
  (hunTens.zipIdx.flatMap fun (tens, t) =>
    hunOnes.zipIdx.map fun (ones, o) =>
      match hunSpecial.lookup (t * 10 + o) with
      | some text => text
      | none => tens ++ ones) ++ [str!"századik"]

/-- Models the entries of `STR_TO_INT_HUN` (build.rs:94-98): each numeral as it is, in upper case
and capitalised. Simplification: the perfect hash map is a list of entries; `phf_codegen` refuses to
build a map with duplicate keys, so the order cannot matter (the absence of duplicates is proved). -/
def hunEntries : List (Str × Nat) :=
  hunTable.zipIdx.flatMap fun (s, v) => [(s, v), (upperStr s, v), (capitalizeStr s, v)]

/-- Models `from_hungarian` for `u8`/`u16` (hun_str.rs:51-56). -/
def fromHungarian (s : Str) : Option Nat := hunEntries.lookup s

/-- Models `to_hungarian` for `u8`/`u16` (hun_str.rs:60-67). -/
def toHungarian (n : Nat) : Option Str := hunTable[n]?

/-- Models `text_to_month_hun` (hun_str.rs:75-91). -/
def monthFromHungarian (s : Str) : Option Nat :=
  [(str!"január", 1), (str!"február", 2), (str!"március", 3), (str!"április", 4), (str!"május", 5),
   (str!"június", 6), (str!"július", 7), (str!"augusztus", 8), (str!"szeptember", 9),
   (str!"október", 10), (str!"november", 11), (str!"december", 12)].lookup s

end HunLaw
