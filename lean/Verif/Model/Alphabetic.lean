import Verif.Model.Basic

/-!
Model of /repo/src/identifier/alphabetic.rs and of the trait in /repo/src/identifier/mod.rs.
-/

set_option autoImplicit false

namespace HunLaw

/-- Models `trait IdentifierCommon` (src/identifier/mod.rs:34-43). -/
class IdentifierCommon (α : Type) where
  isFirst : α → Bool
  isNextFrom : α → α → Bool
  isEmpty : α → Bool := fun _ => false

export IdentifierCommon (isFirst isNextFrom)

/-- Models `enum HungarianIdentifierChar` (alphabetic.rs:33-51). `latin i` is `Latin(b'a' + i)`.
Simplification: the Rust variant holds any `u8`; the code documents the range `b'a'..=b'z'` and all
constructors in the library keep to it, so the model has only these 26 values. -/
inductive HunChar where
  | latin (i : Fin 26)
  | cs | dz | gy | ly | ny | sz | ty | zs
  deriving Repr, DecidableEq

namespace HunChar

/-- The ASCII code of a lower case letter. -/
def code (i : Fin 26) : Nat := 97 + i.val

/-- Models `ord_helper` (alphabetic.rs:58-70). -/
def ordHelper : HunChar → Nat
  | latin i => code i * 2
  | cs => 99 * 2 + 1
  | dz => 100 * 2 + 1
  | gy => 103 * 2 + 1
  | ly => 108 * 2 + 1
  | ny => 110 * 2 + 1
  | sz => 115 * 2 + 1
  | ty => 116 * 2 + 1
  | zs => 122 * 2 + 1

/-- Models `Ord::cmp` (alphabetic.rs:73-77). -/
instance : RustOrd HunChar where
  cmp a b := compare a.ordHelper b.ordHelper

/-- Models `is_next_from` (alphabetic.rs:86-108). Letters are given by their position,
`b'p'` is 15, `b'r'` is 17 and so on. -/
def isNextFrom : HunChar → HunChar → Bool
  | latin s, latin o => (decide (s.val > o.val) && decide (s.val - o.val = 1)) || (s.val == 17 && o.val == 15)
  | cs, latin o => o.val == 2
  | dz, latin o => o.val == 3
  | gy, latin o => o.val == 6
  | ly, latin o => o.val == 11
  | ny, latin o => o.val == 13
  | sz, latin o => o.val == 18
  | ty, latin o => o.val == 19
  | zs, latin o => o.val == 25
  | latin s, cs => s.val == 3
  | latin s, dz => s.val == 4
  | latin s, gy => s.val == 7
  | latin s, ly => s.val == 12
  | latin s, ny => s.val == 14
  | latin s, sz => s.val == 19
  | latin s, ty => s.val == 20
  | _, _ => false

/-- Models `impl IdentifierCommon for HungarianIdentifierChar` (alphabetic.rs:85-113). -/
instance : IdentifierCommon HunChar where
  isFirst c := c == latin 0
  isNextFrom := isNextFrom

/-- The test and the construction in `TryFrom<char>` (alphabetic.rs:120-124), after lowering. -/
def ofLower (v : Char) : Option HunChar :=
  if h : 97 ≤ v.toNat ∧ v.toNat ≤ 122 then some (latin ⟨v.toNat - 97, by omega⟩) else none

/-- Models `TryFrom<char>` (alphabetic.rs:115-126). -/
def ofChar (c : Char) : Option HunChar := ofLower (asciiLower c)

/-- Models `FromStr` (alphabetic.rs:128-147). -/
def parse (s : Str) : Option HunChar :=
  if byteLen s = 1 then
    match s with
    | c :: _ => ofChar c
    | [] => none  -- not reachable, the byte length is 1
  else if s = str!"cs" ∨ s = str!"Cs" ∨ s = str!"CS" then some HunChar.cs
  else if s = str!"dz" ∨ s = str!"Dz" ∨ s = str!"DZ" then some dz
  else if s = str!"gy" ∨ s = str!"Gy" ∨ s = str!"GY" then some gy
  else if s = str!"ly" ∨ s = str!"Ly" ∨ s = str!"LY" then some ly
  else if s = str!"ny" ∨ s = str!"Ny" ∨ s = str!"NY" then some ny
  else if s = str!"sz" ∨ s = str!"Sz" ∨ s = str!"SZ" then some sz
  else if s = str!"ty" ∨ s = str!"Ty" ∨ s = str!"TY" then some ty
  else if s = str!"zs" ∨ s = str!"Zs" ∨ s = str!"ZS" then some zs
  else none

/-- Models `Display` (alphabetic.rs:149-163); also `fmt_compact_string` (203-206). -/
def display : HunChar → Str
  | latin i => [Char.ofNat (code i)]
  | cs => str!"cs"
  | dz => str!"dz"
  | gy => str!"gy"
  | ly => str!"ly"
  | ny => str!"ny"
  | sz => str!"sz"
  | ty => str!"ty"
  | zs => str!"zs"

/-- Models `Display for UppercaseHungarianIdentifierChar` (alphabetic.rs:187-201). -/
def displayUpper : HunChar → Str
  | latin i => [Char.ofNat (65 + i.val)]
  | cs => str!"CS"
  | dz => str!"DZ"
  | gy => str!"GY"
  | ly => str!"LY"
  | ny => str!"NY"
  | sz => str!"SZ"
  | ty => str!"TY"
  | zs => str!"ZS"

end HunChar
end HunLaw
