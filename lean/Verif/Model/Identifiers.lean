import Verif.Model.Numeric
import Verif.Model.Regex

/-!
Model of the other identifiers: /repo/src/identifier/{article,paragraph,prefixed_alphabetic,act,
range}.rs.
-/

set_option autoImplicit false

namespace HunLaw

/-! ### article.rs -/

/-- Models `struct ArticleIdentifier` (article.rs:28-34). -/
structure ArticleId where
  book : Option U8
  identifier : NumericId
  deriving Repr, DecidableEq

namespace ArticleId

/-- The derived `Ord` (article.rs:28). -/
instance : RustOrd ArticleId where
  cmp a b := cmp (a.book, a.identifier) (b.book, b.identifier)

/-- Models `is_next_from` (article.rs:43-50). -/
def isNextFrom (self other : ArticleId) : Bool :=
  match self.book, other.book with
  | none, none => self.identifier.isNextFrom other.identifier
  | some bs, some bo =>
    if bs = bo then self.identifier.isNextFrom other.identifier
    else if wrappingSub bs bo = 1 then IdentifierCommon.isFirst self.identifier
    else false
  | _, _ => false

/-- Models `is_first` (article.rs:52-58). -/
def isFirst (self : ArticleId) : Bool :=
  match self.book with
  | some b => b == 1 && IdentifierCommon.isFirst self.identifier
  | none => IdentifierCommon.isFirst self.identifier

instance : IdentifierCommon ArticleId where
  isFirst := isFirst
  isNextFrom := isNextFrom

/-- Models `FromStr` (article.rs:61-78). -/
def parse (s : Str) : Option ArticleId :=
  match splitOnce ':' s with
  | some (b, i) => match parseFin 256 b, NumericId.parse i with
    | some b, some i => some ⟨some b, i⟩
    | _, _ => none
  | none => match NumericId.parse s with
    | some i => some ⟨none, i⟩
    | none => none

/-- Models `Display` (article.rs:80-87). -/
def display (a : ArticleId) : Str :=
  (match a.book with
    | some b => dec b.val ++ [':']
    | none => []) ++ a.identifier.displaySlash

/-- Models `impl CompactString` (article.rs:109-131). -/
instance : CompactString ArticleId where
  fmtCompact a := (match a.book with
    | some b => dec b.val ++ ['.']
    | none => []) ++ fmtCompact a.identifier
  fromCompact s := match splitOnce '.' s with
    | some (b, i) => match parseFin 256 b, (fromCompact i : Option NumericId) with
      | some b, some i => some ⟨some b, i⟩
      | _, _ => none
    | none => match (fromCompact s : Option NumericId) with
      | some i => some ⟨none, i⟩
      | none => none

/-- Models `From<u16>` (article.rs:133-140). -/
def ofNum (n : U16) : ArticleId := ⟨none, NumericId.ofNum n⟩

end ArticleId

/-! ### paragraph.rs -/

/-- Models `struct ParagraphIdentifier` (paragraph.rs:28-32). -/
structure ParagraphId where
  id : Option NumericId
  deriving Repr, DecidableEq

namespace ParagraphId

/-- The derived `Ord` (paragraph.rs:28). -/
instance : RustOrd ParagraphId where
  cmp a b := cmp a.id b.id

/-- The derived `Default` (paragraph.rs:28). -/
def default : ParagraphId := ⟨none⟩

/-- Models `impl IdentifierCommon` (paragraph.rs:40-58). -/
instance : IdentifierCommon ParagraphId where
  isFirst p := match p.id with
    | some x => IdentifierCommon.isFirst x
    | none => false
  isNextFrom a b := match a.id, b.id with
    | some x, some o => x.isNextFrom o
    | _, _ => false
  isEmpty p := p.id.isNone

/-- Models `FromStr` (paragraph.rs:60-71). -/
def parse (s : Str) : Option ParagraphId :=
  if s = [] then some ⟨none⟩
  else match NumericId.parse s with
    | some i => some ⟨some i⟩
    | none => none

/-- Models `Display` (paragraph.rs:73-81). -/
def display (p : ParagraphId) : Str :=
  match p.id with
  | some i => i.display
  | none => []

/-- Models `impl CompactString` (paragraph.rs:103-111). -/
instance : CompactString ParagraphId where
  fmtCompact := display
  fromCompact := parse

/-- Models `From<NumericIdentifier>` (paragraph.rs:119-123). -/
def ofNumeric (n : NumericId) : ParagraphId := ⟨some n⟩

end ParagraphId

/-! ### prefixed_alphabetic.rs -/

/-- Models `struct PrefixedAlphabeticIdentifier` (prefixed_alphabetic.rs:28-34). -/
structure PrefixedId where
  pfx : Option HunChar
  chr : HunChar
  deriving Repr, DecidableEq

namespace PrefixedId

/-- The derived `Ord` (prefixed_alphabetic.rs:28). -/
instance : RustOrd PrefixedId where
  cmp a b := cmp (a.pfx, a.chr) (b.pfx, b.chr)

/-- Models `prefix_is` (prefixed_alphabetic.rs:37-39). -/
def prefixIs (self : PrefixedId) (p : Option HunChar) : Bool := self.pfx == p

/-- Models `is_next_from` (prefixed_alphabetic.rs:51-57). -/
def isNextFrom (self other : PrefixedId) : Bool :=
  match self.pfx, other.pfx with
  | none, none => HunChar.isNextFrom self.chr other.chr
  | some ps, some po => if ps = po then HunChar.isNextFrom self.chr other.chr else false
  | _, _ => false

/-- Models `impl IdentifierCommon` (prefixed_alphabetic.rs:46-58). -/
instance : IdentifierCommon PrefixedId where
  isFirst p := IdentifierCommon.isFirst p.chr
  isNextFrom := isNextFrom

/-- Models `FromStr` (prefixed_alphabetic.rs:60-79). -/
def parse : Str → Option PrefixedId
  | [c] => match HunChar.ofChar c with
    | some x => some ⟨none, x⟩
    | none => none
  | [c, d] => match HunChar.ofChar c, HunChar.ofChar d with
    | some x, some y => some ⟨some x, y⟩
    | _, _ => none
  | _ => none

/-- Models `Display` (prefixed_alphabetic.rs:81-88). -/
def display (p : PrefixedId) : Str :=
  match p.pfx with
  | some x => x.display ++ p.chr.display
  | none => p.chr.display

/-- Models `impl CompactString` (prefixed_alphabetic.rs:110-118). -/
instance : CompactString PrefixedId where
  fmtCompact := display
  fromCompact := parse

end PrefixedId

/-! ### act.rs -/

/-- `i16` -/
abbrev I16 := { x : Int // -32768 ≤ x ∧ x ≤ 32767 }
/-- `i32` -/
abbrev I32 := { x : Int // -2147483648 ≤ x ∧ x ≤ 2147483647 }

/-- `str::parse::<i16>()` -/
def parseI16 (s : Str) : Option I16 :=
  match parseSigned (-32768) 32767 s with
  | some v => if h : -32768 ≤ v ∧ v ≤ 32767 then some ⟨v, h⟩ else none
  | none => none

/-- `str::parse::<i32>()` -/
def parseI32 (s : Str) : Option I32 :=
  match parseSigned (-2147483648) 2147483647 s with
  | some v => if h : -2147483648 ≤ v ∧ v ≤ 2147483647 then some ⟨v, h⟩ else none
  | none => none

/-- Models `struct ActIdentifier` (act.rs:28-32). -/
structure ActId where
  year : I16
  number : I32
  deriving Repr, DecidableEq

namespace ActId

/-- The derived `Ord` (act.rs:28). -/
instance : RustOrd ActId where
  cmp a b := cmp (a.year.val, a.number.val) (b.year.val, b.number.val)

/-- Models `Display` (act.rs:34-43); `roman::to(..).unwrap()` panics outside 1..=3999. -/
def display (a : ActId) : Res Str :=
  if 0 ≤ a.number.val then
    match romanTo a.number.val.toNat with
    | some r => .ok (decInt a.year.val ++ str!". évi " ++ r ++ str!". törvény")
    | none => .panic
  else .panic

/-- `([0-9]{4}). évi ([IVXLCDM]+). törvény` (act.rs:56) -/
def classicRe : Re :=
  .seqs [.cap 1 (.seqs [.cls isDigit, .cls isDigit, .cls isDigit, .cls isDigit]),
    .cls Re.anyChar, .lit str!" évi ", .cap 2 (.many1 isRomanDigit), .cls Re.anyChar,
    .lit str!" törvény"]

/-- `([0-9]{4})[/_\.-]([0-9]+)` (act.rs:63) -/
def decimalRe : Re :=
  .seqs [.cap 1 (.seqs [.cls isDigit, .cls isDigit, .cls isDigit, .cls isDigit]),
    .cls (fun c => c == '/' || c == '_' || c == '.' || c == '-'), .cap 2 (.many1 isDigit)]

/-- Models `try_classic` (act.rs:55-61). -/
def tryClassic (s : Str) : Option ActId := do
  let m ← Re.search classicRe s
  let (_, year) ← m.group 1
  let (_, number) ← m.group 2
  let year ← parseI16 year
  let number ← romanFrom number
  if h : (-2147483648 : Int) ≤ number ∧ (number : Int) ≤ 2147483647 then
    some ⟨year, ⟨number, h⟩⟩
  else none

/-- Models `try_decimal` (act.rs:62-68). -/
def tryDecimal (s : Str) : Option ActId := do
  let m ← Re.search decimalRe s
  let (_, year) ← m.group 1
  let (_, number) ← m.group 2
  some ⟨← parseI16 year, ← parseI32 number⟩

/-- Models `FromStr` (act.rs:51-73). -/
def parse (s : Str) : Option ActId := (tryClassic s).or (tryDecimal s)

/-- Models `impl CompactString` (act.rs:75-91). -/
instance : CompactString ActId where
  fmtCompact a := decInt a.year.val ++ '.' :: decInt a.number.val
  fromCompact s := match splitOnce '.' s with
    | some (y, n) => match parseI16 y, parseI32 n with
      | some y, some n => some ⟨y, n⟩
      | _, _ => none
    | none => none

end ActId

/-! ### range.rs -/

/-- Models `struct IdentifierRange` (range.rs:25-31). -/
structure IdRange (α : Type) where
  start : α
  fin : α
  deriving Repr, DecidableEq

namespace IdRange

/-- The derived `Ord` (range.rs:25). -/
instance {α : Type} [RustOrd α] : RustOrd (IdRange α) where
  cmp a b := cmp (a.start, a.fin) (b.start, b.fin)

/-- Models `is_range` (range.rs:34-36). -/
def isRange {α : Type} [DecidableEq α] (r : IdRange α) : Bool := r.start != r.fin

/-- Models `first_in_range` (range.rs:38-40). -/
def first {α : Type} (r : IdRange α) : α := r.start

/-- Models `last_in_range` (range.rs:42-44). -/
def last {α : Type} (r : IdRange α) : α := r.fin

/-- Models `contains` (range.rs:46-48). -/
def contains {α : Type} [RustOrd α] (r : IdRange α) (id : α) : Bool :=
  rle r.start id && rle id r.fin

/-- Models `from_single` (range.rs:52-54). -/
def single {α : Type} (a : α) : IdRange α := ⟨a, a⟩

/-- Models `impl CompactString` (range.rs:78-99). -/
instance {α : Type} [DecidableEq α] [CompactString α] : CompactString (IdRange α) where
  fmtCompact r := fmtCompact r.start ++ (if r.isRange then '-' :: fmtCompact r.fin else [])
  fromCompact s := match splitOnce '-' s with
    | some (l, r) => match (fromCompact l : Option α), (fromCompact r : Option α) with
      | some l, some r => some ⟨l, r⟩
      | _, _ => none
    | none => match (fromCompact s : Option α) with
      | some x => some (single x)
      | none => none

end IdRange
end HunLaw
