/-
Basic vocabulary of the model: strings as lists of characters, decimal numbers as
`std` prints and parses them, `split_once`, and the `Ord` trait of Rust.

These model the parts of the Rust standard library used by /repo; there is no file of /repo
behind this module.
-/

set_option autoImplicit false

namespace HunLaw

/-- Rust `String` / `&str`: a sequence of Unicode scalar values. -/
abbrev Str := List Char

/-- `str!"abc"` is the list of characters of the literal. -/
macro:max "str!" s:str : term => do
  let chars := s.getString.toList.map fun c => Lean.Syntax.mkCharLit c
  `([$(chars.toArray),*])

/-- Result of a Rust function that may return, return `Err`, or panic.
Error values carry no message: only the fact of the error is modelled. -/
inductive Res (α : Type) where
  | ok (a : α)
  | err
  | panic
  deriving Repr, DecidableEq

namespace Res

def bind {α β : Type} (x : Res α) (f : α → Res β) : Res β :=
  match x with
  | .ok a => f a
  | .err => .err
  | .panic => .panic

instance : Monad Res where
  pure := .ok
  bind := bind

/-- `Option::ok_or_else(..)?` -/
def ofOption {α : Type} : Option α → Res α
  | some a => .ok a
  | none => .err

@[simp] theorem pure_def {α : Type} (a : α) : (pure a : Res α) = .ok a := rfl
@[simp] theorem bind_ok {α β : Type} (a : α) (f : α → Res β) : (Res.ok a >>= f) = f a := rfl
@[simp] theorem bind_err {α β : Type} (f : α → Res β) : (Res.err >>= f) = .err := rfl
@[simp] theorem bind_panic {α β : Type} (f : α → Res β) : (Res.panic >>= f) = .panic := rfl

theorem bind_eq_ok {α β : Type} {x : Res α} {f : α → Res β} {b : β} :
    (x >>= f) = .ok b ↔ ∃ a, x = .ok a ∧ f a = .ok b := by
  cases x <;> simp

end Res

/-! ### Decimal numbers -/

/-- The character of one decimal digit. -/
def digitChar (d : Nat) : Char := Char.ofNat (48 + d)

def decAux : Nat → Nat → Str
  | 0, _ => []
  | fuel + 1, n => if n < 10 then [digitChar n] else decAux fuel (n / 10) ++ [digitChar (n % 10)]

/-- `format!("{}", n)` / `format!("{:?}", n)` for an unsigned integer. -/
def dec (n : Nat) : Str := decAux (n + 1) n

/-- `format!("{}", i)` for a signed integer. -/
def decInt (i : Int) : Str :=
  if i < 0 then '-' :: dec i.natAbs else dec i.natAbs

/-- `'0'..='9'` -/
def isDigit (c : Char) : Bool := decide (48 ≤ c.toNat) && decide (c.toNat ≤ 57)

def digitVal (c : Char) : Nat := c.toNat - 48

def parseDigitsFrom : Nat → Str → Option Nat
  | acc, [] => some acc
  | acc, c :: cs => if isDigit c then parseDigitsFrom (10 * acc + digitVal c) cs else none

/-- A non-empty run of ASCII digits. -/
def parseDigits : Str → Option Nat
  | [] => none
  | s => parseDigitsFrom 0 s

/-- Drop one leading `+`. -/
def dropPlus : Str → Str
  | '+' :: rest => rest
  | s => s

/-- `str::parse::<uN>()` where the largest value is `max`: an optional `+`, then at least one
digit and nothing else, and no overflow. -/
def parseUnsigned (max : Nat) (s : Str) : Option Nat :=
  match parseDigits (dropPlus s) with
  | some n => if n ≤ max then some n else none
  | none => none

/-- `str::parse::<iN>()` for a type with the range `lo ..= hi`. -/
def parseSigned (lo hi : Int) (s : Str) : Option Int :=
  let check (i : Int) : Option Int := if lo ≤ i ∧ i ≤ hi then some i else none
  match s with
  | '-' :: rest => (parseDigits rest).bind fun n => check (-(n : Int))
  | '+' :: rest => (parseDigits rest).bind fun n => check n
  | _ => (parseDigits s).bind fun n => check n

/-! ### Splitting -/

/-- `str::split_once(c)` for a character. -/
def splitOnce (c : Char) : Str → Option (Str × Str)
  | [] => none
  | x :: xs =>
    if x = c then some ([], xs)
    else match splitOnce c xs with
      | some (a, b) => some (x :: a, b)
      | none => none

/-- `str::split(c)` for a character; always at least one piece. -/
def splitAll (c : Char) : Str → List Str
  | [] => [[]]
  | x :: xs =>
    if x = c then [] :: splitAll c xs
    else match splitAll c xs with
      | p :: ps => (x :: p) :: ps
      | [] => [[x]]

/-- Number of bytes of a character in UTF-8 (`char::len_utf8`). -/
def utf8Len (c : Char) : Nat :=
  if c.toNat < 0x80 then 1 else if c.toNat < 0x800 then 2 else if c.toNat < 0x10000 then 3 else 4

/-- `str::len()`: number of bytes. -/
def byteLen : Str → Nat
  | [] => 0
  | c :: cs => utf8Len c + byteLen cs

/-- `char::to_ascii_lowercase` -/
def asciiLower (c : Char) : Char :=
  if 65 ≤ c.toNat ∧ c.toNat ≤ 90 then Char.ofNat (c.toNat + 32) else c

/-- `str::starts_with(&str)` -/
def startsWith : Str → Str → Bool
  | _, [] => true
  | [], _ :: _ => false
  | c :: cs, p :: ps => c = p && startsWith cs ps

/-- `str::strip_prefix(&str)` -/
def stripPrefix : Str → Str → Option Str
  | s, [] => some s
  | [], _ :: _ => none
  | c :: cs, p :: ps => if c = p then stripPrefix cs ps else none

/-- `str::strip_suffix(&str)` -/
def stripSuffix (s suf : Str) : Option Str :=
  if suf.length ≤ s.length ∧ s.drop (s.length - suf.length) = suf
  then some (s.take (s.length - suf.length)) else none

/-! ### Ordering -/

/-- `std::cmp::Ord::cmp`. -/
class RustOrd (α : Type) where
  cmp : α → α → Ordering

export RustOrd (cmp)

/-- `a <= b` -/
def rle {α : Type} [RustOrd α] (a b : α) : Bool := cmp a b != .gt
/-- `a < b` -/
def rlt {α : Type} [RustOrd α] (a b : α) : Bool := cmp a b == .lt

instance : RustOrd Nat where cmp := compare
instance : RustOrd Int where cmp := compare
instance {n : Nat} : RustOrd (Fin n) where cmp a b := compare a.val b.val

/-- Derived `Ord` of `Option`: `None < Some(_)`. -/
instance {α : Type} [RustOrd α] : RustOrd (Option α) where
  cmp
    | none, none => .eq
    | none, some _ => .lt
    | some _, none => .gt
    | some a, some b => cmp a b

/-- Derived `Ord` of a struct with two fields: lexicographic. -/
instance {α β : Type} [RustOrd α] [RustOrd β] : RustOrd (α × β) where
  cmp a b := (cmp a.1 b.1).then (cmp a.2 b.2)

/-- Derived `Ord` of an enum with two one-field variants. -/
instance {α β : Type} [RustOrd α] [RustOrd β] : RustOrd (α ⊕ β) where
  cmp
    | .inl a, .inl b => cmp a b
    | .inl _, .inr _ => .lt
    | .inr _, .inl _ => .gt
    | .inr a, .inr b => cmp a b

end HunLaw
