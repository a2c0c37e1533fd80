import Verif.Model.Basic

/-!
A small model of the `regex` crate, enough for the patterns of /repo. There is no file of /repo
behind this module; each pattern is cited where it is defined.

A pattern is run from one position and yields *all* its matches in priority order, so the first of
them is the leftmost-first match of the crate. Only classes of characters are ever starred in /repo,
so `many` takes a class. `.` is every character but the line feed; `$` is the end of the text;
`\d` is the decimal digits of Unicode.
-/

set_option autoImplicit false

namespace HunLaw

inductive Re where
  | eps
  /-- one character of a class -/
  | cls (p : Char → Bool)
  /-- `[..]*`, greedy -/
  | many (p : Char → Bool)
  | seq (a b : Re)
  /-- `a|b`, `a` preferred -/
  | alt (a b : Re)
  /-- numbered group -/
  | cap (n : Nat) (r : Re)
  /-- `$` -/
  | eos

namespace Re

/-- What has been consumed, what is left, and the groups captured, the latest first. A group is its
number, the text before it and its text. -/
structure MState where
  pre : Str
  rest : Str
  caps : List (Nat × Str × Str)
  deriving Repr, DecidableEq

/-- All splits of a text into a run of class members and a rest, the longest run first. -/
def manySplits (p : Char → Bool) : Str → List (Str × Str)
  | [] => [([], [])]
  | c :: cs =>
    if p c then (manySplits p cs).map (fun ab => (c :: ab.1, ab.2)) ++ [([], c :: cs)]
    else [([], c :: cs)]

/-- All matches of a pattern from a position, in priority order. -/
def run : Re → MState → List MState
  | eps, st => [st]
  | cls p, st => match st.rest with
    | c :: cs => if p c then [⟨st.pre ++ [c], cs, st.caps⟩] else []
    | [] => []
  | many p, st => (manySplits p st.rest).map fun ab => ⟨st.pre ++ ab.1, ab.2, st.caps⟩
  | seq a b, st => (run a st).flatMap (run b)
  | alt a b, st => run a st ++ run b st
  | cap n r, st => (run r st).map fun st' =>
      ⟨st'.pre, st'.rest, (n, st.pre, st'.pre.drop st.pre.length) :: st'.caps⟩
  | eos, st => if st.rest = [] then [st] else []

/-- Match of a pattern that starts with `^`. -/
def matchAt (r : Re) (s : Str) : Option MState := (run r ⟨[], s, []⟩).head?

/-- Match of an unanchored pattern: the leftmost position with a match. -/
def searchFrom (r : Re) (pre : Str) : Str → Option MState
  | [] => (run r ⟨pre, [], []⟩).head?
  | c :: cs => match (run r ⟨pre, c :: cs, []⟩).head? with
    | some st => some st
    | none => searchFrom r (pre ++ [c]) cs

def search (r : Re) (s : Str) : Option MState := searchFrom r [] s

/-- `captures.get(n)`: the text before the group and its text. -/
def MState.group (st : MState) (n : Nat) : Option (Str × Str) :=
  (st.caps.find? fun c => c.1 == n).map (·.2)

/-- Literal text. -/
def lit : Str → Re
  | [] => eps
  | [c] => cls (· == c)
  | c :: cs => seq (cls (· == c)) (lit cs)

/-- `r?`, greedy -/
def opt (r : Re) : Re := alt r eps

/-- `[..]+`, greedy -/
def many1 (p : Char → Bool) : Re := seq (cls p) (many p)

/-- `.` -/
def anyChar : Char → Bool := fun c => c != '\n'

/-- The zeros of the scripts with decimal digits (the general category `Nd` of Unicode 14); each is followed by its nine
other digits. -/
def digitZeros : List Nat :=
  [0x30, 0x660, 0x6F0, 0x7C0, 0x966, 0x9E6, 0xA66, 0xAE6, 0xB66, 0xBE6, 0xC66, 0xCE6, 0xD66, 0xDE6, 0xE50,
   0xED0, 0xF20, 0x1040, 0x1090, 0x17E0, 0x1810, 0x1946, 0x19D0, 0x1A80, 0x1A90, 0x1B50, 0x1BB0, 0x1C40,
   0x1C50, 0xA620, 0xA8D0, 0xA900, 0xA9D0, 0xA9F0, 0xAA50, 0xABF0, 0xFF10, 0x104A0, 0x10D30, 0x11066,
   0x110F0, 0x11136, 0x111D0, 0x112F0, 0x11450, 0x114D0, 0x11650, 0x116C0, 0x11730, 0x118E0, 0x11950,
   0x11C50, 0x11D50, 0x11DA0, 0x16A60, 0x16AC0, 0x16B50, 0x1D7CE, 0x1D7D8, 0x1D7E2, 0x1D7EC, 0x1D7F6,
   0x1E140, 0x1E2F0, 0x1E950, 0x1FBF0]

/-- `\d` -/
def digit : Char → Bool := fun c => digitZeros.any fun z => decide (z ≤ c.toNat) && decide (c.toNat ≤ z + 9)

/-- `[a-z]` -/
def lowerAZ : Char → Bool := fun c => decide (97 ≤ c.toNat) && decide (c.toNat ≤ 122)

/-- `[A-Z]` -/
def upperAZ : Char → Bool := fun c => decide (65 ≤ c.toNat) && decide (c.toNat ≤ 90)

/-- Sequence of several patterns. -/
def seqs : List Re → Re
  | [] => eps
  | [r] => r
  | r :: rs => seq r (seqs rs)

end Re
end HunLaw
