import Verif.Model.Regex
import Mathlib.Algebra.Order.Ring.Rat

/-!
Model of /repo/src/util/indentedline.rs and of `QuoteCheck` in /repo/src/util/mod.rs.

Simplification: `f64` is modelled by exact rationals, without rounding, infinities and NaN.
-/

set_option autoImplicit false

namespace HunLaw

/-- Models `struct IndentedLinePart` (indentedline.rs:28-33). -/
structure LinePart where
  dx : Rat
  content : Char
  bold : Bool
  deriving Repr, DecidableEq

/-- Models `struct IndentedLine` (indentedline.rs:35-41). The cached content is not stored: every
constructor sets it to the characters of the parts. -/
structure Line where
  parts : List LinePart
  justified : Bool
  cachedBold : Bool
  deriving Repr, DecidableEq

namespace Line

/-- Models `INDENT_SIMILARITY_THRESHOLD` (indentedline.rs:26). -/
def indentSimilarityThreshold : Rat := 1

/-- Models `from_parts` (indentedline.rs:44-54). -/
def fromParts (parts : List LinePart) (justified : Bool) : Line :=
  ⟨parts, justified, decide ((parts.filter (·.bold)).length * 3 > parts.length * 2)⟩

/-- Models `EMPTY_LINE` (indentedline.rs:273-278). -/
def emptyLine : Line := ⟨[], false, false⟩

/-- Models `content` (indentedline.rs:45 and 91-93). -/
def content (l : Line) : Str := l.parts.map (·.content)

/-- Models `is_bold` (indentedline.rs:95-97). -/
def isBold (l : Line) : Bool := l.cachedBold

/-- Models `len` (indentedline.rs:103-105). -/
def len (l : Line) : Nat := l.parts.length

/-- Models `is_empty` (indentedline.rs:107-109). -/
def isEmpty (l : Line) : Bool := l.parts.isEmpty

/-- The inner loop of `from_multiple` (indentedline.rs:61-75): the new parts and the new `x`. -/
def glueParts (x : Rat) (first : Bool) : List LinePart → List LinePart × Rat
  | [] => ([], x)
  | p :: ps =>
    if first then
      let r := glueParts p.dx false ps
      ({ p with dx := p.dx - x } :: r.1, r.2)
    else
      let r := glueParts (x + p.dx) false ps
      (p :: r.1, r.2)

/-- The outer loop of `from_multiple` (indentedline.rs:60-76). -/
def glueLines (x : Rat) : List Line → List LinePart
  | [] => []
  | l :: ls =>
    let r := glueParts x true l.parts
    r.1 ++ glueLines r.2 ls

/-- Models `from_multiple` (indentedline.rs:56-82). -/
def fromMultiple (others : List Line) : Line :=
  let justified := match others.reverse.find? (fun l => !l.isEmpty) with
    | some l => l.justified
    | none => false
  fromParts (glueLines 0 others) justified

/-- Models `indent` (indentedline.rs:84-89). -/
def indent (l : Line) : Rat :=
  match l.parts with
  | p :: _ => p.dx
  | [] => 0

/-- Models `convert_index` (indentedline.rs:238-242). -/
def convertIndex (l : Line) (i : Int) : Nat :=
  let i := if i ≥ 0 then i else l.len + i
  (max 0 (min i l.len)).toNat

/-- `self.parts[from..to]` with its first part moved right by `add`. -/
def shiftFirst (add : Rat) : List LinePart → List LinePart
  | [] => []
  | p :: ps => { p with dx := p.dx + add } :: ps

/-- Sum of the `dx` of parts. -/
def sumDx (ps : List LinePart) : Rat := (ps.map (·.dx)).sum

/-- Models `slice` (indentedline.rs:111-125). -/
def slice (l : Line) (from' : Int) (to' : Option Int) : Line :=
  let f := l.convertIndex from'
  let t := match to' with
    | some t => l.convertIndex t
    | none => l.len
  if t ≤ f then emptyLine
  else
    fromParts (shiftFirst (sumDx (l.parts.take f)) ((l.parts.take t).drop f))
      (l.justified && t == l.len)

/-- `s.char_indices().position(|(cp, _)| cp == byte)` -/
def charPosition (s : Str) (byte : Nat) : Option Nat :=
  match s with
  | [] => none
  | c :: cs =>
    if byte = 0 then some 0
    else if byte < utf8Len c then none
    else (charPosition cs (byte - utf8Len c)).map (· + 1)

/-- Models `slice_bytes` (indentedline.rs:127-144), which panics if a position is not the beginning of
a character. -/
def sliceBytes (l : Line) (from' : Nat) (to' : Option Nat) : Res Line :=
  match charPosition l.content from' with
  | none => .panic
  | some f => match to' with
    | none => .ok (l.slice f none)
    | some t =>
      if t ≥ byteLen l.content then .ok (l.slice f (some l.content.length))
      else match charPosition l.content t with
        | none => .panic
        | some t => .ok (l.slice f (some t))

/-- Models `indent_less_or_eq` (indentedline.rs:174-176). -/
def indentLessOrEq (l : Line) (other : Rat) : Bool := decide (l.indent < other + indentSimilarityThreshold)

/-- Models `parse_header` (indentedline.rs:180-202). The pattern starts with `^`; `last` is the number of
its last group. -/
def parseHeader {T : Type} (parse : Str → Option T) (re : Re) (last : Nat) (blacklist : List Str)
    (l : Line) : Res (Option (T × Line)) :=
  match Re.matchAt re l.content with
  | none => .ok none
  | some m => match m.group 1 with
    | none => .panic
    | some (_, idText) => match parse idText with
      | none => .ok none
      | some id => match m.group last with
        | none => .panic
        | some (before, text) => do
          let rest ← l.sliceBytes (byteLen before) (some (byteLen (before ++ text)))
          if blacklist.any (fun b => startsWith rest.content b) then .ok none
          else .ok (some (id, rest))

/-- Models `append_to` (indentedline.rs:205-218). -/
def appendTo (l : Line) (s : Str) : Str :=
  let withSpace :=
    if l.isEmpty || s.isEmpty then false
    else if s.getLast? == some '-' then startsWith l.content str!"és " || startsWith l.content str!"vagy "
    else true
  (if withSpace then s ++ [' '] else s) ++ l.content

/-- Models `join` (indentedline.rs:221-226). -/
def join (ls : List Line) : Str := ls.foldl (fun s l => l.appendTo s) []

/-- Models `indent_at` (indentedline.rs:230-236). -/
def indentAt (l : Line) (i : Int) : Rat := sumDx (l.parts.take (l.convertIndex i + 1))

/-- Models `as_bold` (indentedline.rs:244-255). -/
def asBold (l : Line) : Line :=
  ⟨l.parts.map fun p => { p with bold := true }, l.justified, true⟩

/-- Models `PartialEq for IndentedLine` (indentedline.rs:258-264). -/
def beq (a b : Line) : Bool :=
  decide (a.indent = b.indent) && a.content == b.content && a.isBold == b.isBold

end Line

/-- Models `struct QuoteCheck` (util/mod.rs:30-36). -/
structure QuoteCheck where
  level : Int
  beginningIsQuoted : Bool
  endIsQuoted : Bool
  deriving Repr, DecidableEq

namespace QuoteCheck

/-- The derived `Default` (util/mod.rs:30). -/
def new : QuoteCheck := ⟨0, false, false⟩

/-- Models `update` (util/mod.rs:39-52). On an error the caller never looks at the checker again. -/
def update (q : QuoteCheck) (line : Line) : Res QuoteCheck :=
  let level := q.level + (line.content.filter fun c => c == '„' || c == '“').length
    - (line.content.filter fun c => c == '”').length
  if level ≥ 0 then .ok ⟨level, decide (q.level > 0), decide (level > 0)⟩ else .err

/-- Models `check_end` (util/mod.rs:54-61). -/
def checkEnd (q : QuoteCheck) : Res Unit := if q.level = 0 then .ok () else .err

end QuoteCheck
end HunLaw
