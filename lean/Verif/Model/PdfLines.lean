import Verif.Model.Line
import Verif.Model.Fixups

/-!
Model of /repo/src/parser/pdf/page_of_lines.rs and of the functions of /repo/src/parser/pdf/util.rs,
collector.rs and mod.rs it stands on.

Simplification: `f32` is modelled by exact rationals, without rounding, infinities and NaN.
-/

set_option autoImplicit false

namespace HunLaw.Pdf

/-- Models `fix_character_coding_quirks` (util.rs:17-25). -/
def fixQuirks (c : Char) : Char :=
  if c = 'Õ' then 'Ő' else if c = 'õ' then 'ő' else if c = 'Û' then 'Ű' else if c = 'û' then 'ű' else c

/-- Models `compare_float_for_sorting` (util.rs:30-36). -/
def compareForSorting (a b : Rat) : Ordering := if a < b then .lt else .gt

/-- Models `struct PositionedChar` (collector.rs:29-37). -/
structure PChar where
  x : Rat
  y : Rat
  width : Rat
  widthOfSpace : Rat
  bold : Bool
  content : Char
  deriving Repr, DecidableEq

/-- Models `struct CropBox` (mod.rs:34-40). -/
structure CropBox where
  bottom : Rat
  left : Rat
  top : Rat
  right : Rat
  deriving Repr, DecidableEq

/-- Models `is_inside` (mod.rs:43-45). -/
def CropBox.isInside (b : CropBox) (x y : Rat) : Bool :=
  decide (b.left ≤ x) && decide (b.right ≥ x) && decide (b.bottom ≤ y) && decide (b.top ≥ y)

/-- The default crop box (mod.rs:47-56). -/
def CropBox.default : CropBox := ⟨0, 0, 1000, 1000⟩

/-- `DEFAULT_MK_CROP` (mk_downloader.rs:32-37). -/
def CropBox.defaultMk : CropBox := ⟨0, 0, 842 - 5 / 4 * 72, 1000⟩

/-- `SAME_LINE_EPSILON` (page_of_lines.rs:26). -/
def sameLineEpsilon : Rat := 1 / 2
/-- `ADDITIONAL_EMPTY_LINE_THRESHOLD` (page_of_lines.rs:27). -/
def additionalEmptyLineThreshold : Rat := 16
/-- `SPACE_DETECTION_THRESHOLD_RATIO` (page_of_lines.rs:28). -/
def spaceDetectionRatio : Rat := 1 / 2
/-- `JUSTIFIED_DETECTION_THRESHOLD_RATIO` (page_of_lines.rs:29). -/
def justifiedDetectionRatio : Rat := 4 / 5

/-- `slice::sort_unstable_by`: which of the allowed orders it gives for equal elements is not known, so
the model takes the sorting function as a parameter. -/
abbrev Sorter := (PChar → PChar → Ordering) → List PChar → List PChar

/-- What `sort_unstable_by` does, in std's implementation: the comparator is only asked whether it says
`Less`. If that is a strict weak order, then no element of the result is less than one before it. -/
def Sorter.Sorts (S : Sorter) : Prop :=
  ∀ (cmp : PChar → PChar → Ordering) (l : List PChar),
    (S cmp l).Perm l ∧
    ((∀ a, cmp a a ≠ .lt) → (∀ a b c, cmp a b = .lt → cmp b c = .lt → cmp a c = .lt) →
      (∀ a b c, cmp a b ≠ .lt → cmp b c ≠ .lt → cmp a c ≠ .lt) →
      (S cmp l).Pairwise fun a b => cmp b a ≠ .lt)

/-- `estimated_right_margin` (page_of_lines.rs:40-43). -/
def rightMargin (chars : List PChar) : Rat := chars.foldl (fun acc c => max acc (c.x + c.width)) 0

/-- The loop of `consolidate_line` (page_of_lines.rs:85-112). -/
def lineParts (threshold : Option Rat) (prevX : Rat) : List PChar → List LinePart
  | [] => []
  | c :: cs =>
    let next := c.x + c.width + c.widthOfSpace * spaceDetectionRatio
    match threshold with
    | some t =>
      if c.x > t ∨ c.content = '„' then
        ⟨t - prevX, ' ', c.bold⟩ :: ⟨c.x - t, c.content, c.bold⟩ :: lineParts (some next) c.x cs
      else ⟨c.x - prevX, c.content, c.bold⟩ :: lineParts (some next) c.x cs
    | none => ⟨c.x - prevX, c.content, c.bold⟩ :: lineParts (some next) c.x cs

/-- The two loops at the end of `consolidate_line` (page_of_lines.rs:113-118). -/
def trimParts (ps : List LinePart) : List LinePart :=
  (((ps.dropWhile fun p => p.content == ' ').reverse.dropWhile fun p => p.content == ' ')).reverse

/-- Models `consolidate_line` (page_of_lines.rs:74-120). -/
def consolidateLine (S : Sorter) (chars : List PChar) (margin : Rat) : Line :=
  let chars := S (fun a b => compareForSorting a.x b.x) chars
  match chars.getLast? with
  | none => Line.emptyLine
  | some l =>
    Line.fromParts (trimParts (lineParts none 0 chars))
      (decide (l.x + l.width + l.widthOfSpace * justifiedDetectionRatio ≥ margin))

/-- `y_diff` (page_of_lines.rs:49-53). -/
def yDiff (current : List PChar) (c : PChar) : Rat :=
  match current with
  | [] => 0
  | f :: _ => |f.y - c.y|

/-- The loop of `try_from` (page_of_lines.rs:47-69) and the last line after it. -/
def linesFrom (S : Sorter) (margin : Rat) (current : List PChar) : List PChar → List Line
  | [] => [consolidateLine S current margin]
  | c :: cs =>
    if yDiff current c < sameLineEpsilon then linesFrom S margin (current ++ [c]) cs
    else
      consolidateLine S current margin ::
        ((if yDiff current c > additionalEmptyLineThreshold then [Line.emptyLine] else []) ++
          linesFrom S margin [c] cs)

/-- Models `TryFrom<CharCollector> for PageOfLines` (page_of_lines.rs:36-73), which never fails. -/
def pageOfLines (S : Sorter) (chars : List PChar) : List Line :=
  linesFrom S (rightMargin chars) [] (S (fun a b => compareForSorting b.y a.y) chars)

end HunLaw.Pdf
