import Verif.Model.Line

/-!
Model of /repo/src/fixups.rs and of /repo/src/bin/hun_law/fixup_editor.rs.

Not modelled: loading and saving the fixup file (YAML text), the temporary file and the editor process
(any function from the written lines to the lines read back). Line numbers and log messages are left out.
-/

set_option autoImplicit false

namespace HunLaw

/-- `REPLACEMENT_FAKE_WIDTH` (fixups.rs:34) -/
def replacementFakeWidth : Rat := 10

/-- Models `struct Fixup` (fixups.rs:36-44). -/
structure Fixup where
  after : List Str
  old : Str
  new : Str
  setBold : Bool
  deriving Repr, DecidableEq

/-- `slice.windows(n)` for `n ≥ 1`. -/
def windows {α : Type} (n : Nat) (l : List α) : List (List α) :=
  (List.range (l.length + 1 - n)).map fun i => (l.drop i).take n

/-- `a.chars().zip(b.chars()).take_while(|(o, n)| o == n).count()` -/
def commonLen (a b : Str) : Nat := ((a.zip b).takeWhile fun (o, n) => o == n).length

namespace Fixup

/-- Models the parts made for the replacement (fixups.rs:201-216). -/
def replacementParts (start step : Rat) (bold : Bool) (s : Str) : List LinePart :=
  match s with
  | [] => []
  | c :: cs => ⟨start, c, bold⟩ :: cs.map fun c => ⟨step, c, bold⟩

/-- Models `apply_to_line` (fixups.rs:124-232). -/
def applyToLine (f : Fixup) (line : Line) : Res Line :=
  if line.content ≠ f.old then .err
  else if f.old = f.new ∧ f.setBold = false then .err
  else if f.new = [] then .ok .emptyLine
  else
    let prefixLen := commonLen f.old f.new
    let restOfOld := f.old.drop prefixLen
    let restOfNew := f.new.drop prefixLen
    let postfixLen := commonLen restOfOld.reverse restOfNew.reverse
    let oldLen := f.old.length
    let start : Rat :=
      if prefixLen ≥ oldLen then line.indentAt prefixLen + replacementFakeWidth / 2
      else if prefixLen > 0 then
        if postfixLen > 0 ∧ prefixLen + postfixLen ≥ oldLen then
          (line.indentAt ((prefixLen : Int) - 1) + line.indentAt prefixLen) / 2
        else line.indentAt prefixLen
      else if postfixLen > 0 then line.indentAt (-(postfixLen : Int)) - replacementFakeWidth
      else line.indent
    let fin : Rat :=
      if postfixLen > 0 then line.indentAt (-(postfixLen : Int))
      else if prefixLen > 0 then line.indentAt 10000 + replacementFakeWidth
      else if line.isEmpty then replacementFakeWidth
      else line.indentAt 10000
    let replacementLen := f.new.length - prefixLen - postfixLen
    let replacementStr := (f.new.drop prefixLen).take replacementLen
    let replacement := Line.fromParts
      (replacementParts start ((fin - start) / replacementLen) line.isBold replacementStr) false
    let pre := line.slice 0 (some prefixLen)
    let post := if postfixLen = 0 then .emptyLine else line.slice (-(postfixLen : Int)) none
    let result := Line.fromMultiple [pre, replacement, post]
    if f.setBold then .ok result.asBold else .ok result

/-- Models `Fixup::apply` (fixups.rs:98-122). -/
def apply (f : Fixup) (lines : List Line) : Res (List Line) :=
  let needle := f.after ++ [f.old]
  let ws := windows needle.length (lines.map Line.content)
  match ws.findIdx? (· == needle) with
  | none => .err
  | some p =>
    let position := p + f.after.length
    if (ws.filter (· == needle)).length ≠ 1 then .err
    else match lines[position]? with
      | none => .panic
      | some l => do
        let l' ← f.applyToLine l
        .ok (lines.set position l')

end Fixup

/-- Models `Fixups::apply` (fixups.rs:83-88). -/
def applyFixups : List Fixup → List Line → Res (List Line)
  | [], lines => .ok lines
  | f :: fs, lines => do
    let lines ← f.apply lines
    applyFixups fs lines

/-! ### fixup_editor.rs -/

/-- `char::is_whitespace` (the Unicode property White_Space) -/
def isWhitespace (c : Char) : Bool :=
  let n := c.toNat
  (decide (9 ≤ n) && decide (n ≤ 13)) || n == 32 || n == 133 || n == 160 || n == 5760 ||
    (decide (8192 ≤ n) && decide (n ≤ 8202)) || n == 8232 || n == 8233 || n == 8239 || n == 8287 ||
    n == 12288

/-- `str::trim` -/
def trim (s : Str) : Str := ((s.dropWhile isWhitespace).reverse.dropWhile isWhitespace).reverse

/-- `str::contains(&str)` -/
def containsStr (s p : Str) : Bool :=
  match s with
  | [] => startsWith [] p
  | c :: cs => startsWith (c :: cs) p || containsStr cs p

/-- `str::replace(p, "")` for a non-empty `p`; `skip` counts the characters of a found `p`. -/
def removeStrAux (p : Str) : Nat → Str → Str
  | _, [] => []
  | skip + 1, _ :: cs => removeStrAux p skip cs
  | 0, c :: cs =>
    if startsWith (c :: cs) p then removeStrAux p (p.length - 1) cs
    else c :: removeStrAux p 0 cs

/-- `str::replace(p, "")` -/
def removeStr (p s : Str) : Str := removeStrAux p 0 s

/-- `"<BOLD>"` -/
def boldTag : Str := str!"<BOLD>"

/-- `original_lines.iter().zip(&new_lines).position(|(ol, nl)| ol != nl)` (fixup_editor.rs:92-95) -/
def firstDiff (a b : List Str) : Option Nat := (a.zip b).findIdx? fun (o, n) => o != n

/-- The number of times a piece of the text occurs in it (fixup_editor.rs:99-103). -/
def occurrences (needle hay : List Str) : Nat := ((windows needle.length hay).filter (· == needle)).length

/-- The new text and boldness of an edited line (fixup_editor.rs:114-124). -/
def editedLine (s : Str) : Bool × Str :=
  if containsStr s boldTag then (true, trim (removeStr boldTag s)) else (false, s)

/-- Models the loop of `update_fixups` (fixup_editor.rs:92-137). The outer `Option` is `none` if the
loop did not end within the given number of rounds. -/
def updateLoop : Nat → List Str → List Str → List Fixup → Option (Res (List Fixup))
  | 0, _, _, _ => none
  | fuel + 1, original, new, fixups =>
    match firstDiff original new with
    | none => some (.ok fixups)
    | some pos =>
      match (List.range (min pos 10 + 1)).find? fun k =>
          occurrences ((original.drop (pos - k)).take (k + 1)) original == 1 with
      | none => some .err
      | some k =>
        let e := editedLine (new.getD pos [])
        let fixup : Fixup := ⟨(original.drop (pos - k)).take k, original.getD pos [], e.2, e.1⟩
        updateLoop fuel (original.set pos e.2) (new.set pos e.2) (fixups ++ [fixup])

/-- Models `update_fixups` (fixup_editor.rs:83-139). -/
def updateFixups (fixups : List Fixup) (original new : List Str) : Option (Res (List Fixup)) :=
  if original.length ≠ new.length then some .err
  else updateLoop (original.length + 1) original new fixups

/-- `format!("{:>4}", level)` -/
def pad4 (s : Str) : Str := List.replicate (4 - s.length) ' ' ++ s

/-- Models `quick_display_indented_line(line, false)` (output/mod.rs:154-170). -/
def quickDisplay (l : Line) : Str := List.replicate ((l.indent / 5).floor.toNat) ' ' ++ l.content

/-- Models the lines written for the editor (fixup_editor.rs:36-59); the quote level is updated whether or
not the check reports an error. -/
def editorLines : Int → List Line → List Str
  | _, [] => []
  | level, l :: ls =>
    let level := level + (l.content.filter fun c => c == '„' || c == '“').length
      - (l.content.filter fun c => c == '”').length
    (pad4 (decInt level) ++ [' '] ++ quickDisplay l) :: editorLines level ls

/-- Models the search for the line at which the editor is opened (fixup_editor.rs:34-48, 61): the first line with too many
closing quotes, or else the one after the last line which ends outside quotes. -/
def openAtFrom : Nat → Int → Option Nat → Option Nat → List Line → Nat
  | _, _, firstError, afterUnquoted, [] => match firstError with
    | some i => i
    | none => afterUnquoted.getD 0
  | i, level, firstError, afterUnquoted, l :: ls =>
    let level := level + (l.content.filter fun c => c == '„' || c == '“').length
      - (l.content.filter fun c => c == '”').length
    openAtFrom (i + 1) level (if level < 0 ∧ firstError = none then some i else firstError)
      (if level > 0 then afterUnquoted else some (i + 1)) ls

/-- The number of the line given to the editor, from 1 (fixup_editor.rs:61-65). -/
def editorOpensAt (body : List Line) : Nat := openAtFrom 0 0 none none body + 1

/-- `&s[n..]` for a byte position, which panics if it is past the end or inside a character. -/
def dropBytes : Nat → Str → Option Str
  | 0, s => some s
  | _ + 1, [] => none
  | n + 1, c :: cs => if utf8Len c ≤ n + 1 then dropBytes (n + 1 - utf8Len c) cs else none

/-- The lines read back from the editor (fixup_editor.rs:76). -/
def readBack : List Str → Res (List Str)
  | [] => .ok []
  | l :: ls => match dropBytes 5 l with
    | none => .panic
    | some r => do
      let rs ← readBack ls
      .ok (trim r :: rs)

/-- Models `run_fixup_editor` (fixup_editor.rs:28-81): the new list of fixups, given those loaded from
the file and what the user does to the lines. Simplification: a line of the file is what was written in
one `writeln!`, so the lines of the act contain no line breaks. -/
def runEditor (loaded : List Fixup) (body : List Line) (edit : List Str → List Str) :
    Option (Res (List Fixup)) :=
  if body.any fun l => l.content.getLast? == some ' ' || l.content.head? == some ' ' then some .err
  else match readBack (edit (editorLines 0 body)) with
    | .ok new => updateFixups loaded (body.map fun l => trim l.content) new
    | .err => some .err
    | .panic => some .panic

end HunLaw
