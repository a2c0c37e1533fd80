import Lean.Data.Json
import Verif.Model.Pdf
open HunLaw HunLaw.Pdf Lean

def str (j : Json) : Except String String := j.getStr?
def chars (j : Json) : Except String Str := do return (← j.getStr?).toList
/-- A decimal number as it is written in the file. -/
def dec? (s : String) : Except String Rat :=
  let (neg, s) := if s.startsWith "-" then (true, (s.drop 1).toString) else if s.startsWith "+" then (false, (s.drop 1).toString) else (false, s)
  match s.splitOn "." with
  | [a] => match a.toNat? with
    | some n => .ok (if neg then -(n : Rat) else n)
    | none => .error s
  | [a, b] => match (a ++ b).toNat? with
    | some n => let r : Rat := mkRat n (10 ^ b.length); .ok (if neg then -r else r)
    | none => .error s
  | _ => .error s
def num (j : Json) : Except String Rat := do dec? (← j.getStr?)
def opt {α} (f : Json → Except String α) (j : Json) : Except String (Option α) :=
  if j.isNull then .ok none else do return some (← f j)
def arr {α} (f : Json → Except String α) (j : Json) : Except String (List α) := do
  (← j.getArr?).toList.mapM f
def pair {α β} (f : Json → Except String α) (g : Json → Except String β) (j : Json) : Except String (α × β) := do
  return (← f (← j.getArrVal? 0), ← g (← j.getArrVal? 1))
def lookup {α β} [BEq α] (l : List (α × β)) (a : α) : Option β := (l.find? fun p => p.1 == a).map (·.2)
def font (win : Array (Option Char)) (j : Json) : Except String FontObj := do
  let d ← num (← j.getObjVal? "default")
  let ws ← arr (pair Json.getNat? num) (← j.getObjVal? "widths")
  let diffs ← arr (pair Json.getNat? (opt chars)) (← j.getObjVal? "differences")
  let tu ← opt (arr (pair Json.getNat? chars)) (← j.getObjVal? "toUnicode")
  let base ← str (← j.getObjVal? "base")
  let name ← opt chars (← j.getObjVal? "name")
  let table := ws.foldl (fun (a : Array Rat) w => a.set! w.1 w.2) (Array.replicate (ws.foldl (fun m w => max m (w.1 + 1)) 0) d)
  return ⟨some fun n => table.getD n d, ← (← j.getObjVal? "isCid").getBool?, name,
    some ⟨match base with
      | "w" => .winAnsi fun n => win.getD n none
      | "i" => .identityH
      | "n" => .none
      | _ => .unsupported, diffs⟩, tu.map some⟩
def resources (fonts : List (Nat × FontObj)) (j : Json) : Except String Resources := do
  let ref (n : Nat) : Option FontRef := (lookup fonts n).map fun f => ⟨n, f⟩
  let fs ← arr (pair chars Json.getNat?) (← j.getObjVal? "fonts")
  let gs ← arr (pair chars (opt (pair Json.getNat? num))) (← j.getObjVal? "gs")
  let xo ← arr (pair chars Json.getNat?) (← j.getObjVal? "xo")
  return ⟨fun s => (lookup fs s).bind ref,
    fun s => (lookup gs s).map fun o => o.bind fun p => (ref p.1).map fun f => (f, p.2),
    fun s => lookup xo s⟩
def bytes (j : Json) : Except String (List UInt8) := arr (fun j => do return (← j.getNat?).toUInt8) j
def op (j : Json) : Except String Op := do
  let a ← j.getArr?
  let n (i : Nat) := num (a.getD i .null)
  let s (i : Nat) := chars (a.getD i .null)
  match ← str (a.getD 0 .null) with
  | "BDC" => return .beginMarkedContent (← s 1) (← opt chars (a.getD 2 .null))
  | "EMC" => return .endMarkedContent
  | "q" => return .save
  | "Q" => return .restore
  | "BT" => return .beginText
  | "ET" => return .endText
  | "T*" => return .textNewline
  | "gs" => return .graphicsState (← s 1)
  | "Do" => return .xObject (← s 1)
  | "Tf" => return .textFont (← s 1) (← n 2)
  | "Tc" => return .charSpacing (← n 1)
  | "Tw" => return .wordSpacing (← n 1)
  | "Tz" => return .textScaling (← n 1)
  | "TL" => return .leading (← n 1)
  | "Ts" => return .textRise (← n 1)
  | "Td" => return .moveTextPosition (← n 1) (← n 2)
  | "Tm" => return .setTextMatrix ⟨← n 1, ← n 2, ← n 3, ← n 4, ← n 5, ← n 6⟩
  | "Tj" => return .textDraw (← bytes (a.getD 1 .null))
  | "TJ" => return .textDrawAdjusted (← arr (fun j => match j with
      | .str s => do return .spacing (← dec? s)
      | j => do return .text (← bytes j)) (a.getD 1 .null))
  | _ => return .other
def object (fonts : List (Nat × FontObj)) (j : Json) : Except String XObject :=
  if j.isNull then .ok .other else do
    return .form (← opt (resources fonts) (← j.getObjVal? "resources")) (some (← arr op (← j.getObjVal? "ops")))
def sorter : Sorter := fun cmp l => l.mergeSort fun a b => cmp b a != .lt
def showRat (r : Rat) : String :=
  let n := (r * 10000 + 1 / 2).floor
  (if n < 0 then "-" else "") ++ toString (n.natAbs / 10000) ++ "." ++ ("0000" ++ toString (n.natAbs % 10000)).takeEnd 4
def page (j : Json) : Except String String := do
  let win ← arr (opt chars) (← j.getObjVal? "winansi")
  let win := (win.map fun o => o.bind (·.head?)).toArray
  let fonts ← arr (pair Json.getNat? (font win)) (← j.getObjVal? "fonts")
  let objects ← arr (pair Json.getNat? (object fonts)) (← j.getObjVal? "objects")
  let res ← opt (resources fonts) (← j.getObjVal? "resources")
  let ops ← arr op (← j.getObjVal? "ops")
  match parsePdf sorter (lookup objects) 100 CropBox.defaultMk [some ⟨res, some ops⟩] with
  | .ok [lines] => return (Json.arr (lines.map fun l => Json.mkObj [("indent", .str (showRat l.indent)),
      ("is_bold", .bool l.isBold), ("is_justified", .bool l.justified),
      ("content", .str (String.ofList l.content))]).toArray).compress
  | .ok _ => return "\"pages\""
  | .err => return "\"error\""
  | .panic => return "\"panic\""
partial def loop (h : IO.FS.Stream) : IO Unit := do
  let l ← h.getLine
  if l.isEmpty then return
  match (Json.parse l).bind page with
  | .ok s => IO.println s
  | .error e => IO.println (Json.str e).compress
  (← IO.getStdout).flush
  loop h
def main : IO Unit := do loop (← IO.getStdin)
