import Lean.Data.Json
import Verif.Model.Serde
open HunLaw HunLaw.Semantic
/-- `from_test_str` -/
def testLine (s : String) : Line :=
  let bold := (s.splitOn "<BOLD>").length > 1
  let just := (s.splitOn "<NJ>").length == 1
  let t := ((s.replace "<BOLD>" "      ").replace "<NJ>" "    ").toList
  let r := t.foldl (fun (acc : List LinePart × Nat) c =>
    if c == ' ' then (if acc.2 == 0 then ⟨5, c, bold⟩ :: acc.1 else acc.1, acc.2 + 1)
    else (⟨5 + acc.2 * 5, c, bold⟩ :: acc.1, 0)) ([], 1)
  Line.fromParts r.1.reverse just
def hunUpper (c : Char) : Bool := (c ≥ 'A' && c ≤ 'Z') || "ÁÉÍÓÖŐÚÜŰ".toList.contains c
/-! Reading the recorded acts with the model of the derives, and comparing them with what the parsers give. -/
instance : Inhabited Serde.Value := ⟨.null⟩
open Lean in
partial def value : Json → Serde.Value
  | .null => .null
  | .bool b => .bool b
  | .num n => if n.exponent = 0 then .int n.mantissa else .float (mkRat n.mantissa (10 ^ n.exponent))
  | .str s => .str s.toList
  | .arr a => .seq (a.toList.map value)
  | .obj m => .map (m.toList.map fun e => (e.1.toList, value e.2))
partial def same : Serde.Value → Serde.Value → Bool
  | .null, .null => true
  | .bool a, .bool b => a == b
  | .int a, .int b => a == b
  | .float a, .float b => a == b
  | .str a, .str b => a == b
  | .seq a, .seq b => a.length == b.length && (a.zip b).all fun p => same p.1 p.2
  | .map a, .map b => a.length == b.length && a.all fun e => b.any fun f => e.1 == f.1 && same e.2 f.2
  | _, _ => false
/-- `clean_quoted_blocks` -/
def clean {A} (a : Act A) : Act A := { a with children := a.children.map fun
  | .article x => .article { x with children := x.children.map fun p => match p.body with
    | .children i (.quotedBlock l) w => { p with body := .children i (.quotedBlock (l.map fun b => { b with lines := [] })) w }
    | _ => p }
  | c => c }
def readDoc (mode path : String) (doc : Serde.Value) : IO Unit := do
  let txt ← IO.FS.readFile path
  let raw : ActRawText := ⟨⟨⟨2345, by decide⟩, ⟨13, by decide⟩⟩, str!"A tesztelésről", ⟨2345, 6, 7⟩, txt.splitOn "\n" |>.map testLine⟩
  let parsed : Option (Act Amendment) := match parseActStructure hunUpper raw with
    | .ok a => if mode == "s" then some a.lift else
      let a := (addSemanticInfo a).1
      if mode == "a" then some a.lift else some (BlockAmend.act hunUpper a.lift).1
    | _ => none
  let c := Serde.act Serde.amendment
  match c.de doc, parsed with
  | some e, some a => 
    let r := if same (c.ser (clean a)) (c.ser (clean e)) then "ok" else "different"
    IO.println (r ++ (if same (c.ser e) doc then " stored" else " other"))
  | none, _ => IO.println "unreadable"
  | _, none => IO.println "unparsed"
partial def loop (h : IO.FS.Stream) : IO Unit := do
  let l ← h.getLine
  if l.isEmpty then return
  match (l.dropEnd 1).toString.splitOn " " with
  | m :: p :: rest => match Lean.Json.parse (" ".intercalate rest) with
    | .ok j => readDoc m p (value j)
    | .error e => throw (IO.userError e)
  | _ => throw (IO.userError l)
  (← IO.getStdout).flush
  loop h
def main : IO Unit := do loop (← IO.getStdin)
