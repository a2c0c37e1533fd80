import Verif.Model.SemanticInfo
open HunLaw HunLaw.Semantic
def js (s : Str) : String := "\"" ++ (((String.ofList s).replace "\\" "\\\\").replace "\"" "\\\"") ++ "\""
def q (s : Str) : String := js s
def obj (l : List (Option (String × String))) : String := "{" ++ ", ".intercalate (l.filterMap id |>.map fun (k, v) => "\"" ++ k ++ "\": " ++ v) ++ "}"
def arr (l : List String) : String := "[" ++ ", ".intercalate l ++ "]"
def jAct (a : ActId) : String := obj [some ("year", toString a.year.val), some ("number", toString a.number.val)]
def jNum (n : NumericId) : Str := n.display
def jArt (a : ArticleId) : Str := a.display
def jRange {α} [DecidableEq α] (f : α → Str) (r : IdRange α) : String := if r.isRange then obj [some ("start", q (f r.start)), some ("end", q (f r.fin))] else q (f r.start)
def jPoint : RefPartPoint → String
  | .numeric r => jRange jNum r
  | .alphabetic r => jRange HunChar.display r
def jSub : RefPartSubpoint → String
  | .numeric r => jRange jNum r
  | .alphabetic r => jRange PrefixedId.display r
def jRef (r : Ref) : String := obj [r.act.map fun a => ("act", jAct a), r.article.map fun a => ("article", jRange jArt a), r.paragraph.map fun a => ("paragraph", jRange jNum a), r.point.map fun a => ("point", jPoint a), r.subpoint.map fun a => ("subpoint", jSub a)]
def jEl : StructuralRefElement → String
  | .part i => obj [some ("Part", q (jNum i))]
  | .title i => obj [some ("Title", q (jNum i))]
  | .chapter i => obj [some ("Chapter", q (jNum i))]
  | .subtitleId i => obj [some ("SubtitleId", q (jNum i))]
  | .subtitleRange i => obj [some ("SubtitleRange", jRange jNum i)]
  | .subtitleTitle i => obj [some ("SubtitleTitle", q i)]
  | .subtitleAfterArticle i => obj [some ("SubtitleAfterArticle", q (jArt i))]
  | .subtitleBeforeArticle i => obj [some ("SubtitleBeforeArticle", q (jArt i))]
  | .subtitleBeforeArticleInclusive i => obj [some ("SubtitleBeforeArticleInclusive", q (jArt i))]
  | .subtitleUnknown => "\"SubtitleUnknown\""
  | .article r => obj [some ("Article", jRange jArt r)]
def jS (s : StructuralRef) : String := obj [s.act.map fun a => ("act", jAct a), s.book.map fun b => ("book", q (jNum b)), s.parent.map fun p => ("parent", jEl p.toElement), some ("structural_element", jEl s.element), if s.titleOnly then some ("title_only", "true") else none]
def jDate (d : Date) : String := q (decInt d.year ++ str!"-" ++ (if d.month < 10 then str!"0" else []) ++ dec d.month ++ str!"-" ++ (if d.day < 10 then str!"0" else []) ++ dec d.day)
def jED : EnforcementDateType → String
  | .date d => obj [some ("Date", jDate d)]
  | .daysAfterPublication n => obj [some ("DaysAfterPublication", toString n.val)]
  | .dayInMonthAfterPublication m d => obj [some ("DayInMonthAfterPublication", obj [m.map fun m => ("month", toString m.val), some ("day", toString d.val)])]
def jTA : TextAmendmentRef → String
  | .sae r p => obj [some ("SAE", obj [some ("reference", jRef r), match p with | .all => none | .introOnly => some ("amended_part", "\"IntroOnly\"") | .wrapUpOnly => some ("amended_part", "\"WrapUpOnly\"")])]
  | .structural s => obj [some ("Structural", jS s)]
  | .articleTitle r => obj [some ("ArticleTitle", jRef r)]
def jRR : RepealRef → String
  | .reference r => obj [some ("Reference", jRef r)]
  | .structural r => obj [some ("StructuralReference", jS r)]
def jb (b : Bool) := if b then "true" else "false"
def jSP : SpecialPhrase → String
  | .blockAmendment p i => obj [some ("BlockAmendment", obj [some ("position", jRef p), some ("pure_insertion", jb i)])]
  | .structuralBlockAmendment p i => obj [some ("StructuralBlockAmendment", obj [some ("position", jS p), some ("pure_insertion", jb i)])]
  | .enforcementDate d => obj [some ("EnforcementDate", obj [if d.positions = [] then none else some ("positions", arr (d.positions.map jRef)), if d.structuralPositions = [] then none else some ("structural_positions", arr (d.structuralPositions.map jS)), if d.isDefault then some ("is_default", "true") else none, some ("date", jED d.date), d.inlineRepeal.map fun x => ("inline_repeal", jDate x)])]
  | .repeal l => obj [some ("Repeal", arr (l.map jRR))]
  | .textAmendment l => obj [some ("TextAmendment", arr (l.map fun t => obj [some ("reference", jTA t.reference), some ("from", q t.fromText), some ("to", q t.toText)]))]
def jSI (i : SemanticInfo) : String := obj [some ("refs", arr (i.outgoingReferences.map fun r => obj [some ("start", toString r.start), some ("end", toString r.fin), some ("reference", jRef r.reference)])), some ("abbr", obj (i.newAbbreviations.map fun e => some (String.ofList e.1, jAct e.2))), some ("phrase", match i.specialPhrase with | none => "null" | some p => jSP p)]
def mkAct (y n : Int) : Option ActId :=
  if h : -32768 ≤ y ∧ y ≤ 32767 then if h2 : -2147483648 ≤ n ∧ n ≤ 2147483647 then some ⟨⟨y, h⟩, ⟨n, h2⟩⟩ else none else none
def runOne (t : String) (ab : List (Str × ActId)) : IO Unit := do
  let a := Adder.new (Cache.ofMap (mapCollect ab))
  match (a.extract t.toList).2 with
  | none => IO.println "null"
  | some i => IO.println (jSI i)
  (← IO.getStdout).flush
partial def loop (h : IO.FS.Stream) (t : Option String) (ab : List (Str × ActId)) : IO Unit := do
  let l ← h.getLine
  if l.isEmpty then return
  let l := (l.dropEnd 1).toString
  match t with
  | none => loop h (some l) []
  | some tx =>
    if l == "=" then do
      runOne tx ab
      loop h none []
    else
      match (l.drop 1).toString.splitOn "|" with
      | [k, y, n] => match mkAct y.toInt! n.toInt! with
        | some a => loop h (some tx) (ab ++ [(k.toList, a)])
        | none => throw (IO.userError "act")
      | _ => throw (IO.userError l)
def main : IO Unit := do loop (← IO.getStdin) none []
