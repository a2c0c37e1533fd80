import Verif.Model.SemanticInfo
import Verif.Model.BlockAmendment
open HunLaw HunLaw.Semantic
def js (s : Str) : String := "\"" ++ (((String.ofList s).replace "\\" "\\\\").replace "\"" "\\\"") ++ "\""
def q (s : Str) : String := js s
def obj (l : List (Option (String × String))) : String := "{" ++ ", ".intercalate (l.filterMap id |>.map fun (k, v) => "\"" ++ k ++ "\": " ++ v) ++ "}"
def arr (l : List String) : String := "[" ++ ", ".intercalate l ++ "]"
def jAct (a : ActId) : String := obj [some ("year", toString a.year.val), some ("number", toString a.number.val)]
def jNum (n : NumericId) : Str := n.display
def jArt (a : ArticleId) : Str := a.display
def jRange {α} [DecidableEq α] (f : α → Str) (r : IdRange α) : String := if r.isRange then obj [some ("start", q (f r.start)), some ("end", q (f r.fin))] else q (f r.start)
def jPoint : RefPartPoint → String
  | .numeric r => jRange jNum r
  | .alphabetic r => jRange HunChar.display r
def jSub : RefPartSubpoint → String
  | .numeric r => jRange jNum r
  | .alphabetic r => jRange PrefixedId.display r
def jRef (r : Ref) : String := obj [r.act.map fun a => ("act", jAct a), r.article.map fun a => ("article", jRange jArt a), r.paragraph.map fun a => ("paragraph", jRange jNum a), r.point.map fun a => ("point", jPoint a), r.subpoint.map fun a => ("subpoint", jSub a)]
def jEl : StructuralRefElement → String
  | .part i => obj [some ("Part", q (jNum i))]
  | .title i => obj [some ("Title", q (jNum i))]
  | .chapter i => obj [some ("Chapter", q (jNum i))]
  | .subtitleId i => obj [some ("SubtitleId", q (jNum i))]
  | .subtitleRange i => obj [some ("SubtitleRange", jRange jNum i)]
  | .subtitleTitle i => obj [some ("SubtitleTitle", q i)]
  | .subtitleAfterArticle i => obj [some ("SubtitleAfterArticle", q (jArt i))]
  | .subtitleBeforeArticle i => obj [some ("SubtitleBeforeArticle", q (jArt i))]
  | .subtitleBeforeArticleInclusive i => obj [some ("SubtitleBeforeArticleInclusive", q (jArt i))]
  | .subtitleUnknown => "\"SubtitleUnknown\""
  | .article r => obj [some ("Article", jRange jArt r)]
def jS (s : StructuralRef) : String := obj [s.act.map fun a => ("act", jAct a), s.book.map fun b => ("book", q (jNum b)), s.parent.map fun p => ("parent", jEl p.toElement), some ("structural_element", jEl s.element), if s.titleOnly then some ("title_only", "true") else none]
def jDate (d : Date) : String := q (decInt d.year ++ str!"-" ++ (if d.month < 10 then str!"0" else []) ++ dec d.month ++ str!"-" ++ (if d.day < 10 then str!"0" else []) ++ dec d.day)
def jED : EnforcementDateType → String
  | .date d => obj [some ("Date", jDate d)]
  | .daysAfterPublication n => obj [some ("DaysAfterPublication", toString n.val)]
  | .dayInMonthAfterPublication m d => obj [some ("DayInMonthAfterPublication", obj [m.map fun m => ("month", toString m.val), some ("day", toString d.val)])]
def jTA : TextAmendmentRef → String
  | .sae r p => obj [some ("SAE", obj [some ("reference", jRef r), match p with | .all => none | .introOnly => some ("amended_part", "\"IntroOnly\"") | .wrapUpOnly => some ("amended_part", "\"WrapUpOnly\"")])]
  | .structural s => obj [some ("Structural", jS s)]
  | .articleTitle r => obj [some ("ArticleTitle", jRef r)]
def jRR : RepealRef → String
  | .reference r => obj [some ("Reference", jRef r)]
  | .structural r => obj [some ("StructuralReference", jS r)]
def jb (b : Bool) := if b then "true" else "false"
def jSP : SpecialPhrase → String
  | .blockAmendment p i => obj [some ("BlockAmendment", obj [some ("position", jRef p), some ("pure_insertion", jb i)])]
  | .structuralBlockAmendment p i => obj [some ("StructuralBlockAmendment", obj [some ("position", jS p), some ("pure_insertion", jb i)])]
  | .enforcementDate d => obj [some ("EnforcementDate", obj [if d.positions = [] then none else some ("positions", arr (d.positions.map jRef)), if d.structuralPositions = [] then none else some ("structural_positions", arr (d.structuralPositions.map jS)), if d.isDefault then some ("is_default", "true") else none, some ("date", jED d.date), d.inlineRepeal.map fun x => ("inline_repeal", jDate x)])]
  | .repeal l => obj [some ("Repeal", arr (l.map jRR))]
  | .textAmendment l => obj [some ("TextAmendment", arr (l.map fun t => obj [some ("reference", jTA t.reference), some ("from", q t.fromText), some ("to", q t.toText)]))]
def jSI (i : SemanticInfo) : String := obj [some ("refs", arr (i.outgoingReferences.map fun r => obj [some ("start", toString r.start), some ("end", toString r.fin), some ("reference", jRef r.reference)])), some ("abbr", obj (i.newAbbreviations.map fun e => some (String.ofList e.1, jAct e.2))), some ("phrase", match i.specialPhrase with | none => "null" | some p => jSP p)]
def mkAct (y n : Int) : Option ActId :=
  if h : -32768 ≤ y ∧ y ≤ 32767 then if h2 : -2147483648 ≤ n ∧ n ≤ 2147483647 then some ⟨⟨y, h⟩, ⟨n, h2⟩⟩ else none else none

def jSI2 (i : SemanticInfo) : String := obj [some ("outgoing_references", arr (i.outgoingReferences.map fun r => obj [some ("start", toString r.start), some ("end", toString r.fin), some ("reference", jRef r.reference)])), some ("new_abbreviations", obj (i.newAbbreviations.map fun e => some (String.ofList e.1, jAct e.2))), some ("special_phrase", match i.specialPhrase with | none => "null" | some p => jSP p)]
def jBody {C} (f : C → String) : SAEBody C → String
  | .text t => q t
  | .children i c w => obj [some ("intro", q i), some ("children", f c), w.map fun w => ("wrap_up", q w)]
def jSAE {I C} (g : I → Str) (f : C → String) (e : SAE I C) : String :=
  obj [some ("identifier", q (g e.identifier)), some ("body", jBody f e.body), some ("semantic_info", jSI2 e.semanticInfo)]
def jASP : AlphabeticSubpoint → String := jSAE PrefixedId.display (fun (c : NoChildren) => nomatch c)
def jNSP : NumericSubpoint → String := jSAE NumericId.display (fun (c : NoChildren) => nomatch c)
def jNP : NumericPoint → String := jSAE NumericId.display (fun | .alphabeticSubpoint l => obj [some ("AlphabeticSubpoint", arr (l.map jASP))])
def jAP : AlphabeticPoint → String := jSAE HunChar.display (fun | .alphabeticSubpoint l => obj [some ("AlphabeticSubpoint", arr (l.map jASP))] | .numericSubpoint l => obj [some ("NumericSubpoint", arr (l.map jNSP))])
def jPara {A} (f : A → String) : Paragraph A → String := jSAE ParagraphId.display (fun
  | .alphabeticPoint l => obj [some ("AlphabeticPoint", arr (l.map jAP))]
  | .numericPoint l => obj [some ("NumericPoint", arr (l.map jNP))]
  | .quotedBlock l => obj [some ("QuotedBlock", arr (l.map fun b => obj [b.intro.map fun w => ("intro", q w), b.wrapUp.map fun w => ("wrap_up", q w)]))]
  | .amendment a => f a)
def jArticle {A} (f : A → String) (a : Article A) : String := obj [some ("identifier", q a.identifier.display), a.title.map fun t => ("title", q t), some ("children", arr (a.children.map (jPara f)))]
def jType : SEType → String
  | .book => "\"Book\"" | .part b => obj [some ("Part", obj [some ("is_special", jb b)])] | .title => "\"Title\"" | .chapter => "\"Chapter\""
def jChild {A} (f : A → String) : ActChild A → String
  | .article a => obj [some ("Article", jArticle f a)]
  | .subtitle s => obj [some ("Subtitle", obj [s.identifier.map fun i => ("identifier", q i.display), some ("title", q s.title)])]
  | .structuralElement e => obj [some ("StructuralElement", obj [some ("identifier", q e.identifier.display), some ("title", q e.title), some ("element_type", jType e.elementType)])]
def jE (e : Empty) : String := nomatch e
def jAm : Amendment → String
  | .block i c w => obj [some ("BlockAmendment", obj [i.map fun w => ("intro", q w), some ("children", match c with
     | .paragraph l => obj [some ("Paragraph", arr (l.map (jPara jE)))]
     | .alphabeticPoint l => obj [some ("AlphabeticPoint", arr (l.map jAP))]
     | .numericPoint l => obj [some ("NumericPoint", arr (l.map jNP))]
     | .alphabeticSubpoint l => obj [some ("AlphabeticSubpoint", arr (l.map jASP))]
     | .numericSubpoint l => obj [some ("NumericSubpoint", arr (l.map jNSP))]), w.map fun w => ("wrap_up", q w)])]
  | .structural i c w => obj [some ("StructuralBlockAmendment", obj [i.map fun w => ("intro", q w), some ("children", arr (c.map (jChild jE))), w.map fun w => ("wrap_up", q w)])]
def jActAll {A} (f : A → String) (a : Act A) : String := obj [some ("identifier", jAct a.identifier), some ("subject", q a.subject), some ("preamble", q a.preamble), some ("publication_date", jDate a.publicationDate), some ("contained_abbreviations", obj (a.containedAbbreviations.map fun e => some (String.ofList e.1, jAct e.2))), some ("children", arr (a.children.map (jChild f)))]
/-- `from_test_str` -/
def testLine (s : String) : Line :=
  let bold := (s.splitOn "<BOLD>").length > 1
  let just := (s.splitOn "<NJ>").length == 1
  let t := ((s.replace "<BOLD>" "      ").replace "<NJ>" "    ").toList
  let r := t.foldl (fun (acc : List LinePart × Nat) c =>
    if c == ' ' then (if acc.2 == 0 then ⟨5, c, bold⟩ :: acc.1 else acc.1, acc.2 + 1)
    else (⟨5 + acc.2 * 5, c, bold⟩ :: acc.1, 0)) ([], 1)
  Line.fromParts r.1.reverse just
def hunUpper (c : Char) : Bool := (c ≥ 'A' && c ≤ 'Z') || "ÁÉÍÓÖŐÚÜŰ".toList.contains c
def runFile (mode path : String) : IO Unit := do
  let txt ← IO.FS.readFile path
  let raw : ActRawText := ⟨⟨⟨2345, by decide⟩, ⟨13, by decide⟩⟩, str!"A tesztelésről", ⟨2345, 6, 7⟩, txt.splitOn "\n" |>.map testLine⟩
  match parseActStructure hunUpper raw with
  | .ok a =>
    if mode == "s" then IO.println (jActAll jE a)
    else if mode == "a" then (match (addSemanticInfo a).2 with
      | .ok _ => IO.println (jActAll jE (addSemanticInfo a).1)
      | _ => IO.println "\"semantic\"")
    else
      let r := BlockAmend.act hunUpper (addSemanticInfo a).1.lift
      (match r.2 with
      | .ok _ => IO.println (jActAll jAm r.1)
      | _ => IO.println "\"convert\"")
  | .err => IO.println "\"err\""
  | .panic => IO.println "\"panic\""
  (← IO.getStdout).flush
partial def loop (h : IO.FS.Stream) : IO Unit := do
  let l ← h.getLine
  if l.isEmpty then return
  match (l.dropEnd 1).toString.splitOn " " with
  | [m, p] => runFile m p
  | _ => throw (IO.userError l)
  loop h
def main : IO Unit := do loop (← IO.getStdin)
