import Verif.Model.Output
import Verif.Model.Downloader
import Verif.Model.BlockAmendment
import Verif.Model.SemanticInfo

/-!
Model of /repo/src/bin/hun_law/main.rs, the command line program.

What is outside of the program is given by functions (`Env`). Simplifications: downloading an issue and parsing its
PDF have the same result each time in one run; what is written for one act or issue is written at once, so nothing of
it is in the output if writing it panics; writing does not fail once the output is open. Log messages are not modelled.
-/

set_option autoImplicit false

namespace HunLaw.Cli

open HunLaw

/-- Models `enum OutputFormat` (output/mod.rs:30-46). -/
inductive OutputFormat
  | plain | testPlain | colored | json | yaml
  deriving Repr, DecidableEq

/-- Models `enum ParsingStep` (main.rs:76-86). -/
inductive ParsingStep
  | pdfLines | actLines | structure | semantic
  deriving Repr, DecidableEq

/-- Models `struct HunLawArgs` (main.rs:41-74), without the name of the editor and the cache
directory; `byIssue` is `mk`. -/
structure Args where
  ids : List Str
  byIssue : Bool
  format : OutputFormat
  parseUntil : ParsingStep
  interactive : Bool
  forceEditor : Bool
  outputDir : Option Str
  width : Nat
  deriving Repr, DecidableEq

/-- What the user does when asked if an error should be fixed: the line that is typed, with its end, which is empty at
the end of the input and may fail to be read, what is done to the lines in the editor, and if the editor can be run and
the fixups saved. -/
structure Round where
  line : Res Str
  edit : List Str → List Str
  works : Bool

/-- The machine, the libraries and the user. -/
structure Env where
  /-- The records of `./data/act_to_mk_issue.csv`, or nothing if it cannot be read. -/
  records : Option (List (MkIssue × ActId))
  /-- The pages of an issue, downloaded and parsed. -/
  fetch : MkIssue → Res (List Page)
  /-- The fixups that are stored for an act before the program starts. -/
  fixups : ActId → Res (List Fixup)
  /-- The paths that cannot be created. -/
  canCreate : Str → Bool
  /-- What the user does when asked about an act. -/
  rounds : ActRawText → List Round
  /-- `textwrap::wrap` -/
  wrap : Output.Wrapper
  /-- `char::is_uppercase` -/
  upper : Char → Bool
  /-- `serde_json` and `singleton_yaml` -/
  pagesData : OutputFormat → List Page → Res Str
  rawData : OutputFormat → ActRawText → Res Str
  actData : OutputFormat → Act Amendment → Res Str

/-- What is done to the output: a file is created or emptied, a heading is printed, or something is written to what
was opened last. -/
inductive Event
  | file (path : Str)
  | heading (name : Str)
  | write (text : Str)
  deriving Repr, DecidableEq

/-! ### cli_output -/

/-- Models `cli_output` for pages (output/mod.rs:55-70). -/
def pagesText (env : Env) (args : Args) (pages : List Page) : Res Str :=
  match args.format with
  | .plain => .ok (Output.cliPages false pages)
  | .colored => .ok (Output.cliPages false pages)
  | .testPlain => .ok (Output.cliPages true pages)
  | f => env.pagesData f pages

/-- Models `cli_output` for the lines of an act (output/mod.rs:55-70). -/
def rawText (env : Env) (args : Args) (a : ActRawText) : Res Str :=
  match args.format with
  | .plain => Output.cliRawAct false a
  | .colored => Output.cliRawAct false a
  | .testPlain => Output.cliRawAct true a
  | f => env.rawData f a

/-- Models `cli_output` for an act (output/mod.rs:55-70). -/
def actText (env : Env) (args : Args) (a : Act Amendment) : Res Str :=
  match args.format with
  | .plain => Output.cliAct env.wrap args.width false a
  | .colored => Output.cliAct env.wrap args.width true a
  | .testPlain => Output.cliAct env.wrap args.width false a
  | f => env.actData f a

/-! ### get_issues -/

/-- `ids.iter().map(..).collect::<Result<Vec<_>>>()?` -/
def parseAll {X : Type} (f : Str → Option X) : List Str → Option (List X)
  | [] => some []
  | s :: l => do
    let x ← f s
    let r ← parseAll f l
    some (x :: r)

/-- `BTreeSet::insert`; the set is the list of its elements in order. -/
def setInsert (m : MkIssue) : List MkIssue → List MkIssue
  | [] => [m]
  | x :: l =>
    match cmp m x with
    | .lt => m :: x :: l
    | .eq => x :: l
    | .gt => x :: setInsert m l

/-- The `find_map` over the records (main.rs:212-220). -/
def lookupIssue (a : ActId) : List (MkIssue × ActId) → Option MkIssue
  | [] => none
  | r :: l => if r.2 = a then some r.1 else lookupIssue a l

/-- The loop over the acts (main.rs:210-223). The error message has the act in it, so it may panic. -/
def collectIssues (records : List (MkIssue × ActId)) : List ActId → List MkIssue → Res (List MkIssue)
  | [], set => .ok set
  | a :: l, set =>
    match lookupIssue a records with
    | some m => collectIssues records l (setInsert m set)
    | none => do
      let _ ← a.display
      .err

/-- Models `get_issues` (main.rs:189-227). -/
def getIssues (env : Env) (args : Args) : Res (List MkIssue × List ActId) :=
  if args.byIssue then do
    let issues ← Res.ofOption (parseAll MkIssue.ofStr args.ids)
    .ok (issues, [])
  else do
    let acts ← Res.ofOption (parseAll ActId.parse args.ids)
    let records ← Res.ofOption env.records
    let issues ← collectIssues records acts []
    .ok (issues, acts)

/-! ### process_single_act -/

/-- The last step (main.rs:269-276): what is written, and the result. Simplified: if the output itself fails, what was
written before the failure is left out. -/
def finishAct (env : Env) (args : Args) (a : Act Empty) : Str × Res Unit :=
  match Semantic.addSemanticInfo a with
  | (_, .err) => ([], .err)
  | (_, .panic) => ([], .panic)
  | (a', .ok _) =>
    match BlockAmend.act env.upper a'.lift with
    | (_, .err) => ([], .err)
    | (_, .panic) => ([], .panic)
    | (a'', .ok _) =>
      match actText env args a'' with
      | .ok s => (s, if args.forceEditor then .err else .ok ())
      | .err => ([], .err)
      | .panic => ([], .panic)

/-- What was written, if it could be (main.rs:260, 266), with the same simplification. -/
def written : Res Str → Str × Res Unit
  | .ok s => (s, .ok ())
  | .err => ([], .err)
  | .panic => ([], .panic)

/-- The steps after the fixups (main.rs:259-276). -/
def processFixed (env : Env) (args : Args) (raw : ActRawText) : Str × Res Unit :=
  if args.parseUntil = .actLines then written (rawText env args raw)
  else
    match parseActStructure env.upper raw with
    | .err => ([], .err)
    | .panic => ([], .panic)
    | .ok a =>
      if args.parseUntil = .structure then written (actText env args a.lift)
      else finishAct env args a

/-- The text of the act with the fixups applied (main.rs:256-257). -/
def fixedAct (raw : ActRawText) (fixups : Res (List Fixup)) : Res ActRawText := do
  let f ← fixups
  let body ← fixedBody raw.body f
  .ok { raw with body := body }

/-- Models `process_single_act` (main.rs:250-277): what is written, and the result. -/
def processAct (env : Env) (args : Args) (raw : ActRawText) (fixups : Res (List Fixup)) : Str × Res Unit :=
  match fixedAct raw fixups with
  | .err => ([], .err)
  | .panic => ([], .panic)
  | .ok raw => processFixed env args raw

/-- The fixups after the editor (main.rs:238-242, fixup_editor.rs:28-81). -/
def editFixups (raw : ActRawText) (fixups : Res (List Fixup)) (r : Round) : Res (List Fixup) :=
  if r.works then
    match fixups with
    | .err => .err
    | .panic => .panic
    | .ok f =>
      match interactiveRound raw.body f r.edit with
      | some x => x
      | none => .panic
  else .err

/-- Models `confirm` (main.rs:279-285), given what `read_line` reads. -/
def confirm (line : Res Str) : Res Bool := do
  let buf ← line
  let buf := buf.map asciiLower
  .ok ((trim buf).isEmpty || startsWith buf str!"y")

/-- The fixups with which it is tried again after an error (main.rs:235-245), or the end. -/
def askUser (raw : ActRawText) (fixups : Res (List Fixup)) (r : Round) : Res (List Fixup) :=
  match confirm r.line with
  | .err => .err
  | .panic => .panic
  | .ok false => .err
  | .ok true => editFixups raw fixups r

/-- Models `process_single_act_interactive` (main.rs:229-248): what is written, and the result, which is nothing if
the user has not answered the last question yet. That `interactiveRound` gives nothing does not happen (C32). -/
def processInteractive (env : Env) (args : Args) (raw : ActRawText) :
    List Round → Res (List Fixup) → Str × Option (Res Unit)
  | [], fixups =>
    match processAct env args raw fixups with
    | (s, .ok ()) => (s, some (.ok ()))
    | (s, .panic) => (s, some .panic)
    | (s, .err) => (s, none)
  | r :: rounds, fixups =>
    match processAct env args raw fixups with
    | (s, .ok ()) => (s, some (.ok ()))
    | (s, .panic) => (s, some .panic)
    | (s, .err) =>
      match askUser raw fixups r with
      | .err => (s, some .err)
      | .panic => (s, some .panic)
      | .ok f =>
        (s ++ (processInteractive env args raw rounds (.ok f)).1, (processInteractive env args raw rounds (.ok f)).2)

/-! ### main -/

/-- The extension of a file (main.rs:153-159). -/
def extension : OutputFormat → Str
  | .plain => str!"txt"
  | .testPlain => str!"txt"
  | .colored => str!"txt"
  | .json => str!"json"
  | .yaml => str!"yml"

/-- Models `get_output` (main.rs:150-169). -/
def getOutput (env : Env) (args : Args) (name : Str) : Res Event :=
  match args.outputDir with
  | some dir =>
    let path := dir ++ '/' :: (name ++ '.' :: extension args.format)
    if env.canCreate path then .ok (.file path) else .err
  | none => .ok (.heading name)

/-- The state of a run: what has been done to the output, and `everything_ok`. -/
structure Run where
  log : List Event
  ok : Bool
  deriving Repr, DecidableEq

/-- The format for the terminal (main.rs:102-104). -/
def effective (args : Args) : Args :=
  if args.outputDir.isNone && args.format == .plain then { args with format := .colored } else args

/-- How an act is processed (main.rs:128-132); `none` if the user has not answered yet. -/
def process (env : Env) (args : Args) (a : ActRawText) : Str × Option (Res Unit) :=
  if args.interactive then processInteractive env args a (env.rounds a) (env.fixups a.identifier)
  else ((processAct env args a (env.fixups a.identifier)).1, some (processAct env args a (env.fixups a.identifier)).2)

/-- The loop over the acts of an issue (main.rs:121-137): the new state and the result of the closure, `none` if the
program waits for the user. -/
def actsLoop (env : Env) (args : Args) (acts : List ActId) : List ActRawText → Run → Run × Option (Res Unit)
  | [], run => (run, some (.ok ()))
  | a :: l, run =>
    if !acts.isEmpty && !acts.contains a.identifier then
      actsLoop env args acts l run
    else
      match a.identifier.display with
      | .err => (run, some .err)
      | .panic => (run, some .panic)
      | .ok name =>
        match getOutput env args name with
        | .err => (run, some .err)
        | .panic => (run, some .panic)
        | .ok e =>
          match process env args a with
          | (s, none) => (⟨run.log ++ [e, .write s], run.ok⟩, none)
          | (s, some .panic) => (⟨run.log ++ [e, .write s], run.ok⟩, some .panic)
          | (s, some .err) => actsLoop env args acts l ⟨run.log ++ [e, .write s], false⟩
          | (s, some (.ok ())) => actsLoop env args acts l ⟨run.log ++ [e, .write s], run.ok⟩

/-- `format!("mk_{}_{}", issue.year, issue.issue)` (main.rs:110) -/
def issueName (m : MkIssue) : Str := str!"mk_" ++ decInt m.year ++ '_' :: decInt m.issue

/-- The output of the pages (main.rs:115-119). -/
def showPages (env : Env) (args : Args) (m : MkIssue) (pages : List Page) (run : Run) : Run × Option (Res Unit) :=
  match getOutput env args (issueName m) with
  | .err => (run, some .err)
  | .panic => (run, some .panic)
  | .ok e =>
    match pagesText env args pages with
    | .ok s => (⟨run.log ++ [e, .write s], run.ok⟩, some (.ok ()))
    | .err => (⟨run.log ++ [e], run.ok⟩, some .err)
    | .panic => (⟨run.log ++ [e], run.ok⟩, some .panic)

/-- The closure for one issue (main.rs:109-139). -/
def processIssue (env : Env) (args : Args) (acts : List ActId) (m : MkIssue) (run : Run) : Run × Option (Res Unit) :=
  match env.fetch m with
  | .err => (run, some .err)
  | .panic => (run, some .panic)
  | .ok pages =>
    if args.parseUntil = .pdfLines then showPages env args m pages run
    else
      match parseMkPagesIntoActs pages with
      | none => (run, some .err)
      | some l => actsLoop env args acts l run

/-- The loop over the issues (main.rs:108-142). An error is printed and does not stop the loop. -/
def issuesLoop (env : Env) (args : Args) (acts : List ActId) : List MkIssue → Run → Run × Option (Res Unit)
  | [], run => (run, some (if run.ok then .ok () else .err))
  | m :: l, run =>
    match processIssue env args acts m run with
    | (run, none) => (run, none)
    | (run, some .panic) => (run, some .panic)
    | (run, some .err) => issuesLoop env args acts l run
    | (run, some (.ok ())) => issuesLoop env args acts l run

/-- Models `main` (main.rs:94-148): what is done to the output and the result of the program, `none` if it waits for
the user. -/
def main (env : Env) (args : Args) : List Event × Option (Res Unit) :=
  match getIssues env (effective args) with
  | .err => ([], some .err)
  | .panic => ([], some .panic)
  | .ok (issues, acts) =>
    ((issuesLoop env (effective args) acts issues ⟨[], true⟩).1.log,
      (issuesLoop env (effective args) acts issues ⟨[], true⟩).2)

end HunLaw.Cli
