import Verif.Model.Cli

/-! What the command line program is expected to do: specifications for C89 to C95. -/

set_option autoImplicit false

namespace HunLaw.Spec

open HunLaw Cli

/-- The first record about the act says that it is in the issue. -/
def FirstIssue (records : List (MkIssue × ActId)) (a : ActId) (m : MkIssue) : Prop :=
  ∃ before after, records = before ++ (m, a) :: after ∧ ∀ r ∈ before, r.2 ≠ a

/-- The issue came out before the other. -/
def EarlierIssue (m n : MkIssue) : Prop := m.year < n.year ∨ m.year = n.year ∧ m.issue < n.issue

/-- An output is opened, and right after that the text is written into it. -/
def Written (log : List Event) (e : Event) (text : Str) : Prop :=
  ∃ before after, log = before ++ [e, .write text] ++ after

/-- What is in a file in the end: what was written after it was last opened, until something else was opened. -/
def fileContent (path : Str) : Option Str → Bool → List Event → Option Str
  | now, _, [] => now
  | now, _, .file p :: l => if p = path then fileContent path (some []) true l else fileContent path now false l
  | now, _, .heading _ :: l => fileContent path now false l
  | now, here, .write s :: l => fileContent path (if here then now.map (· ++ s) else now) here l

/-- The acts of an issue, none if it cannot be had or cannot be divided into acts. -/
def issueActs (env : Env) (m : MkIssue) : List ActRawText :=
  match env.fetch m with
  | .ok pages => (parseMkPagesIntoActs pages).getD []
  | _ => []

/-- The wanted acts of an issue: all of them if no act is named. -/
def wantedActs (env : Env) (acts : List ActId) (m : MkIssue) : List ActRawText :=
  (issueActs env m).filter fun a => acts.isEmpty || acts.contains a.identifier

/-- The output of the act can be opened like this. -/
def OpensAs (env : Env) (args : Args) (a : ActRawText) (e : Event) : Prop :=
  ∃ name, a.identifier.display = .ok name ∧ getOutput env args name = .ok e

/-- What is done to the output for one act: it is opened, and the text of the act is written, if it can be opened. -/
def outputEvents (env : Env) (args : Args) (a : ActRawText) : List Event :=
  match a.identifier.display with
  | .ok name =>
    match getOutput env args name with
    | .ok e => [e, .write (process env args a).1]
    | _ => []
  | _ => []

/-- The extensions of files. -/
def extensions : List (OutputFormat × Str) :=
  [(.plain, str!"txt"), (.testPlain, str!"txt"), (.colored, str!"txt"), (.json, str!"json"), (.yaml, str!"yml")]

/-- A line that means yes: nothing but white space, or one that begins with an y. -/
def SaysYes (line : Str) : Prop := (∀ c ∈ line, isWhitespace c = true) ∨ ∃ rest, line = 'y' :: rest ∨ line = 'Y' :: rest

/-- The fixups one after the other in a session in which the user edits the text after each error. -/
inductive EditedFrom (raw : ActRawText) : List Round → Res (List Fixup) → Res (List Fixup) → Prop
  | refl (rounds : List Round) (f : Res (List Fixup)) : EditedFrom raw rounds f f
  | step (r : Round) (rounds : List Round) (f g : List Fixup) (h : Res (List Fixup)) (line : Str)
      (typed : r.line = .ok line) (answer : SaysYes line) (edited : interactiveRound raw.body f r.edit = some (.ok g))
      (rest : EditedFrom raw rounds (.ok g) h) : EditedFrom raw (r :: rounds) (.ok f) h

end HunLaw.Spec
