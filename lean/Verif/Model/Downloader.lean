import Verif.Model.Basic

/-!
Model of /repo/src/mk_downloader.rs.

The network and the disk are explicit: a request of the network is answered with `Net`, the disk is a map
from paths to file contents. A run of the program can be killed between any two changes of the disk, so
the model gives every disk a run goes through, not only the last one.
-/

set_option autoImplicit false

namespace HunLaw

/-- `i64::MIN` -/
def i64Min : Int := -9223372036854775808
/-- `i64::MAX` -/
def i64Max : Int := 9223372036854775807

/-- Models `struct MkIssue` (mk_downloader.rs:26-30). The fields are `i64`. -/
structure MkIssue where
  year : Int
  issue : Int
  deriving Repr, DecidableEq

/-- The derived `Ord` of `MkIssue` (mk_downloader.rs:26): year first, then issue. -/
instance : RustOrd MkIssue where
  cmp a b := (cmp a.year b.year).then (cmp a.issue b.issue)

/-- `format!("{:0w$}", i)`: the sign counts in the width. -/
def padInt (w : Nat) (i : Int) : Str :=
  let digits := dec i.natAbs
  if i < 0 then '-' :: (List.replicate (w - 1 - digits.length) '0' ++ digits)
  else List.replicate (w - digits.length) '0' ++ digits

namespace MkIssue

/-- Models `cache_key` (mk_downloader.rs:40-42). -/
def cacheKey (m : MkIssue) : Str :=
  str!"MK/" ++ decInt m.year ++ '/' :: (decInt m.issue ++ str!".pdf")

/-- Models `url` (mk_downloader.rs:44-50). `%` on `i64` is the remainder of truncated division. -/
def url (m : MkIssue) : Str :=
  str!"http://www.kozlonyok.hu/nkonline/MKPDF/hiteles/MK" ++ padInt 2 (m.year.tmod 100) ++
    padInt 3 m.issue ++ str!".pdf"

/-- Models `from_str` (mk_downloader.rs:53-66). -/
def ofStr (s : Str) : Option MkIssue :=
  match splitAll '/' s with
  | [a, b] => do
    let year ← parseSigned i64Min i64Max a
    let issue ← parseSigned i64Min i64Max b
    some ⟨year, issue⟩
  | _ => none

end MkIssue

/-- The contents of a file. -/
abbrev Bytes := List UInt8

/-- The files under the cache directory, by their path relative to it. Directories are not kept. -/
abbrev Disk := Str → Option Bytes

/-- `fs::File::create` and a complete or partial write of one file. -/
def Disk.store (d : Disk) (path : Str) (content : Bytes) : Disk :=
  fun p => if p = path then some content else d p

/-- What the network and the disk do during one run: `body` is the complete answer of the server, or
nothing if the call or reading the answer fails; `dirFails` means `create_dir_all` fails; `room` is the
number of bytes after which writing the file fails, if it does. -/
structure World where
  body : Option Bytes
  dirFails : Bool
  room : Option Nat

/-- The disks `fs::write(path, body)` goes through, in order: `File::create` truncates or creates the
file, then the bytes are written. If writing fails after `room` bytes, it stops there.
Simplification: every single byte can be the last one that reaches the disk. -/
def writeStates (d : Disk) (path : Str) (body : Bytes) (room : Option Nat) : List Disk :=
  (List.range ((match room with
    | some n => min n body.length
    | none => body.length) + 1)).map fun n => d.store path (body.take n)

/-- Whether `fs::write` returns an error. -/
def writeFails (body : Bytes) (room : Option Nat) : Bool :=
  match room with
  | some n => decide (n < body.length)
  | none => false

/-- Models `download_mk_issue` (mk_downloader.rs:68-82): the disks the run goes through, in order and
beginning with the disk it finds, and its result. If `fs::read` fails although the file exists, which is
not modelled, the code would go on to download. -/
def downloadMkIssue (m : MkIssue) (d : Disk) (w : World) : List Disk × Res Bytes :=
  match d m.cacheKey with
  | some cached => ([d], .ok cached)
  | none => match w.body with
    | none => ([d], .err)
    | some body =>
      if w.dirFails then ([d], .err)
      else
        (d :: writeStates d m.cacheKey body w.room,
          if writeFails body w.room then .err else .ok body)

/-- Whether the run asks the network (mk_downloader.rs:70-72). -/
def asksNetwork (m : MkIssue) (d : Disk) : Bool := (d m.cacheKey).isNone

end HunLaw
