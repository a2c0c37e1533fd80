import Verif.Model.Downloader
import Verif.Spec.Identifiers

/-! Independent specifications for the gazette downloader properties C55 and C56. -/

set_option autoImplicit false

namespace HunLaw.Spec

/-- The text denotes the integer: an optional sign and decimal digits. -/
def DenotesInt (s : Str) (i : Int) : Prop :=
  ∃ digits, digits ≠ [] ∧ AllDigits digits ∧
    (((s = digits ∨ s = '+' :: digits) ∧ i = decimalValue digits) ∨
      (s = '-' :: digits ∧ i = -(decimalValue digits : Int)))

/-- The integer is written in at least `w` characters: a minus exactly if it is negative, no plus, and no more zeros
in front than needed. -/
def WrittenInt (w : Nat) (s : Str) (i : Int) : Prop :=
  DenotesInt s i ∧ s.head? ≠ some '+' ∧ (s.head? = some '-' ↔ i < 0) ∧ w ≤ s.length ∧
    ∀ t, DenotesInt t i → w ≤ t.length → s.length ≤ t.length

/-- A number that fits into 64 bits with a sign. -/
def Fits64 (i : Int) : Prop := -2 ^ 63 ≤ i ∧ i < 2 ^ 63

/-- Disks a user may have, with the complete bodies the server has sent so far: nothing at first, then
any number of runs of the program, each left to end or killed at any point. -/
inductive History : Disk → List (MkIssue × Bytes) → Prop
  | start : History (fun _ => none) []
  | run {d : Disk} {served : List (MkIssue × Bytes)} (m : MkIssue) (w : World) {d' : Disk} :
    History d served → d' ∈ (downloadMkIssue m d w).1 →
    History d' (served ++ (w.body.map fun b => (m, b)).toList)

/-- The same, but no run is killed and no disk is full. -/
inductive Undisturbed : Disk → List (MkIssue × Bytes) → Prop
  | start : Undisturbed (fun _ => none) []
  | run {d : Disk} {served : List (MkIssue × Bytes)} (m : MkIssue) (w : World) {d' : Disk} :
    Undisturbed d served → w.room = none → (downloadMkIssue m d w).1.getLast? = some d' →
    Undisturbed d' (served ++ (w.body.map fun b => (m, b)).toList)

end HunLaw.Spec
