import Verif.Model.Basic

/-! Model of /repo/src/util/compact_string.rs. -/

set_option autoImplicit false

namespace HunLaw

/-- Models `trait CompactString` (compact_string.rs:23-30): how to write a value and how to read
one. -/
class CompactString (α : Type) where
  fmtCompact : α → Str
  fromCompact : Str → Option α

export CompactString (fmtCompact fromCompact)

/-- Models `impl CompactString for Option<T>` (compact_string.rs:38-54). -/
instance {α : Type} [CompactString α] : CompactString (Option α) where
  fmtCompact
    | some x => fmtCompact x
    | none => []
  fromCompact s :=
    if s = [] then some none
    else match (fromCompact s : Option α) with
      | some x => some (some x)
      | none => none

end HunLaw
