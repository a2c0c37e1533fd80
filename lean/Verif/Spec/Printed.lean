import Verif.Spec.Written

/-! Which references can be read back when they are printed (C116). -/

set_option autoImplicit false

namespace HunLaw.Spec

/-- A reference whose parts can be written in the usual form: the number of the act has a Roman form, an article has at most
one letter, which is not a digraph, the articles of a range are in one book, a numbered subpoint has no letter, and a
lettered one has no digraph. -/
structure Printable (r : Ref) : Prop where
  nonEmpty : r ≠ Ref.empty
  act : ∀ a, r.act = some a → 0 ≤ a.year.val ∧ 1 ≤ a.number.val ∧ a.number.val ≤ 3999
  article : ∀ x, r.article = some x → x.start.book = x.fin.book ∧ (∀ c, x.start.identifier.suffix = some c → Plain c) ∧
    ∀ c, x.fin.identifier.suffix = some c → Plain c
  numericSubpoint : ∀ x, r.subpoint = some (.numeric x) → x.start.suffix = none ∧ x.fin.suffix = none
  alphabeticSubpoint : ∀ x, r.subpoint = some (.alphabetic x) → PrefixedUsual x.start ∧ PrefixedUsual x.fin

/-- The references in the text of one: the act, if there is more than that, and the reference itself. -/
def inPrinted (r : Ref) : List Ref :=
  (if r.act ≠ none ∧ r.article ≠ none then [⟨r.act, none, none, none, none⟩] else []) ++ [r]

end HunLaw.Spec
