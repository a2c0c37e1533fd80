import Verif.Spec.Semantic
import Mathlib.Data.List.Infix

/-! What a text introduces. -/

set_option autoImplicit false

namespace HunLaw.Grammar

open HunLaw Spec P

/-- Everything a text introduces, computed. -/
def introducedIn (s : Str) : List Str :=
  s.tails.flatMap fun t =>
    if str!"továbbiakban" <+: t then
      (((t.drop 12).inits.filter fun sep => sep.all fun c => P.isWs c || c == ':').map fun sep =>
        (sep, ((t.drop 12).drop sep.length).takeWhile (· ≠ ')'))).filterMap fun x =>
          match x.2.head? with
          | none => none
          | some c => if P.isWs c then none else if c = ':' ∧ ':' ∉ x.1 then none else some x.2
    else []

theorem introduces_mem {s a : Str} (h : Introduces s a) : a ∈ introducedIn s := by
  obtain ⟨before, sep, after, rfl, h1, h2, h3, h4, h5⟩ := h
  refine List.mem_flatMap.2 ⟨str!"továbbiakban" ++ (sep ++ (a ++ ')' :: after)), ?_, ?_⟩
  · rw [List.mem_tails]
    exact ⟨before, by simp⟩
  · rw [if_pos ⟨_, rfl⟩]
    refine List.mem_filterMap.2 ⟨(sep, a), List.mem_map.2 ⟨sep, List.mem_filter.2 ⟨?_, ?_⟩, ?_⟩, ?_⟩
    · rw [List.mem_inits]
      exact ⟨a ++ ')' :: after, rfl⟩
    · simpa using h1
    · change (sep, ((sep ++ (a ++ ')' :: after)).drop sep.length).takeWhile _) = (sep, a)
      rw [List.drop_left, List.takeWhile_append_of_pos]
      · simp
      · intro c hc
        have : c ≠ ')' := fun h => h3 (by rw [← h]; exact hc)
        simpa using this
    · cases a with
      | nil => exact absurd rfl h2
      | cons c a =>
        simp only [List.head?_cons]
        rw [if_neg (by simp [h4 c rfl]), if_neg]
        rintro ⟨rfl, h⟩
        exact h (h5 rfl)

end HunLaw.Grammar
