import Verif.Model.Roman
import Verif.Lemmas.Str

/-! The table of Roman numerals, checked by the kernel for all the numbers 1..3999. -/

set_option autoImplicit false

namespace HunLaw

theorem romanTable : ∀ a : Fin 40, ∀ b : Fin 100, 100 * a.val + b.val = 0 ∨
    ((romanTo (100 * a.val + b.val)).bind romanFrom = some (100 * a.val + b.val) ∧
      ((romanTo (100 * a.val + b.val)).map fun s => s.all isRomanDigit && !s.isEmpty) = some true) := by
  decide +kernel

theorem roman_roundtrip {n : Nat} (h1 : 1 ≤ n) (h2 : n ≤ 3999) :
    ∃ s, romanTo n = some s ∧ romanFrom s = some n ∧ (∀ c ∈ s, isRomanDigit c = true) ∧ s ≠ [] := by
  have h3 : 100 * (n / 100) + n % 100 = n := by omega
  have h := romanTable ⟨n / 100, by omega⟩ ⟨n % 100, by omega⟩
  simp only [h3] at h
  rcases h with h | ⟨h, h'⟩
  · omega
  · cases hs : romanTo n with
    | none => simp [hs] at h
    | some s =>
      simp only [hs, Option.bind_some] at h
      simp only [hs, Option.map_some, Option.some.injEq, Bool.and_eq_true, List.all_eq_true] at h'
      exact ⟨s, rfl, h, h'.1, by intro hn; simp [hn] at h'⟩

theorem dec_four {n : Nat} (h1 : 1000 ≤ n) (h2 : n ≤ 9999) :
    ∃ a b c d, dec n = [a, b, c, d] := by
  unfold dec
  have key : ∀ f n, 1000 ≤ n → n ≤ 9999 → ∃ a b c d, decAux (f + 4) n = [a, b, c, d] := by
    intro f n h1 h2
    have e1 : ¬ (n < 10) := by omega
    have e2 : ¬ (n / 10 < 10) := by omega
    have e3 : ¬ (n / 10 / 10 < 10) := by omega
    have e4 : (n / 10 / 10 / 10 < 10) := by omega
    rw [show f + 4 = (f + 3) + 1 from rfl, decAux, if_neg e1, decAux, if_neg e2, decAux, if_neg e3,
      decAux, if_pos e4]
    exact ⟨_, _, _, _, rfl⟩
  have := key (n - 3) n h1 h2
  rwa [show n - 3 + 4 = n + 1 by omega] at this

end HunLaw
