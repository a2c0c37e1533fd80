import Verif.Props.Identifiers
import Verif.Spec.Numerals

/-! What numerals are written and read: C12, C13. -/

set_option autoImplicit false

namespace HunLaw.Props

open HunLaw

theorem roman_table : ∀ a : Fin 40, ∀ b : Fin 100, 100 * a.val + b.val = 0 ∨
    romanTo (100 * a.val + b.val) = some (Spec.romanNumeral (100 * a.val + b.val)) := by
  decide +kernel

theorem romanTo_eq {n : Nat} (h1 : 1 ≤ n) (h2 : n ≤ 3999) : romanTo n = some (Spec.romanNumeral n) := by
  have h3 : 100 * (n / 100) + n % 100 = n := by omega
  have h := roman_table ⟨n / 100, by omega⟩ ⟨n % 100, by omega⟩
  simp only [h3] at h
  exact h.resolve_left (by omega)

theorem romanTo_some {n : Nat} {s : Str} (h : romanTo n = some s) : 1 ≤ n ∧ n ≤ 3999 ∧ s = Spec.romanNumeral n := by
  have hr : 1 ≤ n ∧ n ≤ 3999 := by
    unfold romanTo at h
    split at h
    · assumption
    · cases h
  rw [romanTo_eq hr.1 hr.2] at h
  exact ⟨hr.1, hr.2, (Option.some.inj h).symm⟩

theorem romanFrom_iff (s : Str) (n : Nat) : romanFrom s = some n ↔ 1 ≤ n ∧ n ≤ 3999 ∧ s = Spec.romanNumeral n := by
  constructor
  · intro h
    unfold romanFrom at h
    split at h
    · split at h
      · rename_i hv
        cases h
        exact romanTo_some hv
      · cases h
    · cases h
  · rintro ⟨h1, h2, rfl⟩
    obtain ⟨s, hs, h, -⟩ := roman_roundtrip h1 h2
    rw [romanTo_eq h1 h2] at hs
    cases hs
    exact h

/-- C12: numbers are written in the usual Roman numerals, digit by digit. -/
theorem C12_roman_numerals (i : NumericId) (h1 : 1 ≤ i.num.val) (h2 : i.num.val ≤ 3999) :
    i.toRoman = some (Spec.romanNumeral i.num.val ++
      match i.suffix with
      | some c => '/' :: c.display
      | none => []) := by
  unfold NumericId.toRoman
  rw [romanTo_eq h1 h2]
  cases i.suffix <;> rfl

theorem isRomanDigit_iff (c : Char) : isRomanDigit c = true ↔ c ∈ str!"IVXLCDM" := by
  simp [isRomanDigit, or_assoc]

theorem romanNumeral_digits {n : Nat} (h1 : 1 ≤ n) (h2 : n ≤ 3999) : ∀ c ∈ Spec.romanNumeral n, isRomanDigit c = true := by
  obtain ⟨s, hs, -, h, -⟩ := roman_roundtrip h1 h2
  rw [romanTo_eq h1 h2] at hs
  cases hs
  exact h

/-- C12: exactly the texts are read that denote the number in Roman numerals; nothing lax such as `IIII`. -/
theorem C12_roman_iff (s : Str) (i : NumericId) :
    NumericId.fromRoman s = some i ↔ Spec.DenotesRoman s i.num.val (i.suffix.map HunChar.display) := by
  obtain ⟨num, suffix⟩ := i
  constructor
  · intro h
    unfold NumericId.fromRoman at h
    split at h
    · rename_i numStr sfx hs
      split at h
      · rename_i n hn
        obtain ⟨h1, h2, e⟩ := (romanFrom_iff _ _).1 hn
        split at h
        · cases h
          refine ⟨h1, h2, ?_⟩
          unfold NumericId.splitSuffix at hs
          have hsplit : s = s.takeWhile isRomanDigit ++ s.dropWhile isRomanDigit := List.takeWhile_append_dropWhile.symm
          split at hs
          · cases hs; exact e
          · rename_i c cs hd
            have hc : isRomanDigit c = false := by
              have := List.head?_dropWhile_not isRomanDigit s
              rw [hd] at this
              simpa using this
            rw [hd] at hsplit
            split at hs
            · rename_i hslash
              split at hs
              · cases hs
              · split at hs
                · rename_i c' hp
                  cases hs
                  refine ⟨cs, (C01_letter_parse_iff _ _).1 hp, .inl ?_⟩
                  rw [← e, ← hslash]; exact hsplit
                · cases hs
            · split at hs
              · rename_i c' hp
                cases hs
                refine ⟨c :: cs, (C01_letter_parse_iff _ _).1 hp, .inr ⟨?_, ?_⟩⟩
                · rw [← e]; exact hsplit
                · rintro d hd
                  cases hd
                  intro hm
                  rw [← isRomanDigit_iff, hc] at hm
                  cases hm
              · cases hs
        · cases h
      · cases h
    · cases h
  · rintro ⟨h1, h2, h⟩
    have hd := romanNumeral_digits h1 h2
    have hf := (romanFrom_iff _ _).2 ⟨h1, h2, rfl⟩
    have key : NumericId.splitSuffix isRomanDigit s = some (Spec.romanNumeral num.val, suffix) := by
      cases suffix with
      | none => cases h; exact NumericId.splitSuffix_none hd
      | some c =>
        obtain ⟨t, ht, h | ⟨h, hc⟩⟩ := h
        · rw [h]
          exact NumericId.splitSuffix_slash hd (by decide) ((C01_letter_parse_iff _ _).2 ht)
        · rw [h]
          refine NumericId.splitSuffix_some hd ?_ ((C01_letter_parse_iff _ _).2 ht)
          intro x hx
          refine ⟨?_, ?_⟩
          · have := hc x hx
            rw [← isRomanDigit_iff] at this
            simpa using this
          · rintro rfl
            have : ∀ c : HunChar, c.display.head? ≠ some '/' ∧ (c.display.map Spec.upAscii).head? ≠ some '/' := by decide +kernel
            rcases ht with rfl | rfl | ⟨a, as, e, rfl⟩
            · exact (this c).1 hx
            · exact (this c).2 hx
            · apply (this c).2
              rw [e]
              exact hx
    unfold NumericId.fromRoman
    rw [key]
    simp [hf]

example : Spec.romanNumeral 1994 = str!"MCMXCIV" ∧ Spec.DenotesRoman str!"XIV/A" 14 (some str!"a") ∧
    ¬ Spec.DenotesRoman str!"XIIII" 14 none := by
  refine ⟨by decide, ⟨by decide, by decide, str!"A", .inr (.inl rfl), .inl rfl⟩, ?_⟩
  rintro ⟨-, -, h⟩
  exact absurd h (by decide)

/-- C13: the ordinals are these words. -/
theorem C13_ordinal_names (n : Nat) : toHungarian n = Spec.ordinalNames[n]? := by
  have : hunTable = Spec.ordinalNames := by decide +kernel
  rw [toHungarian, this]

theorem hunUpper_eq {c : Char} : hunUpper c = Spec.upHungarian c := by
  have e : (str!"áéíóöőúüű").zip str!"ÁÉÍÓÖŐÚÜŰ" = [('á', 'Á'), ('é', 'É'), ('í', 'Í'), ('ó', 'Ó'), ('ö', 'Ö'), ('ő', 'Ő'),
    ('ú', 'Ú'), ('ü', 'Ü'), ('ű', 'Ű')] := rfl
  unfold hunUpper Spec.upHungarian
  have h1 : 'a'.toNat = 97 := rfl
  have h2 : 'z'.toNat = 122 := rfl
  rw [e, h1, h2]
  split
  · rfl
  · simp only [List.lookup_cons, List.lookup_nil]
    repeat' split
    all_goals simp_all

theorem lookup_iff {l : List (Str × Nat)} (hnd : (l.map Prod.fst).Nodup) {s : Str} {n : Nat} :
    l.lookup s = some n ↔ (s, n) ∈ l := by
  induction l with
  | nil => simp
  | cons p l ih =>
    obtain ⟨k, v⟩ := p
    simp only [List.map_cons, List.nodup_cons] at hnd
    rw [List.lookup_cons]
    by_cases h : s = k
    · subst h
      simp only [BEq.rfl, Option.some.injEq, List.mem_cons, Prod.mk.injEq, true_and]
      refine ⟨fun e => .inl e.symm, ?_⟩
      rintro (e | hm)
      · exact e.symm
      · exact absurd (List.mem_map_of_mem (f := Prod.fst) hm) hnd.1
    · rw [beq_eq_false_iff_ne.2 h]
      simp [ih hnd.2, h]

/-- C13: exactly the ordinals from 0 to 100 are read, in lower case, in capitals or with a capital first letter. -/
theorem C13_ordinal_iff (s : Str) (n : Nat) :
    fromHungarian s = some n ↔ ∃ name, Spec.ordinalNames[n]? = some name ∧ Spec.IsWordText name s := by
  have hup : hunUpper = Spec.upHungarian := funext fun c => hunUpper_eq
  have hcap : ∀ name : Str, name ≠ [] → ∀ t, (t = capitalizeStr name ↔ ∃ c cs, name = c :: cs ∧ t = Spec.upHungarian c :: cs) := by
    intro name hne t
    cases name with
    | nil => exact absurd rfl hne
    | cons c cs =>
      simp only [capitalizeStr, hup]
      exact ⟨fun h => ⟨c, cs, rfl, h⟩, by rintro ⟨_, _, e, h⟩; cases e; exact h⟩
  have hne : ∀ name ∈ hunTable, name ≠ [] := by decide +kernel
  have hmem : (s, n) ∈ hunEntries ↔ ∃ name, hunTable[n]? = some name ∧ Spec.IsWordText name s := by
    unfold hunEntries
    simp only [List.mem_flatMap, List.mem_cons, List.not_mem_nil, or_false, Prod.mk.injEq, Prod.exists]
    constructor
    · rintro ⟨name, v, hm, h⟩
      have hv := List.mem_zipIdx_iff_getElem?.1 hm
      simp only at hv
      have hn := hne name (List.mem_of_getElem? hv)
      rcases h with ⟨rfl, rfl⟩ | ⟨rfl, rfl⟩ | ⟨h, rfl⟩
      · exact ⟨_, hv, .inl rfl⟩
      · exact ⟨_, hv, .inr (.inl (by rw [upperStr, hup]))⟩
      · exact ⟨_, hv, .inr (.inr ((hcap name hn _).1 h))⟩
    · rintro ⟨name, hv, h⟩
      have hn := hne name (List.mem_of_getElem? hv)
      refine ⟨name, n, List.mem_zipIdx_iff_getElem?.2 hv, ?_⟩
      rcases h with rfl | rfl | h
      · exact .inl ⟨rfl, rfl⟩
      · exact .inr (.inl ⟨by rw [upperStr, hup], rfl⟩)
      · exact .inr (.inr ⟨(hcap name hn _).2 h, rfl⟩)
  have htab : hunTable = Spec.ordinalNames := by decide +kernel
  rw [← htab, ← hmem]
  unfold fromHungarian
  have hnd := C13_ordinal_table.2
  constructor
  · intro h; exact (lookup_iff hnd).1 h
  · intro h; exact (lookup_iff hnd).2 h

example : Spec.IsWordText str!"ötödik" str!"Ötödik" ∧ Spec.ordinalNames[5]? = some str!"ötödik" :=
  ⟨.inr (.inr ⟨_, _, rfl, by decide⟩), by decide⟩

end HunLaw.Props
