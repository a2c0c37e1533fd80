import Verif.Model.Identifiers

/-! Lemmas on decimal numbers and on splitting strings. -/

set_option autoImplicit false

namespace HunLaw

theorem toNat_ofNat_ascii {n : Nat} (h : n < 128) : (Char.ofNat n).toNat = n := by
  have : ∀ d : Fin 128, (Char.ofNat d.val).toNat = d.val := by decide +kernel
  exact this ⟨n, h⟩

theorem digitChar_toNat {d : Nat} (h : d < 10) : (digitChar d).toNat = 48 + d := by
  have : ∀ d : Fin 10, (digitChar d.val).toNat = 48 + d.val := by decide
  exact this ⟨d, h⟩

theorem isDigit_digitChar {d : Nat} (h : d < 10) : isDigit (digitChar d) = true := by
  simp [isDigit, digitChar_toNat h]; omega

theorem digitVal_digitChar {d : Nat} (h : d < 10) : digitVal (digitChar d) = d := by
  simp [digitVal, digitChar_toNat h]

theorem parseDigitsFrom_append (acc : Nat) (a b : Str) :
    parseDigitsFrom acc (a ++ b) = (parseDigitsFrom acc a).bind fun n => parseDigitsFrom n b := by
  induction a generalizing acc with
  | nil => simp [parseDigitsFrom]
  | cons c cs ih =>
    simp only [List.cons_append, parseDigitsFrom]
    split
    · exact ih _
    · rfl

theorem decAux_ne_nil {f n : Nat} (h : n < f) : decAux f n ≠ [] := by
  cases f with
  | zero => omega
  | succ f => simp only [decAux]; split <;> simp

theorem parseDigitsFrom_decAux {f n : Nat} (h : n < f) : parseDigitsFrom 0 (decAux f n) = some n := by
  induction f generalizing n with
  | zero => omega
  | succ f ih =>
    simp only [decAux]
    split
    · rename_i h10
      simp [parseDigitsFrom, isDigit_digitChar h10, digitVal_digitChar h10]
    · rename_i h10
      have hm : n % 10 < 10 := Nat.mod_lt _ (by omega)
      rw [parseDigitsFrom_append, ih (by omega)]
      simp [parseDigitsFrom, isDigit_digitChar hm, digitVal_digitChar hm]
      omega

theorem dec_ne_nil (n : Nat) : dec n ≠ [] := decAux_ne_nil (by omega)

theorem parseDigits_dec (n : Nat) : parseDigits (dec n) = some n := by
  have h := dec_ne_nil n
  have h2 : parseDigitsFrom 0 (dec n) = some n := parseDigitsFrom_decAux (by omega)
  unfold parseDigits
  cases hd : dec n with
  | nil => exact absurd hd h
  | cons c cs => rw [hd] at h2; exact h2

theorem decAux_digits (f n : Nat) : ∀ c ∈ decAux f n, isDigit c = true := by
  induction f generalizing n with
  | zero => simp [decAux]
  | succ f ih =>
    intro c hc
    simp only [decAux] at hc
    split at hc
    · rename_i h; simp only [List.mem_singleton] at hc; subst hc; exact isDigit_digitChar h
    · rw [List.mem_append] at hc
      rcases hc with hc | hc
      · exact ih _ _ hc
      · simp only [List.mem_singleton] at hc; subst hc
        exact isDigit_digitChar (Nat.mod_lt _ (by omega))

theorem dec_digits (n : Nat) : ∀ c ∈ dec n, isDigit c = true := decAux_digits _ _

theorem dec_injective {a b : Nat} (h : dec a = dec b) : a = b := by
  have := parseDigits_dec a
  rw [h, parseDigits_dec] at this
  exact (Option.some.inj this).symm

theorem not_isDigit_plus : isDigit '+' = false := by decide
theorem not_isDigit_minus : isDigit '-' = false := by decide

theorem parseUnsigned_of_digits {max : Nat} {s : Str} (h : ∀ c ∈ s, isDigit c = true) :
    parseUnsigned max s = (parseDigits s).bind fun n => if n ≤ max then some n else none := by
  unfold parseUnsigned
  have : dropPlus s = s := by
    unfold dropPlus
    split
    · have := h '+' (by simp)
      simp [not_isDigit_plus] at this
    · rfl
  rw [this]
  cases parseDigits s <;> rfl

theorem parseUnsigned_dec {n max : Nat} (h : n ≤ max) : parseUnsigned max (dec n) = some n := by
  rw [parseUnsigned_of_digits (dec_digits n), parseDigits_dec]; simp [h]

theorem parseFin_dec {n : Nat} (v : Fin n) : parseFin n (dec v.val) = some v := by
  unfold parseFin
  rw [parseUnsigned_dec (by omega)]
  simp

theorem parseSigned_decInt {lo hi i : Int} (h1 : lo ≤ i) (h2 : i ≤ hi) :
    parseSigned lo hi (decInt i) = some i := by
  unfold decInt
  split
  · simp only [parseSigned, parseDigits_dec]
    have : -(i.natAbs : Int) = i := by omega
    simp [this, h1, h2]
  · have hd := dec_digits i.natAbs
    have hn : (i.natAbs : Int) = i := by omega
    unfold parseSigned
    split
    · rename_i heq; have := hd '-' (by rw [heq]; simp); simp [not_isDigit_minus] at this
    · rename_i heq; have := hd '+' (by rw [heq]; simp); simp [not_isDigit_plus] at this
    · simp only [parseDigits_dec]
      simp [hn, h1, h2]

theorem parseI16_decInt (v : I16) : parseI16 (decInt v.val) = some v := by
  unfold parseI16
  rw [parseSigned_decInt v.2.1 v.2.2]
  simp [v.2]

theorem parseI32_decInt (v : I32) : parseI32 (decInt v.val) = some v := by
  unfold parseI32
  rw [parseSigned_decInt v.2.1 v.2.2]
  simp [v.2]

theorem decInt_chars (i : Int) : ∀ c ∈ decInt i, isDigit c = true ∨ c = '-' := by
  intro c hc
  unfold decInt at hc
  split at hc
  · rw [List.mem_cons] at hc
    rcases hc with hc | hc
    · exact .inr hc
    · exact .inl (dec_digits _ _ hc)
  · exact .inl (dec_digits _ _ hc)

theorem decInt_ne_nil (i : Int) : decInt i ≠ [] := by
  unfold decInt; split
  · simp
  · exact dec_ne_nil _

/-! ### splitOnce, splitAll -/

theorem splitOnce_append {c : Char} {a b : Str} (h : c ∉ a) :
    splitOnce c (a ++ c :: b) = some (a, b) := by
  induction a with
  | nil => simp [splitOnce]
  | cons x xs ih =>
    simp only [List.mem_cons, not_or] at h
    simp [splitOnce, Ne.symm h.1, ih h.2]

theorem splitOnce_none {c : Char} {a : Str} (h : c ∉ a) : splitOnce c a = none := by
  induction a with
  | nil => rfl
  | cons x xs ih =>
    simp only [List.mem_cons, not_or] at h
    simp [splitOnce, Ne.symm h.1, ih h.2]

theorem splitOnce_eq_some {c : Char} {s a b : Str} (h : splitOnce c s = some (a, b)) :
    s = a ++ c :: b ∧ c ∉ a := by
  induction s generalizing a b with
  | nil => simp [splitOnce] at h
  | cons x xs ih =>
    simp only [splitOnce] at h
    split at h
    · rename_i hx; simp at h; simp [h, hx]
    · rename_i hx
      split at h
      · rename_i a' b' heq
        simp at h
        obtain ⟨h1, h2⟩ := ih heq
        obtain ⟨rfl, rfl⟩ := h
        simp [h1, h2, Ne.symm hx]
      · simp at h

theorem splitOnce_eq_none {c : Char} {s : Str} (h : splitOnce c s = none) : c ∉ s := by
  intro hc
  obtain ⟨a, b, rfl, ha⟩ : ∃ a b, s = a ++ c :: b ∧ c ∉ a := by
    clear h
    induction s with
    | nil => simp at hc
    | cons x xs ih =>
      by_cases hx : x = c
      · exact ⟨[], xs, by simp [hx], by simp⟩
      · have : c ∈ xs := by simpa [Ne.symm hx] using hc
        obtain ⟨a, b, h1, h2⟩ := ih this
        exact ⟨x :: a, b, by simp [h1], by simp [h2, Ne.symm hx]⟩
  rw [splitOnce_append ha] at h
  simp at h

theorem splitAll_ne_nil (c : Char) (s : Str) : splitAll c s ≠ [] := by
  cases s with
  | nil => simp [splitAll]
  | cons x xs => simp only [splitAll]; split; · simp
                 · split <;> simp

theorem splitAll_none {c : Char} {a : Str} (h : c ∉ a) : splitAll c a = [a] := by
  induction a with
  | nil => rfl
  | cons x xs ih =>
    simp only [List.mem_cons, not_or] at h
    simp [splitAll, Ne.symm h.1, ih h.2]

theorem splitAll_append {c : Char} {a b : Str} (h : c ∉ a) :
    splitAll c (a ++ c :: b) = a :: splitAll c b := by
  induction a with
  | nil => simp [splitAll]
  | cons x xs ih =>
    simp only [List.mem_cons, not_or] at h
    simp [splitAll, Ne.symm h.1, ih h.2]

/-! ### stripPrefix -/

theorem stripPrefix_eq_some {s p r : Str} : stripPrefix s p = some r ↔ s = p ++ r := by
  induction p generalizing s with
  | nil => simp [stripPrefix]
  | cons c cs ih =>
    cases s with
    | nil => simp [stripPrefix]
    | cons x xs =>
      simp only [stripPrefix]
      split
      · rename_i h; subst h; simp [ih]
      · rename_i h; simp [h]

theorem startsWith_iff {s p : Str} : startsWith s p = true ↔ ∃ r, s = p ++ r := by
  induction p generalizing s with
  | nil => simp [startsWith]
  | cons c cs ih =>
    cases s with
    | nil => simp [startsWith]
    | cons x xs => simp [startsWith, ih]

theorem stripSuffix_eq_some {s p r : Str} : stripSuffix s p = some r ↔ s = r ++ p := by
  unfold stripSuffix
  constructor
  · intro h
    split at h
    · rename_i hc
      simp at h
      rw [← h]
      conv => rhs; rhs; rw [← hc.2]
      simp
    · simp at h
  · rintro rfl
    simp

theorem byteLen_append (a b : Str) : byteLen (a ++ b) = byteLen a + byteLen b := by
  induction a with
  | nil => simp [byteLen]
  | cons c cs ih => simp [byteLen, ih]; omega

theorem utf8Len_pos (c : Char) : 0 < utf8Len c := by
  unfold utf8Len; split
  · omega
  · split
    · omega
    · split <;> omega

theorem byteLen_eq_zero {s : Str} : byteLen s = 0 ↔ s = [] := by
  cases s with
  | nil => simp [byteLen]
  | cons c cs => have := utf8Len_pos c; simp [byteLen]; omega

end HunLaw
