import Verif.Spec.Downloader
import Verif.Lemmas.Identifiers

/-! Lemmas for the gazette downloader. -/

set_option autoImplicit false

namespace HunLaw

open Spec

theorem parseDigits_iff {s : Str} {n : Nat} :
    parseDigits s = some n ↔ s ≠ [] ∧ AllDigits s ∧ decimalValue s = n := by
  unfold parseDigits
  split
  · simp
  · rename_i h
    rw [parseDigitsFrom_eq_some]
    simp only [ne_eq, h, not_false_eq_true, true_and, decimalValue]
    constructor
    · rintro ⟨a, b⟩
      exact ⟨fun hs => h hs, a, b⟩
    · rintro ⟨-, a, b⟩; exact ⟨a, b⟩

theorem parseSigned_iff {lo hi : Int} {s : Str} {i : Int} :
    parseSigned lo hi s = some i ↔ DenotesInt s i ∧ lo ≤ i ∧ i ≤ hi := by
  have minus : ∀ {t : Str}, AllDigits t → ∀ r, t ≠ '-' :: r := fun {t} h r e => by
    subst e; exact absurd (h '-' (by simp)) (by decide)
  have plus : ∀ {t : Str}, AllDigits t → ∀ r, t ≠ '+' :: r := fun {t} h r e => by
    subst e; exact absurd (h '+' (by simp)) (by decide)
  unfold parseSigned
  simp only
  split
  · rename_i rest
    constructor
    · intro h
      obtain ⟨n, hn, h⟩ := Option.bind_eq_some_iff.1 h
      split at h
      · rename_i hb
        obtain rfl := Option.some.inj h
        obtain ⟨h1, h2, h3⟩ := parseDigits_iff.1 hn
        exact ⟨⟨rest, h1, h2, .inr ⟨rfl, by rw [h3]⟩⟩, hb⟩
      · cases h
    · rintro ⟨⟨digits, h1, h2, h⟩, hb⟩
      rcases h with ⟨h | h, -⟩ | ⟨h, rfl⟩
      · exact absurd h.symm (minus h2 _)
      · cases h
      · cases h
        rw [Option.bind_eq_some_iff]
        exact ⟨_, parseDigits_iff.2 ⟨h1, h2, rfl⟩, by simp [hb]⟩
  · rename_i rest
    constructor
    · intro h
      obtain ⟨n, hn, h⟩ := Option.bind_eq_some_iff.1 h
      split at h
      · rename_i hb
        obtain rfl := Option.some.inj h
        obtain ⟨h1, h2, h3⟩ := parseDigits_iff.1 hn
        exact ⟨⟨rest, h1, h2, .inl ⟨.inr rfl, by rw [h3]⟩⟩, hb⟩
      · cases h
    · rintro ⟨⟨digits, h1, h2, h⟩, hb⟩
      rcases h with ⟨h | h, rfl⟩ | ⟨h, -⟩
      · exact absurd h.symm (plus h2 _)
      · cases h
        rw [Option.bind_eq_some_iff]
        exact ⟨_, parseDigits_iff.2 ⟨h1, h2, rfl⟩, by simp [hb]⟩
      · cases h
  · rename_i hm hp
    constructor
    · intro h
      obtain ⟨n, hn, h⟩ := Option.bind_eq_some_iff.1 h
      split at h
      · rename_i hb
        obtain rfl := Option.some.inj h
        obtain ⟨h1, h2, h3⟩ := parseDigits_iff.1 hn
        exact ⟨⟨s, h1, h2, .inl ⟨.inl rfl, by rw [h3]⟩⟩, hb⟩
      · cases h
    · rintro ⟨⟨digits, h1, h2, h⟩, hb⟩
      rcases h with ⟨h | h, rfl⟩ | ⟨h, -⟩
      · subst h
        rw [Option.bind_eq_some_iff]
        exact ⟨_, parseDigits_iff.2 ⟨h1, h2, rfl⟩, by simp [hb]⟩
      · exact absurd h (hp _)
      · exact absurd h (hm _)

theorem splitAll_two {c : Char} {s a b : Str} (h : splitAll c s = [a, b]) : s = a ++ c :: b := by
  by_cases hc : c ∈ s
  · obtain ⟨x, y, rfl, hx⟩ : ∃ x y, s = x ++ c :: y ∧ c ∉ x := List.eq_append_cons_of_mem hc
    rw [splitAll_append hx] at h
    by_cases hy : c ∈ y
    · obtain ⟨x', y', rfl, hx'⟩ := List.eq_append_cons_of_mem hy
      rw [splitAll_append hx'] at h
      simp [splitAll_ne_nil] at h
    · rw [splitAll_none hy] at h
      simp at h; simp [h]
  · rw [splitAll_none hc] at h; simp at h

theorem denotesInt_no_slash {s : Str} {i : Int} (h : DenotesInt s i) : '/' ∉ s := by
  obtain ⟨d, -, hd, h⟩ := h
  have hn : '/' ∉ d := fun hc => absurd (hd _ hc) (by decide)
  rcases h with ⟨rfl | rfl, -⟩ | ⟨rfl, -⟩
  · exact hn
  · simp [hn]
  · simp [hn]

theorem decInt_injective {a b : Int} (h : decInt a = decInt b) : a = b := by
  have minus : ∀ n : Nat, ∀ r, dec n ≠ '-' :: r := fun n r e => by
    have := dec_digits n '-' (by rw [e]; simp)
    simp [not_isDigit_minus] at this
  unfold decInt at h
  split at h <;> split at h
  · have := dec_injective (List.cons.inj h).2; omega
  · exact absurd h.symm (minus _ _)
  · exact absurd h (minus _ _)
  · have := dec_injective h; omega

theorem append_sep_inj {c : Char} {a b a' b' : Str} (ha : c ∉ a) (ha' : c ∉ a')
    (h : a ++ c :: b = a' ++ c :: b') : a = a' ∧ b = b' := by
  have h1 := splitOnce_append (b := b) ha
  rw [h, splitOnce_append ha'] at h1
  simpa [eq_comm] using h1

theorem mem_dec_ne {n : Nat} {c d : Char} (h : c ∈ dec n) (hd : isDigit d = false) : c ≠ d := by
  rintro rfl
  simp [dec_digits n c h] at hd

theorem decimalValue_zeros (k : Nat) (s : Str) :
    decimalValue (List.replicate k '0' ++ s) = decimalValue s := by
  unfold decimalValue
  induction k with
  | zero => rfl
  | succ k ih => simpa [List.replicate_succ] using ih

theorem padded_injective {k k' a b : Nat}
    (h : List.replicate k '0' ++ dec a = List.replicate k' '0' ++ dec b) : a = b := by
  have h1 := congrArg decimalValue h
  rw [decimalValue_zeros, decimalValue_zeros, (parseDigits_iff.1 (parseDigits_dec a)).2.2,
    (parseDigits_iff.1 (parseDigits_dec b)).2.2] at h1
  exact h1

theorem padInt_injective {w : Nat} {a b : Int} (h : padInt w a = padInt w b) : a = b := by
  have nominus : ∀ k n : Nat, ∀ r, List.replicate k '0' ++ dec n ≠ '-' :: r := fun k n r e => by
    have hm : '-' ∈ List.replicate k '0' ++ dec n := by rw [e]; simp
    rcases List.mem_append.1 hm with h' | h'
    · exact absurd (List.eq_of_mem_replicate h') (by decide)
    · exact mem_dec_ne h' not_isDigit_minus rfl
  unfold padInt at h
  simp only at h
  split at h <;> split at h
  · have := padded_injective (List.cons.inj h).2; omega
  · exact absurd h.symm (nominus _ _ _)
  · exact absurd h (nominus _ _ _)
  · have := padded_injective h; omega

theorem padInt_two {n : Int} (h0 : 0 ≤ n) (h1 : n < 100) : (padInt 2 n).length = 2 := by
  have hf : ∀ k : Fin 100, (padInt 2 (k.val : Int)).length = 2 := by decide +kernel
  have := hf ⟨n.toNat, by omega⟩
  simpa [Int.toNat_of_nonneg h0] using this

theorem decAux_short (f n k : Nat) (hk : 1 ≤ k) (h : n < 10 ^ k) : (decAux f n).length ≤ k := by
  induction f generalizing n k with
  | zero => simp [decAux]
  | succ f ih =>
    simp only [decAux]
    split
    · simpa using hk
    · obtain ⟨j, rfl⟩ : ∃ j, k = j + 1 := ⟨k - 1, by omega⟩
      have hj : 1 ≤ j := by
        rcases Nat.eq_zero_or_pos j with rfl | h'
        · omega
        · exact h'
      have := ih (n / 10) j hj (by rw [Nat.pow_succ] at h; omega)
      simp; omega

theorem decimalValue_lt {s : Str} (h : AllDigits s) : decimalValue s < 10 ^ s.length := by
  have aux : ∀ (s : Str) (a : Nat), AllDigits s →
      s.foldl (fun acc c => 10 * acc + (c.toNat - '0'.toNat)) a < (a + 1) * 10 ^ s.length := by
    intro s
    induction s with
    | nil => simp
    | cons c s ih =>
      intro a h
      have hc : c.toNat - '0'.toNat ≤ 9 := by
        have := (h c (by simp)).2
        have : '0'.toNat = 48 := rfl
        have : '9'.toNat = 57 := rfl
        omega
      refine Nat.lt_of_lt_of_le (ih _ fun x hx => h x (by simp [hx])) ?_
      rw [List.length_cons, Nat.pow_succ, ← Nat.mul_assoc, Nat.mul_right_comm]
      exact Nat.mul_le_mul_right _ (by show 10 * a + _ + 1 ≤ _; omega)
  simpa [decimalValue] using aux s 0 h

theorem dec_shortest {s : Str} (hs : s ≠ []) (h : AllDigits s) : (dec (decimalValue s)).length ≤ s.length :=
  decAux_short _ _ _ (List.length_pos_iff.2 hs) (decimalValue_lt h)

theorem allDigits_padded (k n : Nat) : AllDigits (List.replicate k '0' ++ dec n) := fun c hc => by
  rcases List.mem_append.1 hc with h | h
  · rw [List.eq_of_mem_replicate h]; decide
  · have := dec_digits n c h
    simpa [isDigit] using this

theorem head_digit {s : Str} (h : AllDigits s) {c : Char} (hc : isDigit c = false) : s.head? ≠ some c := by
  cases s with
  | nil => simp
  | cons d s =>
    rintro ⟨rfl⟩
    have := h c (by simp)
    simp only [isDigit, Bool.and_eq_false_iff, decide_eq_false_iff_not] at hc
    have e1 : '0'.toNat = 48 := rfl
    have e2 : '9'.toNat = 57 := rfl
    omega

theorem padInt_written (w : Nat) (i : Int) : WrittenInt w (padInt w i) i := by
  have hv : ∀ k n, decimalValue (List.replicate k '0' ++ dec n) = n := fun k n => by
    rw [decimalValue_zeros, (parseDigits_iff.1 (parseDigits_dec n)).2.2]
  have hshort : ∀ (d : Str), d ≠ [] → AllDigits d → ∀ n, n = decimalValue d → (dec n).length ≤ d.length :=
    fun d h1 h2 n hn => hn ▸ dec_shortest h1 h2
  have hne : ∀ k n, List.replicate k '0' ++ dec n ≠ [] := fun k n h => dec_ne_nil n (List.append_eq_nil_iff.1 h).2
  unfold padInt
  simp only
  split
  · rename_i hi
    refine ⟨⟨_, hne _ _, allDigits_padded _ _, .inr ⟨rfl, by rw [hv]; omega⟩⟩, by simp, by simp [hi], ?_, ?_⟩
    · simp; omega
    · rintro t ⟨d, h1, h2, (⟨rfl | rfl, h3⟩ | ⟨rfl, h3⟩)⟩ hw
      · omega
      · omega
      · have := hshort d h1 h2 i.natAbs (by omega)
        simp at hw ⊢; omega
  · rename_i hi
    refine ⟨⟨_, hne _ _, allDigits_padded _ _, .inl ⟨.inl rfl, by rw [hv]; omega⟩⟩,
      head_digit (allDigits_padded _ _) (by decide),
      ⟨fun h => absurd h (head_digit (allDigits_padded _ _) (by decide)), fun h => absurd h hi⟩, ?_, ?_⟩
    · simp; omega
    · rintro t ⟨d, h1, h2, (⟨rfl | rfl, h3⟩ | ⟨rfl, h3⟩)⟩ hw
      · have := hshort _ h1 h2 i.natAbs (by omega)
        simp at hw ⊢; omega
      · have := hshort d h1 h2 i.natAbs (by omega)
        simp at hw ⊢; omega
      · have := hshort d h1 h2 i.natAbs (by omega)
        simp at hw ⊢; omega

theorem decInt_written (i : Int) : WrittenInt 0 (decInt i) i := by
  have : decInt i = padInt 0 i := by simp [decInt, padInt]
  exact this ▸ padInt_written 0 i

/-! ### The disk -/

theorem store_self (d : Disk) (p : Str) (b : Bytes) : d.store p b p = some b := by simp [Disk.store]

theorem store_other (d : Disk) {p q : Str} (b : Bytes) (h : q ≠ p) : d.store p b q = d q := by
  simp [Disk.store, h]

theorem mem_writeStates {d d' : Disk} {path : Str} {body : Bytes} {room : Option Nat}
    (h : d' ∈ writeStates d path body room) : ∃ n, d' = d.store path (body.take n) := by
  unfold writeStates at h
  obtain ⟨n, -, rfl⟩ := List.mem_map.1 h
  exact ⟨n, rfl⟩

theorem writeStates_last (d : Disk) (path : Str) (body : Bytes) :
    (writeStates d path body none).getLast? = some (d.store path body) := by
  simp [writeStates, List.getLast?_eq_some_getLast, List.range_succ]

end HunLaw
