import Mathlib.Tactic.IntervalCases
import Verif.Model.Json
import Verif.Spec.Json
import Verif.Lemmas.Downloader

/-!
Lemmas about the text of documents in JSON.
-/

set_option autoImplicit false

namespace HunLaw.Json

open HunLaw HunLaw.Serde HunLaw.Spec

/-! ### Strings -/

theorem hexValue_hexDigit : ∀ k, k < 16 → Spec.Json.hexValue (hexDigit k) = some k := by decide

theorem escape_control : ∀ k, k < 32 → Char.ofNat k ≠ '"' → Char.ofNat k ≠ '\\' →
    ∃ x, escapeChar (Char.ofNat k) = '\\' :: x ∧ ∀ r, Spec.Json.escape (x ++ r) = some (Char.ofNat k, r) := by
  intro k hk _ _
  interval_cases k <;> exact ⟨_, rfl, fun r => rfl⟩

theorem ofNat_toNat (c : Char) : Char.ofNat c.toNat = c := Char.ofNat_toNat c

/-- One character of a string: either it is itself, or it is escaped. -/
theorem escapeChar_cases (c : Char) :
    (escapeChar c = [c] ∧ c ≠ '"' ∧ c ≠ '\\' ∧ 32 ≤ c.toNat) ∨
      ∃ x, escapeChar c = '\\' :: x ∧ ∀ r, Spec.Json.escape (x ++ r) = some (c, r) := by
  by_cases h1 : c = '"'
  · subst h1
    exact .inr ⟨_, rfl, fun r => rfl⟩
  by_cases h2 : c = '\\'
  · subst h2
    exact .inr ⟨_, rfl, fun r => rfl⟩
  by_cases h3 : c.toNat < 32
  · have := escape_control c.toNat h3
    rw [ofNat_toNat] at this
    exact .inr (this h1 h2)
  · refine .inl ⟨?_, h1, h2, by omega⟩
    unfold escapeChar
    rw [if_neg h1, if_neg h2, if_neg (by omega), if_neg (by omega), if_neg (by omega), if_neg (by omega), if_neg (by omega),
      if_neg h3]

/-- A string is read as it was. -/
theorem string_written (s : Str) : ∀ (n : Nat) (rest : Str), (s.flatMap escapeChar).length + 1 ≤ n →
    Spec.Json.string n (s.flatMap escapeChar ++ '"' :: rest) = some (s, rest) := by
  induction s with
  | nil =>
    intro n rest hn
    obtain ⟨n, rfl⟩ : ∃ m, n = m + 1 := ⟨n - 1, by omega⟩
    simp [Spec.Json.string]
  | cons c s ih =>
    intro n rest hn
    obtain ⟨n, rfl⟩ : ∃ m, n = m + 1 := ⟨n - 1, by omega⟩
    simp only [List.flatMap_cons, List.length_append] at hn
    rw [List.flatMap_cons, List.append_assoc]
    rcases escapeChar_cases c with ⟨h, h1, h2, h3⟩ | ⟨x, h, hx⟩
    · rw [h] at hn ⊢
      simp only [List.length_singleton] at hn
      rw [List.singleton_append, Spec.Json.string, if_neg h1, if_neg h2, if_neg (by omega), ih n rest (by omega)]
      rfl
    · rw [h] at hn ⊢
      simp only [List.length_cons] at hn
      rw [List.cons_append, Spec.Json.string, if_neg (by decide), if_pos rfl, hx]
      show (Spec.Json.string n _).bind _ = _
      rw [ih n rest (by omega)]
      rfl

/-! ### Numbers -/

theorem decAux_zero {f n : Nat} (h : n < f) (h0 : (decAux f n).head? = some '0') : n = 0 := by
  induction f generalizing n with
  | zero => omega
  | succ f ih =>
    simp only [decAux] at h0
    split at h0
    · rename_i h10
      have : digitChar n = '0' := by simpa using h0
      have := digitVal_digitChar h10
      rw [‹digitChar n = '0'›] at this
      exact this.symm
    · rename_i h10
      have hne : decAux f (n / 10) ≠ [] := decAux_ne_nil (by omega)
      have h0 : (decAux f (n / 10)).head? = some '0' := by
        cases hd : decAux f (n / 10) with
        | nil => exact absurd hd hne
        | cons c s => simpa [hd] using h0
      have := ih (by omega) h0
      omega

theorem plain_dec (n : Nat) : Spec.Json.Plain (dec n) := by
  refine ⟨dec_ne_nil n, by simpa using allDigits_padded 0 n, fun h => ?_⟩
  have := decAux_zero (by omega) h
  subst this
  rfl

theorem decimalValue_dec (n : Nat) : decimalValue (dec n) = n := (parseDigits_iff.1 (parseDigits_dec n)).2.2

theorem plain_minus (s : Str) : ¬ Spec.Json.Plain ('-' :: s) := fun h => by
  have := h.2.1 '-' (by simp)
  revert this
  decide

theorem number_int (decimals : Str → Option Rat) (i : Int) : Spec.Json.number decimals (decInt i) = some (.int i) := by
  unfold decInt Spec.Json.number
  split
  · rw [if_neg (plain_minus _), if_pos ⟨rfl, plain_dec _⟩, List.tail_cons, decimalValue_dec]
    congr 2
    omega
  · rw [if_pos (plain_dec _), decimalValue_dec]
    congr 2
    omega

theorem digit_numberChar {c : Char} (h : isDigit c = true) : c ∈ Spec.Json.numberChars := by
  simp only [isDigit, Bool.and_eq_true, decide_eq_true_eq] at h
  obtain ⟨h1, h2⟩ := h
  have key : ∀ k, 48 ≤ k → k ≤ 57 → Char.ofNat k ∈ Spec.Json.numberChars := by
    intro k h1 h2
    interval_cases k <;> decide
  have := key _ h1 h2
  rwa [ofNat_toNat] at this

theorem decInt_chars (i : Int) : ∀ c ∈ decInt i, c ∈ Spec.Json.numberChars := by
  unfold decInt
  intro c hc
  split at hc
  · rcases List.mem_cons.1 hc with rfl | hc
    · decide
    · exact digit_numberChar (dec_digits _ c hc)
  · exact digit_numberChar (dec_digits _ c hc)

theorem decInt_first (i : Int) : ∃ c ∈ str!"0123456789-", (decInt i).head? = some c := by
  have key : ∀ c, isDigit c = true → c ∈ str!"0123456789-" := by
    intro c h
    simp only [isDigit, Bool.and_eq_true, decide_eq_true_eq] at h
    obtain ⟨h1, h2⟩ := h
    have key : ∀ k, 48 ≤ k → k ≤ 57 → Char.ofNat k ∈ str!"0123456789-" := by
      intro k h1 h2
      interval_cases k <;> decide
    have := key _ h1 h2
    rwa [ofNat_toNat] at this
  unfold decInt
  split
  · exact ⟨'-', by decide, rfl⟩
  · cases h : dec i.natAbs with
    | nil => exact absurd h (dec_ne_nil _)
    | cons c s => exact ⟨c, key c (dec_digits i.natAbs c (by simp [h])), rfl⟩

theorem number_float {float : Rat → Str} {decimals : Str → Option Rat} (hf : Spec.Json.Faithful float decimals) (x : Rat) :
    Spec.Json.number decimals (float x) = some (.float x) := by
  obtain ⟨c, hc, hd⟩ := hf.fraction x
  have no : ∀ s : Str, c ∈ s → ¬ Spec.Json.Plain s := fun s hs h => by
    have := h.2.1 c hs
    simp only [List.mem_cons, List.not_mem_nil, or_false] at hd
    rcases hd with rfl | rfl <;> revert this <;> decide
  unfold Spec.Json.number
  rw [if_neg (no _ hc), if_neg, hf.read]
  · rfl
  · rintro ⟨h1, h2⟩
    refine no _ ?_ h2
    cases hs : float x with
    | nil => rw [hs] at hc; simp at hc
    | cons d s =>
      rw [hs] at hc h1
      simp only [List.head?_cons, Option.some.injEq] at h1
      rcases List.mem_cons.1 hc with rfl | hc
      · subst h1
        simp at hd
      · exact hc

/-! ### Values -/

/-- What can be after a value: not a part of a number. -/
def Stop (s : Str) : Prop := ∀ c, s.head? = some c → c ∉ Spec.Json.numberChars

theorem skip_cons {c : Char} (s : Str) (h : c ∉ str!" \t\n\r") : Spec.Json.skip (c :: s) = c :: s := by
  unfold Spec.Json.skip
  rw [List.dropWhile_cons_of_neg (by simpa using h)]

theorem take_number {s rest : Str} (hs : ∀ c ∈ s, c ∈ Spec.Json.numberChars) (h : Stop rest) :
    (s ++ rest).takeWhile (· ∈ Spec.Json.numberChars) = s ∧ (s ++ rest).dropWhile (· ∈ Spec.Json.numberChars) = rest := by
  induction s with
  | nil =>
    cases rest with
    | nil => exact ⟨rfl, rfl⟩
    | cons c r =>
      have := h c rfl
      exact ⟨by rw [List.nil_append, List.takeWhile_cons_of_neg (by simpa using this)],
        by rw [List.nil_append, List.dropWhile_cons_of_neg (by simpa using this)]⟩
  | cons c s ih =>
    obtain ⟨h1, h2⟩ := ih fun d hd => hs d (by simp [hd])
    have hc := hs c (by simp)
    exact ⟨by rw [List.cons_append, List.takeWhile_cons_of_pos (by simpa using hc), h1],
      by rw [List.cons_append, List.dropWhile_cons_of_pos (by simpa using hc), h2]⟩

theorem value_number {decimals : Str → Option Rat} {s rest : Str} {v : Value} {n : Nat}
    (hs : ∀ c ∈ s, c ∈ Spec.Json.numberChars) (hf : ∃ c ∈ str!"0123456789-", s.head? = some c) (h : Stop rest)
    (hv : Spec.Json.number decimals s = some v) :
    Spec.Json.value decimals (n + 1) (s ++ rest) = some (v, rest) := by
  obtain ⟨h1, h2⟩ := take_number hs h
  obtain ⟨c, hc, hh⟩ := hf
  cases s with
  | nil => simp at hh
  | cons d s =>
    simp only [List.head?_cons, Option.some.injEq] at hh
    subst hh
    have hsk : Spec.Json.skip (d :: s ++ rest) = d :: s ++ rest := skip_cons _ fun hw => by
      revert hw
      have : ∀ c ∈ str!"0123456789-", c ∉ str!" \t\n\r" := by decide
      exact this d hc
    have hne : ∀ e ∈ str!"ntf\"[{", d ≠ e := by
      have : ∀ c ∈ str!"0123456789-", ∀ e ∈ str!"ntf\"[{", c ≠ e := by decide
      exact this d hc
    have hp : ∀ (e : Char) (t : Str), e ∈ str!"ntf\"[{" → ¬ e :: t <+: d :: s ++ rest := fun e t he hp => by
      rw [List.cons_append, List.cons_prefix_cons] at hp
      exact hne e he hp.1.symm
    rw [Spec.Json.value]
    simp only [hsk]
    rw [if_neg (hp _ _ (by decide)), if_neg (hp _ _ (by decide)), if_neg (hp _ _ (by decide))]
    simp only [List.cons_append] at h1 h2 ⊢
    rw [if_neg (hne _ (by decide)), if_neg (hne _ (by decide)), if_neg (hne _ (by decide)), h1, hv, h2]
    rfl

theorem writeText_length (s : Str) : (writeText s).length = (s.flatMap escapeChar).length + 2 := by
  simp [writeText]

theorem value_text (decimals : Str → Option Rat) (s rest : Str) (n : Nat) :
    Spec.Json.value decimals (n + 1) (writeText s ++ rest) = some (.str s, rest) := by
  have e : writeText s ++ rest = '"' :: (s.flatMap escapeChar ++ '"' :: rest) := by simp [writeText]
  have hp : ∀ (e : Char) (t r : Str), '"' ≠ e → ¬ e :: t <+: '"' :: r := fun e t r he hp =>
    he (List.cons_prefix_cons.1 hp).1.symm
  rw [e, Spec.Json.value]
  simp only [skip_cons _ (show '"' ∉ str!" \t\n\r" by decide)]
  rw [if_neg (hp _ _ _ (by decide)), if_neg (hp _ _ _ (by decide)), if_neg (hp _ _ _ (by decide)), if_pos trivial,
    string_written _ _ _ (by simp)]
  rfl

/-- The beginning of a value is neither white space nor the end of an array or an object. -/
theorem write_head {float : Rat → Str} {decimals : Str → Option Rat} (hf : Spec.Json.Faithful float decimals) (v : Value) :
    ∃ c t, write float v = c :: t ∧ c ∉ str!" \t\n\r]}" := by
  have key : ∀ s : Str, (∃ c ∈ str!"0123456789-", s.head? = some c) → ∃ c t, s = c :: t ∧ c ∉ str!" \t\n\r]}" := by
    rintro s ⟨c, hc, hh⟩
    cases s with
    | nil => simp at hh
    | cons d s =>
      simp only [List.head?_cons, Option.some.injEq] at hh
      subst hh
      have : ∀ c ∈ str!"0123456789-", c ∉ str!" \t\n\r]}" := by decide
      exact ⟨d, s, rfl, this d hc⟩
  cases v with
  | null => exact ⟨_, _, rfl, by decide⟩
  | bool b => cases b <;> exact ⟨_, _, rfl, by decide⟩
  | int n => rw [write]; exact key _ (decInt_first n)
  | float x => rw [write]; exact key _ (hf.first x)
  | str s => exact ⟨_, _, by rw [write, writeText]; rfl, by decide⟩
  | seq l => exact ⟨_, _, by rw [write]; rfl, by decide⟩
  | map m => exact ⟨_, _, by rw [write]; rfl, by decide⟩

theorem skip_write {float : Rat → Str} {decimals : Str → Option Rat} (hf : Spec.Json.Faithful float decimals) (v : Value)
    (rest : Str) : Spec.Json.skip (write float v ++ rest) = write float v ++ rest := by
  obtain ⟨c, t, h, hc⟩ := write_head hf v
  rw [h, List.cons_append, skip_cons _ fun h => hc (by simp only [List.mem_cons, List.not_mem_nil, or_false] at h ⊢; tauto)]

theorem head_write {float : Rat → Str} {decimals : Str → Option Rat} (hf : Spec.Json.Faithful float decimals) (v : Value)
    (rest : Str) : (write float v ++ rest).head? ≠ some ']' := by
  obtain ⟨c, t, h, hc⟩ := write_head hf v
  rw [h, List.cons_append, List.head?_cons]
  rintro ⟨rfl⟩
  exact hc (by decide)

theorem write_length {float : Rat → Str} {decimals : Str → Option Rat} (hf : Spec.Json.Faithful float decimals) (v : Value) :
    1 ≤ (write float v).length := by
  obtain ⟨c, t, h, -⟩ := write_head hf v
  rw [h]
  simp

theorem not_prefix (a e : Char) (t r : Str) (he : a ≠ e) : ¬ e :: t <+: a :: r := fun hp =>
  he (List.cons_prefix_cons.1 hp).1.symm

theorem stop_seq {float : Rat → Str} (l : List Value) (rest : Str) : Stop (writeSeqRest float l ++ ']' :: rest) := by
  cases l with
  | nil =>
    rw [writeSeqRest]
    rintro c ⟨rfl⟩
    decide
  | cons v l =>
    rw [writeSeqRest]
    rintro c ⟨rfl⟩
    decide

theorem stop_map {float : Rat → Str} (m : List (Str × Value)) (rest : Str) : Stop (writeMapRest float m ++ '}' :: rest) := by
  cases m with
  | nil =>
    rw [writeMapRest]
    rintro c ⟨rfl⟩
    decide
  | cons v m =>
    rw [writeMapRest]
    rintro c ⟨rfl⟩
    decide

/-- A document is read as it was, whatever is after it. -/
theorem value_written {float : Rat → Str} {decimals : Str → Option Rat} (hf : Spec.Json.Faithful float decimals) (v : Value) :
    ∀ (n : Nat) (rest : Str), (write float v).length ≤ n → Stop rest →
      Spec.Json.value decimals n (write float v ++ rest) = some (v, rest) := by
  have sub : ∀ {n : Nat} {v : Value}, (write float v).length ≤ n → ∃ m, n = m + 1 := fun {n v} h =>
    ⟨n - 1, by have := write_length hf v; omega⟩
  refine write.induct
    (motive_1 := fun v => ∀ (n : Nat) (rest : Str), (write float v).length ≤ n → Stop rest →
      Spec.Json.value decimals n (write float v ++ rest) = some (v, rest))
    (motive_2 := fun m => m ≠ [] → ∀ (n : Nat) (rest : Str), (writeMap float m).length + 1 ≤ n →
      Spec.Json.members decimals n (writeMap float m ++ '}' :: rest) = some (m, rest))
    (motive_3 := fun m => ∀ (n : Nat) (rest : Str) (e : Str × Value), (writeMapRest float m).length ≤ n →
      (if (Spec.Json.skip (writeMapRest float m ++ '}' :: rest)).head? = some ',' then
        (Spec.Json.members decimals n (Spec.Json.skip (writeMapRest float m ++ '}' :: rest)).tail).map
          fun x => (e :: x.1, x.2)
      else if (Spec.Json.skip (writeMapRest float m ++ '}' :: rest)).head? = some '}' then
        some ([e], (Spec.Json.skip (writeMapRest float m ++ '}' :: rest)).tail)
      else none) = some (e :: m, rest))
    (motive_4 := fun e => ∀ (n : Nat) (m : List (Str × Value)) (rest : Str), (writeEntry float e ++ writeMapRest float m).length ≤ n →
      (∀ r, (if (Spec.Json.skip (writeMapRest float m ++ '}' :: rest)).head? = some ',' then
          (Spec.Json.members decimals n (Spec.Json.skip (writeMapRest float m ++ '}' :: rest)).tail).map
            fun x => (e :: x.1, x.2)
        else if (Spec.Json.skip (writeMapRest float m ++ '}' :: rest)).head? = some '}' then
          some ([e], (Spec.Json.skip (writeMapRest float m ++ '}' :: rest)).tail)
        else none) = some r →
      Spec.Json.members decimals (n + 1) (writeEntry float e ++ (writeMapRest float m ++ '}' :: rest)) = some r))
    (motive_5 := fun l => l ≠ [] → ∀ (n : Nat) (rest : Str), (writeSeq float l).length + 1 ≤ n →
      Spec.Json.elements decimals n (writeSeq float l ++ ']' :: rest) = some (l, rest))
    (motive_6 := fun l => ∀ (n : Nat) (rest : Str) (v : Value), (writeSeqRest float l).length ≤ n →
      (if (Spec.Json.skip (writeSeqRest float l ++ ']' :: rest)).head? = some ',' then
        (Spec.Json.elements decimals n (Spec.Json.skip (writeSeqRest float l ++ ']' :: rest)).tail).map
          fun x => (v :: x.1, x.2)
      else if (Spec.Json.skip (writeSeqRest float l ++ ']' :: rest)).head? = some ']' then
        some ([v], (Spec.Json.skip (writeSeqRest float l ++ ']' :: rest)).tail)
      else none) = some (v :: l, rest))
    ?_ ?_ ?_ ?_ ?_ ?_ ?_ ?_ ?_ ?_ ?_ ?_ ?_ ?_ ?_ ?_ ?_ v
  · intro n rest hn _
    obtain ⟨n, rfl⟩ := sub hn
    rfl
  · intro n rest hn _
    obtain ⟨n, rfl⟩ := sub hn
    rfl
  · intro n rest hn _
    obtain ⟨n, rfl⟩ := sub hn
    rfl
  · intro i n rest hn hr
    obtain ⟨n, rfl⟩ := sub hn
    rw [write]
    exact value_number (decInt_chars i) (decInt_first i) hr (number_int decimals i)
  · intro x n rest hn hr
    obtain ⟨n, rfl⟩ := sub hn
    rw [write]
    exact value_number (hf.chars x) (hf.first x) hr (number_float hf x)
  · intro s n rest hn _
    obtain ⟨n, rfl⟩ := sub hn
    rw [write]
    exact value_text decimals s rest n
  · intro l ih n rest hn _
    obtain ⟨n, rfl⟩ := sub hn
    have e : write float (.seq l) ++ rest = '[' :: (writeSeq float l ++ ']' :: rest) := by simp [write]
    have hl : (write float (.seq l)).length = (writeSeq float l).length + 2 := by simp [write]
    rw [e, Spec.Json.value]
    simp only [skip_cons _ (show '[' ∉ str!" \t\n\r" by decide)]
    rw [if_neg (not_prefix _ _ _ _ (by decide)), if_neg (not_prefix _ _ _ _ (by decide)), if_neg (not_prefix _ _ _ _ (by decide)),
      if_neg (by decide), if_pos trivial]
    cases l with
    | nil => rfl
    | cons v l =>
      have e : writeSeq float (v :: l) ++ ']' :: rest = write float v ++ (writeSeqRest float l ++ ']' :: rest) := by
        simp [writeSeq]
      rw [if_neg (by rw [e, skip_write hf]; exact head_write hf v _), ih (by simp) n rest (by omega)]
      rfl
  · intro m ih n rest hn _
    obtain ⟨n, rfl⟩ := sub hn
    have e : write float (.map m) ++ rest = '{' :: (writeMap float m ++ '}' :: rest) := by simp [write]
    have hl : (write float (.map m)).length = (writeMap float m).length + 2 := by simp [write]
    rw [e, Spec.Json.value]
    simp only [skip_cons _ (show '{' ∉ str!" \t\n\r" by decide)]
    rw [if_neg (not_prefix _ _ _ _ (by decide)), if_neg (not_prefix _ _ _ _ (by decide)), if_neg (not_prefix _ _ _ _ (by decide)),
      if_neg (by decide), if_neg (by decide), if_pos trivial]
    cases m with
    | nil => rfl
    | cons x m =>
      have e : writeMap float (x :: m) ++ '}' :: rest = '"' :: (x.1.flatMap escapeChar ++ '"' :: ':' :: (write float x.2 ++
          (writeMapRest float m ++ '}' :: rest))) := by
        obtain ⟨k, w⟩ := x
        simp [writeMap, writeEntry, writeText]
      rw [if_neg (by rw [e, skip_cons _ (by decide)]; simp), ih (by simp) n rest (by omega)]
      rfl
  · exact fun h => absurd rfl h
  · intro v l hv hl _ n rest hn
    obtain ⟨n, rfl⟩ : ∃ m, n = m + 1 := ⟨n - 1, by omega⟩
    rw [writeSeq, List.length_append] at hn
    rw [writeSeq, List.append_assoc, Spec.Json.elements, hv n _ (by omega) (stop_seq l rest)]
    exact hl n rest v (by omega)
  · intro n rest v _
    rw [writeSeqRest, List.nil_append, skip_cons _ (by decide)]
    rfl
  · intro v l hv hl n rest u hn
    have e : writeSeqRest float (v :: l) ++ ']' :: rest = ',' :: (write float v ++ (writeSeqRest float l ++ ']' :: rest)) := by
      simp [writeSeqRest]
    have hlen : (writeSeqRest float (v :: l)).length = (write float v).length + (writeSeqRest float l).length + 1 := by
      simp [writeSeqRest]
    obtain ⟨n, rfl⟩ : ∃ m, n = m + 1 := ⟨n - 1, by omega⟩
    rw [e, skip_cons _ (by decide), if_pos List.head?_cons, List.tail_cons, Spec.Json.elements, hv n _ (by omega) (stop_seq l rest)]
    show Option.map _ (if _ then _ else _) = _
    rw [hl n rest v (by omega)]
    rfl
  · exact fun h => absurd rfl h
  · intro e m he hm _ n rest hn
    obtain ⟨n, rfl⟩ : ∃ m, n = m + 1 := ⟨n - 1, by omega⟩
    rw [writeMap] at hn
    rw [writeMap, List.append_assoc]
    exact he n m rest (by omega) _ (hm n rest e (by rw [List.length_append] at hn; omega))
  · intro n rest e _
    rw [writeMapRest, List.nil_append, skip_cons _ (by decide)]
    rfl
  · intro e m he hm n rest u hn
    have e1 : writeMapRest float (e :: m) ++ '}' :: rest = ',' :: (writeEntry float e ++ (writeMapRest float m ++ '}' :: rest)) := by
      simp [writeMapRest]
    have hlen : (writeMapRest float (e :: m)).length = (writeEntry float e ++ writeMapRest float m).length + 1 := by
      simp [writeMapRest]
    have hlen2 := List.length_append (as := writeEntry float e) (bs := writeMapRest float m)
    obtain ⟨n, rfl⟩ : ∃ m, n = m + 1 := ⟨n - 1, by omega⟩
    rw [e1, skip_cons _ (by decide), if_pos List.head?_cons, List.tail_cons,
      he n m rest (by omega) _ (hm n rest e (by omega))]
    rfl
  · intro k v hv n m rest hn r hr
    have e : writeEntry float (k, v) ++ (writeMapRest float m ++ '}' :: rest) =
        '"' :: (k.flatMap escapeChar ++ '"' :: ':' :: (write float v ++ (writeMapRest float m ++ '}' :: rest))) := by
      simp [writeEntry, writeText]
    have hlen : (writeEntry float (k, v)).length = (k.flatMap escapeChar).length + (write float v).length + 3 := by
      simp only [writeEntry, writeText, List.length_append, List.length_cons, List.length_nil]
      omega
    rw [List.length_append] at hn
    rw [e, Spec.Json.members, skip_cons _ (by decide), if_pos List.head?_cons, List.tail_cons,
      string_written _ _ _ (by simp only [List.length_append, List.length_cons]; omega)]
    simp only [skip_cons _ (show ':' ∉ str!" \t\n\r" by decide), List.tail_cons, List.head?_cons, if_pos]
    rw [hv n _ (by omega) (stop_map m rest)]
    exact hr

/-- A document is read from its text. -/
theorem document_written {float : Rat → Str} {decimals : Str → Option Rat} (hf : Spec.Json.Faithful float decimals)
    (v : Value) : Spec.Json.document decimals (write float v) = some v := by
  have := value_written hf v ((write float v).length + 1) [] (by omega) (by simp [Stop])
  rw [List.append_nil] at this
  rw [Spec.Json.document, this]
  rfl

/-! ### One line -/

theorem escapeChar_printable (c : Char) : ∀ d ∈ escapeChar c, 32 ≤ d.toNat := by
  have key : ∀ k, k < 32 → ∀ d ∈ escapeChar (Char.ofNat k), 32 ≤ d.toNat := by decide
  by_cases h : c.toNat < 32
  · have := key c.toNat h
    rwa [ofNat_toNat] at this
  · rcases escapeChar_cases c with ⟨h1, -⟩ | -
    · rw [h1]
      simpa using h
    · unfold escapeChar
      rw [if_neg (by omega : ¬ c.toNat = 8), if_neg (by omega : ¬ c.toNat = 9), if_neg (by omega : ¬ c.toNat = 10),
        if_neg (by omega : ¬ c.toNat = 12), if_neg (by omega : ¬ c.toNat = 13), if_neg h]
      split
      · decide
      split
      · decide
      · simpa using h

theorem writeText_printable (s : Str) : ∀ c ∈ writeText s, 32 ≤ c.toNat := by
  intro c hc
  simp only [writeText, List.cons_append, List.mem_cons, List.mem_append, List.mem_flatMap, List.not_mem_nil, or_false] at hc
  rcases hc with rfl | ⟨d, -, hd⟩ | rfl
  · decide
  · exact escapeChar_printable d c hd
  · decide

theorem numberChar_printable {c : Char} (h : c ∈ Spec.Json.numberChars) : 32 ≤ c.toNat := by
  have : ∀ c ∈ Spec.Json.numberChars, 32 ≤ c.toNat := by decide
  exact this c h

/-- There is no control character in the text of a document. -/
theorem write_printable {float : Rat → Str} (hf : ∀ x, ∀ c ∈ float x, c ∈ Spec.Json.numberChars) (v : Value) :
    ∀ c ∈ write float v, 32 ≤ c.toNat := by
  refine write.induct
    (motive_1 := fun v => ∀ c ∈ write float v, 32 ≤ c.toNat)
    (motive_2 := fun m => ∀ c ∈ writeMap float m, 32 ≤ c.toNat)
    (motive_3 := fun m => ∀ c ∈ writeMapRest float m, 32 ≤ c.toNat)
    (motive_4 := fun e => ∀ c ∈ writeEntry float e, 32 ≤ c.toNat)
    (motive_5 := fun l => ∀ c ∈ writeSeq float l, 32 ≤ c.toNat)
    (motive_6 := fun l => ∀ c ∈ writeSeqRest float l, 32 ≤ c.toNat)
    ?_ ?_ ?_ ?_ ?_ ?_ ?_ ?_ ?_ ?_ ?_ ?_ ?_ ?_ ?_ ?_ ?_ v
  · rw [write]; decide
  · rw [write]; decide
  · rw [write]; decide
  · intro i c hc
    rw [write] at hc
    exact numberChar_printable (decInt_chars i c hc)
  · intro x c hc
    rw [write] at hc
    exact numberChar_printable (hf x c hc)
  · intro s
    rw [write]
    exact writeText_printable s
  · intro l ih c hc
    simp only [write, List.cons_append, List.mem_cons, List.mem_append, List.not_mem_nil, or_false] at hc
    rcases hc with rfl | hc | rfl
    · decide
    · exact ih c hc
    · decide
  · intro m ih c hc
    simp only [write, List.cons_append, List.mem_cons, List.mem_append, List.not_mem_nil, or_false] at hc
    rcases hc with rfl | hc | rfl
    · decide
    · exact ih c hc
    · decide
  · simp [writeSeq]
  · intro v l h1 h2 c hc
    rw [writeSeq, List.mem_append] at hc
    exact hc.elim (h1 c) (h2 c)
  · simp [writeSeqRest]
  · intro v l h1 h2 c hc
    simp only [writeSeqRest, List.cons_append, List.mem_cons, List.mem_append] at hc
    rcases hc with rfl | hc | hc
    · decide
    · exact h1 c hc
    · exact h2 c hc
  · simp [writeMap]
  · intro e m h1 h2 c hc
    rw [writeMap, List.mem_append] at hc
    exact hc.elim (h1 c) (h2 c)
  · simp [writeMapRest]
  · intro e m h1 h2 c hc
    simp only [writeMapRest, List.cons_append, List.mem_cons, List.mem_append] at hc
    rcases hc with rfl | hc | hc
    · decide
    · exact h1 c hc
    · exact h2 c hc
  · intro k v h c hc
    simp only [writeEntry, List.mem_append, List.mem_cons] at hc
    rcases hc with hc | rfl | hc
    · exact writeText_printable k c hc
    · decide
    · exact h c hc

end HunLaw.Json
