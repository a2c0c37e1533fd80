import Verif.Props.Dates
import Verif.Props.Reference
import Verif.Spec.Compact

/-! C126: the compact form of a reference is read exactly as it is written. -/

set_option autoImplicit false

namespace HunLaw.Props

open Spec

theorem parseUnsigned_iff (m : Nat) (s : Str) (n : Nat) :
    parseUnsigned m s = some n ↔ WritesUnsigned s n ∧ n ≤ m := by
  have key : parseDigits (dropPlus s) = some n ↔ WritesUnsigned s n := by
    unfold WritesUnsigned
    rw [writesNumber_iff]
    simp only [writesNumber_iff]
    unfold dropPlus
    split
    · rename_i rest
      have : parseDigits ('+' :: rest) = none := rfl
      simp [this]
    · rename_i hne
      constructor
      · exact Or.inl
      · rintro (h | ⟨t, rfl, -⟩)
        · exact h
        · exact absurd rfl (hne t)
  unfold parseUnsigned
  cases hp : parseDigits (dropPlus s) with
  | none =>
    rw [hp] at key
    constructor
    · intro h; simp at h
    · rintro ⟨h, -⟩; exact absurd (key.2 h) (by simp)
  | some v =>
    rw [hp] at key
    rw [← key]
    simp only [Option.some.injEq]
    constructor
    · intro h
      split at h
      · rename_i hv; simp only [Option.some.injEq] at h; subst h; exact ⟨rfl, hv⟩
      · simp at h
    · rintro ⟨rfl, h⟩; simp [h]

theorem parseFin_iff (k : Nat) (s : Str) (n : Fin k) : parseFin k s = some n ↔ WritesUnsigned s n.val := by
  unfold parseFin
  have hn := n.isLt
  cases hp : parseUnsigned (k - 1) s with
  | none =>
    constructor
    · intro h; simp at h
    · intro h
      rw [(parseUnsigned_iff _ _ _).2 ⟨h, by omega⟩] at hp
      simp at hp
  | some v =>
    obtain ⟨h1, h2⟩ := (parseUnsigned_iff _ _ _).1 hp
    have hv : v < k := by omega
    simp only [dif_pos hv, Option.some.injEq]
    constructor
    · rintro rfl; exact h1
    · intro h
      have := (parseUnsigned_iff (k - 1) _ _).2 ⟨h, by omega⟩
      rw [hp, Option.some.injEq] at this
      exact Fin.ext this

theorem parseSigned_iff (lo hi : Int) (s : Str) (z : Int) :
    parseSigned lo hi s = some z ↔ WritesInteger s z ∧ lo ≤ z ∧ z ≤ hi := by
  have minus : ∀ t, parseDigits ('-' :: t) = none := fun _ => rfl
  have plus : ∀ t, parseDigits ('+' :: t) = none := fun _ => rfl
  unfold parseSigned WritesInteger WritesUnsigned
  simp only [writesNumber_iff]
  split
  · rename_i rest
    simp only [minus, Option.bind_eq_some_iff, Option.ite_none_right_eq_some, Option.some.injEq, reduceCtorEq, false_or,
      List.cons.injEq, true_and]
    constructor
    · rintro ⟨n, h1, h2, rfl⟩
      exact ⟨Or.inr ⟨rest, n, rfl, h1, rfl⟩, h2⟩
    · rintro ⟨⟨n, ⟨t, h, -⟩, -⟩ | ⟨t, n, rfl, h, rfl⟩, h2⟩
      · exact absurd h.1 (by decide)
      · exact ⟨n, h, h2, rfl⟩
  · rename_i rest
    simp only [plus, Option.bind_eq_some_iff, Option.ite_none_right_eq_some, Option.some.injEq, reduceCtorEq, false_or,
      List.cons.injEq, true_and]
    constructor
    · rintro ⟨n, h1, h2, rfl⟩
      exact ⟨Or.inl ⟨n, ⟨rest, rfl, h1⟩, rfl⟩, h2⟩
    · rintro ⟨⟨n, ⟨t, rfl, h⟩, rfl⟩ | ⟨t, n, h, -⟩, h2⟩
      · exact ⟨n, h, h2, rfl⟩
      · exact absurd h.1 (by decide)
  · rename_i h1 h2
    simp only [Option.bind_eq_some_iff, Option.ite_none_right_eq_some, Option.some.injEq]
    constructor
    · rintro ⟨n, h, hr, rfl⟩
      exact ⟨Or.inl ⟨n, Or.inl h, rfl⟩, hr⟩
    · rintro ⟨⟨n, h | ⟨t, rfl, -⟩, rfl⟩ | ⟨t, n, rfl, -⟩, hr⟩
      · exact ⟨n, h, hr, rfl⟩
      · exact absurd rfl (h2 t)
      · exact absurd rfl (h1 t)

theorem parseI16_iff (s : Str) (v : I16) : parseI16 s = some v ↔ WritesInteger s v.val := by
  have e := parseSigned_iff (-32768) 32767 s
  unfold parseI16
  cases hp : parseSigned (-32768) 32767 s with
  | none =>
    constructor
    · intro h; simp at h
    · intro h; have := (e v.val).2 ⟨h, v.2⟩; rw [hp] at this; simp at this
  | some z =>
    obtain ⟨h1, h2⟩ := (e z).1 hp
    simp only [dif_pos h2, Option.some.injEq]
    constructor
    · rintro rfl; exact h1
    · intro h
      have := (e v.val).2 ⟨h, v.2⟩
      rw [hp, Option.some.injEq] at this
      exact Subtype.ext this

theorem parseI32_iff (s : Str) (v : I32) : parseI32 s = some v ↔ WritesInteger s v.val := by
  have e := parseSigned_iff (-2147483648) 2147483647 s
  unfold parseI32
  cases hp : parseSigned (-2147483648) 2147483647 s with
  | none =>
    constructor
    · intro h; simp at h
    · intro h; have := (e v.val).2 ⟨h, v.2⟩; rw [hp] at this; simp at this
  | some z =>
    obtain ⟨h1, h2⟩ := (e z).1 hp
    simp only [dif_pos h2, Option.some.injEq]
    constructor
    · rintro rfl; exact h1
    · intro h
      have := (e v.val).2 ⟨h, v.2⟩
      rw [hp, Option.some.injEq] at this
      exact Subtype.ext this

/-! ### Which characters occur -/

/-- Characters of numbers and letters. -/
def Tame (c : Char) : Prop := c = '/' ∨ (48 ≤ c.toNat ∧ c.toNat ≤ 57) ∨ (65 ≤ c.toNat ∧ c.toNat ≤ 90) ∨ (97 ≤ c.toNat ∧ c.toNat ≤ 122)

theorem number_tame {s : Str} {n : Nat} (h : WritesNumber s n) : ∀ c ∈ s, Tame c :=
  fun c hc => Or.inr (Or.inl (h.2.1 c hc))

theorem letter_tame {s : Str} {x : HunChar} (h : CompactLetter s x) :
    s ≠ [] ∧ ∀ c ∈ s, (65 ≤ c.toNat ∧ c.toNat ≤ 90) ∨ (97 ≤ c.toNat ∧ c.toNat ≤ 122) := by
  have hx : ∀ c ∈ x.display, 97 ≤ c.toNat ∧ c.toNat ≤ 122 := fun c hc => HunChar.display_mem hc
  have hne : x.display ≠ [] := by
    have := (HunChar.display_letters x).1
    intro h; simp_all
  have up : ∀ c : Char, 97 ≤ c.toNat ∧ c.toNat ≤ 122 → 65 ≤ (upAscii c).toNat ∧ (upAscii c).toNat ≤ 90 := by
    intro c hc
    unfold upAscii
    rw [if_pos (show 'a'.toNat ≤ c.toNat ∧ c.toNat ≤ 'z'.toNat from hc), toNat_ofNat_ascii (by omega)]
    omega
  rcases h with rfl | rfl | ⟨c, cs, hd, rfl⟩
  · exact ⟨hne, fun c hc => Or.inr (hx c hc)⟩
  · refine ⟨by simpa using hne, fun c hc => ?_⟩
    obtain ⟨d, hd, rfl⟩ := List.mem_map.1 hc
    exact Or.inl (up d (hx d hd))
  · refine ⟨by simp, fun d hd' => ?_⟩
    rw [hd] at hx
    rcases List.mem_cons.1 hd' with rfl | h
    · exact Or.inl (up c (hx c (by simp)))
    · exact Or.inr (hx d (by simp [h]))

theorem numeric_tame {s : Str} {i : NumericId} (h : CompactNumeric s i) :
    (∃ c t, s = c :: t ∧ isDigit c = true) ∧ ∀ c ∈ s, Tame c := by
  obtain ⟨ds, tail, rfl, h1, h2, -, h4⟩ := h
  refine ⟨?_, ?_⟩
  · cases ds with
    | nil => exact absurd rfl h1
    | cons c t => exact ⟨c, t ++ tail, rfl, isDigit_iff.2 (h2 c (by simp))⟩
  · intro c hc
    rcases List.mem_append.1 hc with hc | hc
    · exact Or.inr (Or.inl (h2 c hc))
    · cases hs : i.suffix with
      | none => rw [hs] at h4; simp only [Option.map_none] at h4; subst h4; simp at hc
      | some x =>
        rw [hs] at h4
        simp only [Option.map_some] at h4
        obtain ⟨t, ht, h4⟩ := h4
        have := (letter_tame (x := x) ht).2
        rcases h4 with rfl | rfl
        · exact Or.inr (Or.inr (this c hc))
        · rcases List.mem_cons.1 hc with rfl | hc
          · exact Or.inl rfl
          · exact Or.inr (Or.inr (this c hc))

theorem not_tame {c : Char} (h : Tame c) : c ≠ '-' ∧ c ≠ '_' ∧ c ≠ '.' ∧ c ≠ '+' := by
  refine ⟨?_, ?_, ?_, ?_⟩ <;> rintro rfl <;> revert h <;> unfold Tame <;> decide

theorem unsigned_chars {s : Str} {n : Nat} (h : WritesUnsigned s n) : ∀ c ∈ s, Tame c ∨ c = '+' := by
  rcases h with h | ⟨t, rfl, h⟩
  · exact fun c hc => Or.inl (number_tame h c hc)
  · intro c hc
    rcases List.mem_cons.1 hc with rfl | hc
    · exact Or.inr rfl
    · exact Or.inl (number_tame h c hc)

theorem integer_chars {s : Str} {z : Int} (h : WritesInteger s z) : ∀ c ∈ s, Tame c ∨ c = '+' ∨ c = '-' := by
  rcases h with ⟨n, h, -⟩ | ⟨t, n, rfl, h, -⟩
  · intro c hc
    rcases unsigned_chars h c hc with h | h
    · exact Or.inl h
    · exact Or.inr (Or.inl h)
  · intro c hc
    rcases List.mem_cons.1 hc with rfl | hc
    · exact Or.inr (Or.inr rfl)
    · exact Or.inl (number_tame h c hc)

/-! ### The parts -/

/-- C126: acts. -/
theorem C126_act (s : Str) (a : ActId) : (fromCompact s : Option ActId) = some a ↔ CompactAct s a := by
  have dot : ∀ {y : Str} {z : Int}, WritesInteger y z → '.' ∉ y := by
    intro y z h hc
    rcases integer_chars h _ hc with h | h | h
    · exact (not_tame h).2.2.1 rfl
    · exact absurd h (by decide)
    · exact absurd h (by decide)
  constructor
  · intro h
    simp only [fromCompact] at h
    split at h
    · rename_i y n hs
      split at h
      · rename_i y' n' hy hn
        simp only [Option.some.injEq] at h
        subst h
        exact ⟨y, n, (splitOnce_eq_some hs).1, (parseI16_iff _ _).1 hy, (parseI32_iff _ _).1 hn⟩
      · simp at h
    · simp at h
  · rintro ⟨y, n, rfl, h1, h2⟩
    simp only [fromCompact, splitOnce_append (dot h1), (parseI16_iff _ _).2 h1, (parseI32_iff _ _).2 h2]

/-- C126: numbers. -/
theorem C126_numeric (s : Str) (i : NumericId) : (fromCompact s : Option NumericId) = some i ↔ CompactNumeric s i :=
  C05_numeric_parse_iff s i

/-- C126: letters. -/
theorem C126_letter (s : Str) (c : HunChar) : (fromCompact s : Option HunChar) = some c ↔ CompactLetter s c :=
  C01_letter_parse_iff s c

/-- C126: articles. -/
theorem C126_article (s : Str) (a : ArticleId) : (fromCompact s : Option ArticleId) = some a ↔ CompactArticle s a := by
  constructor
  · intro h
    simp only [fromCompact] at h
    split at h
    · rename_i b i hs
      split at h
      · rename_i b' i' hb hi
        simp only [Option.some.injEq] at h
        subst h
        exact ⟨b, i, (splitOnce_eq_some hs).1, (parseFin_iff _ _ _).1 hb, (C05_numeric_parse_iff _ _).1 hi⟩
      · simp at h
    · split at h
      · rename_i i hi
        simp only [Option.some.injEq] at h
        subst h
        exact (C05_numeric_parse_iff _ _).1 hi
      · simp at h
  · intro h
    obtain ⟨book, i⟩ := a
    cases book with
    | none =>
      have h' : CompactNumeric s i := h
      have hd : '.' ∉ s := fun hc => (not_tame ((numeric_tame h').2 _ hc)).2.2.1 rfl
      have := (C05_numeric_parse_iff _ _).2 h'
      simp only [fromCompact, splitOnce_none hd, this]
    | some b =>
      obtain ⟨t, u, rfl, h1, h2⟩ := h
      have hd : '.' ∉ t := by
        intro hc
        rcases unsigned_chars h1 _ hc with h | h
        · exact (not_tame h).2.2.1 rfl
        · exact absurd h (by decide)
      have := (C05_numeric_parse_iff _ _).2 h2
      simp only [fromCompact, splitOnce_append hd, (parseFin_iff _ _ _).2 h1]
      simp only at this
      rw [this]

theorem ofChar_iff (c : Char) (x : HunChar) : HunChar.ofChar c = some x ↔ CompactLetter [c] x := by
  refine ⟨HunChar.ofChar_spec, fun h => ?_⟩
  have h1 := (C01_letter_parse_iff _ _).2 h
  have h2 := (letter_tame h).2 c (by simp)
  have hb : byteLen [c] = 1 := by
    simp only [byteLen, utf8Len]
    rw [if_pos (by omega)]
  unfold HunChar.parse at h1
  rw [if_pos hb] at h1
  exact h1

/-- C126: subpoints. -/
theorem C126_subpoint (s : Str) (p : PrefixedId) : (fromCompact s : Option PrefixedId) = some p ↔ CompactSubpoint s p := by
  have e : (fromCompact s : Option PrefixedId) = PrefixedId.parse s := rfl
  rw [e]
  obtain ⟨q, x⟩ := p
  constructor
  · intro h
    unfold PrefixedId.parse at h
    split at h
    · split at h
      · rename_i hx
        simp only [Option.some.injEq, PrefixedId.mk.injEq] at h
        obtain ⟨rfl, rfl⟩ := h
        exact ⟨rfl, (ofChar_iff _ _).1 hx⟩
      · simp at h
    · split at h
      · rename_i hx hy
        simp only [Option.some.injEq, PrefixedId.mk.injEq] at h
        obtain ⟨rfl, rfl⟩ := h
        exact ⟨_, _, rfl, (ofChar_iff _ _).1 hx, (ofChar_iff _ _).1 hy⟩
      · simp at h
    · simp at h
  · intro h
    cases q with
    | none =>
      obtain ⟨h1, h2⟩ := h
      rcases s with _ | ⟨c, _ | ⟨d, t⟩⟩
      · simp at h1
      · simp [PrefixedId.parse, (ofChar_iff _ _).2 h2]
      · simp at h1
    | some q =>
      obtain ⟨c, d, rfl, h1, h2⟩ := h
      simp [PrefixedId.parse, (ofChar_iff _ _).2 h1, (ofChar_iff _ _).2 h2]

theorem subpoint_chars {s : Str} {p : PrefixedId} (h : CompactSubpoint s p) :
    s ≠ [] ∧ ∀ c ∈ s, (65 ≤ c.toNat ∧ c.toNat ≤ 90) ∨ (97 ≤ c.toNat ∧ c.toNat ≤ 122) := by
  obtain ⟨q, x⟩ := p
  cases q with
  | none => exact letter_tame h.2
  | some q =>
    obtain ⟨c, d, rfl, h1, h2⟩ := h
    refine ⟨by simp, fun e he => ?_⟩
    simp only [List.mem_cons, List.not_mem_nil, or_false] at he
    rcases he with rfl | rfl
    · exact (letter_tame h1).2 _ (by simp)
    · exact (letter_tame h2).2 _ (by simp)

theorem article_chars {s : Str} {a : ArticleId} (h : CompactArticle s a) :
    s ≠ [] ∧ ∀ c ∈ s, Tame c ∨ c = '+' ∨ c = '.' := by
  obtain ⟨book, i⟩ := a
  cases book with
  | none =>
    have h' : CompactNumeric s i := h
    obtain ⟨⟨c, t, h1, -⟩, h2⟩ := numeric_tame h'
    exact ⟨by simp [h1], fun c hc => Or.inl (h2 c hc)⟩
  | some b =>
    obtain ⟨t, u, rfl, h1, h2⟩ := h
    refine ⟨by simp, fun c hc => ?_⟩
    simp only [List.mem_append, List.mem_cons] at hc
    rcases hc with hc | rfl | hc
    · rcases unsigned_chars h1 _ hc with h | h
      · exact Or.inl h
      · exact Or.inr (Or.inl h)
    · exact Or.inr (Or.inr rfl)
    · exact Or.inl ((numeric_tame h2).2 c hc)

/-- C126: ranges of anything that is read exactly and is written without a hyphen. -/
theorem C126_range {α : Type} [DecidableEq α] [CompactString α] (P : Str → α → Prop)
    (h1 : ∀ s x, (fromCompact s : Option α) = some x ↔ P s x) (h2 : ∀ s x, P s x → '-' ∉ s) (s : Str) (r : IdRange α) :
    (fromCompact s : Option (IdRange α)) = some r ↔ CompactRange P s r := by
  constructor
  · intro h
    simp only [fromCompact] at h
    split at h
    · rename_i t u hs
      split at h
      · rename_i x y hx hy
        simp only [Option.some.injEq] at h
        subst h
        exact Or.inr ⟨t, u, (splitOnce_eq_some hs).1, (h1 _ _).1 hx, (h1 _ _).1 hy⟩
      · simp at h
    · split at h
      · rename_i x hx
        simp only [Option.some.injEq] at h
        subst h
        exact Or.inl ⟨(h1 _ _).1 hx, rfl⟩
      · simp at h
  · obtain ⟨x, y⟩ := r
    rintro (⟨h, e⟩ | ⟨t, u, rfl, hx, hy⟩)
    · simp only at h e
      subst e
      have := (h1 _ _).2 h
      simp only [fromCompact] at this ⊢
      simp only [splitOnce_none (h2 _ _ h), this, IdRange.single]
    · have e1 := (h1 _ _).2 hx
      have e2 := (h1 _ _).2 hy
      simp only [fromCompact] at e1 e2 ⊢
      simp only [splitOnce_append (h2 _ _ hx), e1, e2]

theorem range_chars {α : Type} {P : Str → α → Prop} {Q : Char → Prop} (h : ∀ s x, P s x → s ≠ [] ∧ ∀ c ∈ s, Q c) {s : Str}
    {r : IdRange α} (hr : CompactRange P s r) : s ≠ [] ∧ ∀ c ∈ s, Q c ∨ c = '-' := by
  rcases hr with ⟨hr, -⟩ | ⟨t, u, rfl, h1, h2⟩
  · exact ⟨(h _ _ hr).1, fun c hc => Or.inl ((h _ _ hr).2 c hc)⟩
  · refine ⟨by simp, fun c hc => ?_⟩
    simp only [List.mem_append, List.mem_cons] at hc
    rcases hc with hc | rfl | hc
    · exact Or.inl ((h _ _ h1).2 c hc)
    · exact Or.inr rfl
    · exact Or.inl ((h _ _ h2).2 c hc)

theorem articles_iff (s : Str) (r : IdRange ArticleId) :
    (fromCompact s : Option (IdRange ArticleId)) = some r ↔ CompactRange CompactArticle s r :=
  C126_range _ C126_article (fun s x h hc => by
    rcases (article_chars h).2 _ hc with h | h | h
    · exact (not_tame h).1 rfl
    · exact absurd h (by decide)
    · exact absurd h (by decide)) s r

theorem numerics_iff (s : Str) (r : IdRange NumericId) :
    (fromCompact s : Option (IdRange NumericId)) = some r ↔ CompactRange CompactNumeric s r :=
  C126_range _ C126_numeric (fun _ _ h hc => (not_tame ((numeric_tame h).2 _ hc)).1 rfl) s r

theorem letters_iff (s : Str) (r : IdRange HunChar) :
    (fromCompact s : Option (IdRange HunChar)) = some r ↔ CompactRange CompactLetter s r :=
  C126_range _ C126_letter (fun _ _ h hc => (not_tame (Or.inr (Or.inr ((letter_tame h).2 _ hc)))).1 rfl) s r

theorem subpoints_iff (s : Str) (r : IdRange PrefixedId) :
    (fromCompact s : Option (IdRange PrefixedId)) = some r ↔ CompactRange CompactSubpoint s r :=
  C126_range _ C126_subpoint (fun _ _ h hc => (not_tame (Or.inr (Or.inr ((subpoint_chars h).2 _ hc)))).1 rfl) s r

/-- A text that begins with no digit is not a range of numbers. -/
theorem letters_no_numbers {α : Type} {P : Str → α → Prop}
    (h : ∀ s x, P s x → s ≠ [] ∧ ∀ c ∈ s, (65 ≤ c.toNat ∧ c.toNat ≤ 90) ∨ (97 ≤ c.toNat ∧ c.toNat ≤ 122)) {s : Str}
    {r : IdRange α} (hr : CompactRange P s r) : (fromCompact s : Option (IdRange NumericId)) = none := by
  refine letters_not_numericRange fun c t e => ?_
  subst e
  have := (range_chars h hr).2 c (by simp)
  cases hd : isDigit c with
  | false => rfl
  | true =>
    have hd := isDigit_iff.1 hd
    rcases this with h | rfl
    · omega
    · exact absurd hd (by decide)

/-- C126: points are numbers or letters. -/
theorem C126_points (s : Str) (r : RefPartPoint) : (fromCompact s : Option RefPartPoint) = some r ↔ CompactPoints s r := by
  have e : (fromCompact s : Option RefPartPoint) = match (fromCompact s : Option (IdRange NumericId)) with
    | some r => some (.numeric r)
    | none => match (fromCompact s : Option (IdRange HunChar)) with
      | some r => some (.alphabetic r)
      | none => none := rfl
  rw [e]
  constructor
  · intro h
    split at h
    · rename_i x hx
      simp only [Option.some.injEq] at h
      subst h
      exact (numerics_iff _ _).1 hx
    · split at h
      · rename_i x hx
        simp only [Option.some.injEq] at h
        subst h
        exact (letters_iff _ _).1 hx
      · simp at h
  · intro h
    cases r with
    | numeric x => rw [(numerics_iff s x).2 h]
    | alphabetic x =>
      have h' : CompactRange CompactLetter s x := h
      rw [letters_no_numbers (fun _ _ h => letter_tame h) h', (letters_iff s x).2 h']

/-- C126: subpoints are numbers, letters or pairs of letters. -/
theorem C126_subpoints (s : Str) (r : RefPartSubpoint) :
    (fromCompact s : Option RefPartSubpoint) = some r ↔ CompactSubpoints s r := by
  have e : (fromCompact s : Option RefPartSubpoint) = match (fromCompact s : Option (IdRange NumericId)) with
    | some r => some (.numeric r)
    | none => match (fromCompact s : Option (IdRange PrefixedId)) with
      | some r => some (.alphabetic r)
      | none => none := rfl
  rw [e]
  constructor
  · intro h
    split at h
    · rename_i x hx
      simp only [Option.some.injEq] at h
      subst h
      exact (numerics_iff _ _).1 hx
    · split at h
      · rename_i x hx
        simp only [Option.some.injEq] at h
        subst h
        exact (subpoints_iff _ _).1 hx
      · simp at h
  · intro h
    cases r with
    | numeric x => rw [(numerics_iff s x).2 h]
    | alphabetic x =>
      have h' : CompactRange CompactSubpoint s x := h
      rw [letters_no_numbers (fun _ _ h => subpoint_chars h) h', (subpoints_iff s x).2 h']

/-- C126: a part that may be missing is missing exactly if its text is empty; a text that is neither empty nor one of the
part is an error. -/
theorem C126_part {α : Type} [CompactString α] (P : Str → α → Prop)
    (h1 : ∀ s x, (fromCompact s : Option α) = some x ↔ P s x) (h2 : ∀ s x, P s x → s ≠ []) (s : Str) (o : Option α) :
    (fromCompact s : Option (Option α)) = some o ↔ CompactPart P s o := by
  have e : (fromCompact s : Option (Option α)) = if s = [] then some none
    else match (fromCompact s : Option α) with
      | some x => some (some x)
      | none => none := rfl
  rw [e]
  by_cases hs : s = []
  · rw [if_pos hs]
    cases o with
    | none => simp [CompactPart, hs]
    | some x => simp only [Option.some.injEq, reduceCtorEq, false_iff]; exact fun h => h2 _ _ h hs
  · rw [if_neg hs]
    cases o with
    | none => cases hp : (fromCompact s : Option α) <;> simp [CompactPart, hs]
    | some x =>
      have := h1 s x
      cases hp : (fromCompact s : Option α) <;> simp_all [CompactPart]

theorem splitAll_five {s a b c d e : Str} (h : splitAll '_' s = [a, b, c, d, e]) :
    s = a ++ '_' :: (b ++ '_' :: (c ++ '_' :: (d ++ '_' :: e))) := by
  have join : ∀ s : Str, s = ['_'].intercalate (splitAll '_' s) := by
    intro s
    induction s with
    | nil => rfl
    | cons x xs ih =>
      simp only [splitAll]
      by_cases hx : x = '_'
      · subst hx
        simp only [if_true]
        cases hs : splitAll '_' xs with
        | nil => exact absurd hs (splitAll_ne_nil _ _)
        | cons p ps =>
          rw [hs] at ih
          simp only [List.intercalate, List.intersperse, List.flatten_cons, List.nil_append] at ih ⊢
          simp [ih]
      · rw [if_neg hx]
        cases hs : splitAll '_' xs with
        | nil => exact absurd hs (splitAll_ne_nil _ _)
        | cons p ps =>
          rw [hs] at ih
          rw [ih]
          cases ps <;> simp [List.intercalate]
  rw [join s, h]
  simp [List.intercalate]

/-- C126: a text is read as a reference exactly if it is the five parts of the reference with underscores between them, and
the reference has no gaps and no range but its last part. -/
theorem C126_exact (s : Str) (r : Ref) : (fromCompact s : Option Ref) = some r ↔ CompactRef s r ∧ WellFormed r := by
  have actChars : ∀ (s : Str) (x : ActId), CompactAct s x → s ≠ [] ∧ '_' ∉ s := by
    rintro s x ⟨y, n, rfl, h1, h2⟩
    refine ⟨by simp, fun hc => ?_⟩
    have no : ∀ {y : Str} {z : Int}, WritesInteger y z → '_' ∉ y := by
      intro y z h hc
      rcases integer_chars h _ hc with h | h | h
      · exact (not_tame h).2.1 rfl
      · exact absurd h (by decide)
      · exact absurd h (by decide)
    simp only [List.mem_append, List.mem_cons] at hc
    rcases hc with hc | hc | hc
    · exact no h1 hc
    · exact absurd hc (by decide)
    · exact no h2 hc
  have artChars : ∀ (s : Str) (x : IdRange ArticleId), CompactRange CompactArticle s x → s ≠ [] ∧ '_' ∉ s := by
    intro s x h
    obtain ⟨h1, h2⟩ := range_chars (fun _ _ h => article_chars h) h
    refine ⟨h1, fun hc => ?_⟩
    rcases h2 _ hc with (h | h | h) | h
    · exact (not_tame h).2.1 rfl
    all_goals exact absurd h (by decide)
  have numChars : ∀ (s : Str) (x : IdRange NumericId), CompactRange CompactNumeric s x → s ≠ [] ∧ '_' ∉ s := by
    intro s x h
    obtain ⟨h1, h2⟩ := range_chars (Q := Tame) (fun _ _ h => by
      obtain ⟨⟨c, t, h1, -⟩, h2⟩ := numeric_tame h
      exact ⟨by simp [h1], h2⟩) h
    refine ⟨h1, fun hc => ?_⟩
    rcases h2 _ hc with h | h
    · exact (not_tame h).2.1 rfl
    · exact absurd h (by decide)
  have letChars : ∀ {α : Type} {P : Str → α → Prop}
      (_ : ∀ s x, P s x → s ≠ [] ∧ ∀ c ∈ s, (65 ≤ c.toNat ∧ c.toNat ≤ 90) ∨ (97 ≤ c.toNat ∧ c.toNat ≤ 122)) (s : Str)
      (x : IdRange α), CompactRange P s x → s ≠ [] ∧ '_' ∉ s := by
    intro α P hP s x h
    obtain ⟨h1, h2⟩ := range_chars hP h
    refine ⟨h1, fun hc => ?_⟩
    rcases h2 _ hc with h | h
    · exact (not_tame (Or.inr (Or.inr h))).2.1 rfl
    · exact absurd h (by decide)
  have ptChars : ∀ (s : Str) (x : RefPartPoint), CompactPoints s x → s ≠ [] ∧ '_' ∉ s := by
    intro s x h
    cases x with
    | numeric x => exact numChars s x h
    | alphabetic x => exact letChars (P := CompactLetter) (fun _ _ h => letter_tame h) s x h
  have spChars : ∀ (s : Str) (x : RefPartSubpoint), CompactSubpoints s x → s ≠ [] ∧ '_' ∉ s := by
    intro s x h
    cases x with
    | numeric x => exact numChars s x h
    | alphabetic x => exact letChars (P := CompactSubpoint) (fun _ _ h => subpoint_chars h) s x h
  have opt : ∀ {α : Type} {P : Str → α → Prop} {s : Str} {o : Option α}, (∀ s x, P s x → s ≠ [] ∧ '_' ∉ s) →
      CompactPart P s o → '_' ∉ s := by
    intro α P s o h1 h2
    cases o with
    | none => have : s = [] := h2; simp [this]
    | some x => exact (h1 _ _ h2).2
  have p1 := C126_part CompactAct C126_act (fun s x h => (actChars s x h).1)
  have p2 := C126_part (CompactRange CompactArticle) articles_iff (fun s x h => (artChars s x h).1)
  have p3 := C126_part (CompactRange CompactNumeric) numerics_iff (fun s x h => (numChars s x h).1)
  have p4 := C126_part CompactPoints C126_points (fun s x h => (ptChars s x h).1)
  have p5 := C126_part CompactSubpoints C126_subpoints (fun s x h => (spChars s x h).1)
  have e : (fromCompact s : Option Ref) = match splitAll '_' s with
    | [act, article, paragraph, point, subpoint] =>
      match (fromCompact act : Option (Option ActId)),
        (fromCompact article : Option (Option RefPartArticle)),
        (fromCompact paragraph : Option (Option RefPartParagraph)),
        (fromCompact point : Option (Option RefPartPoint)),
        (fromCompact subpoint : Option (Option RefPartSubpoint)) with
      | some act, some article, some paragraph, some point, some subpoint =>
        Ref.tryFrom ⟨act, article, paragraph, point, subpoint⟩
      | _, _, _, _, _ => none
    | _ => none := rfl
  rw [e]
  constructor
  · intro h
    split at h
    · rename_i a b c d f hs
      split at h
      · rename_i a' b' c' d' f' ha hb hc hd hf
        obtain ⟨rfl, hw⟩ := Ref.tryFrom_eq_some.1 h
        exact ⟨⟨a, b, c, d, f, splitAll_five hs, (p1 _ _).1 ha, (p2 _ _).1 hb, (p3 _ _).1 hc, (p4 _ _).1 hd, (p5 _ _).1 hf⟩, hw⟩
      · simp at h
    · simp at h
  · rintro ⟨⟨a, b, c, d, f, rfl, h1, h2, h3, h4, h5⟩, hw⟩
    rw [splitAll_append (opt actChars h1), splitAll_append (opt artChars h2), splitAll_append (opt numChars h3),
      splitAll_append (opt ptChars h4), splitAll_none (opt spChars h5)]
    simp only
    rw [(p1 _ _).2 h1, (p2 _ _).2 h2, (p3 _ _).2 h3, (p4 _ _).2 h4, (p5 _ _).2 h5]
    exact Ref.tryFrom_eq_some.2 ⟨rfl, hw⟩

example : CompactRef str!"2012.100_+3.12/A_2_Cs-dz_" ⟨some exAct, some (.single ⟨some 3, ⟨12, some (.latin 0)⟩⟩),
    some (.single ⟨2, none⟩), some (.alphabetic ⟨.cs, .dz⟩), none⟩ :=
  ((C126_exact _ _).1 (by decide +kernel)).1

/-- A text with a part that is none is not read. -/
example : (fromCompact str!"2012.1_x_2__" : Option Ref) = none ∧ (fromCompact str!"2012.1_1_2_" : Option Ref) = none := by
  decide +kernel

end HunLaw.Props
