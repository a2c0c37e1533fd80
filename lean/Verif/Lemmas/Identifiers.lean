import Verif.Spec.Identifiers
import Verif.Lemmas.Str
import Verif.Lemmas.Ord

/-! Lemmas on identifiers. -/

set_option autoImplicit false

namespace HunLaw

namespace HunChar

/-- All letters. -/
def all : List HunChar :=
  (List.finRange 26).map latin ++ [cs, dz, gy, ly, ny, sz, ty, zs]

theorem mem_all (c : HunChar) : c ∈ all := by
  cases c <;> simp [all]

instance decidableForall {p : HunChar → Prop} [DecidablePred p] : Decidable (∀ c, p c) :=
  decidable_of_iff (∀ c ∈ all, p c) ⟨fun h c => h c (mem_all c), fun h c _ => h c⟩

instance decidableExists {p : HunChar → Prop} [DecidablePred p] : Decidable (∃ c, p c) :=
  decidable_of_iff (∃ c ∈ all, p c) ⟨fun ⟨c, _, h⟩ => ⟨c, h⟩, fun ⟨c, h⟩ => ⟨c, mem_all c, h⟩⟩

theorem parse_display : ∀ c : HunChar, parse c.display = some c := by decide +kernel

theorem parse_displayUpper : ∀ c : HunChar, parse c.displayUpper = some c := by decide +kernel

/-- Facts on the text forms: not empty, only ASCII letters. -/
theorem display_letters : ∀ c : HunChar, c.display ≠ [] ∧
    c.display.all (fun x => decide (97 ≤ x.toNat) && decide (x.toNat ≤ 122)) = true := by decide +kernel

theorem displayUpper_letters : ∀ c : HunChar, c.displayUpper ≠ [] ∧
    c.displayUpper.all (fun x => decide (65 ≤ x.toNat) && decide (x.toNat ≤ 90)) = true := by
  decide +kernel

theorem display_mem {c : HunChar} {x : Char} (h : x ∈ c.display) : 97 ≤ x.toNat ∧ x.toNat ≤ 122 := by
  have := (display_letters c).2
  rw [List.all_eq_true] at this
  simpa using this x h

theorem displayUpper_mem {c : HunChar} {x : Char} (h : x ∈ c.displayUpper) :
    65 ≤ x.toNat ∧ x.toNat ≤ 90 := by
  have := (displayUpper_letters c).2
  rw [List.all_eq_true] at this
  simpa using this x h

end HunChar

theorem isDigit_iff {c : Char} : isDigit c = true ↔ 48 ≤ c.toNat ∧ c.toNat ≤ 57 := by
  simp [isDigit]

theorem not_isDigit_of_display {c : HunChar} {x : Char} (h : x ∈ c.display) : isDigit x = false := by
  have := HunChar.display_mem h
  simp [isDigit]; omega

theorem takeWhile_append_of {p : Char → Bool} {a b : Str} (ha : ∀ c ∈ a, p c = true)
    (hb : ∀ c, b.head? = some c → p c = false) :
    (a ++ b).takeWhile p = a ∧ (a ++ b).dropWhile p = b := by
  induction a with
  | nil =>
    cases b with
    | nil => simp
    | cons c cs => have := hb c rfl; simp [this]
  | cons x xs ih =>
    have hx := ha x (by simp)
    have := ih (fun c hc => ha c (by simp [hc]))
    simp [hx, this]

namespace NumericId

theorem splitSuffix_none {p : Char → Bool} {a : Str} (ha : ∀ c ∈ a, p c = true) :
    splitSuffix p a = some (a, none) := by
  have := takeWhile_append_of (b := []) ha (by simp)
  simp only [List.append_nil] at this
  unfold splitSuffix
  rw [this.2]

theorem splitSuffix_some {p : Char → Bool} {a b : Str} {h : HunChar} (ha : ∀ c ∈ a, p c = true)
    (hb : ∀ c, b.head? = some c → p c = false ∧ c ≠ '/') (hp : HunChar.parse b = some h) :
    splitSuffix p (a ++ b) = some (a, some h) := by
  have := takeWhile_append_of (b := b) ha (fun c hc => (hb c hc).1)
  unfold splitSuffix
  rw [this.2, this.1]
  cases b with
  | nil => simp [HunChar.parse, byteLen] at hp
  | cons c cs => have := (hb c rfl).2; simp [this, hp]

theorem splitSuffix_slash {p : Char → Bool} {a b : Str} {h : HunChar} (ha : ∀ c ∈ a, p c = true)
    (hs : p '/' = false) (hp : HunChar.parse b = some h) :
    splitSuffix p (a ++ '/' :: b) = some (a, some h) := by
  have := takeWhile_append_of (b := '/' :: b) ha (by simp [hs])
  unfold splitSuffix
  rw [this.2, this.1]
  cases b with
  | nil => simp [HunChar.parse, byteLen] at hp
  | cons c cs => simp [hp]

theorem parse_of_split {s a : Str} {i : NumericId}
    (h : splitSuffix isDigit s = some (a, i.suffix)) (ha : a = dec i.num.val) :
    parse s = some i := by
  unfold parse
  rw [h, ha]
  simp [dec_ne_nil, parseFin_dec]

theorem parse_display (i : NumericId) : parse i.display = some i := by
  obtain ⟨n, s⟩ := i
  cases s with
  | none => exact parse_of_split (splitSuffix_none (dec_digits _)) rfl
  | some c =>
    refine parse_of_split (splitSuffix_some (dec_digits _) ?_ (HunChar.parse_display c)) rfl
    intro x hx
    have hm : x ∈ c.display := by
      cases hd : c.display with
      | nil => simp [hd] at hx
      | cons y ys => simp [hd] at hx; simp [hx]
    refine ⟨not_isDigit_of_display hm, ?_⟩
    have := HunChar.display_mem hm
    rintro rfl; simp at this

theorem parse_displaySlash (i : NumericId) : parse i.displaySlash = some i := by
  obtain ⟨n, s⟩ := i
  cases s with
  | none => exact parse_of_split (splitSuffix_none (dec_digits _)) rfl
  | some c =>
    exact parse_of_split (splitSuffix_slash (dec_digits _) (by decide) (HunChar.parse_displayUpper c)) rfl

theorem display_chars (i : NumericId) : ∀ c ∈ i.display,
    isDigit c = true ∨ 97 ≤ c.toNat ∧ c.toNat ≤ 122 := by
  intro c hc
  unfold display at hc
  split at hc
  · rw [List.mem_append] at hc
    rcases hc with hc | hc
    · exact .inl (dec_digits _ _ hc)
    · exact .inr (HunChar.display_mem hc)
  · exact .inl (dec_digits _ _ hc)

theorem display_ne_nil (i : NumericId) : i.display ≠ [] := by
  unfold display; split <;> simp [dec_ne_nil]

theorem not_mem_display (i : NumericId) {x : Char} (h1 : isDigit x = false)
    (h2 : ¬ (97 ≤ x.toNat ∧ x.toNat ≤ 122)) : x ∉ i.display := by
  intro h
  rcases display_chars i x h with h | h
  · simp [h1] at h
  · exact h2 h

theorem displaySlash_chars (i : NumericId) : ∀ c ∈ i.displaySlash,
    isDigit c = true ∨ c = '/' ∨ 65 ≤ c.toNat ∧ c.toNat ≤ 90 := by
  intro c hc
  unfold displaySlash at hc
  split at hc
  · rw [List.mem_append, List.mem_cons] at hc
    rcases hc with hc | hc | hc
    · exact .inl (dec_digits _ _ hc)
    · exact .inr (.inl hc)
    · exact .inr (.inr (HunChar.displayUpper_mem hc))
  · exact .inl (dec_digits _ _ hc)

end NumericId

theorem not_mem_dec {n : Nat} {x : Char} (h : isDigit x = false) : x ∉ dec n := by
  intro hc; have := dec_digits n x hc; simp [h] at this

namespace ArticleId

theorem parse_display (a : ArticleId) : parse a.display = some a := by
  obtain ⟨b, i⟩ := a
  cases b with
  | none =>
    have : ':' ∉ i.displaySlash := by
      intro h
      rcases i.displaySlash_chars _ h with h | h | h
      · revert h; decide
      · revert h; decide
      · revert h; decide
    simp [parse, display, splitOnce_none this, NumericId.parse_displaySlash]
  | some b =>
    simp [parse, display, splitOnce_append (not_mem_dec (n := b.val) (x := ':') (by decide)),
      NumericId.parse_displaySlash, parseFin_dec]

theorem compact_roundtrip (a : ArticleId) : (fromCompact (fmtCompact a) : Option ArticleId) = some a := by
  obtain ⟨b, i⟩ := a
  cases b with
  | none =>
    have : '.' ∉ i.display := i.not_mem_display (by decide) (by decide)
    simp [fmtCompact, fromCompact, splitOnce_none this, NumericId.parse_display]
  | some b =>
    simp [fmtCompact, fromCompact,
      splitOnce_append (not_mem_dec (n := b.val) (x := '.') (by decide)),
      NumericId.parse_display, parseFin_dec]

theorem compact_chars (a : ArticleId) : ∀ c ∈ fmtCompact a,
    isDigit c = true ∨ c = '.' ∨ 97 ≤ c.toNat ∧ c.toNat ≤ 122 := by
  obtain ⟨b, i⟩ := a
  intro c hc
  simp only [fmtCompact] at hc
  rw [List.mem_append] at hc
  rcases hc with hc | hc
  · cases b with
    | none => simp at hc
    | some b =>
      simp only [List.mem_append, List.mem_singleton] at hc
      rcases hc with hc | hc
      · exact .inl (dec_digits _ _ hc)
      · exact .inr (.inl hc)
  · rcases i.display_chars c hc with h | h
    · exact .inl h
    · exact .inr (.inr h)

theorem compact_ne_nil (a : ArticleId) : fmtCompact a ≠ [] := by
  obtain ⟨b, i⟩ := a
  simp only [fmtCompact]
  intro h
  rw [List.append_eq_nil_iff] at h
  exact i.display_ne_nil h.2

end ArticleId

namespace ParagraphId

theorem parse_display (p : ParagraphId) : parse p.display = some p := by
  obtain ⟨i⟩ := p
  cases i with
  | none => simp [parse, display]
  | some i => simp [parse, display, i.display_ne_nil, NumericId.parse_display]

end ParagraphId

namespace PrefixedId

theorem ofChar_code : ∀ i : Fin 26, HunChar.ofChar (Char.ofNat (HunChar.code i)) = some (.latin i) := by
  decide +kernel

theorem parse_display {p : PrefixedId} (h1 : ∀ c, p.pfx = some c → Spec.Plain c)
    (h2 : Spec.Plain p.chr) : parse p.display = some p := by
  obtain ⟨x, c⟩ := p
  obtain ⟨j, rfl⟩ := h2
  cases x with
  | none => simp [parse, display, HunChar.display, ofChar_code]
  | some c =>
    obtain ⟨i, rfl⟩ := h1 c rfl
    simp [parse, display, HunChar.display, ofChar_code]

theorem display_chars (p : PrefixedId) : ∀ c ∈ p.display, 97 ≤ c.toNat ∧ c.toNat ≤ 122 := by
  intro c hc
  unfold display at hc
  split at hc
  · rw [List.mem_append] at hc
    rcases hc with hc | hc <;> exact HunChar.display_mem hc
  · exact HunChar.display_mem hc

theorem display_ne_nil (p : PrefixedId) : p.display ≠ [] := by
  unfold display; split <;> simp [HunChar.display_letters]

end PrefixedId

theorem decInt_not_mem {i : Int} {x : Char} (h : isDigit x = false) (h2 : x ≠ '-') : x ∉ decInt i := by
  intro hc
  rcases decInt_chars i x hc with h' | h'
  · simp [h] at h'
  · exact h2 h'

theorem ActId.compact_roundtrip (a : ActId) : (fromCompact (fmtCompact a) : Option ActId) = some a := by
  simp [fmtCompact, fromCompact,
    splitOnce_append (decInt_not_mem (i := a.year.val) (x := '.') (by decide) (by decide)),
    parseI16_decInt, parseI32_decInt]

/-- Round trip of ranges over an identifier kind. -/
theorem IdRange.compact_roundtrip {α : Type} [DecidableEq α] [CompactString α] {r : IdRange α}
    (h1 : (fromCompact (fmtCompact r.start) : Option α) = some r.start)
    (h2 : (fromCompact (fmtCompact r.fin) : Option α) = some r.fin)
    (h3 : '-' ∉ fmtCompact r.start) :
    (fromCompact (fmtCompact r) : Option (IdRange α)) = some r := by
  obtain ⟨s, e⟩ := r
  simp only at h1 h2 h3
  by_cases h : s = e
  · subst h
    have : fmtCompact (IdRange.mk s s) = fmtCompact s := by simp [fmtCompact, isRange]
    rw [this]
    simp only [fromCompact] at h1 ⊢
    rw [splitOnce_none h3]
    simp [h1, single]
  · have : fmtCompact (IdRange.mk s e) = fmtCompact s ++ '-' :: fmtCompact e := by
      simp [fmtCompact, isRange, h]
    rw [this]
    simp only [fromCompact] at h1 h2 ⊢
    rw [splitOnce_append h3]
    simp [h1, h2]

/-! ### Inversion of the numeric parser -/

theorem parseDigitsFrom_eq_some {acc n : Nat} {s : Str} :
    parseDigitsFrom acc s = some n ↔ Spec.AllDigits s ∧
      s.foldl (fun acc c => 10 * acc + (c.toNat - '0'.toNat)) acc = n := by
  induction s generalizing acc with
  | nil => simp [parseDigitsFrom, Spec.AllDigits]
  | cons c cs ih =>
    simp only [parseDigitsFrom, List.foldl_cons]
    split
    · rename_i h
      rw [ih]
      rw [isDigit_iff] at h
      simp [Spec.AllDigits, digitVal, h]
    · rename_i h
      rw [isDigit_iff] at h
      simp [Spec.AllDigits]
      omega

theorem HunChar.ofChar_spec {c : Char} {h : HunChar} (hc : ofChar c = some h) :
    Spec.IsLetterText h.display [c] := by
  have key : 97 ≤ (asciiLower c).toNat ∧ (asciiLower c).toNat ≤ 122 ∧
      h.display = [Char.ofNat (asciiLower c).toNat] := by
    revert hc
    unfold ofChar
    generalize asciiLower c = v
    intro hc
    unfold ofLower at hc
    split at hc
    · rename_i hr
      simp only [Option.some.injEq] at hc
      refine ⟨hr.1, hr.2, ?_⟩
      rw [← hc]
      simp only [display, code]
      have : 97 + (v.toNat - 97) = v.toNat := by omega
      rw [this]
    · simp at hc
  obtain ⟨h1, h2, h3⟩ := key
  rw [h3]
  unfold asciiLower at *
  split at h1
  · rename_i hu
    have hv : (Char.ofNat (c.toNat + 32)).toNat = c.toNat + 32 :=
      toNat_ofNat_ascii (by omega)
    right; left
    simp only [hu, and_self, if_true, hv, List.map_cons, List.map_nil]
    congr 1
    unfold Spec.upAscii
    rw [hv, if_pos (by simp; omega)]
    simp [Char.ofNat_toNat]
  · rename_i hu
    left
    simp [hu, Char.ofNat_toNat]

theorem HunChar.parse_spec {t : Str} {h : HunChar} (hp : parse t = some h) :
    Spec.IsLetterText h.display t := by
  unfold parse at hp
  split at hp
  · rename_i hl
    cases t with
    | nil => simp [byteLen] at hl
    | cons c cs =>
      have : cs = [] := by
        simp [byteLen] at hl
        have := utf8Len_pos c
        exact byteLen_eq_zero.1 (by omega)
      subst this
      exact ofChar_spec hp
  · repeat' (split at hp)
    all_goals first
      | (simp at hp; done)
      | (rename_i hor
         simp only [Option.some.injEq] at hp
         subst hp
         rcases hor with rfl | rfl | rfl
         · exact .inl rfl
         · exact .inr (.inr ⟨_, _, rfl, by decide⟩)
         · exact .inr (.inl (by decide)))

theorem HunChar.parse_of_spec : ∀ h : HunChar, ∀ t, Spec.IsLetterText h.display t → parse t = some h := by
  have h1 : ∀ h : HunChar, parse (h.display.map Spec.upAscii) = some h := by decide +kernel
  have h2 : ∀ h : HunChar, parse (match h.display with | c :: ds => Spec.upAscii c :: ds | [] => []) = some h := by
    decide +kernel
  intro h t ht
  rcases ht with rfl | rfl | ⟨c, cs, hd, rfl⟩
  · exact parse_display h
  · exact h1 h
  · have := h2 h; rw [hd] at this; exact this

end HunLaw
