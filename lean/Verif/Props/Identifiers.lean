import Verif.Lemmas.Identifiers
import Verif.Lemmas.Regex
import Verif.Lemmas.Roman

/-! Properties C01-C13: identifiers and their text forms. -/

set_option autoImplicit false

namespace HunLaw.Props

open HunLaw

/-! ### C01 -/

/-- C01: every letter identifier parses back from its lower and its upper case text. -/
theorem C01_letter_roundtrip (c : HunChar) :
    HunChar.parse c.display = some c ∧ HunChar.parse c.displayUpper = some c :=
  ⟨HunChar.parse_display c, HunChar.parse_displayUpper c⟩

/-- C01: the printed text is the letter of the alphabet (lower case) and its capital form, and
every letter of the alphabet is printed for some identifier. -/
theorem C01_letter_text (c : HunChar) :
    c.display ∈ Spec.alphabet ∧ c.displayUpper = c.display.map Spec.upAscii := by
  revert c; decide +kernel

theorem C01_letter_onto : ∀ s ∈ Spec.alphabet, ∃ c : HunChar, c.display = s := by decide +kernel

/-- C01: two different identifiers never share a text form. -/
theorem C01_letter_injective (c d : HunChar)
    (h : c.display = d.display ∨ c.displayUpper = d.displayUpper ∨ c.display = d.displayUpper) :
    c = d := by
  rcases h with h | h | h
  · have := HunChar.parse_display c
    rw [h, HunChar.parse_display] at this
    exact (Option.some.inj this).symm
  · have := HunChar.parse_displayUpper c
    rw [h, HunChar.parse_displayUpper] at this
    exact (Option.some.inj this).symm
  · have := HunChar.parse_display c
    rw [h, HunChar.parse_displayUpper] at this
    exact (Option.some.inj this).symm

/-- C01: parsing accepts exactly the letters of the alphabet as they are, capitalised or in
capitals. -/
theorem C01_letter_parse_iff (t : Str) (c : HunChar) :
    HunChar.parse t = some c ↔ Spec.IsLetterText c.display t :=
  ⟨HunChar.parse_spec, HunChar.parse_of_spec c t⟩

example : HunChar.parse str!"Dz" = some .dz ∧ HunChar.parse str!"Q" = some (.latin 16) ∧
    HunChar.parse str!"dzs" = none ∧ HunChar.parse str!"cS" = none ∧ HunChar.parse str!"á" = none := by
  decide +kernel

/-! ### C02 -/

/-- C02: the order is a total order compatible with equality. -/
theorem C02_letter_order_total :
    (∀ a b : HunChar, cmp a b = .eq ↔ a = b) ∧
    (∀ a b : HunChar, (cmp a b).swap = cmp b a) ∧
    (∀ a b c : HunChar, cmp a b = .lt → cmp b c = .lt → cmp a c = .lt) :=
  ⟨LawfulOrd.eq_iff, LawfulOrd.swap, LawfulOrd.trans⟩

/-- C02: the order is that of the alphabet. -/
theorem C02_letter_order_alphabet (a b : HunChar) :
    cmp a b = compare (Spec.alphabet.idxOf a.display) (Spec.alphabet.idxOf b.display) := by
  revert a b; decide +kernel

example : rlt (HunChar.latin 2) .cs = true ∧ rlt .cs (HunChar.latin 3) = true := by decide

/-! ### C03 -/

/-- C03: a follower is strictly greater and skips at most a digraph of the first letter, or `q`. -/
theorem C03_letter_succession (a b : HunChar) (h : isNextFrom b a = true) :
    rlt a b = true ∧ ∀ x : HunChar, rlt a x = true → rlt x b = true →
      x.display = str!"q" ∨ ∃ l, a.display = [l] ∧ x.display.head? = some l := by
  have key : ∀ a b : HunChar, isNextFrom b a = true → rlt a b = true ∧
      ∀ x : HunChar, rlt a x = true → rlt x b = true →
        x.display = str!"q" ∨ (a.display.length = 1 ∧ x.display.head? = a.display.head?) := by
    decide +kernel
  obtain ⟨h1, h2⟩ := key a b h
  refine ⟨h1, fun x hx1 hx2 => ?_⟩
  rcases h2 x hx1 hx2 with h3 | ⟨h3, h4⟩
  · exact .inl h3
  · right
    match hd : a.display, h3 with
    | [l], _ => exact ⟨l, rfl, by rw [h4, hd]; rfl⟩

/-- C03: every identifier but the last has a follower, in particular the next letter of the alphabet
always is one. -/
theorem C03_letter_next_exists (a b : HunChar)
    (h : Spec.alphabet.idxOf b.display = Spec.alphabet.idxOf a.display + 1) :
    isNextFrom b a = true := by
  revert a b; decide +kernel

theorem C03_letter_has_follower (a : HunChar) (h : a ≠ .zs) : ∃ b : HunChar, isNextFrom b a = true := by
  revert a; decide +kernel

/-- C03: exactly which letters are accepted after a letter: the next one in the alphabet, the one after it
if the one skipped is `q`, or if it is a two-letter form of the same letter. -/
theorem C03_letter_next_iff (a b : HunChar) :
    isNextFrom b a = true ↔
      Spec.alphabet.idxOf b.display = Spec.alphabet.idxOf a.display + 1 ∨
      (Spec.alphabet.idxOf b.display = Spec.alphabet.idxOf a.display + 2 ∧
        ∃ x : HunChar, Spec.alphabet.idxOf x.display = Spec.alphabet.idxOf a.display + 1 ∧
          (x.display = str!"q" ∨ (a.display.length = 1 ∧ x.display.take 1 = a.display))) := by
  revert a b; decide +kernel

example : isNextFrom (HunChar.latin 3) (HunChar.latin 2) = true ∧
    isNextFrom (HunChar.latin 3) HunChar.cs = true ∧ isNextFrom (HunChar.latin 17) (HunChar.latin 15) = true := by
  decide

/-! ### C04 -/

/-- C04: all printed forms of a numeric identifier parse back: `12a`, `12/A` and `12/a`. -/
theorem C04_numeric_roundtrip (i : NumericId) :
    NumericId.parse i.display = some i ∧ NumericId.parse i.displaySlash = some i ∧
    NumericId.parse (dec i.num.val ++ NumericId.slashSuffix i.suffix) = some i := by
  refine ⟨NumericId.parse_display i, NumericId.parse_displaySlash i, ?_⟩
  obtain ⟨n, s⟩ := i
  cases s with
  | none => simpa [NumericId.slashSuffix, NumericId.display] using NumericId.parse_display ⟨n, none⟩
  | some c =>
    exact NumericId.parse_of_split
      (NumericId.splitSuffix_slash (dec_digits _) (by decide) (HunChar.parse_display c)) rfl

/-- C04: the printed forms are the decimal number, an optional slash and the letter. -/
theorem C04_numeric_forms (i : NumericId) :
    ∃ digits, Spec.AllDigits digits ∧ Spec.decimalValue digits = i.num.val ∧
      (∀ c, digits.head? = some c → c = '0' → digits = ['0']) ∧
      i.display = digits ++ (i.suffix.map HunChar.display).getD [] ∧
      i.displaySlash = digits ++ (i.suffix.map fun c => '/' :: c.displayUpper).getD [] := by
  have h := parseDigits_dec i.num.val
  have hne := dec_ne_nil i.num.val
  refine ⟨dec i.num.val, ?_, ?_, ?_, ?_, ?_⟩
  · intro c hc
    have := dec_digits _ c hc
    rw [isDigit_iff] at this; exact this
  · unfold parseDigits at h
    cases hd : dec i.num.val with
    | nil => exact absurd hd hne
    | cons c cs =>
      rw [hd] at h
      exact (parseDigitsFrom_eq_some.1 h).2
  · have key : ∀ f n, n < f → ∀ c, (decAux f n).head? = some c → c = '0' → decAux f n = ['0'] := by
      intro f
      induction f with
      | zero => intros; omega
      | succ f ih =>
        intro n hn c hc h0
        simp only [decAux] at hc ⊢
        split at hc
        · rename_i h10
          simp at hc; subst hc
          rw [if_pos h10, h0]
        · rename_i h10
          exfalso
          have hne := decAux_ne_nil (f := f) (n := n / 10) (by omega)
          rw [List.head?_append] at hc
          cases hx : (decAux f (n / 10)).head? with
          | none => rw [List.head?_eq_none_iff] at hx; exact hne hx
          | some y =>
            rw [hx] at hc; simp at hc; subst hc
            have h1 := ih (n / 10) (by omega) y hx h0
            have h2 := parseDigitsFrom_decAux (f := f) (n := n / 10) (by omega)
            rw [h1] at h2
            simp [parseDigitsFrom, isDigit, digitVal] at h2
            omega
    exact key _ _ (by omega)
  · unfold NumericId.display; cases i.suffix <;> simp
  · unfold NumericId.displaySlash; cases i.suffix <;> simp

example : (NumericId.mk 12 (some .cs)).display = str!"12cs" ∧
    (NumericId.mk 12 (some .cs)).displaySlash = str!"12/CS" ∧
    (NumericId.mk 65535 none).display = str!"65535" := by decide +kernel

/-! ### C05 -/

/-- C05: numeric parsing accepts exactly the strings that denote the result. -/
theorem C05_numeric_parse_iff (s : Str) (i : NumericId) :
    NumericId.parse s = some i ↔
      Spec.DenotesNumeric s i.num.val (i.suffix.map HunChar.display) := by
  constructor
  · intro h
    unfold NumericId.parse at h
    split at h
    · rename_i numStr suffix hs
      split at h
      · simp at h
      · rename_i hne
        split at h
        · rename_i n hn
          simp at h; subst h
          -- the number
          have hnum : ∀ t : Str, (∀ c ∈ t, isDigit c = true) → parseFin 65536 t = some n →
              Spec.AllDigits t ∧ Spec.decimalValue t = n.val := by
            intro t ht hp
            unfold parseFin at hp
            rw [parseUnsigned_of_digits ht] at hp
            cases hd : parseDigits t with
            | none => simp [hd] at hp
            | some v =>
              have hv : v = n.val := by
                rw [hd] at hp
                simp only [Option.bind_some] at hp
                split at hp
                · rename_i v' hv'
                  split at hv'
                  · simp at hv'; subst hv'
                    split at hp
                    · simp at hp; rw [← hp]
                    · simp at hp
                  · simp at hv'
                · simp at hp
              subst hv
              unfold parseDigits at hd
              split at hd
              · simp at hd
              · exact parseDigitsFrom_eq_some.1 hd
          have htw : ∀ c ∈ s.takeWhile isDigit, isDigit c = true := by
            have : (s.takeWhile isDigit).all isDigit = true := List.all_takeWhile
            rwa [List.all_eq_true] at this
          have happ : s = s.takeWhile isDigit ++ s.dropWhile isDigit :=
            (List.takeWhile_append_dropWhile).symm
          unfold NumericId.splitSuffix at hs
          simp only at hs
          split at hs
          · rename_i hdw
            simp at hs
            obtain ⟨rfl, rfl⟩ := hs
            have hsd : ∀ c ∈ s, isDigit c = true := by
              rw [happ, hdw, List.append_nil]; exact htw
            obtain ⟨h1, h2⟩ := hnum s hsd hn
            exact ⟨s, [], by simp, hne, h1, h2, rfl⟩
          · rename_i c cs hdw
            split at hs
            · rename_i hc
              split at hs
              · simp at hs
              · split at hs
                · rename_i h' hp
                  simp at hs
                  obtain ⟨rfl, rfl⟩ := hs
                  obtain ⟨h1, h2⟩ := hnum _ htw hn
                  refine ⟨_, _, happ, hne, h1, h2, cs, HunChar.parse_spec hp, .inr ?_⟩
                  rw [hdw, hc]
                · simp at hs
            · split at hs
              · rename_i h' hp
                simp at hs
                obtain ⟨rfl, rfl⟩ := hs
                obtain ⟨h1, h2⟩ := hnum _ htw hn
                exact ⟨_, _, happ, hne, h1, h2, c :: cs, HunChar.parse_spec hp, .inl hdw⟩
              · simp at hs
        · simp at h
    · simp at h
  · rintro ⟨digits, tail, rfl, hne, hd, hv, htail⟩
    obtain ⟨n, suffix⟩ := i
    simp only at hv htail
    have hdig : ∀ c ∈ digits, isDigit c = true := fun c hc => isDigit_iff.2 (hd c hc)
    have hpf : parseFin 65536 digits = some n := by
      have hpd : parseDigits digits = some n.val := by
        unfold parseDigits
        cases digits with
        | nil => exact absurd rfl hne
        | cons c cs => exact parseDigitsFrom_eq_some.2 ⟨hd, hv⟩
      unfold parseFin
      rw [parseUnsigned_of_digits hdig, hpd]
      have : n.val ≤ 65536 - 1 := by omega
      simp [this]
    have hfin : ∀ sfx, NumericId.splitSuffix isDigit (digits ++ tail) = some (digits, sfx) →
        NumericId.parse (digits ++ tail) = some ⟨n, sfx⟩ := by
      intro sfx h
      unfold NumericId.parse
      rw [h]; simp [hne, hpf]
    cases suffix with
    | none =>
      simp at htail; subst htail
      apply hfin
      rw [List.append_nil]; exact NumericId.splitSuffix_none hdig
    | some c =>
      obtain ⟨t, ht, htl⟩ := htail
      have hp := HunChar.parse_of_spec c t ht
      apply hfin
      rcases htl with rfl | rfl
      · refine NumericId.splitSuffix_some hdig ?_ hp
        intro x hx
        have hup : ∀ y : Char, 97 ≤ y.toNat ∧ y.toNat ≤ 122 →
            65 ≤ (Spec.upAscii y).toNat ∧ (Spec.upAscii y).toNat ≤ 90 := by
          intro y hy
          unfold Spec.upAscii
          rw [if_pos (show 'a'.toNat ≤ y.toNat ∧ y.toNat ≤ 'z'.toNat from hy),
            toNat_ofNat_ascii (by omega)]; omega
        have hlet : 97 ≤ x.toNat ∧ x.toNat ≤ 122 ∨ 65 ≤ x.toNat ∧ x.toNat ≤ 90 := by
          rcases ht with rfl | rfl | ⟨y, ys, hy, rfl⟩
          · exact .inl (HunChar.display_mem (List.mem_of_mem_head? hx))
          · right
            rw [List.head?_map] at hx
            cases hh : (HunChar.display c).head? with
            | none => simp [hh] at hx
            | some y =>
              simp [hh] at hx; subst hx
              exact hup y (HunChar.display_mem (List.mem_of_mem_head? hh))
          · right
            simp at hx; subst hx
            exact hup y (HunChar.display_mem (c := c) (by rw [hy]; simp))
        refine ⟨?_, ?_⟩
        · simp [isDigit]; omega
        · rintro rfl; simp at hlet
      · exact NumericId.splitSuffix_slash hdig (by decide) hp

example : NumericId.parse str!"012/a" = some ⟨12, some (.latin 0)⟩ ∧ NumericId.parse str!"65536" = none ∧
    NumericId.parse str!"a" = none ∧ NumericId.parse str!"12/" = none ∧ NumericId.parse str!"+5" = none := by
  decide +kernel

/-! ### C06 -/

/-- C06, the statement that does not hold of the code. -/
def C06_statement : Prop := ∀ a b : NumericId, isNextFrom b a = true → rlt a b = true

/-- C06 fails: 0 is accepted as the follower of 65535. -/
theorem C06_violated : ¬ C06_statement := by
  intro h
  have := h ⟨65535, none⟩ ⟨0, none⟩ (by decide +kernel)
  revert this; decide +kernel

/-- C06 apart from the wrap-around: what the follower of `a` can be. Missing: the pair 0 after 65535,
where the claim is false (`C06_violated`). -/
theorem C06_numeric_succession_partial (a b : NumericId) (h : isNextFrom b a = true)
    (hw : ¬ (a.num.val = 65535 ∧ b.num.val = 0)) :
    rlt a b = true ∧
      ((b.suffix = none ∧ b.num.val = a.num.val + 1) ∨
       (b.num = a.num ∧ ∃ s, b.suffix = some s ∧
          (a.suffix = none ∧ s.display = str!"a" ∨ ∃ t, a.suffix = some t ∧ isNextFrom s t = true))) := by
  obtain ⟨an, as⟩ := a
  obtain ⟨bn, bs⟩ := b
  simp only [isNextFrom, NumericId.isNextFrom] at h
  have hlt : ∀ (x y : U16), cmp x y = .lt ↔ x.val < y.val := fun x y => compare_nat_lt
  have heq : ∀ (x : U16), cmp x x = .eq := fun x => cmp_self x
  cases bs with
  | none =>
    simp only [wrappingSub, beq_iff_eq] at h
    have hb := bn.isLt
    have ha := an.isLt
    simp only at hw
    have h1 : bn.val = an.val + 1 := by omega
    refine ⟨?_, .inl ⟨rfl, h1⟩⟩
    rw [rlt_iff]
    show (cmp an bn).then (cmp as none) = .lt
    rw [(hlt an bn).2 (by omega)]; rfl
  | some s =>
    cases as with
    | none =>
      simp only [Bool.and_eq_true, beq_iff_eq] at h
      obtain ⟨rfl, h2⟩ := h
      refine ⟨?_, .inr ⟨rfl, s, rfl, .inl ⟨rfl, ?_⟩⟩⟩
      · rw [rlt_iff]
        show (cmp bn bn).then _ = .lt
        rw [heq]; rfl
      · simp only [isFirst, beq_iff_eq] at h2
        subst h2; decide
    | some t =>
      simp only [Bool.and_eq_true, beq_iff_eq] at h
      obtain ⟨rfl, h2⟩ := h
      refine ⟨?_, .inr ⟨rfl, s, rfl, .inr ⟨t, rfl, h2⟩⟩⟩
      rw [rlt_iff]
      show (cmp bn bn).then (cmp t s) = .lt
      rw [heq]
      exact rlt_iff.1 (C03_letter_succession t s h2).1

/-- C06: the natural followers are accepted: the next number without suffix whatever the suffix was,
the first letter after no letter, and the next letter. -/
theorem C06_numeric_followers (n : U16) (sfx : Option HunChar) (hn : n.val < 65535) (s t : HunChar)
    (hst : Spec.alphabet.idxOf t.display = Spec.alphabet.idxOf s.display + 1) :
    isNextFrom (NumericId.mk ⟨n.val + 1, by omega⟩ none) ⟨n, sfx⟩ = true ∧
    isNextFrom (NumericId.mk n (some (.latin 0))) ⟨n, none⟩ = true ∧
    isNextFrom (NumericId.mk n (some t)) ⟨n, some s⟩ = true := by
  refine ⟨?_, ?_, ?_⟩
  · simp only [isNextFrom, NumericId.isNextFrom, wrappingSub, beq_iff_eq]; omega
  · simp [isNextFrom, NumericId.isNextFrom, isFirst]
  · have := C03_letter_next_exists s t hst
    simp only [isNextFrom] at this
    simp [isNextFrom, NumericId.isNextFrom, this]

example : isNextFrom (NumericId.mk 13 none) ⟨12, some (.latin 3)⟩ = true ∧
    isNextFrom (NumericId.mk 12 (some (.latin 4))) ⟨12, some (.latin 3)⟩ = true := by decide +kernel

/-! ### C07 -/

/-- C07: article identifiers parse back from the displayed and from the compact form. -/
theorem C07_article_roundtrip (a : ArticleId) :
    ArticleId.parse a.display = some a ∧ (fromCompact (fmtCompact a) : Option ArticleId) = some a :=
  ⟨ArticleId.parse_display a, ArticleId.compact_roundtrip a⟩

/-- C07: the forms are `book:number/LETTER` and `book.numberletter`. -/
theorem C07_article_forms (a : ArticleId) :
    a.display = (a.book.map fun b => dec b.val ++ str!":").getD [] ++ a.identifier.displaySlash ∧
    fmtCompact a = (a.book.map fun b => dec b.val ++ str!".").getD [] ++ a.identifier.display := by
  obtain ⟨b, i⟩ := a
  cases b <;> simp [ArticleId.display, fmtCompact]

example : (ArticleId.mk (some 2) ⟨15, some (.latin 0)⟩).display = str!"2:15/A" ∧
    fmtCompact (ArticleId.mk (some 2) ⟨15, some (.latin 0)⟩) = str!"2.15a" := by decide +kernel

/-! ### C08 -/

/-- C08, the statement that does not hold of the code. -/
def C08_statement : Prop := ∀ a b : ArticleId, isNextFrom b a = true →
  rlt a b = true ∧ (a.book = b.book ∨
    ∃ x y, a.book = some x ∧ b.book = some y ∧ y.val = x.val + 1 ∧ b.identifier.display = str!"1")

/-- C08 fails: 0:1 is accepted after 255:7. -/
theorem C08_violated : ¬ C08_statement := by
  intro h
  have := (h ⟨some 255, ⟨7, none⟩⟩ ⟨some 0, ⟨1, none⟩⟩ (by decide +kernel)).1
  revert this; decide +kernel

/-- C08 apart from the two wrap-arounds. Missing: book 0 after book 255 and number 0 after 65535,
where the claim is false (`C08_violated`). -/
theorem C08_article_succession_partial (a b : ArticleId) (h : isNextFrom b a = true)
    (hw : ¬ (a.identifier.num.val = 65535 ∧ b.identifier.num.val = 0))
    (hb : ¬ ∃ x y, a.book = some x ∧ b.book = some y ∧ x.val = 255 ∧ y.val = 0) :
    rlt a b = true ∧ (a.book = b.book ∧ isNextFrom b.identifier a.identifier = true ∨
      ∃ x y, a.book = some x ∧ b.book = some y ∧ y.val = x.val + 1 ∧
        b.identifier.display = str!"1") := by
  obtain ⟨ab, ai⟩ := a
  obtain ⟨bb, bi⟩ := b
  simp only [isNextFrom, ArticleId.isNextFrom] at h
  simp only at hw hb
  have hsame : ∀ x : Option U8, bi.isNextFrom ai = true →
      rlt (ArticleId.mk x ai) ⟨x, bi⟩ = true := by
    intro x h
    have := (C06_numeric_succession_partial ai bi h hw).1
    rw [rlt_iff] at this ⊢
    show (cmp x x).then (cmp ai bi) = .lt
    rw [cmp_self, this]; rfl
  cases ab with
  | none =>
    cases bb with
    | none => exact ⟨hsame none h, .inl ⟨rfl, h⟩⟩
    | some y => simp at h
  | some x =>
    cases bb with
    | none => simp at h
    | some y =>
      simp only at h
      split at h
      · rename_i hxy
        subst hxy
        exact ⟨hsame _ h, .inl ⟨rfl, h⟩⟩
      · split at h
        · rename_i hne hsub
          have h1 : y.val = x.val + 1 := by
            have := x.isLt
            have := y.isLt
            simp only [wrappingSub] at hsub
            have h255 : ¬ (x.val = 255 ∧ y.val = 0) := fun hh => hb ⟨x, y, rfl, rfl, hh.1, hh.2⟩
            omega
          refine ⟨?_, .inr ⟨x, y, rfl, rfl, h1, ?_⟩⟩
          · rw [rlt_iff]
            show (cmp x y).then (cmp ai bi) = .lt
            have : cmp x y = .lt := compare_nat_lt.2 (by omega)
            rw [this]; rfl
          · simp only [isFirst, beq_iff_eq] at h
            show bi.display = _
            rw [h]; decide
        · simp at h

example : isNextFrom (ArticleId.mk (some 3) ⟨1, none⟩) ⟨some 2, ⟨15, some (.latin 0)⟩⟩ = true ∧
    isNextFrom (ArticleId.mk none ⟨16, none⟩) ⟨none, ⟨15, some (.latin 0)⟩⟩ = true := by decide +kernel

/-! ### C09 -/

/-- C09: paragraph identifiers, including the empty one, parse back. -/
theorem C09_paragraph_roundtrip (p : ParagraphId) : ParagraphId.parse p.display = some p :=
  ParagraphId.parse_display p

/-- C09: subpoint identifiers made of plain letters parse back. -/
theorem C09_prefixed_roundtrip (p : PrefixedId) (h1 : ∀ c, p.pfx = some c → Spec.Plain c)
    (h2 : Spec.Plain p.chr) : PrefixedId.parse p.display = some p :=
  PrefixedId.parse_display h1 h2

/-- C09: everything that parses as a subpoint identifier is made of plain letters, so the restriction
is met by every identifier that came from a text; and the text is that of the identifier up to case. -/
theorem C09_prefixed_parse_plain (s : Str) (p : PrefixedId) (h : PrefixedId.parse s = some p) :
    (∀ c, p.pfx = some c → Spec.Plain c) ∧ Spec.Plain p.chr ∧ s.map asciiLower = p.display := by
  have hplain : ∀ c x, HunChar.ofChar c = some x → Spec.Plain x ∧ [asciiLower c] = x.display := by
    intro c x hx
    unfold HunChar.ofChar HunChar.ofLower at hx
    generalize asciiLower c = v at hx ⊢
    split at hx
    · rename_i hr
      simp at hx; subst hx
      refine ⟨⟨_, rfl⟩, ?_⟩
      simp only [HunChar.display, HunChar.code]
      have : 97 + (v.toNat - 97) = v.toNat := by omega
      rw [this, Char.ofNat_toNat]
    · simp at hx
  unfold PrefixedId.parse at h
  split at h
  · rename_i c
    split at h
    · rename_i x hx
      simp at h; subst h
      obtain ⟨h1, h2⟩ := hplain c x hx
      exact ⟨by simp, h1, by simpa [PrefixedId.display] using h2⟩
    · simp at h
  · rename_i c d
    split at h
    · rename_i x y hx hy
      simp at h; subst h
      obtain ⟨h1, h2⟩ := hplain c x hx
      obtain ⟨h3, h4⟩ := hplain d y hy
      refine ⟨by simpa using h1, h3, ?_⟩
      simp [PrefixedId.display, ← h2, ← h4]
    · simp at h
  · simp at h

example : PrefixedId.parse str!"ab" = some ⟨some (.latin 0), .latin 1⟩ ∧
    (PrefixedId.mk (some (.latin 0)) (.latin 1)).display = str!"ab" ∧
    ParagraphId.parse str!"" = some ⟨none⟩ := by decide +kernel

/-! ### C10 -/

/-- C10: the compact form of every act identifier parses back. -/
theorem C10_act_compact_roundtrip (a : ActId) : (fromCompact (fmtCompact a) : Option ActId) = some a :=
  ActId.compact_roundtrip a

/-- C10, the statement on the long form that does not hold of the code. -/
def C10_long_statement : Prop := ∀ a : ActId, ∃ s, a.display = .ok s ∧ ActId.parse s = some a

/-- C10 fails: printing panics for the number 0. -/
theorem C10_violated_panic : (ActId.mk ⟨2012, by decide⟩ ⟨0, by decide⟩).display = .panic := by
  decide +kernel

/-- C10 fails: a five digit year is not read back. -/
theorem C10_violated_year : ¬ C10_long_statement := by
  intro h
  obtain ⟨s, h1, h2⟩ := h ⟨⟨12345, by decide⟩, ⟨1, by decide⟩⟩
  have : (ActId.mk ⟨12345, by decide⟩ ⟨1, by decide⟩).display = .ok str!"12345. évi I. törvény" := by
    decide +kernel
  rw [this] at h1
  simp only [Res.ok.injEq] at h1
  subst h1
  revert h2; decide +kernel

/-- C10 for the acts that exist: years of four digits and numbers 1..3999. Missing: all other years
and numbers, where the claim is false (`C10_violated_panic`, `C10_violated_year`). -/
theorem C10_act_long_roundtrip_partial (a : ActId) (hy1 : 1000 ≤ a.year.val) (hy2 : a.year.val ≤ 9999)
    (hn1 : 1 ≤ a.number.val) (hn2 : a.number.val ≤ 3999) :
    ∃ s, a.display = .ok s ∧ ActId.parse s = some a := by
  obtain ⟨⟨y, hy⟩, ⟨n, hn⟩⟩ := a
  simp only at hy1 hy2 hn1 hn2
  obtain ⟨r, hr1, hr2, hr3, hr4⟩ := roman_roundtrip (n := n.toNat) (by omega) (by omega)
  have hyd : decInt y = dec y.toNat := by
    unfold decInt
    rw [if_neg (by omega)]
    congr 1; omega
  obtain ⟨d1, d2, d3, d4, hd⟩ := dec_four (n := y.toNat) (by omega) (by omega)
  have hdig := dec_digits y.toNat
  rw [hd] at hdig
  have g1 := hdig d1 (by simp)
  have g2 := hdig d2 (by simp)
  have g3 := hdig d3 (by simp)
  have g4 := hdig d4 (by simp)
  refine ⟨decInt y ++ str!". évi " ++ r ++ str!". törvény", ?_, ?_⟩
  · simp only [ActId.display, hr1]
    rw [if_pos (by omega)]
  · have hm : Re.search ActId.classicRe (decInt y ++ str!". évi " ++ r ++ str!". törvény") =
        some ⟨decInt y ++ str!". évi " ++ r ++ str!". törvény", [],
          [(2, decInt y ++ str!". évi ", r), (1, [], decInt y)]⟩ := by
      have hrun : (Re.run ActId.classicRe ⟨[], decInt y ++ str!". évi " ++ r ++ str!". törvény", []⟩).head? =
          some ⟨decInt y ++ str!". évi " ++ r ++ str!". törvény", [],
          [(2, decInt y ++ str!". évi ", r), (1, [], decInt y)]⟩ := by
        rw [hyd, hd]
        simp only [ActId.classicRe, Re.seqs]
        refine Re.run_seq_head (st1 := ⟨[d1, d2, d3, d4], str!". évi " ++ r ++ str!". törvény",
          [(1, [], [d1, d2, d3, d4])]⟩) (by simp [Re.run, g1, g2, g3, g4]) ?_
        refine Re.run_seq_head (st1 := ⟨[d1, d2, d3, d4] ++ str!".", str!" évi " ++ r ++ str!". törvény",
          [(1, [], [d1, d2, d3, d4])]⟩) (by simp [Re.run, Re.anyChar]) ?_
        refine Re.run_seq_head (st1 := ⟨[d1, d2, d3, d4] ++ str!". évi ", r ++ str!". törvény",
          [(1, [], [d1, d2, d3, d4])]⟩) ?_ ?_
        · rw [List.append_assoc (as := str!" évi "), Re.run_lit_head]; simp
        have hcap := Re.run_cap_head (n := 2) (Re.run_many1_head (p := isRomanDigit)
          (pre := [d1, d2, d3, d4] ++ str!". évi ") (b := str!". törvény")
          (caps := [(1, [], [d1, d2, d3, d4])]) hr4 hr3 (by simp [isRomanDigit]))
        simp only [List.drop_left] at hcap
        refine Re.run_seq_head hcap ?_
        refine Re.run_seq_head (Re.run_cls_head (by simp [Re.anyChar])) ?_
        have := Re.run_lit_head (s := str!" törvény") (rest := [])
          (pre := [d1, d2, d3, d4] ++ str!". évi " ++ r ++ str!".")
          (caps := [(2, [d1, d2, d3, d4] ++ str!". évi ", r), (1, [], [d1, d2, d3, d4])])
        simp only [List.append_nil] at this
        rw [this]; simp
      unfold Re.search
      cases hs : (decInt y ++ str!". évi " ++ r ++ str!". törvény") with
      | nil => simp at hs
      | cons c cs =>
        rw [hs] at hrun
        simp only [Re.searchFrom, hrun]
    have hy16 : parseI16 (decInt y) = some ⟨y, hy⟩ := parseI16_decInt ⟨y, hy⟩
    have hnn : ((n.toNat : Nat) : Int) = n := by omega
    have : ActId.tryClassic (decInt y ++ str!". évi " ++ r ++ str!". törvény") =
        some ⟨⟨y, hy⟩, ⟨n, hn⟩⟩ := by
      unfold ActId.tryClassic
      rw [hm]
      simp [Re.MState.group, hy16, hr2, hnn, hn]
    unfold ActId.parse
    rw [this]; rfl

example : (ActId.mk ⟨2012, by decide⟩ ⟨100, by decide⟩).display = .ok str!"2012. évi C. törvény" := by
  decide +kernel

/-! ### C11 -/

/-- C11: ranges of every identifier kind parse back from their compact form. -/
theorem C11_range_roundtrip :
    (∀ r : IdRange ArticleId, (fromCompact (fmtCompact r) : Option (IdRange ArticleId)) = some r) ∧
    (∀ r : IdRange ParagraphId, (fromCompact (fmtCompact r) : Option (IdRange ParagraphId)) = some r) ∧
    (∀ r : IdRange NumericId, (fromCompact (fmtCompact r) : Option (IdRange NumericId)) = some r) ∧
    (∀ r : IdRange HunChar, (fromCompact (fmtCompact r) : Option (IdRange HunChar)) = some r) ∧
    (∀ r : IdRange PrefixedId,
      (∀ c, r.start.pfx = some c → Spec.Plain c) → Spec.Plain r.start.chr →
      (∀ c, r.fin.pfx = some c → Spec.Plain c) → Spec.Plain r.fin.chr →
      (fromCompact (fmtCompact r) : Option (IdRange PrefixedId)) = some r) := by
  refine ⟨?_, ?_, ?_, ?_, ?_⟩
  · intro r
    refine IdRange.compact_roundtrip (ArticleId.compact_roundtrip _) (ArticleId.compact_roundtrip _) ?_
    intro h
    rcases ArticleId.compact_chars _ _ h with h | h | h <;> revert h <;> decide
  · intro r
    refine IdRange.compact_roundtrip (ParagraphId.parse_display _) (ParagraphId.parse_display _) ?_
    obtain ⟨⟨s⟩, e⟩ := r
    cases s with
    | none => simp [fmtCompact, ParagraphId.display]
    | some i => exact i.not_mem_display (by decide) (by decide)
  · intro r
    exact IdRange.compact_roundtrip (NumericId.parse_display _) (NumericId.parse_display _)
      (r.start.not_mem_display (by decide) (by decide))
  · intro r
    refine IdRange.compact_roundtrip (HunChar.parse_display _) (HunChar.parse_display _) ?_
    intro h
    have := HunChar.display_mem h
    revert this; decide
  · intro r h1 h2 h3 h4
    refine IdRange.compact_roundtrip (PrefixedId.parse_display h1 h2) (PrefixedId.parse_display h3 h4) ?_
    intro h
    have := PrefixedId.display_chars _ _ h
    revert this; decide

/-- C11: containment is lying between the two ends, for every ordered identifier kind. The order of
each kind is a total order. -/
theorem C11_range_contains {α : Type} [RustOrd α] [LawfulOrd α] (r : IdRange α) (x : α) :
    r.contains x = true ↔
      (cmp r.start x = .lt ∨ r.start = x) ∧ (cmp x r.fin = .lt ∨ x = r.fin) := by
  unfold IdRange.contains
  rw [Bool.and_eq_true, rle_iff, rle_iff]

/-- C11: a single identifier as range contains just itself. -/
theorem C11_range_single {α : Type} [RustOrd α] [LawfulOrd α] (a x : α) :
    (IdRange.single a).contains x = true ↔ x = a := by
  unfold IdRange.contains IdRange.single
  rw [Bool.and_eq_true]
  constructor
  · rintro ⟨h1, h2⟩; exact rle_antisymm h2 h1
  · rintro rfl; exact ⟨rle_refl _, rle_refl _⟩

/-- C11: the orders of all identifier kinds are total orders compatible with equality. -/
theorem C11_orders_lawful :
    LawfulOrd ArticleId ∧ LawfulOrd ParagraphId ∧ LawfulOrd NumericId ∧ LawfulOrd HunChar ∧
    LawfulOrd PrefixedId ∧ LawfulOrd ActId :=
  ⟨inferInstance, inferInstance, inferInstance, inferInstance, inferInstance, inferInstance⟩

example : fmtCompact (IdRange.mk (NumericId.mk 1 none) ⟨12, some (.latin 0)⟩) = str!"1-12a" ∧
    (IdRange.mk (NumericId.mk 1 none) ⟨12, some (.latin 0)⟩).contains ⟨5, some .cs⟩ = true := by
  decide +kernel

/-! ### C12 -/

/-- C12: Roman numerals of headers with number 1..3999 parse back, with any suffix. -/
theorem C12_roman_roundtrip (i : NumericId) (h1 : 1 ≤ i.num.val) (h2 : i.num.val ≤ 3999) :
    ∃ s, i.toRoman = some s ∧ NumericId.fromRoman s = some i := by
  obtain ⟨n, sfx⟩ := i
  simp only at h1 h2
  obtain ⟨r, hr1, hr2, hr3, hr4⟩ := roman_roundtrip h1 h2
  refine ⟨r ++ NumericId.slashSuffix sfx, by simp [NumericId.toRoman, hr1], ?_⟩
  have : NumericId.splitSuffix isRomanDigit (r ++ NumericId.slashSuffix sfx) = some (r, sfx) := by
    cases sfx with
    | none => simpa [NumericId.slashSuffix] using NumericId.splitSuffix_none hr3
    | some c => exact NumericId.splitSuffix_slash hr3 (by decide) (HunChar.parse_display c)
  unfold NumericId.fromRoman
  rw [this]
  simp [hr2]

/-- C12: outside of 1..3999 there is no Roman form: an error, not a wrong text. -/
theorem C12_roman_range (i : NumericId) : i.toRoman = none ↔ i.num.val = 0 ∨ 3999 < i.num.val := by
  unfold NumericId.toRoman romanTo
  split
  · simp; omega
  · simp; omega

example : (NumericId.mk 14 (some (.latin 0))).toRoman = some str!"XIV/a" ∧
    NumericId.fromRoman str!"XIV/A" = some ⟨14, some (.latin 0)⟩ ∧ NumericId.fromRoman str!"IIII" = none := by
  decide +kernel

/-! ### C13 -/

/-- C13: each ordinal 0..100 parses back in all three cases of its letters. -/
theorem C13_ordinal_roundtrip (n : Fin 101) :
    ∃ s, toHungarian n.val = some s ∧ fromHungarian s = some n.val ∧
      fromHungarian (upperStr s) = some n.val ∧ fromHungarian (capitalizeStr s) = some n.val := by
  have key : ∀ n : Fin 101, ((toHungarian n.val).map fun s => decide (fromHungarian s = some n.val ∧
      fromHungarian (upperStr s) = some n.val ∧ fromHungarian (capitalizeStr s) = some n.val)) =
      some true := by decide +kernel
  have := key n
  cases hs : toHungarian n.val with
  | none => simp [hs] at this
  | some s => simp only [hs, Option.map_some, Option.some.injEq, decide_eq_true_eq] at this
              exact ⟨s, rfl, this⟩

/-- C13: there are exactly the numbers 0..100, and no key of the map occurs twice, so no word
denotes two numbers. -/
theorem C13_ordinal_table : hunTable.length = 101 ∧ (hunEntries.map Prod.fst).Nodup := by
  decide +kernel

theorem C13_ordinal_range (n : Nat) : toHungarian n = none ↔ 100 < n := by
  unfold toHungarian
  rw [List.getElem?_eq_none_iff, C13_ordinal_table.1]; omega

example : toHungarian 25 = some str!"huszonötödik" ∧ fromHungarian str!"HUSZONÖTÖDIK" = some 25 ∧
    fromHungarian str!"Első" = some 1 := by decide +kernel

/-! ### C57 -/

/-- C57: which identifiers can begin a list, by their text. -/
theorem C57_first (c : HunChar) (n : NumericId) (a : ArticleId) (p : ParagraphId) (s : PrefixedId) :
    (isFirst c = true ↔ c.display = str!"a") ∧ (isFirst n = true ↔ n = ⟨1, none⟩) ∧
    (isFirst a = true ↔ a = ⟨none, ⟨1, none⟩⟩ ∨ a = ⟨some 1, ⟨1, none⟩⟩) ∧
    (isFirst p = true ↔ p = ⟨some ⟨1, none⟩⟩) ∧ (isFirst s = true ↔ s.chr.display = str!"a") := by
  have h1 : ∀ c : HunChar, isFirst c = true ↔ c.display = str!"a" := by decide +kernel
  have h2 : ∀ n : NumericId, isFirst n = true ↔ n = ⟨1, none⟩ := by
    rintro ⟨n, s⟩
    cases s <;> simp [isFirst]
  refine ⟨h1 c, h2 n, ?_, ?_, h1 s.chr⟩
  · obtain ⟨b, n⟩ := a
    have := h2 n
    cases b with
    | none => simpa [isFirst, ArticleId.isFirst] using this
    | some b =>
      change ArticleId.isFirst _ = true ↔ _
      simp only [ArticleId.isFirst, Bool.and_eq_true, this]
      simp
  · obtain ⟨x⟩ := p
    cases x with
    | none => simp [isFirst]
    | some x => simpa [isFirst] using h2 x

/-- C57: a subpoint follows another exactly if both have the same prefix letter (or none) and its letter
follows the other's. -/
theorem C57_prefixed_next_iff (a b : PrefixedId) :
    isNextFrom b a = true ↔ a.pfx = b.pfx ∧ isNextFrom b.chr a.chr = true := by
  obtain ⟨p, c⟩ := a
  obtain ⟨q, d⟩ := b
  simp only [isNextFrom, PrefixedId.isNextFrom]
  cases p <;> cases q <;> simp
  rename_i p q
  intro _; exact eq_comm

/-- C57: a paragraph follows another exactly if both are numbered and its number follows the other's. -/
theorem C57_paragraph_next_iff (a b : ParagraphId) :
    isNextFrom b a = true ↔ ∃ x y, a.id = some x ∧ b.id = some y ∧ isNextFrom y x = true := by
  obtain ⟨p⟩ := a
  obtain ⟨q⟩ := b
  cases p <;> cases q <;> simp [isNextFrom]

/-- C57: an article follows another exactly if it is in the same book (or neither has one) and its number
follows the other's, or it is the first one of the next book (counting modulo 256). -/
theorem C57_article_next_iff (a b : ArticleId) :
    isNextFrom b a = true ↔
      (a.book = b.book ∧ isNextFrom b.identifier a.identifier = true) ∨
      ∃ x y, a.book = some x ∧ b.book = some y ∧ y.val = (x.val + 1) % 256 ∧ b.identifier = ⟨1, none⟩ := by
  obtain ⟨p, c⟩ := a
  obtain ⟨q, d⟩ := b
  simp only [isNextFrom, ArticleId.isNextFrom]
  cases p with
  | none => cases q <;> simp
  | some p =>
    cases q with
    | none => simp
    | some q =>
      have hf := (C57_first (.latin 0) d ⟨none, d⟩ ⟨none⟩ ⟨none, .latin 0⟩).2.1
      have hp := p.isLt
      have hq := q.isLt
      simp only
      by_cases hpq : q = p
      · subst hpq
        simp only [if_true, true_and]
        constructor
        · exact .inl
        · rintro (h | ⟨x, y, h1, h2, h3, _⟩)
          · exact h
          · simp at h1 h2; subst h1; subst h2; omega
      · rw [if_neg hpq]
        have hne : ¬ (some p = some q) := by simpa using fun h => hpq h.symm
        simp only [hne, false_and, false_or, Option.some.injEq]
        split
        · rename_i hw
          unfold wrappingSub at hw
          rw [hf]
          constructor
          · intro h; exact ⟨p, q, rfl, rfl, by omega, h⟩
          · rintro ⟨x, y, _, _, _, h⟩; exact h
        · rename_i hw
          unfold wrappingSub at hw
          simp only [Bool.false_eq_true, false_iff]
          rintro ⟨x, y, rfl, rfl, h, _⟩
          omega

example : isNextFrom (PrefixedId.mk (some (.latin 1)) (.latin 3)) ⟨some (.latin 1), .cs⟩ = true ∧
    isNextFrom (PrefixedId.mk (some (.latin 2)) (.latin 3)) ⟨some (.latin 1), .latin 2⟩ = false ∧
    isNextFrom (ArticleId.mk (some 3) ⟨1, none⟩) ⟨some 2, ⟨77, none⟩⟩ = true := by decide +kernel

end HunLaw.Props
