import Verif.Spec.MkAct
import Verif.Lemmas.Editor
import Verif.Lemmas.Lang
import Verif.Lemmas.Roman
import Verif.Lemmas.Identifiers

/-! Lemmas about the acts section of a gazette. -/

set_option autoImplicit false

namespace HunLaw
open Spec Re

theorem startsWith_prefix {s p : Str} : startsWith s p = true ↔ p <+: s := by
  rw [startsWith_iff]
  exact ⟨fun ⟨r, h⟩ => ⟨r, h.symm⟩, fun ⟨r, h⟩ => ⟨r, h.symm⟩⟩

theorem isStart_iff {l : Line} : lineIsActSectionStart l = true ↔ IsStart l := by
  simp [lineIsActSectionStart, IsStart, actsSectionStart]

theorem isStop_iff {l : Line} : lineIsActSectionEnd l = true ↔ IsStop l := by
  unfold lineIsActSectionEnd IsStop actSectionStops
  rw [Bool.and_eq_true, List.any_eq_true]
  simp only [startsWith_prefix]

/-- Search succeeds iff the language has a word somewhere in the text. -/
theorem search_isSome_iff {r : Re} (hn : noEos r = true) (s : Str) :
    (search r s).isSome = true ↔ ∃ a t b, s = a ++ t ++ b ∧ Lang r t := by
  have key : ∀ (s pre : Str), (searchFrom r pre s).isSome = true ↔ ∃ a t b, s = a ++ t ++ b ∧ Lang r t := by
    intro s
    induction s with
    | nil =>
      intro pre
      simp only [searchFrom]
      constructor
      · intro h
        obtain ⟨st, hst⟩ := Option.isSome_iff_exists.1 h
        obtain ⟨t, ht, _, h2⟩ := lang_sound (List.mem_of_mem_head? hst)
        exact ⟨[], t, st.rest, by simpa using h2, ht⟩
      · rintro ⟨a, t, b, h, ht⟩
        have h1 := List.append_eq_nil_iff.1 h.symm
        have h2 := List.append_eq_nil_iff.1 h1.1
        obtain ⟨rfl, rfl⟩ := h2
        obtain rfl := h1.2
        obtain ⟨c, hc⟩ := lang_complete hn ht pre [] []
        simp only [List.append_nil] at hc
        rw [List.isSome_head?]
        exact List.ne_nil_of_mem hc
    | cons c cs ih =>
      intro pre
      simp only [searchFrom]
      constructor
      · cases hh : (run r ⟨pre, c :: cs, []⟩).head? with
        | some st =>
          intro _
          obtain ⟨t, ht, _, h2⟩ := lang_sound (List.mem_of_mem_head? hh)
          exact ⟨[], t, st.rest, by simpa using h2, ht⟩
        | none =>
          intro h
          obtain ⟨a, t, b, h, ht⟩ := (ih (pre ++ [c])).1 h
          exact ⟨c :: a, t, b, by simp [h], ht⟩
      · rintro ⟨a, t, b, h, ht⟩
        cases hh : (run r ⟨pre, c :: cs, []⟩).head? with
        | some st => rfl
        | none =>
          simp only
          cases a with
          | nil =>
            exfalso
            simp only [List.nil_append] at h
            obtain ⟨cap, hc⟩ := lang_complete hn ht pre b []
            rw [← h] at hc
            rw [List.head?_eq_none_iff] at hh
            rw [hh] at hc
            simp at hc
          | cons x xs =>
            simp only [List.cons_append, List.cons.injEq] at h
            exact (ih (pre ++ [c])).2 ⟨xs, t, b, h.2, ht⟩
  exact key s []

theorem isDigit_mem {c : Char} : isDigit c = true ↔ c ∈ str!"0123456789" := by
  constructor
  · intro h
    rw [isDigit_iff] at h
    have : c = Char.ofNat c.toNat := (Char.ofNat_toNat c).symm
    obtain ⟨h1, h2⟩ := h
    rw [this]
    generalize c.toNat = n at *
    have : n = 48 ∨ n = 49 ∨ n = 50 ∨ n = 51 ∨ n = 52 ∨ n = 53 ∨ n = 54 ∨ n = 55 ∨ n = 56 ∨ n = 57 := by omega
    rcases this with rfl | rfl | rfl | rfl | rfl | rfl | rfl | rfl | rfl | rfl <;> decide
  · intro h
    simp only [List.mem_cons, List.not_mem_nil, or_false] at h
    rcases h with rfl | rfl | rfl | rfl | rfl | rfl | rfl | rfl | rfl | rfl <;> decide

theorem looseHeader_iff {l : Line} : looseHeader l = true ↔ LooksLikeTitle l := by
  unfold looseHeader LooksLikeTitle
  rw [Bool.and_eq_true, search_isSome_iff (by decide)]
  refine and_congr_right fun _ => ?_
  constructor
  · rintro ⟨a, t, b, h, ht⟩
    obtain ⟨d, _, rfl, hd, _, _, rfl, ⟨c, hc, rfl⟩, _, _, rfl, h1, n, _, rfl, hn, _, _, rfl, ⟨c', hc', rfl⟩, h2⟩ := ht
    rw [lang_many1] at hd hn
    simp only [seqs] at h2
    rw [lang_lit] at h1 h2
    subst h1 h2
    refine ⟨a, d, c, n, c', b, by simpa using h, hd.1, fun x hx => isDigit_mem.1 (hd.2 x hx), ?_, hn.1, ?_, ?_⟩
    · simpa [anyChar] using hc
    · intro x hx
      have := hn.2 x hx
      simp only [Bool.or_eq_true, beq_iff_eq] at this
      simp; tauto
    · simpa [anyChar] using hc'
  · rintro ⟨a, d, c, n, c', b, h, hd, hd2, hc, hn, hn2, hc'⟩
    refine ⟨a, d ++ ([c] ++ (str!" évi " ++ (n ++ ([c'] ++ str!" törvény")))), b, by simpa using h, ?_⟩
    refine ⟨d, _, rfl, lang_many1.2 ⟨hd, fun x hx => isDigit_mem.2 (hd2 x hx)⟩, _, _, rfl,
      ⟨c, by simpa [anyChar] using hc, rfl⟩, _, _, rfl, lang_lit.2 rfl, n, _, rfl,
      lang_many1.2 ⟨hn, ?_⟩, _, _, rfl, ⟨c', by simpa [anyChar] using hc', rfl⟩, lang_lit.2 rfl⟩
    intro x hx
    have := hn2 x hx
    simp at this
    simp only [Bool.or_eq_true, beq_iff_eq]; tauto


/-! ### titles -/

theorem peel {a b : Re} (hn : noCap a = true) {pre s : Str} {caps : List (Nat × Str × Str)} {m : MState}
    (h : (run (.seq a b) ⟨pre, s, caps⟩).head? = some m) :
    ∃ t s', Lang a t ∧ s = t ++ s' ∧ (run b ⟨pre ++ t, s', caps⟩).head? = some m := by
  obtain ⟨st, h1, h2⟩ := run_seq_mem h
  obtain ⟨t, ht, e1, e2⟩ := lang_sound h1
  have hc := caps_of_noCap hn h1
  refine ⟨t, st.rest, ht, e2, ?_⟩
  obtain ⟨p, r, c⟩ := st
  simp only at e1 hc
  subst e1 hc
  exact h2

theorem peel_cap {n : Nat} {a b : Re} (hn : noCap a = true) {pre s : Str} {caps : List (Nat × Str × Str)}
    {m : MState} (h : (run (.seq (.cap n a) b) ⟨pre, s, caps⟩).head? = some m) :
    ∃ t s', Lang a t ∧ s = t ++ s' ∧ (run b ⟨pre ++ t, s', (n, pre, t) :: caps⟩).head? = some m := by
  obtain ⟨st, h1, h2⟩ := run_seq_mem h
  simp only [run, List.mem_map] at h1
  obtain ⟨y, hy, rfl⟩ := h1
  obtain ⟨t, ht, e1, e2⟩ := lang_sound hy
  have hc := caps_of_noCap hn hy
  refine ⟨t, y.rest, ht, e2, ?_⟩
  simp only at e1 hc
  rw [e1, hc] at h2
  simpa using h2

theorem peel_end {a : Re} (hn : noCap a = true) {pre s : Str} {caps : List (Nat × Str × Str)} {m : MState}
    (h : (run a ⟨pre, s, caps⟩).head? = some m) : ∃ t, Lang a t ∧ s = t ++ m.rest ∧ m.caps = caps := by
  have h1 := List.mem_of_mem_head? h
  obtain ⟨t, ht, _, e2⟩ := lang_sound h1
  exact ⟨t, ht, e2, caps_of_noCap hn h1⟩

/-- Years of the pattern. -/
theorem year_parse : ∀ a ∈ str!"12", ∀ b ∈ str!"09", ∀ c ∈ str!"0123456789", ∀ d ∈ str!"0123456789",
    (parseI16 [a, b, c, d]).map (fun y => decInt y.val) = some [a, b, c, d] := by decide +kernel

theorem romanTo_from {n : Nat} {s : Str} (h : romanTo n = some s) : romanFrom s = some n := by
  by_cases hn : 1 ≤ n ∧ n ≤ 3999
  · obtain ⟨t, h1, h2, _⟩ := roman_roundtrip hn.1 hn.2
    rw [h] at h1
    simp only [Option.some.injEq] at h1
    subst h1; exact h2
  · unfold romanTo at h
    rw [if_neg hn] at h
    simp at h

theorem romanFrom_to {n : Nat} {s : Str} (h : romanFrom s = some n) : romanTo n = some s := by
  unfold romanFrom at h
  split at h
  · split at h
    · rename_i h'
      simp only [Option.some.injEq] at h
      subst h; exact h'
    · simp at h
  · simp at h

theorem romanTo_range {n : Nat} {s : Str} (h : romanTo n = some s) : 1 ≤ n ∧ n ≤ 3999 := by
  unfold romanTo at h
  split at h
  · assumption
  · simp at h

/-- What the title pattern matches. -/
theorem header_match {s : Str} {m : MState} (h : matchAt Extractor.headerRe s = some m) :
    ∃ a b c d x n y after, s = [a, b, c, d] ++ [x] ++ str!" évi " ++ n ++ [y] ++ str!" törvény" ++ after ∧
      a ∈ str!"12" ∧ b ∈ str!"09" ∧ c ∈ str!"0123456789" ∧ d ∈ str!"0123456789" ∧ x ≠ '\n' ∧ y ≠ '\n' ∧
      n ≠ [] ∧ (∀ e ∈ n, e ∈ str!"IVXLC") ∧ (m.group 1).map Prod.snd = some [a, b, c, d] ∧
      (m.group 2).map Prod.snd = some n := by
  unfold matchAt Extractor.headerRe at h
  simp only [seqs] at h
  obtain ⟨t1, s1, l1, rfl, h1⟩ := peel_cap (by decide) h
  obtain ⟨t2, s2, l2, rfl, h2⟩ := peel (by decide) h1
  obtain ⟨t3, s3, l3, rfl, h3⟩ := peel (lit_noCap _) h2
  obtain ⟨t4, s4, l4, rfl, h4⟩ := peel_cap (by decide) h3
  obtain ⟨t5, s5, l5, rfl, h5⟩ := peel (by decide) h4
  obtain ⟨t6, l6, rfl, hc⟩ := peel_end (lit_noCap _) h5
  rw [lang_lit] at l3 l6
  subst l3 l6
  rw [lang_many1] at l4
  obtain ⟨_, _, rfl, ⟨a, ha, rfl⟩, _, _, rfl, ⟨b, hb, rfl⟩, _, _, rfl, ⟨c, hcc, rfl⟩, d, hd, rfl⟩ := l1
  obtain ⟨x, hx, rfl⟩ := l2
  obtain ⟨y, hy, rfl⟩ := l5
  refine ⟨a, b, c, d, x, t4, y, m.rest, by simp, by simpa using ha, by simpa using hb, isDigit_mem.1 hcc,
    isDigit_mem.1 hd, by simpa [anyChar] using hx, by simpa [anyChar] using hy, l4.1, ?_, ?_, ?_⟩
  · intro e he
    have := l4.2 e he
    simp only [Bool.or_eq_true, beq_iff_eq] at this
    simp; tauto
  · unfold MState.group
    rw [hc]
    simp
  · unfold MState.group
    rw [hc]
    simp

theorem numeral_unique {n n' rest rest' : Str} {y y' : Char} (hn : ' ' ∉ n) (hn' : ' ' ∉ n')
    (h : n ++ y :: str!" törvény" ++ rest = n' ++ y' :: str!" törvény" ++ rest') : n = n' := by
  induction n generalizing n' with
  | nil =>
    match n' with
    | [] => rfl
    | [a] =>
      exfalso
      simp at h
    | a :: b :: cs =>
      exfalso
      simp only [List.nil_append, List.cons_append, List.cons.injEq] at h
      exact hn' (by simp [← h.2.1])
  | cons c cs ih =>
    match n' with
    | [] =>
      exfalso
      simp only [List.nil_append, List.cons_append, List.cons.injEq] at h
      match cs with
      | [] => simp at h
      | b :: bs =>
        simp only [List.cons_append, List.cons.injEq] at h
        exact hn (by simp [h.2.1])
    | a :: as =>
      simp only [List.cons_append, List.cons.injEq] at h
      rw [h.1, ih (n' := as) (fun hc => hn (by simp [hc])) (fun hc => hn' (by simp [hc])) (by simpa using h.2)]

theorem header_isSome {a b c d x y : Char} {n after : Str} (ha : a ∈ str!"12") (hb : b ∈ str!"09")
    (hc : c ∈ str!"0123456789") (hd : d ∈ str!"0123456789") (hx : x ≠ '\n') (hy : y ≠ '\n') (hn : n ≠ [])
    (hnn : ∀ e ∈ n, e ∈ str!"IVXLC") :
    ∃ m, matchAt Extractor.headerRe
      ([a, b, c, d] ++ [x] ++ str!" évi " ++ n ++ [y] ++ str!" törvény" ++ after) = some m := by
  have hl : Lang Extractor.headerRe
      ([a, b, c, d] ++ ([x] ++ (str!" évi " ++ (n ++ ([y] ++ str!" törvény"))))) := by
    refine ⟨[a, b, c, d], _, rfl, ?_, [x], _, rfl, ⟨x, by simpa [anyChar] using hx, rfl⟩, _, _, rfl,
      lang_lit.2 rfl, n, _, rfl, lang_many1.2 ⟨hn, ?_⟩, [y], _, rfl, ⟨y, by simpa [anyChar] using hy, rfl⟩,
      lang_lit.2 rfl⟩
    · exact ⟨[a], [b, c, d], rfl, ⟨a, by simpa using ha, rfl⟩, [b], [c, d], rfl, ⟨b, by simpa using hb, rfl⟩,
        [c], [d], rfl, ⟨c, isDigit_mem.2 hc, rfl⟩, d, isDigit_mem.2 hd, rfl⟩
    · intro e he
      have := hnn e he
      simp at this
      simp only [Bool.or_eq_true, beq_iff_eq]; tauto
  obtain ⟨caps, hm⟩ := lang_complete (by decide) hl [] after []
  unfold matchAt
  have hne := List.ne_nil_of_mem hm
  simp only [List.append_assoc] at hne ⊢
  cases hr : run Extractor.headerRe
      ⟨[], [a, b, c, d] ++ ([x] ++ (str!" évi " ++ (n ++ ([y] ++ (str!" törvény" ++ after))))), []⟩ with
  | nil => exact absurd hr hne
  | cons z zs => exact ⟨z, rfl⟩

theorem headerId_iff (l : Line) (id : ActId) : Extractor.headerId l = some id ↔ TitleOf l id := by
  constructor
  · intro h
    unfold Extractor.headerId at h
    cases hm : matchAt Extractor.headerRe l.content with
    | none => rw [hm] at h; simp at h
    | some m =>
      rw [hm] at h
      obtain ⟨a, b, c, d, x, n, y, after, e, ha, hb, hc, hd, hx, hy, hn, hnn, g1, g2⟩ := header_match hm
      cases hg1 : m.group 1 with
      | none => rw [hg1] at g1; simp at g1
      | some p1 =>
      cases hg2 : m.group 2 with
      | none => rw [hg2] at g2; simp at g2
      | some p2 =>
      obtain ⟨b1, t1⟩ := p1
      obtain ⟨b2, t2⟩ := p2
      rw [hg1] at g1
      rw [hg2] at g2
      simp only [Option.map_some, Option.some.injEq] at g1 g2
      subst g1 g2
      simp only [Option.bind_eq_bind, Option.bind_some, hg1, hg2] at h
      have hyp := year_parse a ha b hb c hc d hd
      cases hy2 : parseI16 [a, b, c, d] with
      | none => rw [hy2] at hyp; simp at hyp
      | some yv =>
        rw [hy2] at hyp h
        simp only [Option.map_some, Option.some.injEq] at hyp
        cases hr : romanFrom t2 with
        | none => rw [hr] at h; simp at h
        | some v =>
          rw [hr] at h
          simp only [Option.bind_some] at h
          split at h
          · simp only [Option.some.injEq] at h
            subst h
            refine ⟨a, b, c, d, x, t2, y, after, e, ha, hb, hc, hd, hx, hy, hnn, hyp, by simp, ?_⟩
            simpa using romanFrom_to hr
          · simp at h
  · rintro ⟨a, b, c, d, x, n, y, after, e, ha, hb, hc, hd, hx, hy, hnn, hyear, hpos, hnum⟩
    have hv := romanTo_range hnum
    have hn : n ≠ [] := by
      obtain ⟨t, h1, _, _, h4⟩ := roman_roundtrip hv.1 hv.2
      rw [hnum] at h1
      simp only [Option.some.injEq] at h1
      subst h1; exact h4
    obtain ⟨m, hm⟩ := header_isSome (after := after) ha hb hc hd hx hy hn hnn
    rw [← e] at hm
    obtain ⟨a', b', c', d', x', n', y', after', e', _, _, _, _, _, _, _, hnn', g1, g2⟩ := header_match hm
    rw [e'] at e
    simp only [List.cons_append, List.nil_append, List.cons.injEq, List.append_assoc] at e
    obtain ⟨rfl, rfl, rfl, rfl, rfl, -, -, -, -, -, e⟩ := e
    have hsp : ∀ n : Str, (∀ e ∈ n, e ∈ str!"IVXLC") → ' ' ∉ n := by
      intro n hn hs
      have := hn _ hs
      revert this; decide
    have hnn2 : n' = n := numeral_unique (hsp n' hnn') (hsp n hnn) (by simpa using e)
    subst hnn2
    unfold Extractor.headerId
    rw [hm]
    cases hg1 : m.group 1 with
    | none => rw [hg1] at g1; simp at g1
    | some p1 =>
    cases hg2 : m.group 2 with
    | none => rw [hg2] at g2; simp at g2
    | some p2 =>
    obtain ⟨b1, t1⟩ := p1
    obtain ⟨b2, t2⟩ := p2
    rw [hg1] at g1
    rw [hg2] at g2
    simp only [Option.map_some, Option.some.injEq] at g1 g2
    subst g1 g2
    have hyp := year_parse a' ha b' hb c' hc d' hd
    have hy3 : parseI16 [a', b', c', d'] = some id.year := by
      cases hy2 : parseI16 [a', b', c', d'] with
      | none => rw [hy2] at hyp; simp at hyp
      | some yv =>
        rw [hy2] at hyp
        simp only [Option.map_some, Option.some.injEq] at hyp
        have h1 := parseI16_decInt yv
        rw [hyp, ← hyear, parseI16_decInt] at h1
        exact h1.symm
    simp only [Option.bind_eq_bind, Option.bind_some, hg1, hg2, hy3, romanTo_from hnum]
    have hnat : ((id.number.val.toNat : Nat) : Int) = id.number.val := Int.toNat_of_nonneg hpos
    rw [dif_pos (by rw [hnat]; exact id.number.property)]
    congr


/-! ### the acts section -/

theorem inActs_nil : ¬ InActs [] := by
  rintro (⟨a, m, b, h, _⟩ | ⟨_, l, hl, _⟩)
  · simp at h
  · simp at hl

theorem inActs_start {before : List Line} {l : Line} (h : IsStart l) : InActs (before ++ [l]) :=
  .inl ⟨before, l, [], rfl, h, by simp⟩

theorem inActs_stop {before : List Line} {l : Line} (h : IsStop l) (h2 : ¬ IsStart l) :
    ¬ InActs (before ++ [l]) := by
  rintro (⟨a, m, b, e, hm, hb⟩ | ⟨hl, _⟩)
  · rcases List.eq_nil_or_concat b with rfl | ⟨b', x, rfl⟩
    · have := List.append_inj' e rfl
      simp only [List.cons.injEq, and_true] at this
      rw [this.2] at h2
      exact h2 hm
    · have e2 : before ++ [l] = (a ++ m :: b') ++ [x] := by simpa using e
      have := List.append_inj' e2 rfl
      simp only [List.cons.injEq, and_true] at this
      exact (hb x (by simp)).2 (this.2 ▸ h)
  · exact (hl l (by simp)).2 h

theorem inActs_other {before : List Line} {l : Line} (h : ¬ IsStart l) (h2 : ¬ IsStop l) :
    InActs (before ++ [l]) ↔
      InActs before ∨ ((∀ x ∈ before, ¬ IsStart x ∧ ¬ IsStop x) ∧ LooksLikeTitle l) := by
  constructor
  · rintro (⟨a, m, b, e, hm, hb⟩ | ⟨hl, t, ht, ht2⟩)
    · rcases List.eq_nil_or_concat b with rfl | ⟨b', x, rfl⟩
      · have := List.append_inj' e rfl
        simp only [List.cons.injEq, and_true] at this
        rw [this.2] at h
        exact absurd hm h
      · have e2 : before ++ [l] = (a ++ m :: b') ++ [x] := by simpa using e
        have := List.append_inj' e2 rfl
        exact .inl (.inl ⟨a, m, b', this.1, hm, fun y hy => hb y (by simp [hy])⟩)
    · simp only [List.mem_append, List.mem_singleton] at ht
      rcases ht with ht | rfl
      · exact .inl (.inr ⟨fun x hx => hl x (by simp [hx]), t, ht, ht2⟩)
      · exact .inr ⟨fun x hx => hl x (by simp [hx]), ht2⟩
  · rintro ((⟨a, m, b, rfl, hm, hb⟩ | ⟨hl, t, ht, ht2⟩) | ⟨hl, ht⟩)
    · refine .inl ⟨a, m, b ++ [l], by simp, hm, ?_⟩
      intro y hy
      simp only [List.mem_append, List.mem_singleton] at hy
      rcases hy with hy | rfl
      · exact hb y hy
      · exact ⟨h, h2⟩
    · refine .inr ⟨?_, t, by simp [ht], ht2⟩
      intro y hy
      simp only [List.mem_append, List.mem_singleton] at hy
      rcases hy with hy | rfl
      · exact hl y hy
      · exact ⟨h, h2⟩
    · refine .inr ⟨?_, l, by simp, ht⟩
      intro y hy
      simp only [List.mem_append, List.mem_singleton] at hy
      rcases hy with hy | rfl
      · exact hl y hy
      · exact ⟨h, h2⟩

/-- The flags of the loop say where we are. -/
structure Tracks (s : SectionState) (before : List Line) : Prop where
  extracting : s.extracting = true ↔ InActs before
  seen : s.seenHeader = false ↔ ∀ x ∈ before, ¬ IsStart x ∧ ¬ IsStop x

theorem tracks_feed {s : SectionState} {before : List Line} (h : Tracks s before) (l : Line) :
    Tracks (s.feed l) (before ++ [l]) ∧
    (s.feed l).extractor = (actsLinesOfPage before [l]).foldl Extractor.feedLine s.extractor := by
  unfold SectionState.feed
  simp only [actsLinesOfPage, List.append_nil]
  by_cases h1 : lineIsActSectionStart l = true
  · have h1' := isStart_iff.1 h1
    rw [if_pos h1, if_neg (fun hc => hc.1 h1')]
    refine ⟨⟨by simp [inActs_start h1'], ?_⟩, rfl⟩
    constructor
    · simp
    · intro hx
      exact absurd h1' (hx l (by simp)).1
  · have h1' : ¬ IsStart l := fun hc => h1 (isStart_iff.2 hc)
    rw [if_neg h1]
    by_cases h2 : lineIsActSectionEnd l = true
    · have h2' := isStop_iff.1 h2
      rw [if_pos h2, if_neg (fun hc => hc.2.1 h2')]
      refine ⟨⟨by simp [inActs_stop h2' h1'], ?_⟩, rfl⟩
      constructor
      · simp
      · intro hx
        exact absurd h2' (hx l (by simp)).2
    · have h2' : ¬ IsStop l := fun hc => h2 (isStop_iff.2 hc)
      rw [if_neg h2]
      have hseen : (s.seenHeader = false ↔ ∀ x ∈ before ++ [l], ¬ IsStart x ∧ ¬ IsStop x) := by
        rw [h.seen]
        constructor
        · intro hx y hy
          simp only [List.mem_append, List.mem_singleton] at hy
          rcases hy with hy | rfl
          · exact hx y hy
          · exact ⟨h1', h2'⟩
        · exact fun hx y hy => hx y (by simp [hy])
      have he : (s.extracting || (!s.seenHeader && looseHeader l)) = true ↔ InActs (before ++ [l]) := by
        rw [inActs_other h1' h2', ← h.extracting, ← h.seen, ← looseHeader_iff]
        simp
      by_cases h3 : (s.extracting || (!s.seenHeader && looseHeader l)) = true
      · rw [if_pos h3, if_pos ⟨h1', h2', he.1 h3⟩]
        exact ⟨⟨he, hseen⟩, rfl⟩
      · rw [if_neg h3, if_neg (fun hc => h3 (he.2 hc.2.2))]
        exact ⟨⟨he, hseen⟩, rfl⟩

theorem tracks_feed_all (p : Page) {s : SectionState} {before : List Line} (h : Tracks s before) :
    Tracks (p.foldl SectionState.feed s) (before ++ p) ∧
    (p.foldl SectionState.feed s).extractor =
      (actsLinesOfPage before p).foldl Extractor.feedLine s.extractor := by
  induction p generalizing s before with
  | nil => simpa [actsLinesOfPage] using h
  | cons l ls ih =>
    obtain ⟨h1, h2⟩ := tracks_feed h l
    obtain ⟨h3, h4⟩ := ih h1
    simp only [List.foldl_cons]
    refine ⟨by simpa using h3, ?_⟩
    rw [h4, h2]
    simp only [actsLinesOfPage, List.append_nil, List.foldl_append]

open Classical in
theorem tracks_pages (ps : List Page) {s : SectionState} {before : List Line} (h : Tracks s before) :
    (ps.foldl SectionState.feedPage s).extractor =
      (actsLines before ps).foldl Extractor.feedLine s.extractor := by
  induction ps generalizing s before with
  | nil => simp [actsLines]
  | cons p ps ih =>
    obtain ⟨h1, h2⟩ := tracks_feed_all p h
    have h3 : Tracks (s.feedPage p) (before ++ p) := by
      unfold SectionState.feedPage
      simp only
      split
      · exact ⟨h1.extracting, h1.seen⟩
      · exact h1
    simp only [List.foldl_cons]
    rw [ih h3]
    have h4 : (s.feedPage p).extractor = (actsLinesOfPage before p ++
        (if InActs (before ++ p) then [Line.emptyLine] else [])).foldl Extractor.feedLine s.extractor := by
      unfold SectionState.feedPage
      rw [List.foldl_append, ← h2]
      by_cases h5 : (p.foldl SectionState.feed s).extracting = true
      · rw [if_pos (h1.extracting.1 h5)]
        simp [h5]
      · rw [if_neg (fun hc => h5 (h1.extracting.2 hc))]
        simp [h5]
    rw [h4, actsLines, ← List.foldl_append]

/-! ### the extractor -/

/-- What the extractor has read, region by region. -/
def ExtInv (date : Date) (fed : List Line) (e : Extractor) : Prop :=
  e.date = date ∧ ∃ regions tail, fed = regions.flatMap Region.lines ++ tail ∧
    List.Forall₂ (fun r (a : ActRawText) => IsAct date r a.identifier a.subject a.publicationDate a.body)
      regions e.result ∧
    match e.state with
    | .waitingForHeaderNewline => e.subject = [] ∧ e.body = []
    | .waitingForHeader => e.subject = [] ∧ e.body = [] ∧ ∃ sk b, tail = sk ++ [b] ∧ b.isEmpty = true
    | .parsingActSubject => e.body = [] ∧ ∃ sk b t su, tail = sk ++ [b, t] ++ su ∧ b.isEmpty = true ∧
        TitleOf t e.id ∧ Line.join su = e.subject ∧
        ∀ p, p <+: su → (Line.join p).getLast? ≠ some '*'
    | .bodyBeforeAsteriskFooter => ∃ sk b t su, tail = sk ++ [b, t] ++ su ++ e.body ∧ b.isEmpty = true ∧
        TitleOf t e.id ∧ Line.join su = e.subject ++ ['*'] ∧
        ∀ p, p <+: su → p ≠ su → (Line.join p).getLast? ≠ some '*'
    | .bodyAfterAsteriskFooter => ∃ sk b t su bo, tail = sk ++ [b, t] ++ su ++ bo ∧ b.isEmpty = true ∧
        TitleOf t e.id ∧ Line.join su = e.subject ++ ['*'] ∧
        (∀ p, p <+: su → p ≠ su → (Line.join p).getLast? ≠ some '*') ∧ FooterRemoved bo e.body

theorem footer_snoc {full kept : List Line} (h : FooterRemoved full kept) (l : Line) :
    FooterRemoved (full ++ [l]) (kept ++ [l]) := by
  rcases h with rfl | ⟨x, b, s, b', y, rfl, rfl, h⟩
  · exact .inl rfl
  · exact .inr ⟨x, b, s, b', y ++ [l], by simp, by simp, h⟩

theorem join_snoc (ls : List Line) (l : Line) : Line.join (ls ++ [l]) = l.appendTo (Line.join ls) := by
  simp [Line.join]

theorem last3 {α : Type} {d : α} (xs : List α) (h : 3 ≤ xs.length) :
    ∃ b n s, xs = xs.take (xs.length - 3) ++ [b, n, s] ∧ xs.getD (xs.length - 3) d = b ∧ xs.getLast? = some s := by
  have h1 : (xs.drop (xs.length - 3)).length = 3 := by simp; omega
  match h2 : xs.drop (xs.length - 3), h1 with
  | [b, n, s], _ =>
    have h3 : xs = xs.take (xs.length - 3) ++ [b, n, s] := by rw [← h2]; exact (List.take_append_drop _ _).symm
    refine ⟨b, n, s, h3, ?_, ?_⟩
    · rw [List.getD_eq_getElem?_getD]
      have : xs[xs.length - 3]? = (xs.drop (xs.length - 3))[0]? := by simp
      rw [this, h2]; rfl
    · rw [h3]; simp

theorem after_step {date : Date} {fed : List Line} {e : Extractor} {l : Line} {regions : List Region}
    {sk su bo : List Line} {b t : Line} (hd : e.date = date)
    (hf : fed = regions.flatMap Region.lines ++ (sk ++ [b, t] ++ su ++ bo))
    (hr : List.Forall₂ (fun r (a : ActRawText) => IsAct date r a.identifier a.subject a.publicationDate a.body)
      regions e.result)
    (hb : b.isEmpty = true) (ht : TitleOf t e.id) (hj : Line.join su = e.subject ++ ['*'])
    (hp : ∀ p, p <+: su → p ≠ su → (Line.join p).getLast? ≠ some '*')
    (hk : FooterRemoved bo e.body) :
    ((e.parseBodyAfterFooter l).state = .waitingForHeaderNewline ∧
      ExtInv date (fed ++ [l]) (e.parseBodyAfterFooter l)) ∨
    e.parseBodyAfterFooter l = { e with body := e.body ++ [l], state := .bodyAfterAsteriskFooter } := by
  unfold Extractor.parseBodyAfterFooter
  simp only
  split
  · rename_i hc
    left
    refine ⟨rfl, hd, regions ++ [⟨sk, b, t, su, bo ++ [l]⟩], [], ?_, ?_, rfl, rfl⟩
    · rw [hf]; simp [Region.lines]
    · refine List.rel_append hr (.cons ?_ .nil)
      simp only [Bool.and_eq_true, decide_eq_true_eq] at hc
      obtain ⟨⟨h4, hbl⟩, hsig⟩ := hc
      obtain ⟨b1, n1, s1, e1, e2, e3⟩ := last3 (d := l) (e.body ++ [l]) (by omega)
      rw [e2] at hbl
      have e4 : s1 = l := by simpa using e3.symm
      subst e4
      refine ⟨hb, ht, hj, hp, hd, e.body ++ [s1], b1, n1, s1, footer_snoc hk s1, e1, ?_, hbl, ?_⟩
      · rw [List.length_take]; omega
      · simpa [Extractor.signatures, IsSignature] using hsig
  · exact .inr rfl

theorem last2 {α : Type} {d : α} (xs : List α) (h : 2 ≤ xs.length) :
    ∃ x b s, xs = x ++ [b, s] ∧ x.length = xs.length - 2 ∧ xs.getD (xs.length - 2) d = b ∧
      xs.getD (xs.length - 1) d = s := by
  have h1 : (xs.drop (xs.length - 2)).length = 2 := by simp; omega
  match h2 : xs.drop (xs.length - 2), h1 with
  | [b, s], _ =>
    have h3 : xs = xs.take (xs.length - 2) ++ [b, s] := by rw [← h2]; exact (List.take_append_drop _ _).symm
    refine ⟨_, b, s, h3, by rw [List.length_take]; omega, ?_, ?_⟩
    · rw [List.getD_eq_getElem?_getD]
      have : xs[xs.length - 2]? = (xs.drop (xs.length - 2))[0]? := by simp
      rw [this, h2]; rfl
    · rw [List.getD_eq_getElem?_getD]
      have : xs[xs.length - 1]? = (xs.drop (xs.length - 2))[1]? := by
        rw [List.getElem?_drop]; congr 1; omega
      rw [this, h2]; rfl

theorem prefix_snoc {α : Type} {p xs : List α} {x : α} (h : p <+: xs ++ [x]) : p = xs ++ [x] ∨ p <+: xs := by
  rcases List.prefix_concat_iff.1 (by simpa using h) with h | h
  · exact .inl (by simpa using h)
  · exact .inr h

theorem ext_step {date : Date} {fed : List Line} {e : Extractor} (h : ExtInv date fed e) (l : Line) :
    ExtInv date (fed ++ [l]) (e.feedLine l) := by
  obtain ⟨hd, regions, tail, hf, hr, hs⟩ := h
  unfold Extractor.feedLine
  cases hst : e.state with
  | waitingForHeaderNewline =>
    rw [hst] at hs
    simp only at hs ⊢
    unfold Extractor.waitForHeaderNewline
    by_cases hl : l.isEmpty = true
    · rw [if_pos hl]
      exact ⟨hd, regions, tail ++ [l], by rw [hf]; simp, hr, hs.1, hs.2, tail, l, rfl, hl⟩
    · rw [if_neg hl]
      exact ⟨hd, regions, tail ++ [l], by rw [hf]; simp, hr, hs⟩
  | waitingForHeader =>
    rw [hst] at hs
    simp only at hs ⊢
    unfold Extractor.waitForHeader
    obtain ⟨h1, h2, sk, b, rfl, hb⟩ := hs
    cases hid : Extractor.headerId l with
    | none => exact ⟨hd, regions, sk ++ [b] ++ [l], by rw [hf]; simp, hr, h1, h2⟩
    | some id =>
      refine ⟨hd, regions, sk ++ [b] ++ [l], by rw [hf]; simp, hr, h2, sk, b, l, [], by simp, hb,
        (headerId_iff l id).1 hid, by simp [h1, Line.join], ?_⟩
      intro p hp
      rw [List.prefix_nil.1 hp]
      simp [Line.join]
  | parsingActSubject =>
    rw [hst] at hs
    simp only at hs ⊢
    obtain ⟨h1, sk, b, t, su, rfl, hb, ht, hj, hp⟩ := hs
    unfold Extractor.parseActSubject
    simp only
    rw [← hj, ← join_snoc]
    split
    · rename_i hl
      simp only [beq_iff_eq] at hl
      refine ⟨hd, regions, _, ?_, hr, sk, b, t, su ++ [l], rfl, hb, ht, ?_, ?_⟩
      · simp only; rw [hf, h1]; simp
      · simp only
        rcases List.eq_nil_or_concat (Line.join (su ++ [l])) with h3 | ⟨x, c, h3⟩
        · rw [h3] at hl; simp at hl
        · rw [h3] at hl ⊢
          simp only [List.concat_eq_append, List.getLast?_concat, Option.some.injEq] at hl
          simp [hl]
      · intro p hpp hne
        rcases prefix_snoc hpp with rfl | h3
        · exact absurd rfl hne
        · exact hp p h3
    · rename_i hl
      simp only [beq_iff_eq] at hl
      refine ⟨hd, regions, _, ?_, hr, h1, sk, b, t, su ++ [l], rfl, hb, ht, rfl, ?_⟩
      · rw [hf]; simp
      · intro p hpp
        rcases prefix_snoc hpp with rfl | h3
        · exact hl
        · exact hp p h3
  | bodyBeforeAsteriskFooter =>
    rw [hst] at hs
    simp only at hs ⊢
    obtain ⟨sk, b, t, su, rfl, hb, ht, hj, hp⟩ := hs
    unfold Extractor.parseBodyBeforeFooter
    simp only
    split
    · rename_i hc
      simp only [Bool.and_eq_true, decide_eq_true_eq] at hc
      obtain ⟨⟨⟨h1, h2⟩, h3⟩, h4⟩ := hc
      obtain ⟨x, b1, s1, e1, e2, e3, e4⟩ := last2 (d := l) e.body (by omega)
      rw [e3] at h3
      rw [e4] at h4
      refine ⟨hd, regions, _, ?_, hr, sk, b, t, su, x ++ [b1, s1, l], rfl, hb, ht, hj, hp,
        .inr ⟨x, b1, s1, l, [], by simp, ?_, ?_, h3, ?_, h1⟩⟩
      · rw [hf, e1]; simp
      · simp [e1]
      · intro hx
        rw [hx] at e2
        simp at e2; omega
      · obtain ⟨r, hr⟩ := startsWith_iff.1 h4
        rw [hr]; rfl
    · rcases after_step (l := l) hd hf hr hb ht hj hp (.inl rfl) with ⟨h1, h2⟩ | h1
      · rw [h1]
        exact h2
      · rw [h1]
        exact ⟨hd, regions, sk ++ [b, t] ++ su ++ (e.body ++ [l]), by rw [hf]; simp, hr, sk, b, t, su, rfl,
          hb, ht, hj, hp⟩
  | bodyAfterAsteriskFooter =>
    rw [hst] at hs
    simp only at hs ⊢
    obtain ⟨sk, b, t, su, bo, rfl, hb, ht, hj, hp, hk⟩ := hs
    rcases after_step (l := l) hd hf hr hb ht hj hp hk with ⟨h1, h2⟩ | h1
    · exact h2
    · rw [h1]
      exact ⟨hd, regions, _, by rw [hf]; simp, hr, sk, b, t, su, bo ++ [l], rfl, hb, ht, hj, hp, footer_snoc hk l⟩

theorem ext_all {date : Date} (ls : List Line) {fed : List Line} {e : Extractor} (h : ExtInv date fed e) :
    ExtInv date (fed ++ ls) (ls.foldl Extractor.feedLine e) := by
  induction ls generalizing fed e with
  | nil => simpa using h
  | cons l ls ih =>
    have := ih (ext_step h l)
    simpa using this

theorem ext_new (date : Date) : ExtInv date [] (Extractor.new date) :=
  ⟨rfl, [], [], rfl, .nil, rfl, rfl⟩

end HunLaw
