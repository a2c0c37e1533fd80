import Verif.Lemmas.Quote
import Verif.Spec.Division
import Verif.Lemmas.MkAct

/-! Lemmas on the parser of acts. -/

set_option autoImplicit false

namespace HunLaw

open HunLaw.Spec SAEParser Re

theorem run_mem_head {r : Re} {st m : MState} (h : m ∈ run r st) : ∃ m', (run r st).head? = some m' := by
  cases hr : run r st with
  | nil => rw [hr] at h; simp at h
  | cons a as => exact ⟨a, rfl⟩

/-- Patterns `^(.*)T$`. -/
theorem suffix_match {T : Re} (hc : noCap T = true) {s : Str} {m : MState}
    (h : matchAt (seqs [.cap 1 (.many anyChar), T, .eos]) s = some m) :
    ∃ a b, s = a ++ b ∧ Lang T b ∧ '\n' ∉ a ∧ m.group 1 = some ([], a) := by
  unfold matchAt at h
  simp only [seqs] at h
  obtain ⟨a, s1, ha, e1, h⟩ := peel_cap rfl h
  obtain ⟨b, s2, hb, e2, h⟩ := peel hc h
  simp only [run] at h
  split at h
  · rename_i h2
    subst h2
    simp only [List.head?_cons, Option.some.injEq] at h
    subst h
    refine ⟨a, b, by simp [e1, e2], hb, ?_, rfl⟩
    intro hn
    have := ha _ hn
    simp [anyChar] at this
  · simp at h

theorem suffix_iff {T : Re} (hc : noCap T = true) (hn : noEos T = true) {k : Nat}
    (hk : ∀ b, Lang T b → b.length = k) {s a : Str} :
    (∃ m, matchAt (seqs [.cap 1 (.many anyChar), T, .eos]) s = some m ∧ m.group 1 = some ([], a)) ↔
      ∃ b, s = a ++ b ∧ Lang T b ∧ '\n' ∉ a := by
  constructor
  · rintro ⟨m, hm, hg⟩
    obtain ⟨a', b, h1, h2, h3, h4⟩ := suffix_match hc hm
    rw [hg] at h4
    simp only [Option.some.injEq, Prod.mk.injEq, true_and] at h4
    subst h4
    exact ⟨b, h1, h2, h3⟩
  · rintro ⟨b, rfl, hb, ha⟩
    have hex : ∃ m, matchAt (seqs [.cap 1 (.many anyChar), T, .eos]) (a ++ b) = some m := by
      unfold matchAt
      simp only [seqs]
      obtain ⟨caps, hm⟩ := lang_complete hn hb a [] [(1, [], a)]
      apply run_mem_head (m := ⟨a ++ b, [], caps⟩)
      simp only [run, List.mem_flatMap]
      refine ⟨⟨a, b, [(1, [], a)]⟩, ?_, ⟨a ++ b, [], caps⟩, by simpa using hm, by simp⟩
      simp only [List.mem_map]
      refine ⟨⟨a, b, []⟩, ⟨(a, b), ?_, by simp⟩, by simp⟩
      rw [mem_manySplits_iff]
      refine ⟨rfl, ?_⟩
      intro c hc
      simp only [anyChar, bne_iff_ne, ne_eq]
      rintro rfl; exact ha hc
    obtain ⟨m, hm⟩ := hex
    obtain ⟨a', b', h1, h2, h3, h4⟩ := suffix_match hc hm
    have hl : a.length = a'.length := by
      have := congrArg List.length h1
      simp only [List.length_append, hk b hb, hk b' h2] at this
      omega
    obtain ⟨rfl, rfl⟩ := List.append_inj h1 hl
    exact ⟨m, hm, h4⟩

theorem toNat_ofNat_small {n : Nat} (h : n < 55296) : (Char.ofNat n).toNat = n := by
  have hv : n.isValidChar := Or.inl h
  simp only [Char.ofNat, hv, dite_true]
  rfl

theorem lang_caseless {c : Char} {t : Str} : Lang (caseless c) t ↔ t = [c] ∨ t = [caseless.upAsciiChar c] := by
  unfold caseless
  simp only [Lang, Bool.or_eq_true, beq_iff_eq]
  constructor
  · rintro ⟨x, rfl | rfl, rfl⟩ <;> simp
  · rintro (rfl | rfl)
    · exact ⟨_, .inl rfl, rfl⟩
    · exact ⟨_, .inr rfl, rfl⟩

theorem upAscii_iff : ∀ x ∈ str!"fejzt", ∀ c : Char,
    (c = x ∨ c = caseless.upAsciiChar x) ↔ upAscii c = caseless.upAsciiChar x := by
  intro x hx c
  constructor
  · have : ∀ x ∈ str!"fejzt", upAscii x = caseless.upAsciiChar x ∧
        upAscii (caseless.upAsciiChar x) = caseless.upAsciiChar x := by decide +kernel
    rintro (rfl | rfl)
    · exact (this _ hx).1
    · exact (this _ hx).2
  · intro h
    unfold upAscii at h
    split at h
    · rename_i hr
      left
      have hx2 : ∀ x ∈ str!"fejzt", 'a'.toNat ≤ x.toNat ∧ x.toNat ≤ 'z'.toNat := by decide
      have hxr := hx2 x hx
      have h3 := congrArg Char.toNat h
      unfold caseless.upAsciiChar at h3
      have e : ∀ n, n < 55296 → (Char.ofNat n).toNat = n := by
        intro n hn
        exact toNat_ofNat_small hn
      have ea : 'a'.toNat = 97 := rfl
      have ez : 'z'.toNat = 122 := rfl
      rw [e _ (by omega), e _ (by omega)] at h3
      apply Char.toNat_inj.1
      omega
    · right; exact h

theorem lang_chapter {b : Str} : Lang SEType.chapter.suffixRe b ↔
    ∃ w, w.map upAscii = str!"FEJEZET" ∧ b = str!". " ++ w := by
  simp only [SEType.suffixRe, seqs, Lang, lang_lit, lang_caseless]
  have hm := upAscii_iff
  constructor
  · rintro ⟨_, _, rfl, rfl, _, _, rfl, h1, _, _, rfl, h2, _, _, rfl, h3, _, _, rfl, h4, _, _, rfl, h5, _, _, rfl,
      h6, h7⟩
    refine ⟨_, ?_, rfl⟩
    have aux : ∀ x ∈ str!"fejzt", ∀ t : Str, t = [x] ∨ t = [caseless.upAsciiChar x] →
        t.map upAscii = [caseless.upAsciiChar x] := by
      intro x hx t ht
      rcases ht with rfl | rfl
      · simpa using (hm x hx x).1 (.inl rfl)
      · simpa using (hm x hx (caseless.upAsciiChar x)).1 (.inr rfl)
    simp only [List.map_append, aux 'f' (by simp) _ h1, aux 'e' (by simp) _ h2, aux 'j' (by simp) _ h3,
      aux 'e' (by simp) _ h4, aux 'z' (by simp) _ h5, aux 'e' (by simp) _ h6, aux 't' (by simp) _ h7]
    decide
  · rintro ⟨w, hw, rfl⟩
    obtain ⟨f, w, rfl, hf, hw⟩ := List.map_eq_cons_iff.1 hw
    obtain ⟨e1, w, rfl, he1, hw⟩ := List.map_eq_cons_iff.1 hw
    obtain ⟨j, w, rfl, hj, hw⟩ := List.map_eq_cons_iff.1 hw
    obtain ⟨e2, w, rfl, he2, hw⟩ := List.map_eq_cons_iff.1 hw
    obtain ⟨z, w, rfl, hz, hw⟩ := List.map_eq_cons_iff.1 hw
    obtain ⟨e3, w, rfl, he3, hw⟩ := List.map_eq_cons_iff.1 hw
    obtain ⟨t, w, rfl, ht, hw⟩ := List.map_eq_cons_iff.1 hw
    simp only [List.map_eq_nil_iff] at hw
    subst hw
    have aux : ∀ x ∈ str!"fejzt", ∀ c : Char, upAscii c = caseless.upAsciiChar x →
        [c] = [x] ∨ [c] = [caseless.upAsciiChar x] := by
      intro x hx c h
      rcases (hm x hx c).2 h with rfl | rfl <;> simp
    exact ⟨str!". ", _, rfl, rfl, [f], _, rfl, aux 'f' (by simp) f (by rw [hf]; decide),
      [e1], _, rfl, aux 'e' (by simp) e1 (by rw [he1]; decide),
      [j], _, rfl, aux 'j' (by simp) j (by rw [hj]; decide),
      [e2], _, rfl, aux 'e' (by simp) e2 (by rw [he2]; decide),
      [z], _, rfl, aux 'z' (by simp) z (by rw [hz]; decide),
      [e3], _, rfl, aux 'e' (by simp) e3 (by rw [he3]; decide),
      aux 't' (by simp) t (by rw [ht]; decide)⟩

theorem suffixRe_length (t : SEType) : ∃ k, ∀ b, Lang t.suffixRe b → b.length = k := by
  cases t with
  | book => exact ⟨6, fun b hb => by rw [lang_lit.1 hb]; rfl⟩
  | part _ => exact ⟨5, fun b hb => by rw [lang_lit.1 hb]; rfl⟩
  | title => exact ⟨5, fun b hb => by rw [lang_lit.1 hb]; rfl⟩
  | chapter =>
    refine ⟨9, fun b hb => ?_⟩
    obtain ⟨w, hw, rfl⟩ := lang_chapter.1 hb
    have := congrArg List.length hw
    simp at this
    simp [this]

theorem structuralHeader_iff (t : SEType) (id : NumericId) (s : Str) :
    StructuralHeader t id s ↔ ∃ num b, s = num ++ b ∧ Lang t.suffixRe b ∧ '\n' ∉ num ∧
      t.parseIdentifier num = some id := by
  unfold StructuralHeader
  cases t with
  | book =>
    simp only [SEType.suffixRe, lang_lit]
    constructor
    · rintro ⟨n, h1, h2, rfl⟩; exact ⟨n, _, rfl, rfl, h2, h1⟩
    · rintro ⟨n, b, rfl, rfl, h2, h1⟩; exact ⟨n, h1, h2, rfl⟩
  | part _ =>
    simp only [SEType.suffixRe, lang_lit]
    constructor
    · rintro ⟨n, h1, h2, rfl⟩; exact ⟨n, _, rfl, rfl, h2, h1⟩
    · rintro ⟨n, b, rfl, rfl, h2, h1⟩; exact ⟨n, h1, h2, rfl⟩
  | title =>
    simp only [SEType.suffixRe, lang_lit]
    constructor
    · rintro ⟨n, h1, h2, rfl⟩; exact ⟨n, _, rfl, rfl, h2, h1⟩
    · rintro ⟨n, b, rfl, rfl, h2, h1⟩; exact ⟨n, h1, h2, rfl⟩
  | chapter =>
    simp only [lang_chapter]
    constructor
    · rintro ⟨n, h1, h2, w, hw, rfl⟩; exact ⟨n, _, by simp, ⟨w, hw, rfl⟩, h2, h1⟩
    · rintro ⟨n, b, rfl, ⟨w, hw, rfl⟩, h2, h1⟩; exact ⟨n, h1, h2, w, hw, by simp⟩

theorem SEType.tryCreate_iff (t : SEType) (l : Line) (e : StructuralElement) :
    t.tryCreate l = some e ↔ StructuralHeader t e.identifier l.content ∧ e.title = [] ∧ e.elementType = t ∧
      e.lastChange = none := by
  obtain ⟨k, hk⟩ := suffixRe_length t
  have hc : noCap t.suffixRe = true := by cases t <;> rfl
  have hn : noEos t.suffixRe = true := by cases t <;> rfl
  have key := fun a => suffix_iff hc hn hk (s := l.content) (a := a)
  rw [structuralHeader_iff]
  unfold SEType.tryCreate SEType.titleRe
  constructor
  · intro h
    cases hm : matchAt (seqs [.cap 1 (.many anyChar), t.suffixRe, .eos]) l.content with
    | none => rw [hm] at h; simp at h
    | some m =>
      obtain ⟨a, b, h1, h2, h3, h4⟩ := suffix_match hc hm
      rw [hm] at h
      simp only [h4, Option.map_eq_some_iff] at h
      obtain ⟨id, hid, rfl⟩ := h
      exact ⟨⟨a, b, h1, h2, h3, hid⟩, rfl, rfl, rfl⟩
  · rintro ⟨⟨num, b, h1, h2, h3, h4⟩, h5, h6, h7⟩
    obtain ⟨m, hm, hg⟩ := (key num).2 ⟨b, h1, h2, h3⟩
    rw [hm]
    simp only [hg, h4, Option.map_some]
    rw [← h5, ← h6, ← h7]

/-! ### subtitles -/

theorem peel_cap' {n : Nat} {a b : Re} {pre s : Str} {caps : List (Nat × Str × Str)}
    {m : MState} (h : (run (.seq (.cap n a) b) ⟨pre, s, caps⟩).head? = some m) :
    ∃ t s' caps', Lang a t ∧ s = t ++ s' ∧ (run b ⟨pre ++ t, s', (n, pre, t) :: caps'⟩).head? = some m := by
  obtain ⟨st, h1, h2⟩ := run_seq_mem h
  simp only [run, List.mem_map] at h1
  obtain ⟨st0, h0, rfl⟩ := h1
  obtain ⟨t, ht, e1, e2⟩ := lang_sound h0
  simp only at e1 e2
  refine ⟨t, st0.rest, st0.caps, ht, e2, ?_⟩
  simp only [e1, List.drop_left] at h2
  exact h2

theorem mem_seq {a b : Re} {st st1 st2 : MState} (h1 : st1 ∈ run a st) (h2 : st2 ∈ run b st1) :
    st2 ∈ run (.seq a b) st := by
  simp only [run, List.mem_flatMap]
  exact ⟨st1, h1, h2⟩

theorem lang_subtitleNumber {n : Str} :
    Lang (seqs [.many1 isDigit, .opt (.cap 2 (.seqs [.lit str!"/", .cls upperAZ]))]) n ↔
      ∃ d, Digits d ∧ (n = d ∨ ∃ c, UpperLetter c ∧ n = d ++ ['/', c]) := by
  simp only [seqs, Lang, lang_many1, lang_opt, lang_lit]
  constructor
  · rintro ⟨d, t, rfl, hd, h⟩
    refine ⟨d, ⟨hd.1, fun c hc => by simpa [isDigit_iff] using hd.2 c hc⟩, ?_⟩
    rcases h with ⟨_, _, rfl, rfl, c, hc, rfl⟩ | rfl
    · exact .inr ⟨c, by simpa [upperAZ, UpperLetter] using hc, by simp⟩
    · simp
  · rintro ⟨d, hd, rfl | ⟨c, hc, rfl⟩⟩
    · exact ⟨n, [], by simp, ⟨hd.1, fun c hc => by simpa [isDigit_iff] using hd.2 c hc⟩, .inr rfl⟩
    · exact ⟨d, ['/', c], rfl, ⟨hd.1, fun c hc => by simpa [isDigit_iff] using hd.2 c hc⟩,
        .inl ⟨['/'], [c], rfl, rfl, c, by simpa [upperAZ, UpperLetter] using hc, rfl⟩⟩

theorem lang_subtitleTitle {t : Str} :
    Lang (seqs [.cls (fun c => c != 'é' && c != '§'), .many anyChar]) t ↔
      ∃ c u, t = c :: u ∧ c ≠ 'é' ∧ c ≠ '§' ∧ '\n' ∉ u := by
  simp only [seqs, Lang, Bool.and_eq_true, bne_iff_ne, anyChar, ne_eq]
  constructor
  · rintro ⟨_, u, rfl, ⟨c, ⟨h1, h2⟩, rfl⟩, hu⟩
    exact ⟨c, u, rfl, h1, h2, fun h => hu _ h rfl⟩
  · rintro ⟨c, u, rfl, h1, h2, h3⟩
    exact ⟨[c], u, rfl, ⟨c, ⟨h1, h2⟩, rfl⟩, fun x hx e => h3 (e ▸ hx)⟩

theorem subtitle_match {s : Str} {m : MState} (h : matchAt subtitleRe s = some m) :
    ∃ n title, SubtitleHeader s n title ∧ m.group 1 = some ([], n) ∧ m.group 3 = some (n ++ str!". ", title) := by
  unfold matchAt subtitleRe at h
  rw [seqs] at h
  obtain ⟨n, s1, c1, hn, e1, h1⟩ := peel_cap' h
  rw [seqs] at h1
  obtain ⟨d, s2, hd, e2, h2⟩ := peel rfl h1
  rw [seqs] at h2
  obtain ⟨t, s3, ht, e3, h3⟩ := peel_cap rfl h2
  rw [lang_lit] at hd
  subst hd
  subst e1
  subst e2
  subst e3
  clear h h1 h2
  simp only [seqs, run] at h3
  split at h3
  · rename_i h2
    subst h2
    simp only [List.head?_cons, Option.some.injEq] at h3
    subst h3
    refine ⟨n, t, ⟨by simp, lang_subtitleNumber.1 hn, lang_subtitleTitle.1 ht⟩, rfl, rfl⟩
  · simp at h3
  all_goals simp

theorem subtitleHeader_nodot {s n title : Str} (h : SubtitleHeader s n title) : '.' ∉ n ∧ ' ' ∉ n := by
  obtain ⟨_, ⟨d, hd, h⟩, _⟩ := h
  have key : ∀ c ∈ d, c ≠ '.' ∧ c ≠ ' ' := by
    intro c hc
    have := hd.2 c hc
    constructor
    all_goals
      rintro rfl
      revert this
      decide
  have k1 : '.' ∉ d := fun h => (key _ h).1 rfl
  have k2 : ' ' ∉ d := fun h => (key _ h).2 rfl
  rcases h with rfl | ⟨c, hc, rfl⟩
  · exact ⟨k1, k2⟩
  · have hc1 : c ≠ '.' := by rintro rfl; revert hc; simp [UpperLetter]
    have hc2 : c ≠ ' ' := by rintro rfl; revert hc; simp [UpperLetter]
    refine ⟨?_, ?_⟩
    · simp [k1, hc1.symm]
    · simp [k2, hc2.symm]

theorem split_unique {c : Char} : ∀ {a b x y : Str}, c ∉ a → c ∉ b → a ++ c :: x = b ++ c :: y → a = b ∧ x = y
  | [], [], x, y, _, _, h => by simpa using h
  | [], b :: bs, x, y, _, hb, h => by
    simp only [List.nil_append, List.cons_append, List.cons.injEq] at h
    exact absurd h.1 (by rintro rfl; simp at hb)
  | a :: as, [], x, y, ha, _, h => by
    simp only [List.nil_append, List.cons_append, List.cons.injEq] at h
    exact absurd h.1 (by rintro rfl; simp at ha)
  | a :: as, b :: bs, x, y, ha, hb, h => by
    simp only [List.cons_append, List.cons.injEq] at h
    simp only [List.mem_cons, not_or] at ha hb
    obtain ⟨r1, r2⟩ := split_unique ha.2 hb.2 h.2
    exact ⟨by rw [h.1, r1], r2⟩

theorem subtitleHeader_unique {s n n' t t' : Str} (h : SubtitleHeader s n t) (h' : SubtitleHeader s n' t') :
    n = n' ∧ t = t' := by
  have d := subtitleHeader_nodot h
  have d' := subtitleHeader_nodot h'
  have e := h.1.symm.trans h'.1
  simp only [List.append_assoc, List.cons_append] at e
  obtain ⟨e1, e2⟩ := split_unique d.1 d'.1 e
  exact ⟨e1, by simpa using e2⟩

theorem subtitle_iff {s n title : Str} : SubtitleHeader s n title ↔
    ∃ m, matchAt subtitleRe s = some m ∧ m.group 1 = some ([], n) ∧ m.group 3 = some (n ++ str!". ", title) := by
  constructor
  · intro h
    have hex : ∃ m, matchAt subtitleRe s = some m := by
      obtain ⟨rfl, hn, ht⟩ := h
      unfold matchAt subtitleRe
      obtain ⟨caps, hm⟩ := lang_complete
        (r := .cap 1 (seqs [.many1 isDigit, .opt (.cap 2 (.seqs [.lit str!"/", .cls upperAZ]))]))
        rfl (lang_subtitleNumber.2 hn) [] (str!". " ++ title) []
      obtain ⟨caps', hm'⟩ := lang_complete
        (r := .cap 3 (seqs [.cls (fun c => c != 'é' && c != '§'), .many anyChar]))
        rfl (lang_subtitleTitle.2 ht) (n ++ str!". ") [] caps
      have e : ∀ a b c d : Re, seqs [a, b, c, d] = a.seq (b.seq (c.seq d)) := fun _ _ _ _ => rfl
      rw [e]
      refine run_mem_head (m := ⟨n ++ str!". " ++ title, [], caps'⟩) 
        (mem_seq (st1 := ⟨n, str!". " ++ title, caps⟩) ?_ (mem_seq (st1 := ⟨n ++ str!". ", title, caps⟩) ?_
          (mem_seq (st1 := ⟨n ++ str!". " ++ title, [], caps'⟩) ?_ ?_)))
      · simpa using hm
      · rw [run_lit]; simp
      · simpa using hm'
      · simp [run]
    obtain ⟨m, hm⟩ := hex
    obtain ⟨n', t', h', g1, g3⟩ := subtitle_match hm
    obtain ⟨rfl, rfl⟩ := subtitleHeader_unique h h'
    exact ⟨m, hm, g1, g3⟩
  · rintro ⟨m, hm, g1, g3⟩
    obtain ⟨n', t', h', g1', g3'⟩ := subtitle_match hm
    rw [g1] at g1'
    rw [g3] at g3'
    simp only [Option.some.injEq, Prod.mk.injEq, true_and] at g1' g3'
    rw [g1', g3'.2]
    exact h'

theorem subtitleTryCreate_iff (upper : Char → Bool) (l : Line) (prevEmpty : Bool) (context : ParsingContext)
    (s : Subtitle) : subtitleTryCreate upper l prevEmpty context = some s ↔
      SubtitleStart upper context prevEmpty l s.identifier s.title ∧ s.lastChange = none := by
  unfold subtitleTryCreate SubtitleStart
  obtain ⟨sid, stitle, change⟩ := s
  cases hb : l.isBold with
  | false => simp
  | true =>
    simp only [Bool.not_true, Bool.false_eq_true, if_false, true_and]
    cases hm : matchAt subtitleRe l.content with
    | some m =>
      obtain ⟨n, title, h1, h2, h3⟩ := subtitle_match hm
      simp only [h2, h3, Option.map_eq_some_iff, Subtitle.mk.injEq]
      cases sid with
      | none => simp only [reduceCtorEq, false_and, and_false, exists_false, false_iff]; exact fun h => h.1.1 _ _ h1
      | some id =>
        simp only [Option.some.injEq]
        constructor
        · rintro ⟨a, ha, rfl, rfl, rfl⟩; exact ⟨⟨n, h1, ha⟩, rfl⟩
        · rintro ⟨⟨n', h1', h4⟩, rfl⟩
          obtain ⟨rfl, rfl⟩ := subtitleHeader_unique h1 h1'
          exact ⟨id, h4, rfl, rfl, rfl⟩
    | none =>
      have hno : ∀ n t, ¬ SubtitleHeader l.content n t := by
        intro n t h
        obtain ⟨m, hm', _⟩ := subtitle_iff.1 h
        rw [hm] at hm'; simp at hm'
      simp only
      cases sid with
      | some id =>
        simp only [hno, false_and, exists_false, iff_false]
        intro h
        split at h
        · split at h
          · split at h <;> simp at h
          · simp at h
        · simp at h
      | none =>
        simp only [hno, not_false_eq_true, implies_true, true_and]
        simp only [Bool.or_eq_true, decide_eq_true_eq]
        split
        · rename_i hp
          simp only [hp, true_and]
          split
          · rename_i c t hc
            split
            · rename_i hu
              simp only [Option.some.injEq, Subtitle.mk.injEq, true_and, hc]
              constructor
              · rintro ⟨rfl, rfl⟩; exact ⟨⟨rfl, c, t, rfl, hu⟩, rfl⟩
              · rintro ⟨⟨rfl, _⟩, rfl⟩; exact ⟨rfl, rfl⟩
            · rename_i hu
              simp only [reduceCtorEq, false_iff, hc, List.cons.injEq]
              rintro ⟨⟨_, x, y, ⟨rfl, rfl⟩, h⟩, _⟩; exact hu h
          · rename_i hc; simp [hc]
        · rename_i hp; simp [hp]

theorem subtitleTryCreate_none {upper : Char → Bool} {l : Line} {prevEmpty : Bool} {context : ParsingContext} :
    subtitleTryCreate upper l prevEmpty context = none ↔ ¬ IsSubtitleStart upper context prevEmpty l := by
  unfold IsSubtitleStart
  constructor
  · rintro h ⟨id, title, hs⟩
    rw [(subtitleTryCreate_iff upper l prevEmpty context ⟨id, title, none⟩).2 ⟨hs, rfl⟩] at h
    simp at h
  · intro h
    cases hs : subtitleTryCreate upper l prevEmpty context with
    | none => rfl
    | some s => exact absurd ⟨_, _, ((subtitleTryCreate_iff _ _ _ _ _).1 hs).1⟩ h

theorem mem_seTypes (t : SEType) : t ∈ seTypes := by
  cases t with
  | part b => cases b <;> simp [seTypes]
  | _ => simp [seTypes]

theorem findSE_some {l : Line} {e : StructuralElement} (h : seTypes.findSome? (fun t => t.tryCreate l) = some e) :
    StructuralHeader e.elementType e.identifier l.content ∧ e.title = [] ∧ e.lastChange = none := by
  obtain ⟨t, _, ht⟩ := List.exists_of_findSome?_eq_some h
  obtain ⟨h1, h2, rfl, h3⟩ := (SEType.tryCreate_iff _ _ _).1 ht
  exact ⟨h1, h2, h3⟩

theorem findSE_none {l : Line} : seTypes.findSome? (fun t => t.tryCreate l) = none ↔ ¬ IsStructuralHeader l := by
  rw [List.findSome?_eq_none_iff]
  constructor
  · rintro h ⟨t, id, ht⟩
    have := h t (mem_seTypes t)
    rw [(SEType.tryCreate_iff t l ⟨id, [], t, none⟩).2 ⟨ht, rfl, rfl, rfl⟩] at this
    simp at this
  · intro h t _
    cases ht : t.tryCreate l with
    | none => rfl
    | some e => exact absurd ⟨_, _, ((SEType.tryCreate_iff _ _ _).1 ht).1⟩ h

/-! ### articles -/

/-- The factory knows the last article. -/
structure Knows (f : ArticleFactory) (context : ParsingContext) (last : Option (Line × ArticleId)) : Prop where
  id : f.lastId = last.map Prod.snd
  indent : f.headerIndent = last.map (fun x => x.1.indent)
  context : f.context = context

theorem tryCreate_ok {f : ArticleFactory} {context : ParsingContext} {last : Option (Line × ArticleId)}
    (hk : Knows f context last) {l : Line} {p : ArticleParser} {f' : ArticleFactory}
    (h : f.tryCreate l none = .ok (p, f')) :
    ArticleStart context last l p.identifier ∧ Knows f' context (some (l, p.identifier)) ∧
      ∃ rest, parseArticleHeader l = .ok (some (p.identifier, rest)) ∧ p = ⟨p.identifier, [rest], context⟩ := by
  unfold ArticleFactory.tryCreate at h
  split at h
  · simp at h
  · rename_i hi
    rw [Res.bind_eq_ok] at h
    obtain ⟨o, ho, h⟩ := h
    cases o with
    | none => simp at h
    | some x =>
      obtain ⟨id, rest⟩ := x
      simp only at h
      split at h
      · rename_i hg
        simp only [Res.ok.injEq, Prod.mk.injEq] at h
        obtain ⟨rfl, rfl⟩ := h
        refine ⟨⟨?_, ?_⟩, ⟨rfl, rfl, hk.context⟩, rest, ho, by simp [hk.context]⟩
        · obtain ⟨t, r, h1, h2, h3, _⟩ := (Props.C27_article_header_iff l id rest).1 ho
          exact ⟨t, r, h1, h2, h3⟩
        · unfold ArticleFactory.goodIndent at hi
          unfold ArticleFactory.goodId at hg
          rw [hk.indent] at hi
          rw [hk.id, hk.context] at hg
          cases last with
          | none => simpa [Decidable.or_iff_not_imp_left] using hg
          | some x => 
            refine ⟨?_, hg⟩
            simp only [Option.map_some, Line.indentLessOrEq, Bool.not_eq_true', decide_eq_false_iff_not,
              not_not] at hi
            exact hi
      · simp at h

theorem tryCreate_err {f : ArticleFactory} {context : ParsingContext} {last : Option (Line × ArticleId)}
    (hk : Knows f context last) {l : Line} (h : f.tryCreate l none = .err) (id : ArticleId) :
    ¬ ArticleStart context last l id := by
  rintro ⟨⟨t, r, h1, h2, h3⟩, hl⟩
  have hp := (Props.C27_article_header_iff l id _).2 ⟨t, r, h1, h2, h3, rfl⟩
  unfold ArticleFactory.tryCreate at h
  have hi : f.goodIndent l = true := by
    unfold ArticleFactory.goodIndent
    rw [hk.indent]
    cases last with
    | none => rfl
    | some x => exact decide_eq_true hl.1
  have hg : f.goodId none id = true := by
    unfold ArticleFactory.goodId
    rw [hk.id, hk.context]
    cases last with
    | none => simpa [Decidable.or_iff_not_imp_left] using hl
    | some x => exact hl.2
  simp [hi, hp, hg] at h

theorem titleLoop_text (ls : List Line) (t : Str) :
    noSpaces (ArticleParser.titleLoop t ls).1 ++ noSpaces (allText (ArticleParser.titleLoop t ls).2) =
      noSpaces t ++ noSpaces (allText ls) := by
  induction ls generalizing t with
  | nil => simp [ArticleParser.titleLoop]
  | cons l ls ih =>
    unfold ArticleParser.titleLoop
    split
    · rfl
    · rw [ih, noSpaces_appendTo, allText_cons, noSpaces_append, List.append_assoc]

theorem dropLast_of_getLast {s : Str} {c : Char} (h : s.getLast? = some c) : s = s.dropLast ++ [c] := by
  rcases List.eq_nil_or_concat s with rfl | ⟨a, x, rfl⟩
  · simp at h
  · simp at h; subst h; simp

theorem extractTitle_text {ls : List Line} {title : Option Str} {rest : List Line}
    (h : ArticleParser.extractTitle ls = .ok (title, rest)) :
    noSpaces (allText ls) = titleText title ++ noSpaces (allText rest) := by
  cases ls with
  | nil => simp [ArticleParser.extractTitle] at h
  | cons l ls =>
    simp only [ArticleParser.extractTitle] at h
    split at h
    · rename_i t ht
      split at h
      · rename_i hl
        simp only [Res.ok.injEq, Prod.mk.injEq] at h
        obtain ⟨rfl, rfl⟩ := h
        have := titleLoop_text ls t
        have e := dropLast_of_getLast hl
        rw [e, noSpaces_append] at this
        simp only [allText_cons, ht, noSpaces_append]
        rw [show noSpaces ('[' :: t) = '[' :: noSpaces t from rfl, List.cons_append, ← this]
        simp [noSpaces, titleText]
      · simp at h
    · simp only [Res.ok.injEq, Prod.mk.injEq] at h
      obtain ⟨rfl, rfl⟩ := h
      simp [titleText]

theorem dropEmpty_text {ls ls' : List Line} (h : ArticleParser.dropEmpty ls = .ok ls') :
    noSpaces (allText ls') = noSpaces (allText ls) := by
  unfold ArticleParser.dropEmpty at h
  split at h
  · simp at h
  · simp only [Res.ok.injEq] at h
    subst h
    split
    · rename_i he; rw [allText_cons, content_of_isEmpty he]; rfl
    · rfl

theorem extractMultiple_count {I C : Type} [DecidableEq I] [IdentifierCommon I] {p : SAEParser I C}
    {params : SAEParams} {ls : List Line} {expected : Option I} {r : Extracted (List (SAE I C))}
    (hc : params.checkChildrenCount = true) (h : p.extractMultiple ls params expected = .ok r) :
    2 ≤ r.elements.length := by
  obtain ⟨first, others, id, rest, q, rfl, ho, -, -, h⟩ := extractMultiple_ok.1 h
  clear ho
  have key : ∀ (ls : List Line) (q : QuoteCheck) (es : List (SAE I C)) (id : I) (body : List Line)
      (ind : Rat), extractFrom p params ind q es id body ls = .ok r → 2 ≤ r.elements.length := by
    intro ls
    induction ls with
    | nil =>
      intro q es id body ind h
      unfold extractFrom at h
      exact (extractEnd_ok.1 h).2.2 hc
    | cons l ls ih =>
      intro q es id body ind h
      unfold extractFrom at h
      rw [Res.bind_eq_ok] at h
      obtain ⟨q', _, h⟩ := h
      rw [Res.bind_eq_ok] at h
      obtain ⟨o, _, h⟩ := h
      cases o with
      | none => exact ih _ _ _ _ _ h
      | some x =>
        simp only at h
        rw [Res.bind_eq_ok] at h
        obtain ⟨_, _, h⟩ := h
        exact ih _ _ _ _ _ h
  exact key _ _ _ _ _ _ h

theorem extractMultiple_noWrapUp {I C : Type} [DecidableEq I] [IdentifierCommon I] {p : SAEParser I C}
    {params : SAEParams} {ls : List Line} {expected : Option I} {r : Extracted (List (SAE I C))}
    (hc : params.parseWrapUp = false) (h : p.extractMultiple ls params expected = .ok r) :
    r.parentWrapUp = none ∧ r.restOfWrapUp = [] := by
  obtain ⟨first, others, id, rest, q, rfl, ho, -, -, h⟩ := extractMultiple_ok.1 h
  clear ho
  have key : ∀ (ls : List Line) (q : QuoteCheck) (es : List (SAE I C)) (id : I) (body : List Line)
      (ind : Rat), extractFrom p params ind q es id body ls = .ok r →
      r.parentWrapUp = none ∧ r.restOfWrapUp = [] := by
    intro ls
    induction ls with
    | nil =>
      intro q es id body ind h
      unfold extractFrom at h
      have := (extractEnd_ok.1 h).2.1
      unfold extractLast at this
      simp only [hc, Bool.false_eq_true, if_false] at this
      rw [Res.bind_eq_ok] at this
      obtain ⟨last, _, this⟩ := this
      simp only [Res.ok.injEq] at this
      subst this
      exact ⟨rfl, rfl⟩
    | cons l ls ih =>
      intro q es id body ind h
      unfold extractFrom at h
      rw [Res.bind_eq_ok] at h
      obtain ⟨q', _, h⟩ := h
      rw [Res.bind_eq_ok] at h
      obtain ⟨o, _, h⟩ := h
      cases o with
      | none => exact ih _ _ _ _ _ h
      | some x =>
        simp only at h
        rw [Res.bind_eq_ok] at h
        obtain ⟨_, _, h⟩ := h
        exact ih _ _ _ _ _ h
  exact key _ _ _ _ _ _ h

theorem paragraphs_text {context : ParsingContext} {ls : List Line} {ps : List (Paragraph Empty)}
    (h : ArticleParser.paragraphs context ls = .ok ps) : ParagraphsText ps (noSpaces (allText ls)) := by
  unfold ArticleParser.paragraphs at h
  split at h
  · rename_i ex hex
    split at h
    · simp at h
    · simp only [Res.ok.injEq] at h
      subst h
      obtain ⟨t, ht, he⟩ := extractMultiple_text paragraph_keeps hex
      obtain ⟨h1, h2⟩ := extractMultiple_noWrapUp rfl hex
      rw [h1, h2] at he
      simp only [Option.getD_none, noSpaces_nil, allText_nil, List.append_nil] at he
      rw [he]
      exact .inr ⟨extractMultiple_count rfl hex, ht⟩
  · simp at h
  · rw [Res.bind_eq_ok] at h
    obtain ⟨r, hr, h⟩ := h
    simp only [Res.ok.injEq] at h
    subst h
    exact .inl ⟨_, rfl, parse_id hr, parse_keepIt_text paragraph_keeps hr⟩

theorem finish_text {p : ArticleParser} {a : Article Empty} (h : p.finish = .ok a) :
    a.identifier = p.identifier ∧ ∃ t, ParagraphsText a.children t ∧
      noSpaces (allText p.lines) = titleText a.title ++ t := by
  unfold ArticleParser.finish at h
  rw [Res.bind_eq_ok] at h
  obtain ⟨⟨title, ls⟩, h1, h⟩ := h
  simp only at h
  rw [Res.bind_eq_ok] at h
  obtain ⟨ls', h2, h⟩ := h
  rw [Res.bind_eq_ok] at h
  obtain ⟨cs, h3, h⟩ := h
  simp only [Res.ok.injEq] at h
  subst h
  exact ⟨rfl, _, paragraphs_text h3, by rw [extractTitle_text h1, dropEmpty_text h2]⟩

theorem article_text {l rest : Line} {body : List Line} {id : ArticleId} {context : ParsingContext}
    {a : Article Empty} (hl : parseArticleHeader l = .ok (some (id, rest)))
    (h : ArticleParser.finish ⟨id, rest :: body, context⟩ = .ok a) :
    a.identifier = id ∧ ArticleText a (noSpaces (allText (l :: body))) := by
  obtain ⟨t, r, h1, h2, h3, h4⟩ := (Props.C27_article_header_iff l id rest).1 hl
  obtain ⟨ha, hb, hc⟩ := header_mark (cl' := str!".§") h1 (by simp) articleId_no_space
    (by rintro c (rfl | rfl) <;> rfl)
  obtain ⟨e, p, hp, hpe⟩ := finish_text h
  simp only at e
  refine ⟨e, t ++ str!".§", p, ⟨t, hb, by rw [e]; exact h3, rfl⟩, hp, ?_⟩
  rw [allText_cons, noSpaces_append, ha, ← (Props.C27_rest l rest r hc h2 h4).1]
  simp only [allText_cons, noSpaces_append] at hpe
  simp only [List.nil_append, List.append_assoc, hpe]

end HunLaw
