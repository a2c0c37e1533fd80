import Verif.Model.Headers
import Verif.Lemmas.Lang
import Verif.Lemmas.Line
import Verif.Lemmas.Identifiers

/-! Lemmas on header patterns. -/

set_option autoImplicit false

namespace HunLaw

open Re Spec

/-- What follows the spaces: something without a line feed, not starting with a space. -/
def IsRest (r : Str) : Prop := r.head? ≠ some ' ' ∧ '\n' ∉ r

/-- Splits of a text at a blank after equal texts agree. -/
theorem blank_unique {sp r sp' r' : Str} (h1 : Blank sp) (h2 : IsRest r) (h1' : Blank sp')
    (h2' : IsRest r') (h : sp ++ r = sp' ++ r') : sp = sp' ∧ r = r' := by
  have key : ∀ {a b a' b' : Str}, (∀ c ∈ a, c = ' ') → (∀ c ∈ a', c = ' ') → b.head? ≠ some ' ' →
      b'.head? ≠ some ' ' → a ++ b = a' ++ b' → a = a' ∧ b = b' := by
    intro a
    induction a with
    | nil =>
      intro b a' b' _ h2 h3 h4 h5
      cases a' with
      | nil => exact ⟨rfl, h5⟩
      | cons c cs =>
        have := h2 c (by simp)
        subst this
        simp at h5; subst h5; simp at h3
    | cons x xs ih =>
      intro b a' b' h1 h2 h3 h4 h5
      have hx := h1 x (by simp)
      subst hx
      cases a' with
      | nil => simp at h5; subst h5; simp at h4
      | cons c cs =>
        simp at h5
        obtain ⟨rfl, h5⟩ := h5
        have := ih (fun c hc => h1 c (by simp [hc])) (fun c hc => h2 c (by simp [hc])) h3 h4 h5
        simp [this.1, this.2]
  exact key h1.2 h1'.2 h2.1 h2'.1 h

theorem split_spaces (u : Str) :
    ∃ sp r, u = sp ++ r ∧ (∀ c ∈ sp, c = ' ') ∧ r.head? ≠ some ' ' := by
  induction u with
  | nil => exact ⟨[], [], rfl, by simp, by simp⟩
  | cons x xs ih =>
    by_cases hx : x = ' '
    · obtain ⟨sp, r, rfl, h1, h2⟩ := ih
      exact ⟨x :: sp, r, rfl, by simpa [hx] using h1, h2⟩
    · exact ⟨[], x :: xs, rfl, by simp, by simpa using hx⟩

theorem tail_head {last : Nat} {st m : MState}
    (h : (run (seqs [.many1 (· == ' '), .cap last (.many anyChar), .eos]) st).head? = some m) :
    ∃ sp r, st.rest = sp ++ r ∧ Blank sp ∧ IsRest r ∧
      m.caps = (last, st.pre ++ sp, r) :: st.caps := by
  have hm := List.mem_of_mem_head? h
  obtain ⟨t, ht, e1, e2⟩ := lang_sound hm
  obtain ⟨sp0, v, rfl, hsp, r0, w, rfl, hr0, rfl⟩ := ht
  rw [lang_many1] at hsp
  have hmr : m.rest = [] := by
    simp only [seqs] at h
    obtain ⟨x1, _, h⟩ := run_seq_mem h
    obtain ⟨x2, _, h⟩ := run_seq_mem h
    simp only [run] at h
    split at h
    · simp at h; subst h; assumption
    · simp at h
  rw [hmr] at e2
  simp only [List.append_nil] at e2
  obtain ⟨sp, r, hu, h1, h2⟩ := split_spaces st.rest
  obtain ⟨pre, rest, caps⟩ := st
  simp only at e2 hu
  subst hu
  have hne : sp ≠ [] := by
    rintro rfl
    cases sp0 with
    | nil => exact absurd rfl hsp.1
    | cons c cs =>
      have := hsp.2 c (by simp)
      simp at this; subst this
      simp at e2; subst e2; simp at h2
  have hnn : ∀ c ∈ r, anyChar c = true := by
    intro c hc
    have : c ∈ sp0 ++ r0 := by rw [← e2]; simp [hc]
    simp only [List.mem_append] at this
    rcases this with h | h
    · have := hsp.2 _ h
      simp at this; subst this; decide
    · exact hr0 _ h
  refine ⟨sp, r, rfl, ⟨hne, h1⟩, ⟨h2, fun hn => ?_⟩, ?_⟩
  · have := hnn _ hn; revert this; decide
  · have e1 := run_many1_head (p := (· == ' ')) (pre := pre) (a := sp) (b := r) (caps := caps) hne
      (fun c hc => by simp [h1 c hc])
      (fun c hc => by
        have : c ≠ ' ' := by rintro rfl; exact h2 hc
        simp [this])
    have e2 := run_many_head (p := anyChar) (pre := pre ++ sp) (a := r) (b := []) (caps := caps) hnn (by simp)
    rw [List.append_nil] at e2
    have e3 := run_cap_head (n := last) e2
    have e4 : (run (seqs [.many1 (· == ' '), .cap last (.many anyChar), .eos]) ⟨pre, sp ++ r, caps⟩).head? =
        some ⟨pre ++ sp ++ r, [], (last, pre ++ sp, (pre ++ sp ++ r).drop (pre ++ sp).length) :: caps⟩ := by
      simp only [seqs]
      refine run_seq_head e1 (run_seq_head e3 ?_)
      simp [run]
    rw [e4, List.drop_left] at h
    simp only [Option.some.injEq] at h
    rw [← h]

/-- What a match of a header pattern is. -/
theorem header_sound {op : Str} {idRe cl : Re} {last : Nat} {s : Str} {m : MState} (hl : last ≠ 1)
    (hcl : noCap cl = true) (h : matchAt (headerRe op idRe cl last) s = some m) :
    ∃ t c sp r, s = op ++ t ++ c ++ sp ++ r ∧ Lang idRe t ∧ Lang cl c ∧ Blank sp ∧ IsRest r ∧
      m.group 1 = some (op, t) ∧ m.group last = some (op ++ t ++ c ++ sp, r) := by
  unfold matchAt headerRe at h
  rw [show seqs [lit op, cap 1 idRe, cl, many1 (· == ' '), cap last (many anyChar), eos] =
    .seq (lit op) (.seq (cap 1 idRe) (.seq cl (seqs [many1 (· == ' '), cap last (many anyChar), eos])))
    from rfl] at h
  obtain ⟨x1, h1, h'⟩ := run_seq_mem h
  obtain ⟨x2, h2, h''⟩ := run_seq_mem h'
  obtain ⟨x3, h3, htail⟩ := run_seq_mem h''
  clear h h' h''
  obtain ⟨t1, l1, p1, r1⟩ := lang_sound h1
  obtain ⟨t3, l3, p3, r3⟩ := lang_sound h3
  rw [lang_lit] at l1; subst l1
  have c1 := caps_of_noCap (lit_noCap t1) h1
  have c3 := caps_of_noCap hcl h3
  simp only [run, List.mem_map] at h2
  obtain ⟨y, hy, rfl⟩ := h2
  obtain ⟨t2, l2, p2, r2⟩ := lang_sound hy
  obtain ⟨sp, r, e, hsp, hr, hc⟩ := tail_head htail
  simp only [List.nil_append] at p1 r1
  refine ⟨t2, t3, sp, r, ?_, l2, l3, hsp, hr, ?_, ?_⟩
  · rw [r1, r2]
    simp only at r3
    rw [r3, e]; simp
  · unfold MState.group
    rw [hc, c3]
    simp [hl, p2, p1]
  · unfold MState.group
    rw [hc]
    simp [p3, p2, p1]

/-- A split text has a match. -/
theorem header_complete {op : Str} {idRe cl : Re} {last : Nat} {t c sp r : Str}
    (h1 : noEos idRe = true) (h2 : noEos cl = true) (ht : Lang idRe t) (hc : Lang cl c)
    (hsp : Blank sp) (hr : IsRest r) :
    ∃ m, matchAt (headerRe op idRe cl last) (op ++ t ++ c ++ sp ++ r) = some m := by
  have hl : Lang (seqs [lit op, cap 1 idRe, cl, many1 (· == ' '), cap last (many anyChar)])
      (op ++ t ++ c ++ sp ++ r) := by
    refine ⟨op, t ++ c ++ sp ++ r, by simp, lang_lit.2 rfl, t, c ++ sp ++ r, by simp, ht,
      c, sp ++ r, by simp, hc, sp, r, rfl, ?_, ?_⟩
    · rw [lang_many1]; exact ⟨hsp.1, fun c hc => by simp [hsp.2 c hc]⟩
    · intro c hc
      have : c ≠ '\n' := by rintro rfl; exact hr.2 hc
      simp [anyChar, this]
  have hn : noEos (seqs [lit op, cap 1 idRe, cl, many1 (· == ' '), cap last (many anyChar)]) = true := by
    simp [seqs, noEos, lit_noEos, h1, h2, many1]
  obtain ⟨caps, hm⟩ := lang_complete hn hl [] [] []
  have : ∃ m, m ∈ run (headerRe op idRe cl last) ⟨[], op ++ t ++ c ++ sp ++ r, []⟩ := by
    rw [List.append_nil] at hm
    simp only [seqs, run, List.mem_flatMap] at hm
    obtain ⟨x1, m1, x2, m2, x3, m3, x4, m4, m5⟩ := hm
    refine ⟨⟨[] ++ (op ++ t ++ c ++ sp ++ r), [], caps⟩, ?_⟩
    simp only [headerRe, seqs, run, List.mem_flatMap]
    refine ⟨x1, m1, x2, m2, x3, m3, x4, m4, _, m5, ?_⟩
    simp
  obtain ⟨m, hm⟩ := this
  unfold matchAt
  cases hrun : run (headerRe op idRe cl last) ⟨[], op ++ t ++ c ++ sp ++ r, []⟩ with
  | nil => rw [hrun] at hm; simp at hm
  | cons a as => exact ⟨a, rfl⟩

/-- The identifier and the closing text can only be read in one way. -/
def Unambiguous (idRe cl : Re) : Prop :=
  ∀ t c w t' c' w' : Str, Lang idRe t → Lang cl c → Lang idRe t' → Lang cl c' →
    t ++ c ++ ' ' :: w = t' ++ c' ++ ' ' :: w' → t = t' ∧ c = c'

/-- It is enough that the closing text starts with a character that no identifier has. -/
theorem unambiguous_of {idRe cl : Re} (z : Char) (h1 : ∀ t, Lang idRe t → z ∉ t)
    (h2 : ∀ c, Lang cl c → ∃ d, c = z :: d)
    (h3 : ∀ c c' w w', Lang cl c → Lang cl c' → c ++ ' ' :: w = c' ++ ' ' :: w' → c = c') :
    Unambiguous idRe cl := by
  intro t c w t' c' w' ht hc ht' hc' h
  obtain ⟨d, rfl⟩ := h2 c hc
  obtain ⟨d', rfl⟩ := h2 c' hc'
  have e1 := splitOnce_append (c := z) (a := t) (b := d ++ ' ' :: w) (h1 t ht)
  have e2 := splitOnce_append (c := z) (a := t') (b := d' ++ ' ' :: w') (h1 t' ht')
  have : t ++ z :: (d ++ ' ' :: w) = t' ++ z :: (d' ++ ' ' :: w') := by simpa using h
  rw [this, e2] at e1
  simp at e1
  refine ⟨e1.1.symm, h3 _ _ w w' hc hc' ?_⟩
  simp [e1.2]

theorem unambiguous_lit {idRe : Re} {z : Char} (h1 : ∀ t, Lang idRe t → z ∉ t) :
    Unambiguous idRe (lit [z]) := by
  refine unambiguous_of z h1 (fun c hc => ⟨[], lang_lit.1 hc⟩) ?_
  intro c c' w w' hc hc' _
  rw [lang_lit.1 hc, lang_lit.1 hc']

theorem blank_cons {sp : Str} (h : Blank sp) : ∃ sp', sp = ' ' :: sp' := by
  cases sp with
  | nil => exact absurd rfl h.1
  | cons c cs => have := h.2 c (by simp); exact ⟨cs, by rw [this]⟩

/-- The whole behaviour of header recognition. -/
theorem parseHeader_of_split {T : Type} {parse : Str → Option T} {op : Str} {idRe cl : Re} {last : Nat}
    {bl : List Str} {l : Line} (hlast : last ≠ 1) (hcap : noCap cl = true) (he1 : noEos idRe = true)
    (he2 : noEos cl = true) (hu : Unambiguous idRe cl) {t c sp r : Str}
    (hs : l.content = op ++ t ++ c ++ sp ++ r) (ht : Lang idRe t) (hc : Lang cl c) (hsp : Blank sp)
    (hr : IsRest r) :
    l.parseHeader parse (headerRe op idRe cl last) last bl =
      match parse t with
      | none => .ok none
      | some id =>
        if r = [] then .panic
        else if bl.any (fun b => startsWith r b) then .ok none
        else .ok (some (id, l.slice ((l.len : Int) - r.length) none)) := by
  obtain ⟨m, hm⟩ := header_complete (op := op) (last := last) he1 he2 ht hc hsp hr
  obtain ⟨t', c', sp', r', hs', ht', hc', hsp', hr', g1, g2⟩ := header_sound hlast hcap hm
  have : t = t' ∧ c = c' := by
    obtain ⟨x, rfl⟩ := blank_cons hsp
    obtain ⟨x', rfl⟩ := blank_cons hsp'
    refine hu t c (x ++ r) t' c' (x' ++ r') ht hc ht' hc' ?_
    have := hs'
    simp only [List.append_assoc] at this
    simpa using List.append_cancel_left this
  obtain ⟨rfl, rfl⟩ := this
  have : sp = sp' ∧ r = r' := by
    refine blank_unique hsp hr hsp' hr' ?_
    simp only [List.append_assoc] at hs'
    simpa using hs'
  obtain ⟨rfl, rfl⟩ := this
  unfold Line.parseHeader
  rw [hs, hm]
  simp only [g1, g2]
  cases parse t with
  | none => rfl
  | some id =>
    simp only
    by_cases hre : r = []
    · rw [if_pos hre]
      subst hre
      unfold Line.sliceBytes
      rw [hs]
      simp only [List.append_nil]
      have := Line.charPosition_end (op ++ t ++ c ++ sp)
      simp only [List.append_assoc] at this ⊢
      rw [this]; rfl
    · rw [if_neg hre]
      have hlen : l.content.length = l.len := l.content_length
      have hslice : l.sliceBytes (byteLen (op ++ t ++ c ++ sp)) (some (byteLen (op ++ t ++ c ++ sp ++ r))) =
          .ok (l.slice ((l.len : Int) - r.length) none) := by
        unfold Line.sliceBytes
        rw [hs, Line.charPosition_append _ _ hre]
        simp only [ge_iff_le, Nat.le_refl, if_true]
        rw [hs] at hlen
        simp only [List.length_append] at hlen
        unfold Line.slice
        simp only
        have e1 : l.convertIndex ((op ++ t ++ c ++ sp).length : Int) =
            l.convertIndex ((l.len : Int) - r.length) := by
          simp only [List.length_append]
          congr 1
          omega
        have e2 : l.convertIndex ((op ++ t ++ c ++ sp ++ r).length : Int) = l.len := by
          unfold Line.convertIndex
          simp only [List.length_append]
          omega
        rw [e1, e2]
      rw [hslice]
      simp only [Res.bind_ok]
      have hcont : (l.slice ((l.len : Int) - r.length) none).content = r := by
        have hlen2 := hlen
        rw [hs] at hlen2
        simp only [List.length_append] at hlen2
        rw [Line.content_eq, Line.glyphs_slice]
        unfold window
        simp only [List.map_take, List.map_drop, ← Line.content_eq, hs]
        have : clampIndex l.len ((l.len : Int) - r.length) = (op ++ t ++ c ++ sp).length := by
          unfold clampIndex
          simp only [List.length_append]
          split <;> (try split) <;> omega
        rw [this, List.drop_left]
        apply List.take_of_length_le
        simp only [List.length_append]; omega
      rw [hcont]

/-- No split, no header. -/
theorem parseHeader_of_no_split {T : Type} {parse : Str → Option T} {op : Str} {idRe cl : Re}
    {last : Nat} {bl : List Str} {l : Line} (hlast : last ≠ 1) (hcap : noCap cl = true)
    (h : ∀ t c sp r : Str, l.content = op ++ t ++ c ++ sp ++ r → Lang idRe t → Lang cl c → Blank sp →
      ¬ IsRest r) : l.parseHeader parse (headerRe op idRe cl last) last bl = .ok none := by
  unfold Line.parseHeader
  cases hm : matchAt (headerRe op idRe cl last) l.content with
  | none => rfl
  | some m =>
    obtain ⟨t, c, sp, r, h1, h2, h3, h4, h5, _⟩ := header_sound hlast hcap hm
    exact absurd h5 (h t c sp r h1 h2 h3 h4)

/-- When a header is recognised. -/
theorem parseHeader_iff {T : Type} {parse : Str → Option T} {op : Str} {idRe cl : Re} {last : Nat}
    {bl : List Str} {l : Line} (hlast : last ≠ 1) (hcap : noCap cl = true) (he1 : noEos idRe = true)
    (he2 : noEos cl = true) (hu : Unambiguous idRe cl) {id : T} {rest : Line} :
    l.parseHeader parse (headerRe op idRe cl last) last bl = .ok (some (id, rest)) ↔
      ∃ t c sp r, l.content = op ++ t ++ c ++ sp ++ r ∧ Lang idRe t ∧ Lang cl c ∧ Blank sp ∧ IsRest r ∧
        parse t = some id ∧ r ≠ [] ∧ (∀ b ∈ bl, ¬ b <+: r) ∧
        rest = l.slice ((l.len : Int) - r.length) none := by
  by_cases h : ∃ t c sp r : Str, l.content = op ++ t ++ c ++ sp ++ r ∧ Lang idRe t ∧ Lang cl c ∧
      Blank sp ∧ IsRest r
  · obtain ⟨t, c, sp, r, h1, h2, h3, h4, h5⟩ := h
    rw [parseHeader_of_split hlast hcap he1 he2 hu h1 h2 h3 h4 h5]
    constructor
    · intro hh
      split at hh
      · simp at hh
      · rename_i id' hid
        split at hh
        · simp at hh
        · rename_i hr
          split at hh
          · simp at hh
          · rename_i hb
            simp at hh
            obtain ⟨rfl, rfl⟩ := hh
            refine ⟨t, c, sp, r, h1, h2, h3, h4, h5, hid, hr, ?_, rfl⟩
            intro b hbl hbr
            apply hb
            rw [List.any_eq_true]
            obtain ⟨x, hx⟩ := hbr
            exact ⟨b, hbl, startsWith_iff.2 ⟨x, hx.symm⟩⟩
    · rintro ⟨t', c', sp', r', h1', h2', h3', h4', h5', hid, hr, hb, rfl⟩
      have : t = t' ∧ c = c' := by
        obtain ⟨x, rfl⟩ := blank_cons h4
        obtain ⟨x', rfl⟩ := blank_cons h4'
        refine hu t c (x ++ r) t' c' (x' ++ r') h2 h3 h2' h3' ?_
        rw [h1] at h1'
        simp only [List.append_assoc] at h1'
        simpa using List.append_cancel_left h1'
      obtain ⟨rfl, rfl⟩ := this
      have : sp = sp' ∧ r = r' := by
        refine blank_unique h4 h5 h4' h5' ?_
        rw [h1] at h1'
        simp only [List.append_assoc] at h1'
        simpa using h1'
      obtain ⟨rfl, rfl⟩ := this
      rw [hid]
      simp only
      rw [if_neg hr, if_neg]
      intro hany
      rw [List.any_eq_true] at hany
      obtain ⟨b, hb1, hb2⟩ := hany
      obtain ⟨x, hx⟩ := startsWith_iff.1 hb2
      exact hb b hb1 ⟨x, hx.symm⟩
  · have hno : ∀ t c sp r : Str, l.content = op ++ t ++ c ++ sp ++ r → Lang idRe t → Lang cl c →
        Blank sp → ¬ IsRest r := fun t c sp r a b c' d e => h ⟨t, c, sp, r, a, b, c', d, e⟩
    rw [parseHeader_of_no_split hlast hcap hno]
    constructor
    · intro hh; simp at hh
    · rintro ⟨t, c, sp, r, h1, h2, h3, h4, h5, _⟩
      exact absurd h5 (hno t c sp r h1 h2 h3 h4)

/-- When recognising a header panics. -/
theorem parseHeader_panic_iff {T : Type} {parse : Str → Option T} {op : Str} {idRe cl : Re} {last : Nat}
    {bl : List Str} {l : Line} (hlast : last ≠ 1) (hcap : noCap cl = true) (he1 : noEos idRe = true)
    (he2 : noEos cl = true) (hu : Unambiguous idRe cl) :
    l.parseHeader parse (headerRe op idRe cl last) last bl = .panic ↔
      ∃ t c sp, l.content = op ++ t ++ c ++ sp ∧ Lang idRe t ∧ Lang cl c ∧ Blank sp ∧
        (parse t).isSome = true := by
  by_cases h : ∃ t c sp r : Str, l.content = op ++ t ++ c ++ sp ++ r ∧ Lang idRe t ∧ Lang cl c ∧
      Blank sp ∧ IsRest r
  · obtain ⟨t, c, sp, r, h1, h2, h3, h4, h5⟩ := h
    rw [parseHeader_of_split hlast hcap he1 he2 hu h1 h2 h3 h4 h5]
    constructor
    · intro hh
      split at hh
      · simp at hh
      · rename_i id' hid
        split at hh
        · rename_i hr
          subst hr
          exact ⟨t, c, sp, by simpa using h1, h2, h3, h4, by simp [hid]⟩
        · split at hh <;> simp at hh
    · rintro ⟨t', c', sp', h1', h2', h3', h4', hid⟩
      have : t = t' ∧ c = c' := by
        obtain ⟨x, rfl⟩ := blank_cons h4
        obtain ⟨x', rfl⟩ := blank_cons h4'
        refine hu t c (x ++ r) t' c' x' h2 h3 h2' h3' ?_
        rw [h1] at h1'
        simp only [List.append_assoc] at h1'
        simpa using List.append_cancel_left h1'
      obtain ⟨rfl, rfl⟩ := this
      have : sp = sp' ∧ r = [] := by
        refine blank_unique h4 h5 h4' (by simp [IsRest]) ?_
        rw [h1] at h1'
        simp only [List.append_assoc] at h1'
        simpa using h1'
      obtain ⟨rfl, rfl⟩ := this
      cases hp : parse t with
      | none => rw [hp] at hid; simp at hid
      | some id => simp
  · have hno : ∀ t c sp r : Str, l.content = op ++ t ++ c ++ sp ++ r → Lang idRe t → Lang cl c →
        Blank sp → ¬ IsRest r := fun t c sp r a b c' d e => h ⟨t, c, sp, r, a, b, c', d, e⟩
    rw [parseHeader_of_no_split hlast hcap hno]
    constructor
    · intro hh; simp at hh
    · rintro ⟨t, c, sp, h1, h2, h3, h4, _⟩
      exact absurd (by simp [IsRest]) (hno t c sp [] (by simpa using h1) h2 h3 h4)

/-! ### the five kinds of headers -/

theorem isDigit_spec {c : Char} : isDigit c = true ↔ '0'.toNat ≤ c.toNat ∧ c.toNat ≤ '9'.toNat :=
  isDigit_iff

theorem lang_digits {t : Str} : Lang (many1 isDigit) t ↔ Digits t := by
  rw [lang_many1]
  unfold Digits AllDigits
  simp only [isDigit_spec]

theorem lowerAZ_iff {c : Char} : lowerAZ c = true ↔ LowerLetter c := by
  simp [lowerAZ, LowerLetter]

theorem upperAZ_iff {c : Char} : upperAZ c = true ↔ UpperLetter c := by
  simp [upperAZ, UpperLetter]

theorem lang_paragraphId {t : Str} : Lang paragraphIdRe t ↔ ParagraphIdText t := by
  constructor
  · rintro ⟨d, v, rfl, hd, hv⟩
    refine ⟨d, lang_digits.1 hd, ?_⟩
    rcases hv with ⟨c, hc, rfl⟩ | hv
    · exact .inr ⟨c, lowerAZ_iff.1 hc, rfl⟩
    · left; rw [show v = [] from hv]; simp
  · rintro ⟨d, hd, rfl | ⟨c, hc, rfl⟩⟩
    · exact ⟨t, [], by simp, lang_digits.2 hd, .inr rfl⟩
    · exact ⟨d, [c], rfl, lang_digits.2 hd, .inl ⟨c, lowerAZ_iff.2 hc, rfl⟩⟩

theorem lang_numericId {t : Str} : Lang numericIdRe t ↔ NumericIdText t := by
  constructor
  · rintro ⟨d, v, rfl, hd, hv⟩
    refine ⟨d, lang_digits.1 hd, ?_⟩
    rcases hv with ⟨x, y, rfl, hx, c, hc, rfl⟩ | hv
    · right
      refine ⟨c, lowerAZ_iff.1 hc, ?_⟩
      rcases hx with ⟨z, hz, rfl⟩ | hx
      · right; simp at hz; subst hz; rfl
      · left; rw [show x = [] from hx]; rfl
    · left; rw [show v = [] from hv]; simp
  · rintro ⟨d, hd, rfl | ⟨c, hc, rfl | rfl⟩⟩
    · exact ⟨t, [], by simp, lang_digits.2 hd, .inr rfl⟩
    · exact ⟨d, [c], rfl, lang_digits.2 hd, .inl ⟨[], [c], rfl, .inr rfl, c, lowerAZ_iff.2 hc, rfl⟩⟩
    · exact ⟨d, ['/', c], rfl, lang_digits.2 hd,
        .inl ⟨['/'], [c], rfl, .inl ⟨'/', rfl, rfl⟩, c, lowerAZ_iff.2 hc, rfl⟩⟩

theorem lower_cases {c : Char} (h : LowerLetter c) : [c] ∈ alphabet := by
  obtain ⟨h1, h2⟩ := h
  have h1' : 97 ≤ c.toNat := h1
  have h2' : c.toNat ≤ 122 := h2
  have key : ∀ i : Fin 26, [Char.ofNat (97 + i.val)] ∈ alphabet := by decide +kernel
  have := key ⟨c.toNat - 97, by omega⟩
  simp only at this
  rw [show 97 + (c.toNat - 97) = c.toNat by omega, Char.ofNat_toNat] at this
  exact this

theorem lang_alphabeticId {t : Str} : Lang alphabeticIdRe t ↔ AlphabeticIdText t := by
  constructor
  · intro h
    simp only [alphabeticIdRe, Lang, lang_lit] at h
    rcases h with ⟨c, hc, rfl⟩ | h
    · exact lower_cases (lowerAZ_iff.1 hc)
    · unfold AlphabeticIdText
      rcases h with h | h | h | h | h | h | h | h <;> subst h <;> decide
  · intro h
    simp only [alphabeticIdRe, Lang, lang_lit]
    unfold AlphabeticIdText alphabet at h
    simp only [List.mem_cons, List.not_mem_nil, or_false] at h
    rcases h with h | h | h | h | h | h | h | h | h | h | h | h | h | h | h | h | h | h | h | h | h |
      h | h | h | h | h | h | h | h | h | h | h | h | h <;> subst h <;>
      first
        | exact .inl ⟨_, by decide, rfl⟩
        | (right; simp)

theorem lang_prefixedId {t : Str} : Lang prefixedIdRe t ↔ PrefixedIdText t := by
  constructor
  · rintro ⟨x, y, rfl, hx, c, hc, rfl⟩
    refine ⟨c, lowerAZ_iff.1 hc, ?_⟩
    rcases hx with ⟨b, hb, rfl⟩ | hx
    · right; exact ⟨b, lowerAZ_iff.1 hb, rfl⟩
    · left; rw [show x = [] from hx]; rfl
  · rintro ⟨c, hc, rfl | ⟨b, hb, rfl⟩⟩
    · exact ⟨[], [c], rfl, .inr rfl, c, lowerAZ_iff.2 hc, rfl⟩
    · exact ⟨[b], [c], rfl, .inl ⟨b, lowerAZ_iff.2 hb, rfl⟩, c, lowerAZ_iff.2 hc, rfl⟩

theorem lang_articleId {t : Str} : Lang articleIdRe t ↔ ArticleIdText t := by
  constructor
  · rintro ⟨x, y, rfl, hx, d, v, rfl, hd, hv⟩
    refine ⟨x, d, ?_, lang_digits.1 hd, ?_⟩
    · rcases hx with ⟨b, e, rfl, hb, he⟩ | hx
      · right; refine ⟨b, lang_digits.1 hb, ?_⟩; rw [lang_lit.1 he]
      · left; exact hx
    · rcases hv with ⟨e, f, rfl, he, c, hc, rfl⟩ | hv
      · right; refine ⟨c, upperAZ_iff.1 hc, ?_⟩; rw [lang_lit.1 he]; simp
      · left; rw [show v = [] from hv]; simp
  · rintro ⟨book, d, hb, hd, ht⟩
    refine ⟨book, t.drop book.length, ?_, ?_, ?_⟩
    · rcases ht with rfl | ⟨c, _, rfl⟩ <;> simp
    · rcases hb with rfl | ⟨b, hb, rfl⟩
      · exact .inr rfl
      · exact .inl ⟨b, [':'], rfl, lang_digits.2 hb, lang_lit.2 rfl⟩
    · rcases ht with rfl | ⟨c, hc, rfl⟩
      · simp only [List.drop_left]
        exact ⟨d, [], by simp, lang_digits.2 hd, .inr rfl⟩
      · simp only [List.append_assoc, List.drop_left]
        exact ⟨d, ['/', c], rfl, lang_digits.2 hd,
          .inl ⟨['/'], [c], rfl, lang_lit.2 rfl, c, upperAZ_iff.2 hc, rfl⟩⟩

theorem lang_articleClose {c : Str} :
    Lang (.seqs [.lit str!".", .opt (.cls (· == ' ')), .lit str!"§"]) c ↔ c = str!". §" ∨ c = str!".§" := by
  constructor
  · rintro ⟨x, y, rfl, hx, u, v, rfl, hu, hv⟩
    rw [lang_lit.1 hx, lang_lit.1 hv]
    rcases hu with ⟨z, hz, rfl⟩ | hu
    · left; simp at hz; subst hz; rfl
    · right; rw [show u = [] from hu]; rfl
  · rintro (rfl | rfl)
    · exact ⟨['.'], [' ', '§'], rfl, lang_lit.2 rfl, [' '], ['§'], rfl, .inl ⟨' ', rfl, rfl⟩, lang_lit.2 rfl⟩
    · exact ⟨['.'], ['§'], rfl, lang_lit.2 rfl, [], ['§'], rfl, .inr rfl, lang_lit.2 rfl⟩

theorem digits_not_mem {d : Str} (h : Digits d) {z : Char} (hz : isDigit z = false) : z ∉ d := by
  intro hm
  have := isDigit_spec.2 (h.2 z hm)
  rw [this] at hz; simp at hz

theorem lower_ne {c z : Char} (h : LowerLetter c) (hz : lowerAZ z = false) : z ≠ c := by
  rintro rfl; rw [lowerAZ_iff.2 h] at hz; simp at hz

theorem upper_ne {c z : Char} (h : UpperLetter c) (hz : upperAZ z = false) : z ≠ c := by
  rintro rfl; rw [upperAZ_iff.2 h] at hz; simp at hz

theorem paragraph_unambiguous : Unambiguous paragraphIdRe (lit str!")") := by
  apply unambiguous_lit
  intro t ht
  obtain ⟨d, hd, rfl | ⟨c, hc, rfl⟩⟩ := lang_paragraphId.1 ht
  · exact digits_not_mem hd (by decide)
  · simp [digits_not_mem hd (z := ')') (by decide), lower_ne hc (z := ')') (by decide)]

theorem numeric_unambiguous : Unambiguous numericIdRe (lit str!".") := by
  apply unambiguous_lit
  intro t ht
  obtain ⟨d, hd, rfl | ⟨c, hc, rfl | rfl⟩⟩ := lang_numericId.1 ht
  · exact digits_not_mem hd (by decide)
  · simp [digits_not_mem hd (z := '.') (by decide), lower_ne hc (z := '.') (by decide)]
  · simp [digits_not_mem hd (z := '.') (by decide), lower_ne hc (z := '.') (by decide)]

theorem alphabetic_unambiguous : Unambiguous alphabeticIdRe (lit str!")") := by
  apply unambiguous_lit
  intro t ht
  have key : ∀ t ∈ alphabet, ')' ∉ t := by decide
  exact key t (lang_alphabeticId.1 ht)

theorem prefixed_unambiguous : Unambiguous prefixedIdRe (lit str!")") := by
  apply unambiguous_lit
  intro t ht
  obtain ⟨c, hc, rfl | ⟨b, hb, rfl⟩⟩ := lang_prefixedId.1 ht
  · simp [lower_ne hc (z := ')') (by decide)]
  · simp [lower_ne hc (z := ')') (by decide), lower_ne hb (z := ')') (by decide)]

theorem article_unambiguous :
    Unambiguous articleIdRe (.seqs [.lit str!".", .opt (.cls (· == ' ')), .lit str!"§"]) := by
  apply unambiguous_of '.'
  · intro t ht
    obtain ⟨book, d, hb, hd, ht⟩ := lang_articleId.1 ht
    have h1 : '.' ∉ book := by
      rcases hb with rfl | ⟨b, hb, rfl⟩
      · simp
      · simp [digits_not_mem hb (z := '.') (by decide)]
    have h2 : '.' ∉ d := digits_not_mem hd (by decide)
    rcases ht with rfl | ⟨c, hc, rfl⟩
    · simp [h1, h2]
    · simp [h1, h2, upper_ne hc (z := '.') (by decide)]
  · intro c hc
    rcases lang_articleClose.1 hc with rfl | rfl <;> exact ⟨_, rfl⟩
  · intro c c' w w' hc hc' h
    rcases lang_articleClose.1 hc with rfl | rfl <;> rcases lang_articleClose.1 hc' with rfl | rfl <;>
      simp at h ⊢

/-- `parseHeader_iff` in terms of the specification. -/
theorem parseHeader_spec {T : Type} {parse : Str → Option T} {op : Str} {idRe cl : Re} {last : Nat}
    {bl : List Str} {l : Line} (hlast : last ≠ 1) (hcap : noCap cl = true) (he1 : noEos idRe = true)
    (he2 : noEos cl = true) (hu : Unambiguous idRe cl) {I C : Str → Prop} (hI : ∀ t, Lang idRe t ↔ I t)
    (hC : ∀ c, Lang cl c ↔ C c) {id : T} {rest : Line} :
    l.parseHeader parse (headerRe op idRe cl last) last bl = .ok (some (id, rest)) ↔
      ∃ t r, HeaderLine op I C bl l.content t r ∧ r ≠ [] ∧ parse t = some id ∧
        rest = l.slice ((l.len : Int) - r.length) none := by
  rw [parseHeader_iff hlast hcap he1 he2 hu]
  constructor
  · rintro ⟨t, c, sp, r, h1, h2, h3, h4, h5, h6, h7, h8, h9⟩
    exact ⟨t, r, ⟨c, sp, h1, (hI t).1 h2, (hC c).1 h3, h4, h5.1, h5.2, h8⟩, h7, h6, h9⟩
  · rintro ⟨t, r, ⟨c, sp, h1, h2, h3, h4, h5, h5', h8⟩, h7, h6, h9⟩
    exact ⟨t, c, sp, r, h1, (hI t).2 h2, (hC c).2 h3, h4, ⟨h5, h5'⟩, h6, h7, h8, h9⟩

theorem parseHeader_panic_spec {T : Type} {parse : Str → Option T} {op : Str} {idRe cl : Re} {last : Nat}
    {bl : List Str} {l : Line} (hlast : last ≠ 1) (hcap : noCap cl = true) (he1 : noEos idRe = true)
    (he2 : noEos cl = true) (hu : Unambiguous idRe cl) {I C : Str → Prop} (hI : ∀ t, Lang idRe t ↔ I t)
    (hC : ∀ c, Lang cl c ↔ C c) (hbl : ∀ w ∈ bl, w ≠ []) :
    l.parseHeader parse (headerRe op idRe cl last) last bl = .panic ↔
      ∃ t, HeaderLine op I C bl l.content t [] ∧ (parse t).isSome = true := by
  rw [parseHeader_panic_iff hlast hcap he1 he2 hu]
  constructor
  · rintro ⟨t, c, sp, h1, h2, h3, h4, h5⟩
    exact ⟨t, ⟨c, sp, by simpa using h1, (hI t).1 h2, (hC c).1 h3, h4, by simp, by simp,
      fun w hw hp => hbl w hw (List.prefix_nil.1 hp)⟩, h5⟩
  · rintro ⟨t, ⟨c, sp, h1, h2, h3, h4, _, _, _⟩, h6⟩
    exact ⟨t, c, sp, by simpa using h1, (hI t).2 h2, (hC c).2 h3, h4, h6⟩

theorem parseHeader_ne_err {T : Type} (parse : Str → Option T) (re : Re) (last : Nat) (bl : List Str)
    (l : Line) : l.parseHeader parse re last bl ≠ .err := by
  unfold Line.parseHeader
  split
  · simp
  · split
    · simp
    · split
      · simp
      · split
        · simp
        · unfold Line.sliceBytes
          split
          · simp
          · simp only
            split
            · simp only [Res.bind_ok]; split <;> simp
            · split
              · simp
              · simp only [Res.bind_ok]; split <;> simp

end HunLaw
