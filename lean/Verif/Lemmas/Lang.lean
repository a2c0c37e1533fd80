import Verif.Lemmas.Regex

/-! The language of a pattern, and that running the pattern finds exactly its words. -/

set_option autoImplicit false

namespace HunLaw.Re

/-- The words a pattern matches, leaving out `$`. -/
def Lang : Re → Str → Prop
  | eps, s => s = []
  | cls p, s => ∃ c, p c = true ∧ s = [c]
  | many p, s => ∀ c ∈ s, p c = true
  | seq a b, s => ∃ u v, s = u ++ v ∧ Lang a u ∧ Lang b v
  | alt a b, s => Lang a s ∨ Lang b s
  | cap _ r, s => Lang r s
  | eos, s => s = []

/-- No `$` in the pattern. -/
def noEos : Re → Bool
  | eps => true
  | cls _ => true
  | many _ => true
  | seq a b => noEos a && noEos b
  | alt a b => noEos a && noEos b
  | cap _ r => noEos r
  | eos => false

/-- No group in the pattern. -/
def noCap : Re → Bool
  | eps => true
  | cls _ => true
  | many _ => true
  | seq a b => noCap a && noCap b
  | alt a b => noCap a && noCap b
  | cap _ _ => false
  | eos => true

theorem lang_sound {r : Re} {st st' : MState} (h : st' ∈ run r st) :
    ∃ t, Lang r t ∧ st'.pre = st.pre ++ t ∧ st.rest = t ++ st'.rest := by
  induction r generalizing st st' with
  | eps => simp [run] at h; subst h; exact ⟨[], rfl, by simp, rfl⟩
  | cls p =>
    simp only [run] at h
    split at h
    · rename_i c cs hr
      split at h
      · rename_i hp
        simp at h; subst h
        exact ⟨[c], ⟨c, hp, rfl⟩, rfl, by simp [hr]⟩
      · simp at h
    · simp at h
  | many p =>
    simp only [run, List.mem_map] at h
    obtain ⟨ab, hab, rfl⟩ := h
    obtain ⟨h1, h2⟩ := mem_manySplits hab
    exact ⟨ab.1, h2, rfl, h1⟩
  | seq a b iha ihb =>
    simp only [run, List.mem_flatMap] at h
    obtain ⟨s1, h1, h2⟩ := h
    obtain ⟨t1, l1, e1, e2⟩ := iha h1
    obtain ⟨t2, l2, e3, e4⟩ := ihb h2
    exact ⟨t1 ++ t2, ⟨t1, t2, rfl, l1, l2⟩, by simp [e3, e1], by simp [e2, e4]⟩
  | alt a b iha ihb =>
    simp only [run, List.mem_append] at h
    rcases h with h | h
    · obtain ⟨t, l, e⟩ := iha h; exact ⟨t, .inl l, e⟩
    · obtain ⟨t, l, e⟩ := ihb h; exact ⟨t, .inr l, e⟩
  | cap n r ih =>
    simp only [run, List.mem_map] at h
    obtain ⟨s1, h1, rfl⟩ := h
    obtain ⟨t, l, e⟩ := ih h1
    exact ⟨t, l, e⟩
  | eos =>
    simp only [run] at h
    split at h
    · simp at h; subst h; exact ⟨[], rfl, by simp, rfl⟩
    · simp at h

theorem lang_complete {r : Re} (hn : noEos r = true) {t : Str} (h : Lang r t) (pre rest : Str)
    (caps : List (Nat × Str × Str)) :
    ∃ caps', ⟨pre ++ t, rest, caps'⟩ ∈ run r ⟨pre, t ++ rest, caps⟩ := by
  induction r generalizing t pre rest caps with
  | eps => simp only [Lang] at h; subst h; exact ⟨caps, by simp [run]⟩
  | cls p =>
    obtain ⟨c, hp, rfl⟩ := h
    exact ⟨caps, by simp [run, hp]⟩
  | many p =>
    refine ⟨caps, ?_⟩
    simp only [run, List.mem_map]
    exact ⟨(t, rest), mem_manySplits_iff.2 ⟨rfl, h⟩, rfl⟩
  | seq a b iha ihb =>
    simp only [noEos, Bool.and_eq_true] at hn
    obtain ⟨u, v, rfl, hu, hv⟩ := h
    obtain ⟨c1, h1⟩ := iha hn.1 hu pre (v ++ rest) caps
    obtain ⟨c2, h2⟩ := ihb hn.2 hv (pre ++ u) rest c1
    refine ⟨c2, ?_⟩
    simp only [run, List.mem_flatMap]
    refine ⟨_, by simpa using h1, by simpa using h2⟩
  | alt a b iha ihb =>
    simp only [noEos, Bool.and_eq_true] at hn
    simp only [run, List.mem_append]
    rcases h with h | h
    · obtain ⟨c, hc⟩ := iha hn.1 h pre rest caps; exact ⟨c, .inl hc⟩
    · obtain ⟨c, hc⟩ := ihb hn.2 h pre rest caps; exact ⟨c, .inr hc⟩
  | cap n r ih =>
    obtain ⟨c, hc⟩ := ih hn h pre rest caps
    simp only [run, List.mem_map]
    exact ⟨_, _, hc, rfl⟩
  | eos => simp [noEos] at hn

theorem caps_of_noCap {r : Re} (hn : noCap r = true) {st st' : MState} (h : st' ∈ run r st) :
    st'.caps = st.caps := by
  induction r generalizing st st' with
  | eps => simp [run] at h; subst h; rfl
  | cls p =>
    simp only [run] at h
    split at h
    · split at h
      · simp at h; subst h; rfl
      · simp at h
    · simp at h
  | many p =>
    simp only [run, List.mem_map] at h
    obtain ⟨ab, hab, rfl⟩ := h; rfl
  | seq a b iha ihb =>
    simp only [noCap, Bool.and_eq_true] at hn
    simp only [run, List.mem_flatMap] at h
    obtain ⟨s1, h1, h2⟩ := h
    rw [ihb hn.2 h2, iha hn.1 h1]
  | alt a b iha ihb =>
    simp only [noCap, Bool.and_eq_true] at hn
    simp only [run, List.mem_append] at h
    rcases h with h | h
    · exact iha hn.1 h
    · exact ihb hn.2 h
  | cap n r ih => simp [noCap] at hn
  | eos =>
    simp only [run] at h
    split at h
    · simp at h; subst h; rfl
    · simp at h

theorem lit_noEos (s : Str) : noEos (lit s) = true := by
  induction s with
  | nil => rfl
  | cons c cs ih => cases cs with
    | nil => rfl
    | cons d ds => simp [lit, noEos, ih]

theorem lit_noCap (s : Str) : noCap (lit s) = true := by
  induction s with
  | nil => rfl
  | cons c cs ih => cases cs with
    | nil => rfl
    | cons d ds => simp [lit, noCap, ih]

theorem lang_lit {s t : Str} : Lang (lit s) t ↔ t = s := by
  induction s generalizing t with
  | nil => simp [lit, Lang]
  | cons c cs ih => cases cs with
    | nil => simp [lit, Lang]
    | cons d ds =>
      simp only [lit, Lang, ih]
      constructor
      · rintro ⟨u, v, rfl, ⟨c', hc, rfl⟩, rfl⟩
        simp at hc; subst hc; rfl
      · rintro rfl
        exact ⟨[c], d :: ds, rfl, ⟨c, by simp, rfl⟩, rfl⟩

theorem lang_many1 {p : Char → Bool} {t : Str} : Lang (many1 p) t ↔ t ≠ [] ∧ ∀ c ∈ t, p c = true := by
  simp only [many1, Lang]
  constructor
  · rintro ⟨u, v, rfl, ⟨c, hc, rfl⟩, h⟩
    refine ⟨by simp, ?_⟩
    intro d hd
    simp only [List.cons_append, List.nil_append, List.mem_cons] at hd
    rcases hd with rfl | hd
    · exact hc
    · exact h d hd
  · rintro ⟨h1, h2⟩
    cases t with
    | nil => exact absurd rfl h1
    | cons c cs => exact ⟨[c], cs, rfl, ⟨c, h2 c (by simp), rfl⟩, fun d hd => h2 d (by simp [hd])⟩

theorem lang_opt {r : Re} {t : Str} : Lang (opt r) t ↔ Lang r t ∨ t = [] := Iff.rfl

theorem flatMap_head_mem {α β : Type} {l : List α} {f : α → List β} {y : β}
    (h : (l.flatMap f).head? = some y) : ∃ x ∈ l, (f x).head? = some y := by
  induction l with
  | nil => simp at h
  | cons a as ih =>
    simp only [List.flatMap_cons, List.head?_append] at h
    cases hf : (f a).head? with
    | none =>
      rw [hf] at h; simp at h
      obtain ⟨x, hx, hy⟩ := ih (by simpa using h)
      exact ⟨x, by simp [hx], hy⟩
    | some b =>
      rw [hf] at h; simp at h; subst h
      exact ⟨a, by simp, hf⟩

theorem run_seq_mem {a b : Re} {st st2 : MState} (h : (run (.seq a b) st).head? = some st2) :
    ∃ st1 ∈ run a st, (run b st1).head? = some st2 := by
  simp only [run] at h; exact flatMap_head_mem h

end HunLaw.Re
