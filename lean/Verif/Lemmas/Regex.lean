import Verif.Model.Regex
import Verif.Lemmas.Str

/-! Lemmas on the regular expression model. -/

set_option autoImplicit false

namespace HunLaw.Re

theorem flatMap_head? {α β : Type} {l : List α} {f : α → List β} {x : α} {y : β}
    (h : l.head? = some x) (hy : (f x).head? = some y) : (l.flatMap f).head? = some y := by
  cases l with
  | nil => simp at h
  | cons a as =>
    simp at h; subst h
    cases hf : f a with
    | nil => simp [hf] at hy
    | cons b bs => simp [hf] at hy; simp [hf, hy]

/-- Sequencing the preferred matches. -/
theorem run_seq_head {a b : Re} {st st1 st2 : MState} (h1 : (run a st).head? = some st1)
    (h2 : (run b st1).head? = some st2) : (run (.seq a b) st).head? = some st2 := by
  simp only [run]; exact flatMap_head? h1 h2

theorem run_cap_head {n : Nat} {r : Re} {st st1 : MState} (h : (run r st).head? = some st1) :
    (run (.cap n r) st).head? =
      some ⟨st1.pre, st1.rest, (n, st.pre, st1.pre.drop st.pre.length) :: st1.caps⟩ := by
  simp only [run, List.head?_map, h, Option.map_some]

theorem run_alt_head_left {a b : Re} {st st1 : MState} (h : (run a st).head? = some st1) :
    (run (.alt a b) st).head? = some st1 := by
  simp only [run, List.head?_append, h, Option.some_or]

theorem run_alt_head_right {a b : Re} {st : MState} (h : run a st = []) :
    (run (.alt a b) st).head? = (run b st).head? := by
  simp only [run, h, List.nil_append]

theorem run_cls_head {p : Char → Bool} {pre cs : Str} {c : Char} {caps : List (Nat × Str × Str)}
    (h : p c = true) : (run (.cls p) ⟨pre, c :: cs, caps⟩).head? = some ⟨pre ++ [c], cs, caps⟩ := by
  simp [run, h]

theorem manySplits_head {p : Char → Bool} {a b : Str} (ha : ∀ c ∈ a, p c = true)
    (hb : ∀ c, b.head? = some c → p c = false) : (manySplits p (a ++ b)).head? = some (a, b) := by
  induction a with
  | nil =>
    cases b with
    | nil => simp [manySplits]
    | cons c cs => have := hb c rfl; simp [manySplits, this]
  | cons x xs ih =>
    have hx := ha x (by simp)
    have := ih (fun c hc => ha c (by simp [hc]))
    simp only [List.cons_append, manySplits, hx, if_true, List.head?_append, List.head?_map, this,
      Option.map_some, Option.some_or]

theorem run_many_head {p : Char → Bool} {pre a b : Str} {caps : List (Nat × Str × Str)}
    (ha : ∀ c ∈ a, p c = true) (hb : ∀ c, b.head? = some c → p c = false) :
    (run (.many p) ⟨pre, a ++ b, caps⟩).head? = some ⟨pre ++ a, b, caps⟩ := by
  simp only [run, List.head?_map, manySplits_head ha hb, Option.map_some]

theorem run_many1_head {p : Char → Bool} {pre a b : Str} {caps : List (Nat × Str × Str)}
    (hn : a ≠ []) (ha : ∀ c ∈ a, p c = true) (hb : ∀ c, b.head? = some c → p c = false) :
    (run (many1 p) ⟨pre, a ++ b, caps⟩).head? = some ⟨pre ++ a, b, caps⟩ := by
  cases a with
  | nil => exact absurd rfl hn
  | cons x xs =>
    refine run_seq_head (run_cls_head (ha x (by simp))) ?_
    have := run_many_head (pre := pre ++ [x]) (caps := caps) (a := xs) (b := b)
      (fun c hc => ha c (by simp [hc])) hb
    simpa using this

theorem run_lit {s pre rest : Str} {caps : List (Nat × Str × Str)} :
    run (lit s) ⟨pre, s ++ rest, caps⟩ = [⟨pre ++ s, rest, caps⟩] := by
  induction s generalizing pre with
  | nil => simp [lit, run]
  | cons c cs ih =>
    cases cs with
    | nil => simp [lit, run]
    | cons d ds =>
      simp only [lit, run, List.cons_append, beq_self_eq_true, if_true, List.flatMap_cons,
        List.flatMap_nil, List.append_nil]
      have := ih (pre := pre ++ [c])
      simp only [List.cons_append] at this
      rw [this]; simp

theorem run_lit_head {s pre rest : Str} {caps : List (Nat × Str × Str)} :
    (run (lit s) ⟨pre, s ++ rest, caps⟩).head? = some ⟨pre ++ s, rest, caps⟩ := by
  rw [run_lit]; rfl

/-! Soundness: what any match tells. -/

theorem mem_manySplits {p : Char → Bool} {s : Str} {ab : Str × Str} (h : ab ∈ manySplits p s) :
    s = ab.1 ++ ab.2 ∧ ∀ c ∈ ab.1, p c = true := by
  induction s generalizing ab with
  | nil => simp [manySplits] at h; subst h; simp
  | cons c cs ih =>
    simp only [manySplits] at h
    split at h
    · rename_i hp
      rw [List.mem_append, List.mem_map] at h
      rcases h with ⟨x, hx, rfl⟩ | h
      · obtain ⟨h1, h2⟩ := ih hx
        refine ⟨by simp [← h1], ?_⟩
        intro d hd
        simp only [List.mem_cons] at hd
        rcases hd with rfl | hd
        · exact hp
        · exact h2 d hd
      · simp at h; subst h; simp
    · simp at h; subst h; simp

theorem mem_manySplits_iff {p : Char → Bool} {s : Str} {ab : Str × Str} :
    ab ∈ manySplits p s ↔ s = ab.1 ++ ab.2 ∧ ∀ c ∈ ab.1, p c = true := by
  refine ⟨mem_manySplits, ?_⟩
  rintro ⟨rfl, h⟩
  obtain ⟨a, b⟩ := ab
  simp only at h ⊢
  induction a with
  | nil => cases b with
    | nil => simp [manySplits]
    | cons c cs => simp only [List.nil_append, manySplits]; split <;> simp
  | cons x xs ih =>
    have hx := h x (by simp)
    have := ih (fun c hc => h c (by simp [hc]))
    simp only [List.cons_append, manySplits, hx, if_true]
    rw [List.mem_append, List.mem_map]
    exact .inl ⟨_, this, rfl⟩

end HunLaw.Re
