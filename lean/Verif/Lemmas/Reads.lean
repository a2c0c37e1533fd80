import Verif.Lemmas.Peg

/-! How the parsing expressions take the beginning of a text. -/

set_option autoImplicit false

namespace HunLaw.Grammar

open HunLaw P

variable {α β : Type}

/-- The parser at byte `n` takes the text `t` from before `rest`. -/
def Reads (p : P α) (n : Nat) (t rest : Str) (a : α) : Prop :=
  p.run ⟨n, t ++ rest⟩ = some (a, ⟨n + byteLen t, rest⟩)

/-- The parser does not fit at byte `n`. -/
def Fails (p : P α) (n : Nat) (s : Str) : Prop := p.run ⟨n, s⟩ = none

theorem bind_run (p : P α) (f : α → P β) (i : Inp) :
    (p >>= f).run i = match p.run i with
      | some (a, j) => (f a).run j
      | none => none := rfl

theorem pure_run (a : α) (i : Inp) : (pure a : P α).run i = some (a, i) := rfl

theorem alt_run (p q : P α) (i : Inp) :
    (p <|> q).run i = match p.run i with
      | some r => some r
      | none => q.run i := rfl

theorem Reads.pure {n : Nat} {rest : Str} (a : α) : Reads (Pure.pure a : P α) n [] rest a := by
  simp [Reads, pure_run, byteLen]

theorem Reads.bind {p : P α} {f : α → P β} {n : Nat} {t u rest : Str} {a : α} {b : β}
    (h1 : Reads p n t (u ++ rest) a) (h2 : Reads (f a) (n + byteLen t) u rest b) :
    Reads (p >>= f) n (t ++ u) rest b := by
  unfold Reads at *
  rw [bind_run, List.append_assoc, h1]
  simp only
  rw [h2, byteLen_append', Nat.add_assoc]

/-- The rest of the parser takes nothing more. -/
theorem Reads.bind_last {p : P α} {f : α → P β} {n : Nat} {t rest : Str} {a : α} {b : β}
    (h1 : Reads p n t rest a) (h2 : Reads (f a) (n + byteLen t) [] rest b) : Reads (p >>= f) n t rest b := by
  have := Reads.bind (u := []) h1 h2
  simpa using this

/-- The first part of the parser takes nothing. -/
theorem Reads.bind_first {p : P α} {f : α → P β} {n : Nat} {t rest : Str} {a : α} {b : β}
    (h1 : Reads p n [] (t ++ rest) a) (h2 : Reads (f a) n t rest b) : Reads (p >>= f) n t rest b := by
  have := Reads.bind (t := []) h1 (by simpa [byteLen] using h2)
  simpa using this

theorem Reads.map {p : P α} {g : α → β} {n : Nat} {t rest : Str} {a : α}
    (h : Reads p n t rest a) : Reads (p >>= fun x => Pure.pure (g x)) n t rest (g a) :=
  h.bind_last (.pure _)

theorem Fails.bind {p : P α} {f : α → P β} {n : Nat} {s : Str} (h : Fails p n s) : Fails (p >>= f) n s := by
  unfold Fails at *; rw [bind_run, h]

theorem Fails.bind_of {p : P α} {f : α → P β} {n : Nat} {t rest : Str} {a : α} (h1 : Reads p n t rest a)
    (h2 : Fails (f a) (n + byteLen t) rest) : Fails (p >>= f) n (t ++ rest) := by
  unfold Fails Reads at *; rw [bind_run, h1]; exact h2

theorem Reads.left {p q : P α} {n : Nat} {t rest : Str} {a : α} (h : Reads p n t rest a) :
    Reads (p <|> q) n t rest a := by
  unfold Reads at *; rw [alt_run, h]

theorem Reads.right {p q : P α} {n : Nat} {t rest : Str} {a : α} (h : Fails p n (t ++ rest))
    (h2 : Reads q n t rest a) : Reads (p <|> q) n t rest a := by
  unfold Reads Fails at *; rw [alt_run, h]; exact h2

theorem Fails.alt {p q : P α} {n : Nat} {s : Str} (h : Fails p n s) (h2 : Fails q n s) : Fails (p <|> q) n s := by
  unfold Fails at *; rw [alt_run, h]; exact h2

theorem Reads.opt_some {p : P α} {n : Nat} {t rest : Str} {a : α} (h : Reads p n t rest a) :
    Reads (opt p) n t rest (some a) := by
  unfold Reads at *; simp only [P.opt, optRun]; rw [h]

theorem Reads.opt_none {p : P α} {n : Nat} {rest : Str} (h : Fails p n rest) :
    Reads (opt p) n [] rest none := by
  unfold Reads Fails at *; simp only [P.opt, optRun, List.nil_append]; rw [h]; simp [byteLen]

/-- The text does not begin with whitespace. -/
def NoWs (s : Str) : Prop := ∀ c, s.head? = some c → isWs c = false

theorem takeWhile_noWs {s : Str} (h : NoWs s) : s.takeWhile isWs = [] := by
  cases s with
  | nil => rfl
  | cons c s => rw [List.takeWhile_cons, h c rfl]; rfl

theorem takeWhile_append_noWs {w s : Str} (hw : ∀ c ∈ w, isWs c = true) (h : NoWs s) :
    (w ++ s).takeWhile isWs = w := by
  induction w with
  | nil => exact takeWhile_noWs h
  | cons c w ih =>
    rw [List.cons_append, List.takeWhile_cons, hw c (List.mem_cons_self ..), if_pos rfl,
      ih fun c hc => hw c (List.mem_cons_of_mem _ hc)]

theorem Reads.ws {n : Nat} {w rest : Str} (hw : ∀ c ∈ w, isWs c = true) (h : NoWs rest) :
    Reads P.ws n w rest () := by
  simp only [Reads, P.ws, takeWhile_append_noWs hw h, Inp.drop]
  simp

/-- A called rule after whitespace. -/
theorem Reads.call_ws {p : P α} {n : Nat} {w t rest : Str} {a : α} (hw : ∀ c ∈ w, isWs c = true)
    (h : NoWs (t ++ rest)) (h2 : Reads p (n + byteLen w) t rest a) : Reads (P.call p) n (w ++ t) rest a :=
  (Reads.ws hw h).bind h2

theorem Reads.call {p : P α} {n : Nat} {t rest : Str} {a : α} (h : NoWs (t ++ rest)) (h2 : Reads p n t rest a) :
    Reads (P.call p) n t rest a :=
  Reads.call_ws (w := []) (by simp) h (by simpa [byteLen] using h2)

theorem Reads.call_space {p : P α} {n : Nat} {t rest : Str} {a : α} (h : NoWs (t ++ rest))
    (h2 : Reads p (n + 1) t rest a) : Reads (P.call p) n (' ' :: t) rest a :=
  Reads.call_ws (w := [' ']) (by decide) h h2

/-- The text without the whitespace before it. -/
def skipWs (s : Str) : Str := s.dropWhile isWs

theorem noWs_skipWs (s : Str) : NoWs (skipWs s) := by
  intro c hc
  unfold skipWs at hc
  cases h : isWs c with
  | false => rfl
  | true =>
    have := List.head?_dropWhile_not isWs s
    rw [hc] at this
    simp [h] at this

theorem skipWs_split (s : Str) : ∃ w, (∀ c ∈ w, isWs c = true) ∧ s = w ++ skipWs s := by
  refine ⟨s.takeWhile isWs, ?_, (List.takeWhile_append_dropWhile).symm⟩
  intro c hc
  have := List.all_takeWhile (l := s) (p := isWs)
  exact List.all_eq_true.1 this c hc

theorem skipWs_noWs {s : Str} (h : NoWs s) : skipWs s = s := by
  cases s with
  | nil => rfl
  | cons c s => unfold skipWs; rw [List.dropWhile_cons, h c rfl]; rfl

theorem Fails.call {p : P α} {n : Nat} {s : Str} (h : ∀ n, Fails p n (skipWs s)) : Fails (P.call p) n s := by
  obtain ⟨w, hw, e⟩ := skipWs_split s
  have h1 := Reads.ws (n := n) hw (noWs_skipWs s)
  have := Fails.bind_of (f := fun _ => p) h1 (h _)
  rw [← e] at this
  exact this

theorem Fails.call_noWs {p : P α} {n : Nat} {s : Str} (hs : NoWs s) (h : ∀ n, Fails p n s) : Fails (P.call p) n s :=
  Fails.call fun n => by rw [skipWs_noWs hs]; exact h n

theorem Fails.call_space {p : P α} {n : Nat} {s : Str} (hs : NoWs s) (h : ∀ n, Fails p n s) :
    Fails (P.call p) n (' ' :: s) :=
  Fails.call fun n => by
    have : skipWs (' ' :: s) = s := by
      unfold skipWs; rw [List.dropWhile_cons]; exact skipWs_noWs hs
    rw [this]; exact h n

/-! ### literals -/

theorem Reads.lit (s : Str) {n : Nat} {rest : Str} : Reads (P.lit s) n s rest () := by
  have : s.isPrefixOf (s ++ rest) = true := by rw [List.isPrefixOf_iff_prefix]; exact List.prefix_append ..
  simp only [Reads, P.lit, this, Inp.drop, if_true]
  simp

theorem Fails.lit {s : Str} {n : Nat} {r : Str} (h : ¬ s <+: r) : Fails (P.lit s) n r := by
  have : s.isPrefixOf r = false := by rw [Bool.eq_false_iff, Ne, List.isPrefixOf_iff_prefix]; exact h
  simp only [Fails, P.lit, this, Bool.false_eq_true, if_false]

/-- The first characters differ. -/
theorem not_prefix_of_head {s r : Str} (hs : s ≠ []) (h : s.head? ≠ r.head?) : ¬ s <+: r := by
  rintro ⟨x, rfl⟩
  cases s with
  | nil => exact hs rfl
  | cons c s => simp at h

theorem Fails.lit_head {s : Str} {n : Nat} {r : Str} (hs : s ≠ []) (h : s.head? ≠ r.head?) : Fails (P.lit s) n r :=
  Fails.lit (not_prefix_of_head hs h)

theorem Fails.lits {l : List Str} {n : Nat} {r : Str} (h : ∀ s ∈ l, ¬ s <+: r) : Fails (P.lits l) n r := by
  induction l with
  | nil => rfl
  | cons s l ih =>
    exact Fails.alt (p := P.lit s) (Fails.lit (h s (List.mem_cons_self ..)))
      (ih fun s hs => h s (List.mem_cons_of_mem _ hs))

/-- The literal `s`, if none of those before it fits. -/
theorem Reads.lits {l k : List Str} {s : Str} {n : Nat} {rest : Str} (h : ∀ u ∈ l, ¬ u <+: s ++ rest) :
    Reads (P.lits (l ++ s :: k)) n s rest () := by
  induction l with
  | nil => exact Reads.left (p := P.lit s) (Reads.lit s)
  | cons u l ih =>
    exact Reads.right (p := P.lit u) (Fails.lit (h u (List.mem_cons_self ..)))
      (ih fun u hu => h u (List.mem_cons_of_mem _ hu))

theorem Reads.tok {s : Str} {n : Nat} {rest : Str} (h : NoWs (s ++ rest)) : Reads (P.tok s) n s rest () :=
  Reads.call h (Reads.lit s)

theorem Reads.tok_space {s : Str} {n : Nat} {rest : Str} (h : NoWs (s ++ rest)) :
    Reads (P.tok s) n (' ' :: s) rest () :=
  Reads.call_space h (Reads.lit s)

theorem Fails.tok {s : Str} {n : Nat} {r : Str} (hs : s ≠ []) (h : s.head? ≠ (skipWs r).head?) :
    Fails (P.tok s) n r :=
  Fails.call fun _ => Fails.lit_head hs h

theorem Fails.toks {l : List Str} {n : Nat} {r : Str} (h : ∀ s ∈ l, ¬ s <+: skipWs r) : Fails (P.toks l) n r :=
  Fails.call fun _ => Fails.lits h

/-! ### characters -/

theorem Reads.char {f : Char → Bool} {n : Nat} {c : Char} {rest : Str} (h : f c = true) :
    Reads (P.char f) n [c] rest c := by
  simp [Reads, P.char, charRun, h, Inp.drop, byteLen]

theorem Fails.char {f : Char → Bool} {n : Nat} {s : Str} (h : ∀ c, s.head? = some c → f c = false) :
    Fails (P.char f) n s := by
  cases s with
  | nil => rfl
  | cons c s => simp [Fails, P.char, charRun, h c rfl]

theorem manyRun_succ (p : P α) (m : Nat) : ∀ i : Inp, i.rest.length < m → manyRun p (m + 1) i = manyRun p m i := by
  induction m with
  | zero => intro i h; omega
  | succ m ih =>
    intro i h
    rw [manyRun, manyRun]
    rcases hp : p.run i with _ | ⟨a, j⟩
    · rfl
    · simp only
      split
      · rw [ih j (by omega)]
      · rfl

theorem manyRun_more (p : P α) (i : Inp) (m : Nat) (h : i.rest.length < m) :
    manyRun p m i = manyRun p (i.rest.length + 1) i := by
  induction m with
  | zero => omega
  | succ m ih =>
    rcases Nat.lt_or_ge i.rest.length m with hm | hm
    · rw [manyRun_succ p m i hm, ih hm]
    · rw [show m = i.rest.length by omega]

theorem Reads.many_nil {p : P α} {n : Nat} {rest : Str} (h : Fails p n rest) : Reads (P.many p) n [] rest [] := by
  unfold Fails at h
  simp only [Reads, P.many, List.nil_append, manyRun, h]
  simp [byteLen]

theorem Reads.many_cons {p : P α} {n : Nat} {t u rest : Str} {a : α} {l : List α} (ht : t ≠ [])
    (h1 : Reads p n t (u ++ rest) a) (h2 : Reads (P.many p) (n + byteLen t) u rest l) :
    Reads (P.many p) n (t ++ u) rest (a :: l) := by
  unfold Reads at *
  simp only [P.many, Option.some.injEq] at h2 ⊢
  rw [List.append_assoc, manyRun, h1]
  have hlen : (u ++ rest).length < (t ++ (u ++ rest)).length := by
    have : 0 < t.length := List.length_pos_iff.2 ht
    simp; omega
  simp only [hlen, if_true]
  rw [manyRun_more p _ _ hlen, h2]
  simp [byteLen_append', Nat.add_assoc]

theorem Reads.many_chars {f : Char → Bool} {n : Nat} {t rest : Str} (h : ∀ c ∈ t, f c = true)
    (h2 : ∀ c, rest.head? = some c → f c = false) : Reads (P.many (P.char f)) n t rest t := by
  induction t generalizing n with
  | nil => exact .many_nil (.char h2)
  | cons c t ih =>
    exact Reads.many_cons (t := [c]) (by simp) (.char (h c (List.mem_cons_self ..)))
      (ih fun c hc => h c (List.mem_cons_of_mem _ hc))

theorem Reads.many1_chars {f : Char → Bool} {n : Nat} {t rest : Str} (ht : t ≠ []) (h : ∀ c ∈ t, f c = true)
    (h2 : ∀ c, rest.head? = some c → f c = false) : Reads (P.many1 (P.char f)) n t rest t := by
  cases t with
  | nil => exact absurd rfl ht
  | cons c t =>
    exact Reads.bind (t := [c]) (.char (h c (List.mem_cons_self ..)))
      ((Reads.many_chars (fun c hc => h c (List.mem_cons_of_mem _ hc)) h2).map)

theorem Fails.many1 {p : P α} {n : Nat} {s : Str} (h : Fails p n s) : Fails (P.many1 p) n s := Fails.bind h

theorem Reads.slice {p : P α} {n : Nat} {t rest : Str} {a : α} (h : Reads p n t rest a) :
    Reads (P.slice p) n t rest t := by
  unfold Reads at *
  simp only [P.slice, sliceRun, h]
  simp

theorem Fails.slice {p : P α} {n : Nat} {s : Str} (h : Fails p n s) : Fails (P.slice p) n s := by
  unfold Fails at *; simp only [P.slice, sliceRun, h]

theorem Reads.positioned {p : P (Pos → α)} {n : Nat} {t rest : Str} {f : Pos → α} (h : Reads p n t rest f) :
    Reads (P.positioned p) n t rest (f ⟨n, n + byteLen t⟩) := by
  unfold Reads at *
  simp only [P.positioned, positionedRun, h]

theorem Fails.positioned {p : P (Pos → α)} {n : Nat} {s : Str} (h : Fails p n s) :
    Fails (P.positioned p) n s := by
  unfold Fails at *; simp only [P.positioned, positionedRun, h]

end HunLaw.Grammar
