import Verif.Model.Peg

/-! Lemmas about the parsing expressions: what a successful run says about the parts, how the context grows, and
positions in text order. -/

set_option autoImplicit false

namespace HunLaw.Grammar

open HunLaw

variable {α β : Type}

/-! ### Runs -/

theorem P.run_pure {a b : α} {i j : Inp} : (pure a : P α).run i = some (b, j) ↔ b = a ∧ j = i := by
  show some (a, i) = some (b, j) ↔ _
  simp only [Option.some.injEq, Prod.mk.injEq]
  exact ⟨fun h => ⟨h.1.symm, h.2.symm⟩, fun h => ⟨h.1.symm, h.2.symm⟩⟩

theorem P.run_bind {p : P α} {f : α → P β} {i k : Inp} {b : β} :
    (p >>= f).run i = some (b, k) ↔ ∃ a j, p.run i = some (a, j) ∧ (f a).run j = some (b, k) := by
  show P.bindRun p f i = _ ↔ _
  unfold P.bindRun
  rcases hp : p.run i with _ | ⟨a, j⟩
  · simp
  · simp only [Option.some.injEq, Prod.mk.injEq]
    exact ⟨fun h => ⟨a, j, ⟨rfl, rfl⟩, h⟩, by rintro ⟨_, _, ⟨rfl, rfl⟩, h⟩; exact h⟩

theorem P.run_alt {p q : P α} {i j : Inp} {a : α} (h : (p <|> q).run i = some (a, j)) :
    p.run i = some (a, j) ∨ q.run i = some (a, j) := by
  change P.altRun p q i = _ at h
  unfold P.altRun at h
  rcases hp : p.run i with _ | r <;> rw [hp] at h
  · exact .inr h
  · exact .inl h

theorem P.run_opt {p : P α} {i j : Inp} {a : Option α} (h : (P.opt p).run i = some (a, j)) :
    (∃ b, a = some b ∧ p.run i = some (b, j)) ∨ (a = none ∧ j = i) := by
  change P.optRun p i = _ at h
  unfold P.optRun at h
  rcases hp : p.run i with _ | ⟨b, k⟩ <;> rw [hp] at h
  · cases h; exact .inr ⟨rfl, rfl⟩
  · cases h; exact .inl ⟨b, rfl, rfl⟩

theorem P.run_call {p : P α} {i j : Inp} {a : α} (h : (P.call p).run i = some (a, j)) :
    ∃ k, i.Step k ∧ p.run k = some (a, j) := by
  obtain ⟨b, k, h1, h2⟩ := P.run_bind.1 h
  exact ⟨k, P.ws.adv _ _ _ h1, h2⟩

theorem P.run_positioned {p : P (Pos → α)} {i j : Inp} {a : α} (h : (P.positioned p).run i = some (a, j)) :
    ∃ f, p.run i = some (f, j) ∧ a = f ⟨i.pos, j.pos⟩ := by
  change P.positionedRun p i = _ at h
  unfold P.positionedRun at h
  rcases hp : p.run i with _ | ⟨f, k⟩ <;> rw [hp] at h
  · simp at h
  · cases h; exact ⟨f, rfl, rfl⟩

theorem PS.run_pure {a b : α} {i j : Inp} {s t : St} :
    (pure a : PS α).run i s = (some (b, j), t) ↔ b = a ∧ j = i ∧ t = s := by
  show (some (a, i), s) = (some (b, j), t) ↔ _
  simp only [Prod.mk.injEq, Option.some.injEq]
  exact ⟨fun h => ⟨h.1.1.symm, h.1.2.symm, h.2.symm⟩, fun h => ⟨⟨h.1.symm, h.2.1.symm⟩, h.2.2.symm⟩⟩

theorem PS.run_bind {p : PS α} {f : α → PS β} {i k : Inp} {s u : St} {b : β} :
    (p >>= f).run i s = (some (b, k), u) ↔
      ∃ a j t, p.run i s = (some (a, j), t) ∧ (f a).run j t = (some (b, k), u) := by
  show PS.bindRun p f i s = _ ↔ _
  unfold PS.bindRun
  rcases hp : p.run i s with ⟨_ | ⟨a, j⟩, t⟩
  · simp
  · simp only [Option.some.injEq, Prod.mk.injEq]
    exact ⟨fun h => ⟨a, j, t, ⟨⟨rfl, rfl⟩, rfl⟩, h⟩, by rintro ⟨_, _, _, ⟨⟨rfl, rfl⟩, rfl⟩, h⟩; exact h⟩

theorem PS.run_lift {p : P α} {i j : Inp} {s t : St} {a : α} :
    (PS.lift p).run i s = (some (a, j), t) ↔ p.run i = some (a, j) ∧ t = s := by
  show (p.run i, s) = _ ↔ _
  simp only [Prod.mk.injEq]
  exact ⟨fun h => ⟨h.1, h.2.symm⟩, fun h => ⟨h.1, h.2.symm⟩⟩

theorem PS.run_opt {p : PS α} {i j : Inp} {s t : St} {a : Option α} (h : (PS.opt p).run i s = (some (a, j), t)) :
    (∃ b, a = some b ∧ p.run i s = (some (b, j), t)) ∨ (a = none ∧ j = i ∧ p.run i s = (none, t)) := by
  change PS.optRun p i s = _ at h
  unfold PS.optRun at h
  rcases hp : p.run i s with ⟨_ | ⟨b, k⟩, u⟩ <;> rw [hp] at h
  · cases h; exact .inr ⟨rfl, rfl, rfl⟩
  · cases h; exact .inl ⟨b, rfl, rfl⟩

theorem PS.run_alt {p q : PS α} {i j : Inp} {s t : St} {a : α} (h : (p <|> q).run i s = (some (a, j), t)) :
    p.run i s = (some (a, j), t) ∨ ∃ u, p.run i s = (none, u) ∧ q.run i u = (some (a, j), t) := by
  change PS.altRun p q i s = _ at h
  unfold PS.altRun at h
  rcases hp : p.run i s with ⟨_ | r, u⟩ <;> rw [hp] at h
  · exact .inr ⟨u, rfl, h⟩
  · exact .inl h

theorem PS.run_call {p : PS α} {i j : Inp} {s t : St} {a : α} (h : (PS.call p).run i s = (some (a, j), t)) :
    ∃ k, i.Step k ∧ p.run k s = (some (a, j), t) := by
  obtain ⟨b, k, u, h1, h2⟩ := PS.run_bind.1 h
  obtain ⟨h3, rfl⟩ := PS.run_lift.1 h1
  exact ⟨k, P.ws.adv _ _ _ h3, h2⟩

/-! ### Moving -/

theorem Inp.Step.le {i j : Inp} (h : i.Step j) : i.pos ≤ j.pos := by
  obtain ⟨c, -, h⟩ := h; omega

/-- A parser which takes something. -/
def P.Strict (p : P α) : Prop := ∀ i a j, p.run i = some (a, j) → i.pos < j.pos

theorem utf8Len_pos (c : Char) : 0 < utf8Len c := by
  unfold utf8Len; split <;> (try split) <;> (try split) <;> omega

theorem byteLen_pos {s : Str} (h : s ≠ []) : 0 < byteLen s := by
  cases s with
  | nil => exact absurd rfl h
  | cons c s => simp only [byteLen]; have := utf8Len_pos c; omega

theorem P.strict_char (f : Char → Bool) : (P.char f).Strict := by
  intro i a j h
  change P.charRun f i = _ at h
  unfold P.charRun at h
  split at h
  · rename_i c s hs
    split at h
    · cases h
      simp only [Inp.drop, hs, List.take_succ_cons, List.take_zero]
      have := byteLen_pos (s := [a]) (by simp)
      omega
    · simp at h
  · simp at h

theorem P.strict_lit {s : Str} (hs : s ≠ []) : (P.lit s).Strict := by
  intro i a j h
  change (if s.isPrefixOf i.rest then some ((), i.drop s.length) else none) = _ at h
  split at h
  · rename_i hp
    cases h
    obtain ⟨t, ht⟩ := List.isPrefixOf_iff_prefix.1 hp
    simp only [Inp.drop, ← ht, List.take_left']
    have := byteLen_pos hs
    omega
  · simp at h

theorem P.strict_lits {l : List Str} (hl : ∀ s ∈ l, s ≠ []) : (P.lits l).Strict := by
  induction l with
  | nil => intro i a j h; change none = _ at h; simp at h
  | cons s l ih =>
    intro i a j h
    rcases P.run_alt (p := P.lit s) (q := P.lits l) h with h | h
    · exact P.strict_lit (hl s (by simp)) i a j h
    · exact ih (fun t ht => hl t (by simp [ht])) i a j h

theorem P.strict_bind_left {p : P α} {f : α → P β} (hp : p.Strict) : (p >>= f).Strict := by
  intro i b k h
  obtain ⟨a, j, h1, h2⟩ := P.run_bind.1 h
  have := hp i a j h1
  have := ((f a).adv _ _ _ h2).le
  omega

theorem P.strict_bind_right {p : P α} {f : α → P β} (hf : ∀ a, (f a).Strict) : (p >>= f).Strict := by
  intro i b k h
  obtain ⟨a, j, h1, h2⟩ := P.run_bind.1 h
  have := (p.adv _ _ _ h1).le
  have := hf a _ _ _ h2
  omega

theorem P.strict_alt {p q : P α} (hp : p.Strict) (hq : q.Strict) : (p <|> q).Strict := by
  intro i a j h
  rcases P.run_alt h with h | h
  · exact hp _ _ _ h
  · exact hq _ _ _ h

theorem P.strict_call {p : P α} (hp : p.Strict) : (P.call p).Strict := P.strict_bind_right fun _ => hp

theorem P.strict_many1 {p : P α} (hp : p.Strict) : (P.many1 p).Strict := P.strict_bind_left hp

theorem P.strict_slice {p : P α} (hp : p.Strict) : (P.slice p).Strict := by
  intro i a j h
  change P.sliceRun p i = _ at h
  unfold P.sliceRun at h
  rcases hr : p.run i with _ | ⟨b, k⟩ <;> rw [hr] at h
  · simp at h
  · cases h; exact hp _ _ _ hr

theorem P.strict_positioned {p : P (Pos → α)} (hp : p.Strict) : (P.positioned p).Strict := by
  intro i a j h
  obtain ⟨f, h, -⟩ := P.run_positioned h
  exact hp _ _ _ h

/-! ### Positions in text order -/

/-- Positions of pieces of the text from `i` to `j`, in text order. They are not empty and do not overlap. -/
inductive Marks : Inp → List Pos → Inp → Prop where
  | nil {i j : Inp} : i.Step j → Marks i [] j
  | cons {i a b j : Inp} {l : List Pos} : i.Step a → a.Step b → a.pos < b.pos → Marks b l j →
      Marks i (⟨a.pos, b.pos⟩ :: l) j

theorem Marks.step {i j : Inp} {l : List Pos} (h : Marks i l j) : i.Step j := by
  induction h with
  | nil h => exact h
  | cons h1 h2 _ _ ih => exact h1.trans (h2.trans ih)

theorem Marks.left {i k j : Inp} {l : List Pos} (h : i.Step k) (hm : Marks k l j) : Marks i l j := by
  cases hm with
  | nil h1 => exact .nil (h.trans h1)
  | cons h1 h2 h3 h4 => exact .cons (h.trans h1) h2 h3 h4

theorem Marks.right {i k j : Inp} {l : List Pos} (hm : Marks i l k) (h : k.Step j) : Marks i l j := by
  induction hm with
  | nil h1 => exact .nil (h1.trans h)
  | cons h1 h2 h3 _ ih => exact .cons h1 h2 h3 (ih h)

theorem Marks.append {i k j : Inp} {l m : List Pos} (h1 : Marks i l k) (h2 : Marks k m j) :
    Marks i (l ++ m) j := by
  induction h1 with
  | nil h => exact h2.left h
  | cons a b c _ ih => exact .cons a b c (ih h2)

theorem Marks.one {i a b j : Inp} (h1 : i.Step a) (h2 : a.Step b) (h3 : a.pos < b.pos) (h4 : b.Step j) :
    Marks i [⟨a.pos, b.pos⟩] j := .cons h1 h2 h3 (.nil h4)

theorem Marks.split {i j : Inp} {l m : List Pos} (h : Marks i (l ++ m) j) :
    ∃ k, Marks i l k ∧ Marks k m j := by
  induction l generalizing i with
  | nil => exact ⟨i, .nil (.refl i), h⟩
  | cons p l ih =>
    cases h with
    | cons a b c d =>
      obtain ⟨k, h1, h2⟩ := ih d
      exact ⟨k, .cons a b c h1, h2⟩

theorem manyRun_marks {p : P α} {f : α → List Pos} (hp : ∀ i a j, p.run i = some (a, j) → Marks i (f a) j) (n : Nat)
    (i : Inp) : Marks i ((P.manyRun p n i).1.flatMap f) (P.manyRun p n i).2 := by
  induction n generalizing i with
  | zero => exact .nil (.refl i)
  | succ n ih =>
    rw [P.manyRun]
    rcases hr : p.run i with _ | ⟨a, j⟩
    · exact .nil (.refl i)
    · simp only
      split
      · simp only [List.flatMap_cons]
        exact (hp i a j hr).append (ih j)
      · exact .nil (.refl i)

theorem many_marks {p : P α} {f : α → List Pos} (hp : ∀ i a j, p.run i = some (a, j) → Marks i (f a) j)
    {i j : Inp} {l : List α} (h : (P.many p).run i = some (l, j)) : Marks i (l.flatMap f) j := by
  have := manyRun_marks hp (i.rest.length + 1) i
  change some (P.manyRun p (i.rest.length + 1) i) = _ at h
  simp only [Option.some.injEq] at h
  rw [h] at this
  exact this

end HunLaw.Grammar
