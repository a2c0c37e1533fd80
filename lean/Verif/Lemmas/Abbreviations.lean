import Verif.Lemmas.Peg
import Verif.Spec.Semantic

/-! How the list of known abbreviations grows while a text is parsed. -/

set_option autoImplicit false

namespace HunLaw.Grammar

open HunLaw Spec P

variable {α β : Type}

/-! ### Exact runs -/

theorem manyRun_char (f : Char → Bool) (n : Nat) (i : Inp) (h : i.rest.length < n) :
    P.manyRun (P.char f) n i = (i.rest.takeWhile f, i.drop (i.rest.takeWhile f).length) := by
  induction n generalizing i with
  | zero => omega
  | succ n ih =>
    obtain ⟨pos, rest⟩ := i
    rw [P.manyRun]
    have hrun : (P.char f).run ⟨pos, rest⟩ = P.charRun f ⟨pos, rest⟩ := rfl
    rw [hrun]
    cases rest with
    | nil => simp [P.charRun, Inp.drop, byteLen]
    | cons c s =>
      simp only [P.charRun]
      by_cases hc : f c = true
      · simp only [hc, if_true, Inp.drop, List.drop_succ_cons, List.drop_zero, List.length_cons,
          Nat.lt_succ_self, if_true, List.takeWhile_cons, List.take_succ_cons, List.take_zero]
        rw [ih _ (by simp at h ⊢; omega)]
        simp only [Inp.drop, Prod.mk.injEq, true_and, Inp.mk.injEq, and_true, byteLen]
        omega
      · simp [hc, Inp.drop, byteLen]

theorem run_many_char (f : Char → Bool) (i : Inp) :
    (P.many (P.char f)).run i = some (i.rest.takeWhile f, i.drop (i.rest.takeWhile f).length) := by
  show some (P.manyRun _ _ _) = _
  rw [manyRun_char f _ i (by omega)]

theorem run_lit {s : Str} {i j : Inp} {a : Unit} (h : (P.lit s).run i = some (a, j)) :
    i.rest = s ++ j.rest ∧ j = i.drop s.length := by
  change (if s.isPrefixOf i.rest then some ((), i.drop s.length) else none) = _ at h
  split at h
  · rename_i hp
    cases h
    obtain ⟨t, ht⟩ := List.isPrefixOf_iff_prefix.1 hp
    exact ⟨by simp [Inp.drop, ← ht], rfl⟩
  · simp at h

theorem drop_takeWhile (f : Char → Bool) (s : Str) : s.drop (s.takeWhile f).length = s.dropWhile f := by
  induction s with
  | nil => rfl
  | cons c s ih =>
    by_cases h : f c = true
    · simpa [h] using ih
    · simp [h]

theorem run_ws {i j : Inp} {a : Unit} (h : P.ws.run i = some (a, j)) :
    i.rest = i.rest.takeWhile P.isWs ++ j.rest ∧ (∀ c, j.rest.head? = some c → P.isWs c = false) := by
  change some ((), i.drop (i.rest.takeWhile isWs).length) = _ at h
  cases h
  have h1 : i.rest.drop (i.rest.takeWhile P.isWs).length = i.rest.dropWhile P.isWs := drop_takeWhile _ _
  refine ⟨?_, fun c hc => ?_⟩
  · simp only [Inp.drop, h1, List.takeWhile_append_dropWhile]
  · simp only [Inp.drop, h1] at hc
    have := List.head?_dropWhile_not P.isWs i.rest
    rw [hc] at this
    simpa using this

theorem mem_takeWhile_imp {p : Char → Bool} {l : Str} {c : Char} (h : c ∈ l.takeWhile p) : p c = true := by
  have := List.all_takeWhile (p := p) (l := l)
  exact List.all_eq_true.1 this c h

theorem run_tok {s : Str} {i j : Inp} {a : Unit} (h : (P.tok s).run i = some (a, j)) :
    ∃ w, i.rest = w ++ s ++ j.rest ∧ ∀ c ∈ w, P.isWs c = true := by
  obtain ⟨_, k, h1, h2⟩ := P.run_bind.1 h
  obtain ⟨h1, -⟩ := run_ws h1
  obtain ⟨h2, -⟩ := run_lit h2
  exact ⟨_, by rw [List.append_assoc, ← h2]; exact h1, fun c hc => mem_takeWhile_imp hc⟩

/-! ### Introduced abbreviations -/

theorem _root_.HunLaw.Spec.Introduces.mono {s t a : Str} (h : Introduces t a) (c : Str) (hs : s = c ++ t) : Introduces s a := by
  obtain ⟨b, sep, after, h, h1⟩ := h
  exact ⟨c ++ b, sep, after, by rw [hs, h]; simp, h1⟩

theorem run_many1_char {f : Char → Bool} {i j : Inp} {l : List Char}
    (h : (P.many1 (P.char f)).run i = some (l, j)) :
    i.rest ≠ [] ∧ l = i.rest.takeWhile f ∧ l ≠ [] ∧ i.rest = l ++ j.rest ∧
      (∀ c, j.rest.head? = some c → f c = false) := by
  obtain ⟨c, k, h1, h2⟩ := P.run_bind.1 h
  obtain ⟨l', m, h2, h3⟩ := P.run_bind.1 h2
  obtain ⟨rfl, rfl⟩ := P.run_pure.1 h3
  rw [run_many_char] at h2
  cases h2
  change P.charRun f i = _ at h1
  unfold P.charRun at h1
  obtain ⟨pos, rest⟩ := i
  cases rest with
  | nil => simp at h1
  | cons d s =>
    simp only at h1
    split at h1
    · rename_i hd
      cases h1
      have h1 : s.drop (s.takeWhile f).length = s.dropWhile f := drop_takeWhile _ _
      refine ⟨by simp, by simp [Inp.drop, hd], by simp, ?_, fun c hc => ?_⟩
      · simp [Inp.drop, h1, List.takeWhile_append_dropWhile]
      · simp only [Inp.drop, List.drop_succ_cons, List.drop_zero, h1] at hc
        have := List.head?_dropWhile_not f s
        rw [hc] at this
        simpa using this
    · simp at h1

theorem run_slice {p : P α} {i j : Inp} {s : Str} (h : (P.slice p).run i = some (s, j)) :
    (∃ a, p.run i = some (a, j)) ∧ i.rest = s ++ j.rest := by
  change P.sliceRun p i = _ at h
  unfold P.sliceRun at h
  rcases hp : p.run i with _ | ⟨a, k⟩ <;> rw [hp] at h
  · simp at h
  · cases h
    refine ⟨⟨a, rfl⟩, ?_⟩
    obtain ⟨c, hc, -⟩ := p.adv _ _ _ hp
    rw [hc]; simp

theorem run_fromNowOn {i j : Inp} {a : Str} (h : fromNowOn.run i = some (some a, j)) : Introduces i.rest a := by
  obtain ⟨_, i1, h1, h⟩ := P.run_bind.1 h
  obtain ⟨_, i2, h2, h⟩ := P.run_bind.1 h
  obtain ⟨_, i3, h3, h⟩ := P.run_bind.1 h
  obtain ⟨_, i4, h4, h⟩ := P.run_bind.1 h
  obtain ⟨b, i5, h5, h⟩ := P.run_bind.1 h
  obtain ⟨_, i6, h6, h⟩ := P.run_bind.1 h
  obtain ⟨rfl, rfl⟩ := P.run_pure.1 h
  obtain ⟨w1, h1, -⟩ := run_tok h1
  obtain ⟨w2, h2, -⟩ := run_tok h2
  obtain ⟨w3, h3, -⟩ := run_tok h3
  have h4 : ∃ w, i3.rest = w ++ i4.rest ∧ (∀ c ∈ w, P.isWs c = true ∨ c = ':') ∧
      (':' ∈ w ∨ (i4.rest.dropWhile P.isWs).head? ≠ some ':') := by
    change P.optRun _ _ = _ at h4
    unfold P.optRun at h4
    rcases ht : (P.tok str!":").run i3 with _ | ⟨_, k⟩ <;> rw [ht] at h4 <;> cases h4
    · refine ⟨[], rfl, by simp, .inr fun hc => ?_⟩
      change (if (str!":").isPrefixOf (i3.drop (i3.rest.takeWhile P.isWs).length).rest then _ else none) = none at ht
      split at ht
      · cases ht
      · rename_i hp
        refine hp ?_
        show (str!":").isPrefixOf (i3.rest.drop (i3.rest.takeWhile P.isWs).length) = true
        rw [drop_takeWhile]
        cases hd : i3.rest.dropWhile P.isWs with
        | nil => rw [hd] at hc; cases hc
        | cons c r => rw [hd] at hc; cases hc; rfl
    · obtain ⟨w, h4, hw⟩ := run_tok ht
      refine ⟨w ++ [':'], h4, fun c hc => ?_, .inl (by simp)⟩
      rcases List.mem_append.1 hc with hc | hc
      · exact .inl (hw c hc)
      · exact .inr (by simpa using hc)
  obtain ⟨w4, h4, hw4, hcolon⟩ := h4
  rcases P.run_alt h5 with h5 | h5
  · obtain ⟨_, _, -, h5⟩ := P.run_bind.1 h5
    have := (P.run_pure.1 h5).1
    simp at this
  · obtain ⟨b, k, h5, h5'⟩ := P.run_bind.1 h5
    obtain ⟨hb, rfl⟩ := P.run_pure.1 h5'
    simp only [Option.some.injEq] at hb
    subst hb
    obtain ⟨_, k, h7, h5⟩ := P.run_bind.1 h5
    have hk : k.rest = i4.rest.dropWhile P.isWs := by
      change some ((), i4.drop (i4.rest.takeWhile P.isWs).length) = _ at h7
      cases h7
      exact drop_takeWhile _ _
    obtain ⟨h7, hns⟩ := run_ws h7
    obtain ⟨⟨l, h5⟩, h8⟩ := run_slice h5
    obtain ⟨-, hl, hne, h9, hend⟩ := run_many1_char h5
    have hhead : ∀ c, l.head? = some c → k.rest.head? = some c := fun c hc => by
      rw [h9, List.head?_append, hc]; rfl
    have hal : a = l := by
      rw [h8] at h9; exact List.append_cancel_right h9
    subst hal
    have hb : ')' ∉ a := fun hc => by
      rw [hl] at hc
      have := mem_takeWhile_imp hc
      simp at this
    obtain ⟨w6, h6, hw6⟩ := run_tok h6
    have hw : w6 = [] := by
      cases w6 with
      | nil => rfl
      | cons c w =>
        have := hend c (by rw [h6]; rfl)
        simp at this
        have := hw6 c (by simp)
        subst_vars
        simp [P.isWs] at this
    subst hw
    refine ⟨w1 ++ str!"(" ++ w2 ++ str!"a" ++ w3, w4 ++ i4.rest.takeWhile P.isWs, j.rest, ?_, ?_, hne, hb, fun c hc => hns c (hhead c hc),
      fun hc => List.mem_append_left _ (hcolon.resolve_right fun h => h (by rw [← hk]; exact hhead _ hc))⟩
    · generalize i4.rest.takeWhile P.isWs = w5 at h7 ⊢
      rw [h1, h2, h3, h4, h7, h8, h6]
      simp
    · intro c hc
      rcases List.mem_append.1 hc with hc | hc
      · exact hw4 c hc
      · exact .inl (mem_takeWhile_imp hc)

/-! ### The context -/

/-- Some abbreviations introduced in the text were added at the end. -/
def Grown (text : Str) (s t : St) : Prop :=
  ∃ new, t.known = s.known ++ new ∧ ∀ a ∈ new, Introduces text a

theorem Grown.refl (text : Str) (s : St) : Grown text s s := ⟨[], by simp⟩

theorem Grown.trans {i j : Inp} {s t u : St} (h1 : Grown i.rest s t) (hs : i.Step j) (h2 : Grown j.rest t u) :
    Grown i.rest s u := by
  obtain ⟨n, hn, h1⟩ := h1
  obtain ⟨m, hm, h2⟩ := h2
  obtain ⟨c, hc, -⟩ := hs
  refine ⟨n ++ m, by rw [hm, hn, List.append_assoc], fun a ha => ?_⟩
  rcases List.mem_append.1 ha with ha | ha
  · exact h1 a ha
  · exact (h2 a ha).mono c hc

/-- A parser which only adds introduced abbreviations to the context. -/
def PS.Grows (p : PS α) : Prop := ∀ i s, Grown i.rest s (p.run i s).2

namespace PS

theorem grows_pure (a : α) : Grows (pure a) := fun _ _ => .refl _ _

theorem grows_lift (p : P α) : Grows (lift p) := fun _ _ => .refl _ _

theorem grows_bind {p : PS α} {f : α → PS β} (hp : Grows p) (hf : ∀ a, Grows (f a)) : Grows (p >>= f) := by
  intro i s
  show Grown _ _ (bindRun p f i s).2
  unfold bindRun
  have h := hp i s
  rcases hr : p.run i s with ⟨_ | ⟨a, j⟩, t⟩ <;> rw [hr] at h
  · exact h
  · exact h.trans (p.adv _ _ _ _ _ hr) (hf a j t)

theorem grows_alt {p q : PS α} (hp : Grows p) (hq : Grows q) : Grows (p <|> q) := by
  intro i s
  show Grown _ _ (altRun p q i s).2
  unfold altRun
  have h := hp i s
  rcases hr : p.run i s with ⟨_ | r, t⟩ <;> rw [hr] at h
  · exact h.trans (.refl i) (hq i t)
  · exact h

theorem grows_opt {p : PS α} (hp : Grows p) : Grows (opt p) := by
  intro i s
  show Grown _ _ (optRun p i s).2
  unfold optRun
  have h := hp i s
  rcases hr : p.run i s with ⟨_ | ⟨a, j⟩, t⟩ <;> rw [hr] at h <;> exact h

theorem grows_not {p : PS α} (hp : Grows p) : Grows (not p) := by
  intro i s
  show Grown _ _ (notRun p i s).2
  unfold notRun
  have h := hp i s
  rcases hr : p.run i s with ⟨_ | ⟨a, j⟩, t⟩ <;> rw [hr] at h <;> exact h

theorem grows_call {p : PS α} (hp : Grows p) : Grows (call p) := grows_bind (grows_lift _) fun _ => hp

theorem grows_manyRun {p : PS α} (hp : Grows p) (n : Nat) (i : Inp) (s : St) :
    Grown i.rest s (manyRun p n i s).2 := by
  induction n generalizing i s with
  | zero => exact .refl _ _
  | succ n ih =>
    rw [manyRun]
    have h := hp i s
    rcases hr : p.run i s with ⟨_ | ⟨a, j⟩, t⟩ <;> rw [hr] at h
    · exact h
    · simp only
      split
      · exact h.trans (p.adv _ _ _ _ _ hr) (ih j t)
      · exact h

theorem grows_many {p : PS α} (hp : Grows p) : Grows (many p) := fun i s => grows_manyRun hp _ i s

theorem grows_many1 {p : PS α} (hp : Grows p) : Grows (many1 p) :=
  grows_bind hp fun _ => grows_bind (grows_many hp) fun _ => grows_pure _

end PS

open PS

theorem grows_checkedActId : Grows checkedActId := by
  intro i s
  show Grown _ _ (checkedRun i s).2
  unfold checkedRun
  rcases hr : actIdWithFromNowOn.run i with _ | ⟨⟨x, a⟩, j⟩
  · exact .refl _ _
  · rcases a with _ | a
    · exact .refl _ _
    · refine ⟨[a], rfl, fun b hb => ?_⟩
      simp only [List.mem_singleton] at hb
      subst hb
      obtain ⟨x', k, h1, h⟩ := P.run_bind.1 hr
      obtain ⟨o, k', h2, h⟩ := P.run_bind.1 h
      obtain ⟨h3, rfl⟩ := P.run_pure.1 h
      simp only [Prod.mk.injEq] at h3
      rcases P.run_opt h2 with ⟨c, rfl, h4⟩ | ⟨rfl, -⟩
      · obtain ⟨d, hd, -⟩ := P.adv _ _ _ _ h1
        have hc : c = some b := by simpa using h3.2.symm
        subst hc
        exact (run_fromNowOn h4).mono d hd
      · simp at h3

theorem grows_abbreviationContent : Grows abbreviationContent := by
  intro i s
  show Grown _ _ (abbreviationRun i s).2
  unfold abbreviationRun
  split <;> exact .refl _ _

theorem grows_abbreviation : Grows abbreviation := by
  intro i s
  show Grown _ _ (positionedAbbreviationRun i s).2
  unfold positionedAbbreviationRun
  have h := grows_call grows_abbreviationContent i s
  rcases hr : (PS.call abbreviationContent).run i s with ⟨_ | ⟨a, j⟩, t⟩ <;> rw [hr] at h <;> exact h

theorem grows_actReference : Grows actReference :=
  grows_alt (grows_call grows_checkedActId) (grows_call grows_abbreviation)

theorem grows_compoundReference : Grows compoundReference :=
  grows_alt
    (grows_bind (grows_opt (grows_call grows_actReference)) fun _ =>
      grows_bind (grows_lift _) fun _ => grows_bind (grows_lift _) fun _ => grows_pure _)
    (grows_bind (grows_call grows_actReference) fun _ => grows_pure _)

theorem grows_actTitleBody : Grows actTitleBody :=
  grows_bind (grows_many (grows_bind (grows_not (grows_bind (grows_call grows_actReference) fun _ => grows_lift _))
    fun _ => grows_lift _)) fun _ => grows_pure _

theorem grows_actTitle : Grows actTitle := by
  intro i s
  show Grown _ _ (actTitleRun i s).2
  unfold actTitleRun
  split
  · exact .refl _ _
  · have h := grows_actTitleBody i s
    rcases hr : actTitleBody.run i s with ⟨_ | ⟨⟨⟩, j⟩, t⟩ <;> rw [hr] at h <;> exact h

theorem grows_titledActReference : Grows titledActReference :=
  grows_bind (grows_call grows_actTitle) fun _ => grows_call grows_actReference

theorem grows_blockAmendment : Grows blockAmendment := by
  refine grows_bind (grows_lift _) fun _ => grows_bind grows_titledActReference fun _ =>
    grows_bind (grows_lift _) fun _ => grows_bind (grows_alt ?_ (grows_alt ?_ ?_)) fun _ => grows_pure _
  · exact grows_bind (grows_lift _) fun _ => grows_bind (grows_lift _) fun _ => grows_bind (grows_lift _) fun _ =>
      grows_pure _
  · exact grows_bind (grows_lift _) fun _ => grows_bind (grows_lift _) fun _ => grows_bind (grows_lift _) fun _ =>
      grows_pure _
  · exact grows_bind (grows_lift _) fun _ => grows_bind (grows_lift _) fun _ => grows_bind (grows_lift _) fun _ =>
      grows_bind (grows_lift _) fun _ =>
      grows_bind (grows_opt (grows_bind (grows_lift _) fun _ => grows_call grows_actReference)) fun _ =>
      grows_bind (grows_lift _) fun _ => grows_bind (grows_lift _) fun _ => grows_bind (grows_lift _) fun _ =>
      grows_bind (grows_lift _) fun _ => grows_pure _

theorem grows_blockAmendmentWithSubtitle : Grows blockAmendmentWithSubtitle :=
  grows_bind (grows_lift _) fun _ => grows_bind grows_titledActReference fun _ =>
    grows_bind (grows_lift _) fun _ => grows_bind (grows_lift _) fun _ => grows_bind (grows_lift _) fun _ => grows_pure _

theorem grows_blockAmendmentStructural : Grows blockAmendmentStructural :=
  grows_bind (grows_lift _) fun _ => grows_bind grows_titledActReference fun _ =>
    grows_bind (grows_lift _) fun _ => grows_bind (grows_lift _) fun _ => grows_pure _

theorem grows_textAmendment : Grows textAmendment :=
  grows_bind (grows_lift _) fun _ => grows_bind grows_titledActReference fun _ =>
    grows_bind (grows_lift _) fun _ => grows_bind (grows_lift _) fun _ => grows_bind (grows_lift _) fun _ =>
    grows_bind (grows_lift _) fun _ => grows_bind (grows_lift _) fun _ => grows_bind (grows_lift _) fun _ => grows_pure _

theorem grows_repeal : Grows repeal :=
  grows_bind (grows_lift _) fun _ => grows_bind (grows_lift _) fun _ => grows_bind grows_titledActReference fun _ =>
    grows_bind (grows_lift _) fun _ => grows_bind (grows_lift _) fun _ => grows_bind (grows_lift _) fun _ => grows_pure _

theorem grows_simpleExpression : Grows simpleExpression :=
  grows_alt (grows_bind (grows_lift _) fun _ => grows_pure _) <|
  grows_alt (grows_bind (grows_call grows_compoundReference) fun _ => grows_pure _) <|
  grows_alt (grows_bind (grows_lift _) fun _ => grows_pure _) (grows_bind (grows_lift _) fun _ => grows_pure _)

theorem grows_simpleExpressions : Grows simpleExpressions := grows_many1 (grows_call grows_simpleExpression)

theorem grows_entire {p : PS α} (hp : Grows p) (f : α → Root) : Grows (entire p f) :=
  grows_bind (grows_call hp) fun _ => grows_bind (grows_lift _) fun _ => grows_pure _

theorem grows_root : Grows root :=
  grows_alt (grows_entire grows_blockAmendment _) <|
  grows_alt (grows_entire grows_blockAmendmentWithSubtitle _) <|
  grows_alt (grows_entire grows_blockAmendmentStructural _) <|
  grows_alt (grows_entire grows_textAmendment _) <|
  grows_alt (grows_entire (grows_lift _) _) <|
  grows_alt (grows_entire grows_repeal _) (grows_entire grows_simpleExpressions _)

end HunLaw.Grammar
