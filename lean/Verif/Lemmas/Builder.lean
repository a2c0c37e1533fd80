import Verif.Lemmas.Positions

/-! The references made from the result of the grammar have positions in text order. -/

set_option autoImplicit false

namespace HunLaw.Semantic

open HunLaw Grammar

variable {X : Type}

/-- The positions of the references. -/
def outPos (l : List OutgoingRef) : List Pos := l.map fun r => ⟨r.start, r.fin⟩

/-- The references up to now are in order and before `lo`; one that was begun also is. -/
def Inv (o : Inp) (b : Builder) (lo : Inp) : Prop :=
  match b.start with
  | none => Marks o (outPos b.result) lo
  | some s => ∃ m n, Marks o (outPos b.result) m ∧ s = m.pos ∧ m.Step n ∧ m.pos < n.pos ∧ b.fin = n.pos ∧ n.Step lo

theorem Inv.right {o lo hi : Inp} {b : Builder} (h : Inv o b lo) (hs : lo.Step hi) : Inv o b hi := by
  unfold Inv at *
  split
  · rename_i hn; rw [hn] at h; exact h.right hs
  · rename_i s hn
    rw [hn] at h
    obtain ⟨m, n, h1, h2, h3, h4, h5, h6⟩ := h
    exact ⟨m, n, h1, h2, h3, h4, h5, h6.trans hs⟩

/-- Feeding an element which stands after the others. -/
def FeedOk (f : X → Builder → Option Builder) (R : Inp → X → Inp → Prop) : Prop :=
  ∀ x b b' o lo hi, f x b = some b' → Inv o b lo → R lo x hi → Inv o b' hi

theorem recordOne_inv {b b' : Builder} {o lo : Inp} (h : b.recordOne = some b') (hi : Inv o b lo) : Inv o b' lo := by
  unfold Builder.recordOne at h
  unfold Inv at hi
  split at h
  · rename_i s r hs hr
    rw [hs] at hi
    cases h
    obtain ⟨m, n, h1, rfl, h3, h4, h5, h6⟩ := hi
    simp only [Inv, outPos, List.map_append, List.map_cons, List.map_nil]
    rw [h5]
    exact h1.append (.one (.refl m) h3 h4 h6)
  · simp at h

theorem finish_inv {b b' : Builder} {o lo hi : Inp} {p : Pos} (h : b.finish p = some b') (hi' : Inv o b lo)
    (hs : lo.Step hi) (hp : p.fin = hi.pos) : Inv o b' hi := by
  unfold Builder.finish at h
  refine recordOne_inv h ?_
  unfold Inv at *
  unfold Builder.recordOne at h
  split at h
  · rename_i s r hstart hr
    simp only at hstart
    rw [hstart] at hi'
    obtain ⟨m, n, h1, h2, h3, h4, h5, h6⟩ := hi'
    simp only [hstart]
    have := (h6.trans hs).le
    exact ⟨m, hi, h1, h2, h3.trans (h6.trans hs), by omega, hp, .refl hi⟩
  · simp at h

theorem setPart_inv {b : Builder} {o lo hi : Inp} {p : Pos} (set : Ref → Ref) (h : Inv o b lo)
    (hm : Marks lo [p] hi) : Inv o (b.setPart p set) hi := by
  cases hm with
  | cons h1 h2 h3 h4 =>
    rename_i x y
    have h4 := h4.step
    unfold Inv at *
    cases hs : b.start with
    | none =>
      rw [hs] at h
      simp only [Builder.setPart, hs]
      exact ⟨x, y, h.right h1, rfl, h2, h3, rfl, h4⟩
    | some s =>
      rw [hs] at h
      obtain ⟨m, n, g1, g2, g3, g4, g5, g6⟩ := h
      simp only [Builder.setPart, hs]
      have := (g6.trans h1).le
      exact ⟨m, y, g1, g2, g3.trans (g6.trans (h1.trans h2)), by omega, rfl, h4⟩

theorem feedMore_ok {f : X → Builder → Option Builder} {R : Inp → X → Inp → Prop} (hf : FeedOk f R) :
    FeedOk (Builder.feedMore f) (Seq R) := by
  intro l
  induction l with
  | nil =>
    intro b b' o lo hi h hi' hs
    cases h
    cases hs with
    | nil hs => exact hi'.right hs
  | cons x l ih =>
    intro b b' o lo hi h hi' hs
    rw [Builder.feedMore] at h
    cases hs with
    | cons h1 h2 =>
      rcases hb1 : b.recordOne with _ | b1
      · rw [hb1] at h; simp at h
      rw [hb1] at h
      rcases hb2 : f x b1 with _ | b2
      · simp [hb2] at h
      simp only [Option.bind_eq_bind, Option.bind_some, hb2] at h
      exact ih _ _ _ _ _ h (hf _ _ _ _ _ _ hb2 (recordOne_inv hb1 hi') h1) h2

theorem feedList_ok {f : X → Builder → Option Builder} {R : Inp → X → Inp → Prop} (hf : FeedOk f R) :
    FeedOk (Builder.feedList f) (Seq R) := by
  intro l b b' o lo hi h hi' hs
  cases l with
  | nil =>
    cases h
    cases hs with
    | nil hs => exact hi'.right hs
  | cons x l =>
    rw [Builder.feedList] at h
    cases hs with
    | cons h1 h2 =>
      rcases hb2 : f x b with _ | b2
      · simp [hb2] at h
      simp only [Option.bind_eq_bind, Option.bind_some, hb2] at h
      exact feedMore_ok hf _ _ _ _ _ _ h (hf _ _ _ _ _ _ hb2 hi' h1) h2

theorem feedAll_ok {f : X → Builder → Option Builder} {R : Inp → X → Inp → Prop} (hf : FeedOk f R) :
    FeedOk (Builder.feedAll f) (Seq R) := by
  intro l
  induction l with
  | nil =>
    intro b b' o lo hi h hi' hs
    cases h
    cases hs with
    | nil hs => exact hi'.right hs
  | cons x l ih =>
    intro b b' o lo hi h hi' hs
    rw [Builder.feedAll] at h
    cases hs with
    | cons h1 h2 =>
      rcases hb2 : f x b with _ | b2
      · simp [hb2] at h
      simp only [Option.bind_eq_bind, Option.bind_some, hb2] at h
      exact ih _ _ _ _ _ h (hf _ _ _ _ _ _ hb2 hi' h1) h2

theorem feedOpt_ok {f : X → Builder → Option Builder} {R : Inp → X → Inp → Prop} (hf : FeedOk f R) :
    FeedOk (Builder.feedOpt f) (OptR R) := by
  intro x b b' o lo hi h hi' hs
  cases x with
  | none => cases h; exact hi'.right hs
  | some x => exact hf _ _ _ _ _ _ h hi' hs

theorem feedPart_ok {α : Type} (parse : Str → Option α) (set : Ref → IdRange α → Ref) :
    FeedOk (Builder.feedPart parse set) (At Part.position) := by
  intro x b b' o lo hi h hi' hs
  rw [Builder.feedPart] at h
  rcases hr : partRange parse x.id with _ | r
  · simp [hr] at h
  simp only [hr, Option.bind_eq_bind, Option.bind_some, Option.some.injEq] at h
  subst h
  exact setPart_inv _ hi' hs

theorem feedArticle_ok : FeedOk Builder.feedArticle (At ArticlePart.position) := by
  intro x b b' o lo hi h hi' hs
  rw [Builder.feedArticle] at h
  rcases hr : convertArticlePart x with _ | r
  · simp [hr] at h
  simp only [hr, Option.bind_eq_bind, Option.bind_some, Option.some.injEq] at h
  subst h
  exact setPart_inv _ hi' hs

theorem feedArticles_ok : FeedOk (Builder.feedList Builder.feedArticle) Articles :=
  fun x b b' o lo hi h hi' hs => feedList_ok feedArticle_ok x b b' o lo hi h hi' hs.2

theorem feedParts_ok {α : Type} (parse : Str → Option α) (set : Ref → IdRange α → Ref) :
    FeedOk (Builder.feedList (Builder.feedPart parse set)) Parts :=
  fun x b b' o lo hi h hi' hs => feedList_ok (feedPart_ok parse set) x b b' o lo hi h hi' hs.2

theorem feedSingleArticle_ok : FeedOk Builder.feedSingleArticle (At SingleArticle.position) := by
  intro x b b' o lo hi h hi' hs
  rw [Builder.feedSingleArticle] at h
  rcases hr : convertArticlePart x.part with _ | r
  · simp [hr] at h
  simp only [hr, Option.bind_eq_bind, Option.bind_some] at h
  exact recordOne_inv h (setPart_inv _ hi' hs)

theorem feedArticleRelative_ok : FeedOk Builder.feedArticleRelative RelativeR := by
  intro x b b' o lo hi h hi' hs
  cases x <;> exact feedSingleArticle_ok _ _ _ _ _ _ h hi' hs

theorem feedAct_ok {o' : Inp} {known : List Str} (c : Cache) : FeedOk (Builder.feedAct c) (ActR o' known) := by
  intro x b b' o lo hi h hi' hs
  have hm := hs.marks
  cases x with
  | abbreviation s p =>
    simp only [Builder.feedAct] at h
    rcases hr : c.resolve s with _ | r
    · simp [hr] at h
    simp only [hr, Option.bind_eq_bind, Option.bind_some] at h
    exact recordOne_inv h (setPart_inv _ hi' hm)
  | actId i a =>
    simp only [Builder.feedAct] at h
    rcases hr : convertActId i with _ | r
    · simp [hr] at h
    simp only [hr, Option.bind_eq_bind, Option.bind_some] at h
    exact recordOne_inv h (setPart_inv _ hi' hm)

theorem bind_some_split {α β : Type} {x : Option α} {f : α → Option β} {b : β} (h : (x >>= f) = some b) :
    ∃ a, x = some a ∧ f a = some b := by
  cases x with
  | none => simp at h
  | some a => exact ⟨a, rfl, h⟩

theorem feedReference_ok : FeedOk Builder.feedReference RefR := by
  intro x b b' o lo hi h hi' hs
  obtain ⟨hp, t, m, ha, ⟨a1, a2, a3, a4, t1, t2, t3, t4, t5⟩, rfl', -⟩ := hs
  have e1 : x.paragraph = t.paragraph := by rw [rfl']; rfl
  have e2 : x.numericPoint = t.numericPoint := by rw [rfl']; rfl
  have e3 : x.alphabeticPoint = t.alphabeticPoint := by rw [rfl']; rfl
  have e4 : x.numericSubpoint = t.numericSubpoint := by rw [rfl']; rfl
  have e5 : x.alphabeticSubpoint = t.alphabeticSubpoint := by rw [rfl']; rfl
  rw [← e1] at t1
  rw [← e2] at t2
  rw [← e3] at t3
  rw [← e4] at t4
  rw [← e5] at t5
  rw [Builder.feedReference] at h
  obtain ⟨b0, h0, h⟩ := bind_some_split h
  obtain ⟨b1, h1, h⟩ := bind_some_split h
  obtain ⟨b2, h2, h⟩ := bind_some_split h
  obtain ⟨b3, h3, h⟩ := bind_some_split h
  obtain ⟨b4, h4, h⟩ := bind_some_split h
  obtain ⟨b5, h5, h⟩ := bind_some_split h
  have i0 := feedOpt_ok feedArticles_ok _ _ _ _ _ _ h0 hi' ha
  have i1 := feedOpt_ok (feedParts_ok _ _) _ _ _ _ _ _ h1 i0 t1
  have i2 := feedOpt_ok (feedParts_ok _ _) _ _ _ _ _ _ h2 i1 t2
  have i3 := feedOpt_ok (feedParts_ok _ _) _ _ _ _ _ _ h3 i2 t3
  have i4 := feedOpt_ok (feedParts_ok _ _) _ _ _ _ _ _ h4 i3 t4
  have i5 := feedOpt_ok (feedParts_ok _ _) _ _ _ _ _ _ h5 i4 t5
  exact finish_inv h i5 (.refl hi) hp

theorem feedInsertion_ok : FeedOk Builder.feedInsertion InsR := by
  intro x b b' o lo hi h hi' hs
  obtain ⟨hp, t, m, ha, ⟨a1, a2, a3, a4, t1, t2, t3, t4, t5⟩, rfl', -⟩ := hs
  have e1 : x.paragraph = t.paragraph := by rw [rfl']; rfl
  have e2 : x.numericPoint = t.numericPoint := by rw [rfl']; rfl
  have e3 : x.alphabeticPoint = t.alphabeticPoint := by rw [rfl']; rfl
  have e4 : x.numericSubpoint = t.numericSubpoint := by rw [rfl']; rfl
  have e5 : x.alphabeticSubpoint = t.alphabeticSubpoint := by rw [rfl']; rfl
  rw [← e1] at t1
  rw [← e2] at t2
  rw [← e3] at t3
  rw [← e4] at t4
  rw [← e5] at t5
  rw [Builder.feedInsertion] at h
  obtain ⟨b0, h0, h⟩ := bind_some_split h
  obtain ⟨b1, h1, h⟩ := bind_some_split h
  obtain ⟨b2, h2, h⟩ := bind_some_split h
  obtain ⟨b3, h3, h⟩ := bind_some_split h
  obtain ⟨b4, h4, h⟩ := bind_some_split h
  obtain ⟨b5, h5, h⟩ := bind_some_split h
  have i0 := feedList_ok feedArticles_ok _ _ _ _ _ _ h0 hi' ha
  have i1 := feedOpt_ok (feedParts_ok _ _) _ _ _ _ _ _ h1 i0 t1
  have i2 := feedOpt_ok (feedParts_ok _ _) _ _ _ _ _ _ h2 i1 t2
  have i3 := feedOpt_ok (feedParts_ok _ _) _ _ _ _ _ _ h3 i2 t3
  have i4 := feedOpt_ok (feedParts_ok _ _) _ _ _ _ _ _ h4 i3 t4
  have i5 := feedOpt_ok (feedParts_ok _ _) _ _ _ _ _ _ h5 i4 t5
  exact finish_inv h i5 (.refl hi) hp

theorem feedText_ok : FeedOk Builder.feedText TextR := by
  intro x b b' o lo hi h hi' hs
  cases x with
  | articleTitle a => exact feedSingleArticle_ok _ _ _ _ _ _ h hi' hs
  | structural p c =>
    cases c with
    | relative a => exact feedArticleRelative_ok _ _ _ _ _ _ h hi' hs
    | structural r => cases h; exact hi'.right hs
  | subtitles l => cases h; exact hi'.right hs
  | reference r t =>
    obtain ⟨k, h1, h2⟩ := hs
    exact (feedReference_ok _ _ _ _ _ _ h hi' h1).right h2
  | attachment => cases h; exact hi'.right hs

theorem feedEnforcement_ok : FeedOk Builder.feedEnforcement EnforcementR := by
  intro x b b' o lo hi h hi' hs
  cases x with
  | reference r => exact feedReference_ok _ _ _ _ _ _ h hi' hs
  | structural r => cases h; exact hi'.right hs
  | subtitles l => cases h; exact hi'.right hs
  | attachment => cases h; exact hi'.right hs

/-- In the end the references are in order. -/
theorem Inv.marks {o lo : Inp} {b : Builder} (h : Inv o b lo) : Marks o (outPos b.result) lo := by
  unfold Inv at h
  split at h
  · exact h
  · obtain ⟨m, n, h1, -, h3, -, -, h6⟩ := h
    exact h1.right (h3.trans h6)

theorem inv_new {o lo : Inp} (h : o.Step lo) : Inv o Builder.new lo := Marks.nil h

theorem compoundRefs_marks {o' : Inp} {known : List Str} {c : Cache} {x : CompoundReference} {i j : Inp}
    {refs : List OutgoingRef} (h : compoundRefs c x = some refs) (hx : CompoundR o' known i x j) :
    Marks i (outPos refs) j := by
  obtain ⟨k, h1, h2⟩ := hx
  rw [compoundRefs] at h
  obtain ⟨b0, g0, h⟩ := bind_some_split h
  obtain ⟨b1, g1, h⟩ := bind_some_split h
  cases h
  exact (feedAll_ok feedReference_ok _ _ _ _ _ _ g1
    (feedOpt_ok (feedAct_ok c) _ _ _ _ _ _ g0 (inv_new (.refl i)) h1) h2).marks

theorem compoundR_step {o' : Inp} {known : List Str} {i j : Inp} {x : CompoundReference}
    (hx : CompoundR o' known i x j) : i.Step j := by
  obtain ⟨k, h1, h2⟩ := hx
  have hr : ∀ {i : Inp} {r : Reference} {j : Inp}, RefR i r j → i.Step j := by
    rintro i r j ⟨-, t, m, ha, ⟨a1, a2, a3, a4, t1, t2, t3, t4, t5⟩, -⟩
    have hp : ∀ {i : Inp} {l : List Part} {j : Inp}, Parts i l j → i.Step j := by
      rintro i l j ⟨-, h⟩
      induction h with
      | nil h => exact h
      | cons h _ ih => exact h.step.trans ih
    have ho : ∀ {i : Inp} {l : Option (List Part)} {j : Inp}, OptR Parts i l j → i.Step j := by
      intro i l j h
      cases l with
      | none => exact h
      | some l => exact hp h
    have hart : ∀ {i : Inp} {l : List ArticlePart} {j : Inp}, Articles i l j → i.Step j := by
      rintro i l j ⟨-, h⟩
      induction h with
      | nil h => exact h
      | cons h _ ih => exact h.step.trans ih
    have ha : i.Step m := by
      cases hr : r.article with
      | none => rw [hr] at ha; exact ha
      | some l => rw [hr] at ha; exact hart ha
    exact ha.trans ((ho t1).trans ((ho t2).trans ((ho t3).trans ((ho t4).trans (ho t5)))))
  have h1 : i.Step k := by
    cases ha : x.actReference with
    | none => rw [ha] at h1; exact h1
    | some a => rw [ha] at h1; exact (ActR.marks h1).step
  refine h1.trans ?_
  generalize x.references = l at h2
  clear h1 ‹OptR _ _ _ _›
  induction h2 with
  | nil h => exact h
  | cons h _ ih => exact (hr h).trans ih

theorem simple_marks {o' : Inp} {known : List Str} {c : Cache} {l : List SimpleExpression} {i j : Inp}
    (hx : Seq (ExprR o' known) i l j) : Marks i (outPos (l.flatMap (expressionRefs c))) j := by
  induction hx with
  | nil h => exact .nil h
  | @cons i k j x l h1 _ ih =>
    simp only [List.flatMap_cons, outPos, List.map_append]
    refine Marks.append ?_ ih
    cases x with
    | compound r =>
      simp only [expressionRefs]
      rcases hr : compoundRefs c r with _ | refs
      · exact .nil (compoundR_step h1)
      · exact compoundRefs_marks hr h1
    | quote s => exact .nil h1
    | attachment => exact .nil h1
    | token => exact .nil h1

theorem outgoingRefs_marks {o : Inp} {known : List Str} {c : Cache} {x : Root} {i j : Inp} {refs : List OutgoingRef}
    (h : outgoingRefs c x = some refs) (hx : RootR o known i x j) : Marks i (outPos refs) j := by
  cases x with
  | blockAmendment x =>
    obtain ⟨k, h1, m, n, h2, h3, h4⟩ := hx
    simp only [outgoingRefs, blockAmendmentRefs] at h
    obtain ⟨b0, g0, h⟩ := bind_some_split h
    obtain ⟨b1, g1, h⟩ := bind_some_split h
    obtain ⟨b2, g2, h⟩ := bind_some_split h
    cases h
    exact (feedOpt_ok feedInsertion_ok _ _ _ _ _ _ g2 (feedOpt_ok feedReference_ok _ _ _ _ _ _ g1
      (feedAct_ok c _ _ _ _ _ _ g0 (inv_new (.refl i)) h1) h2) h3).marks.right h4
  | blockAmendmentWithSubtitle x =>
    obtain ⟨k, m, h1, h2, h3⟩ := hx
    simp only [outgoingRefs, subtitleAmendmentRefs] at h
    obtain ⟨b0, g0, h⟩ := bind_some_split h
    obtain ⟨b1, g1, h⟩ := bind_some_split h
    obtain ⟨b2, g2, h⟩ := bind_some_split h
    cases h
    exact (feedOpt_ok feedSingleArticle_ok _ _ _ _ _ _ g2 (feedOpt_ok feedArticleRelative_ok _ _ _ _ _ _ g1
      (feedAct_ok c _ _ _ _ _ _ g0 (inv_new (.refl i)) h1) h2) h3).marks
  | blockAmendmentStructural x =>
    simp only [outgoingRefs, structuralAmendmentRefs] at h
    obtain ⟨b0, g0, h⟩ := bind_some_split h
    cases h
    exact (feedAct_ok c _ _ _ _ _ _ g0 (inv_new (.refl i)) hx).marks
  | textAmendment x =>
    obtain ⟨k, h1, h2⟩ := hx
    simp only [outgoingRefs, textAmendmentRefs] at h
    obtain ⟨b0, g0, h⟩ := bind_some_split h
    obtain ⟨b1, g1, h⟩ := bind_some_split h
    cases h
    exact (feedAll_ok feedText_ok _ _ _ _ _ _ g1 (feedAct_ok c _ _ _ _ _ _ g0 (inv_new (.refl i)) h1) h2).marks
  | enforcementDate x =>
    obtain ⟨k, h1, h2⟩ := hx
    simp only [outgoingRefs, enforcementRefs] at h
    obtain ⟨b0, g0, h⟩ := bind_some_split h
    cases h
    exact (feedAll_ok feedEnforcement_ok _ _ _ _ _ _ g0 (inv_new (.refl i)) h1).marks.right h2
  | repeal x =>
    obtain ⟨k, h1, h2⟩ := hx
    simp only [outgoingRefs, repealRefs] at h
    obtain ⟨b0, g0, h⟩ := bind_some_split h
    obtain ⟨b1, g1, h⟩ := bind_some_split h
    cases h
    exact (feedAll_ok feedText_ok _ _ _ _ _ _ g1 (feedAct_ok c _ _ _ _ _ _ g0 (inv_new (.refl i)) h1) h2).marks
  | simple l =>
    cases h
    exact simple_marks hx

/-- The references of a text are in order. -/
theorem parse_marks {s : Str} {known : List Str} {x : Root} {c : Cache} {refs : List OutgoingRef}
    (hk : ∀ a ∈ known, a ≠ []) (h : parse s known = some x) (hr : outgoingRefs c x = some refs) :
    ∃ e, Marks ⟨0, s⟩ (outPos refs) e := by
  obtain ⟨k, m, h1, h2⟩ := parse_run hk h
  exact ⟨m, (outgoingRefs_marks hr h2).left h1⟩

end HunLaw.Semantic
