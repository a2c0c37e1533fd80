import Verif.Lemmas.Exact

/-! The parser of quoted blocks finds exactly what the exact grammar says. -/

set_option autoImplicit false

namespace HunLaw

open HunLaw.Spec QuoteParser

/-- The quote checker after some lines, with what it says of the end of the last one. -/
structure QuoteEnd (q : QuoteCheck) (done : List Line) : Prop where
  inv : QuoteInv q done
  ends : q.endIsQuoted = false ↔ BalancedLines done

theorem quoteEnd_new : QuoteEnd .new [] := ⟨quoteInv_new, by simp [QuoteCheck.new, BalancedLines, allText_nil, opening, closing]⟩

theorem quoteEnd_step {q q' : QuoteCheck} {done : List Line} {l : Line} (hi : QuoteEnd q done)
    (h : q.update l = .ok q') : QuoteEnd q' (done ++ [l]) := by
  have h2 := (quoteInv_step hi.inv h).1
  refine ⟨h2, ?_⟩
  have h3 := h2.level
  have h4 : q'.endIsQuoted = decide (q'.level ≠ 0) := by
    rw [Props.update_eq] at h
    split at h
    · rename_i hge
      simp only [Res.ok.injEq] at h
      rw [← h]
      simp only [decide_eq_decide]
      omega
    · simp at h
  rw [h4]
  unfold BalancedLines
  simp
  omega

theorem quoteEnd_next {q : QuoteCheck} {done ls : List Line} {l : Line} (hi : QuoteEnd q done)
    (hn : NestedLines (done ++ l :: ls)) : ∃ q', q.update l = .ok q' ∧ QuoteEnd q' (done ++ [l]) := by
  have e : done ++ l :: ls = (done ++ [l]) ++ ls := by simp
  rw [e] at hn
  obtain ⟨q', hq⟩ := nested_step hi.inv (nested_le hn)
  exact ⟨q', hq, quoteEnd_step hi hq⟩

/-- Another checker. -/
def setQ (q : QuoteCheck) (s : QuoteParser) : QuoteParser := { s with quoteChecker := q }

theorem parseLines_cons {s : QuoteParser} {q : QuoteCheck} {l : Line} {ls : List Line} (h : s.quoteChecker.update l = .ok q) :
    s.parseLines (l :: ls) = (step (setQ q s) l).parseLines ls := by
  rw [parseLines, parseLine, h]; rfl

theorem stateWrapUp_checker (s : QuoteParser) (l : Line) : (stateWrapUp s l).quoteChecker = s.quoteChecker := rfl
theorem stateInside_checker (s : QuoteParser) (l : Line) : (stateInside s l).quoteChecker = s.quoteChecker := by
  unfold stateInside; split <;> rfl
theorem stateIntro_checker (s : QuoteParser) (l : Line) : (stateIntro s l).quoteChecker = s.quoteChecker := by
  unfold stateIntro; split <;> rfl
theorem stateBlockWrapUp_checker (s : QuoteParser) (l : Line) : (stateBlockWrapUp s l).quoteChecker = s.quoteChecker := by
  unfold stateBlockWrapUp; split <;> rfl
theorem stateStart_checker (s : QuoteParser) (l : Line) : (stateStart s l).quoteChecker = s.quoteChecker := by
  unfold stateStart
  (repeat' split)
  · rfl
  · rw [stateInside_checker]
  · rw [stateWrapUp_checker]
theorem stateStartExpectIntro_checker (s : QuoteParser) (l : Line) :
    (stateStartExpectIntro s l).quoteChecker = s.quoteChecker := by
  unfold stateStartExpectIntro
  (repeat' split)
  · rfl
  · rw [stateIntro_checker]
  · rw [stateStart_checker]
theorem stateWaitingWrapUp_checker (s : QuoteParser) (l : Line) :
    (stateWaitingWrapUp s l).quoteChecker = s.quoteChecker := by
  unfold stateWaitingWrapUp
  (repeat' split)
  · rfl
  · rw [stateBlockWrapUp_checker]
  · rw [stateWrapUp_checker]
theorem stateWaiting_checker (s : QuoteParser) (l : Line) : (stateWaiting s l).quoteChecker = s.quoteChecker := by
  unfold stateWaiting
  (repeat' split)
  · rfl
  · rw [stateInside_checker]
  · rw [stateWaitingWrapUp_checker]

theorem step_checker (s : QuoteParser) (l : Line) : (step s l).quoteChecker = s.quoteChecker := by
  unfold step
  split
  · exact stateStart_checker _ _
  · exact stateStartExpectIntro_checker _ _
  · exact stateIntro_checker _ _
  · exact stateBlockWrapUp_checker _ _
  · exact stateWaiting_checker _ _
  · exact stateWaitingWrapUp_checker _ _
  · exact stateInside_checker _ _
  · rfl

theorem parseLines_nested {ls : List Line} : ∀ {s s' : QuoteParser} {done : List Line}, QuoteEnd s.quoteChecker done →
    NestedLines done → s.parseLines ls = .ok s' → NestedLines (done ++ ls) := by
  induction ls with
  | nil => intro s s' done _ hn _; simpa using hn
  | cons l ls ih =>
    intro s s' done hq hn h
    cases hu : s.quoteChecker.update l with
    | err => rw [parseLines, parseLine, hu] at h; cases h
    | panic => rw [parseLines, parseLine, hu] at h; cases h
    | ok q =>
      rw [parseLines_cons hu] at h
      have h2 := quoteEnd_step hq hu
      have e : done ++ l :: ls = (done ++ [l]) ++ ls := by simp
      rw [e]
      refine ih (s := step (setQ q s) l) ?_ (nested_snoc hn (quoteInv_le h2.inv)) h
      rw [step_checker]
      exact h2

/-- A state in which text is collected up to a mark. -/
structure Collects (marks : List Char) (st : QuoteState) (go : QuoteParser → Line → QuoteParser)
    (eff : QuoteParser → List Line → QuoteParser) : Prop where
  step : ∀ s l, s.state = st → step s l = go s l
  close : ∀ s l, s.quoteChecker.endIsQuoted = false → EndsIn marks l → go s l = eff s [l.slice 0 (some (-1))]
  add : ∀ s l, ¬ (EndsIn marks l ∧ s.quoteChecker.endIsQuoted = false) → (go s l).quoteChecker = s.quoteChecker ∧
    (go s l).state = s.state ∧ ∀ q rest, eff (setQ q (go s l)) rest = eff (setQ q s) (l :: rest)

variable {marks : List Char} {st : QuoteState} {go : QuoteParser → Line → QuoteParser}
  {eff : QuoteParser → List Line → QuoteParser}

theorem setQ_self (s : QuoteParser) : setQ s.quoteChecker s = s := rfl

theorem setQ_setQ (q q' : QuoteCheck) (s : QuoteParser) : setQ q (setQ q' s) = setQ q s := rfl

theorem enclosed_run (hm : Collects marks st go eff) {before : List Line} {l : Line} {a stored : List Line}
    (h : Enclosed marks before l a stored) : ∀ {s : QuoteParser}, QuoteEnd s.quoteChecker before → s.state = st →
    NestedLines (before ++ a) → ∃ q', QuoteEnd q' (before ++ a) ∧
      ∀ b, (go s l).parseLines (a ++ b) = (eff (setQ q' s) stored).parseLines b := by
  induction h with
  | last closed outside =>
    intro s hq hs hn
    refine ⟨s.quoteChecker, by simpa using hq, ?_⟩
    intro b
    rw [hm.close _ _ (hq.ends.2 outside) closed]
    rfl
  | @more before l m ls stored inside next ih =>
    intro s hq hs hn
    obtain ⟨e1, e2, e3⟩ := hm.add s l (fun h => inside ⟨h.1, hq.ends.1 h.2⟩)
    obtain ⟨q1, hu, hq1⟩ := quoteEnd_next hq hn
    obtain ⟨q2, hq2, hrun⟩ := ih (s := setQ q1 (go s l)) hq1 (by rw [← hs, ← e2]; rfl) (by simpa using hn)
    refine ⟨q2, by simpa using hq2, ?_⟩
    intro b
    rw [List.cons_append, parseLines_cons (q := q1) (by rw [e1]; exact hu), hm.step _ _ (by rw [← hs, ← e2]; rfl), hrun,
      setQ_setQ, e3]

theorem unclosed_run (hm : Collects marks st go eff) (ls : List Line) : ∀ {before : List Line} {l : Line} {s s' : QuoteParser},
    QuoteEnd s.quoteChecker before → s.state = st → (∀ a b stored, ls = a ++ b → ¬ Enclosed marks before l a stored) →
    (go s l).parseLines ls = .ok s' → s'.state = st := by
  induction ls with
  | nil =>
    intro before l s s' hq hs hno h
    obtain ⟨e1, e2, e3⟩ := hm.add s l (fun h => hno [] [] _ rfl (.last h.1 (hq.ends.1 h.2)))
    simp only [parseLines, Res.ok.injEq] at h
    rw [← h, e2, hs]
  | cons m ls ih =>
    intro before l s s' hq hs hno h
    have hin : ¬ (EndsIn marks l ∧ BalancedLines before) := fun h => hno [] (m :: ls) _ rfl (.last h.1 h.2)
    obtain ⟨e1, e2, e3⟩ := hm.add s l (fun h => hin ⟨h.1, hq.ends.1 h.2⟩)
    cases hu : (go s l).quoteChecker.update m with
    | err => rw [parseLines, parseLine, hu] at h; cases h
    | panic => rw [parseLines, parseLine, hu] at h; cases h
    | ok q1 =>
      rw [parseLines_cons hu, hm.step _ _ (by rw [← hs, ← e2]; rfl)] at h
      rw [e1] at hu
      refine ih (before := before ++ [m]) (s := setQ q1 (go s l)) (quoteEnd_step hq hu) (by rw [← hs, ← e2]; rfl) ?_ h
      intro a b stored e hx
      exact hno (m :: a) b _ (by rw [e]; rfl) (.more hin hx)

theorem endsWith_iff {l : Line} {cs : List Char} : (!l.isEmpty && endsWithAny l cs) = true ↔ EndsIn cs l := by
  unfold endsWithAny EndsIn
  have := isEmpty_iff_content l
  cases h : l.content.getLast? with
  | none => simp
  | some c =>
    have : l.isEmpty = false := by
      rw [Bool.eq_false_iff]
      intro hx
      rw [this.1 hx] at h
      simp at h
    simp [this]

theorem cond_iff {l : Line} {cs : List Char} {b : Bool} :
    (!l.isEmpty && !b && endsWithAny l cs) = true ↔ (EndsIn cs l ∧ b = false) := by
  rw [← endsWith_iff]
  cases l.isEmpty <;> cases b <;> simp

def effInside (s : QuoteParser) (stored : List Line) : QuoteParser :=
  { s with blocks := s.blocks ++ [⟨none, s.quotedLines ++ stored, none⟩], quotedLines := [], state := .waitingForQuotedBlock }

theorem collects_inside : Collects ['”'] .insideQuotedBlock stateInside effInside where
  step s l h := by unfold step; rw [h]
  close s l h1 h2 := by
    unfold stateInside
    rw [if_pos (cond_iff.2 ⟨h2, h1⟩)]; rfl
  add s l h := by
    have h' : ¬ ((!l.isEmpty && !s.quoteChecker.endIsQuoted && endsWithAny l ['”']) = true) := fun hx => h (cond_iff.1 hx)
    unfold stateInside
    rw [if_neg h']
    refine ⟨rfl, rfl, ?_⟩
    intro q rest
    simp [effInside, setQ]

def effIntro (s : QuoteParser) (stored : List Line) : QuoteParser :=
  { s with quotedBlockIntro := stored.foldl (fun s l => l.appendTo s) s.quotedBlockIntro, state := .startExpectIntro }

theorem collects_intro : Collects [')', ']'] .quotedBlockIntro stateIntro effIntro where
  step s l h := by unfold step; rw [h]
  close s l h1 h2 := by
    unfold stateIntro
    rw [if_pos (cond_iff.2 ⟨h2, h1⟩)]; rfl
  add s l h := by
    have h' : ¬ ((!l.isEmpty && !s.quoteChecker.endIsQuoted && endsWithAny l [')', ']']) = true) := fun hx => h (cond_iff.1 hx)
    unfold stateIntro
    rw [if_neg h']
    exact ⟨rfl, rfl, fun _ _ => rfl⟩

def effWrapUp (s : QuoteParser) (stored : List Line) : QuoteParser :=
  { s with quotedBlockWrapUp := stored.foldl (fun s l => l.appendTo s) s.quotedBlockWrapUp, state := .waitingForQuotedBlockWrapUp }

theorem collects_wrapUp : Collects [')', ']'] .quotedBlockWrapUp stateBlockWrapUp effWrapUp where
  step s l h := by unfold step; rw [h]
  close s l h1 h2 := by
    unfold stateBlockWrapUp
    rw [if_pos (cond_iff.2 ⟨h2, h1⟩)]; rfl
  add s l h := by
    have h' : ¬ ((!l.isEmpty && !s.quoteChecker.endIsQuoted && endsWithAny l [')', ']']) = true) := fun hx => h (cond_iff.1 hx)
    unfold stateBlockWrapUp
    rw [if_neg h']
    exact ⟨rfl, rfl, fun _ _ => rfl⟩

/-! ### notes and blocks -/

theorem empty_false {l : Line} {c : Char} {t : Str} (h : l.content = c :: t) : l.isEmpty = false := by
  rw [Bool.eq_false_iff]
  intro hx
  rw [(isEmpty_iff_content l).1 hx] at h
  cases h

theorem starts_bracket {l : Line} {c : Char} {t : Str} (h : l.content = c :: t) :
    startsWithAny l ['(', '['] = true ↔ OpeningBracket c := by
  unfold startsWithAny OpeningBracket; rw [h]; simp

theorem starts_quote {l : Line} {c : Char} {t : Str} (h : l.content = c :: t) :
    startsWithAny l ['„', '“'] = true ↔ OpeningQuote c := by
  unfold startsWithAny OpeningQuote; rw [h]; simp

theorem quote_not_bracket {c : Char} (h : OpeningQuote c) : ¬ OpeningBracket c := by
  rcases h with rfl | rfl <;> simp [OpeningBracket]

theorem notesIntro_run {before a stored : List Line} (h : Notes before a stored) : ∀ {s : QuoteParser},
    QuoteEnd s.quoteChecker before → s.state = .startExpectIntro → NestedLines (before ++ a) →
    ∃ q', QuoteEnd q' (before ++ a) ∧ ∀ b, s.parseLines (a ++ b) =
      (setQ q' { s with quotedBlockIntro := stored.foldl (fun s l => l.appendTo s) s.quotedBlockIntro }).parseLines b := by
  induction h with
  | nil => intro s hq _ _; exact ⟨s.quoteChecker, by simpa using hq, fun b => rfl⟩
  | @empty before ls stored l empty next ih =>
    intro s hq hs hn
    obtain ⟨q1, hu, hq1⟩ := quoteEnd_next hq hn
    obtain ⟨q2, hq2, hrun⟩ := ih (s := setQ q1 s) hq1 hs (by simpa using hn)
    refine ⟨q2, by simpa using hq2, ?_⟩
    intro b
    have : step (setQ q1 s) l = setQ q1 s := by
      unfold step
      rw [show (setQ q1 s).state = .startExpectIntro from hs]
      simp [stateStartExpectIntro, isEmpty_iff.2 empty]
    rw [List.cons_append, parseLines_cons hu, this, hrun]
    rfl
  | @note before ls note stored rest l c t bracket opens closes next ih =>
    intro s hq hs hn
    have hn1 : NestedLines ((before ++ [l]) ++ ls) := by
      have e : before ++ (l :: ls ++ rest) = ((before ++ [l]) ++ ls) ++ rest := by simp
      rw [e] at hn; exact nested_prefix hn
    obtain ⟨q1, hu, hq1⟩ := quoteEnd_next hq (ls := ls) (by simpa using hn1)
    have hstep : step (setQ q1 s) l = stateIntro (setQ q1 { s with state := .quotedBlockIntro }) (l.slice 1 none) := by
      unfold step
      rw [show (setQ q1 s).state = .startExpectIntro from hs]
      simp only [stateStartExpectIntro, empty_false bracket, (starts_bracket bracket).2 opens]
      rfl
    obtain ⟨q2, hq2, hrun⟩ := enclosed_run collects_intro closes (s := setQ q1 { s with state := .quotedBlockIntro }) hq1 rfl hn1
    obtain ⟨q3, hq3, hrun3⟩ := ih (s := effIntro (setQ q2 s) note) (show QuoteEnd q2 _ by simpa using hq2) rfl (by simpa using hn)
    refine ⟨q3, by simpa using hq3, ?_⟩
    intro b
    rw [List.append_assoc, List.cons_append, parseLines_cons hu, hstep, hrun]
    have : effIntro (setQ q2 (setQ q1 { s with state := .quotedBlockIntro })) note = effIntro (setQ q2 s) note := rfl
    rw [this, hrun3]
    simp [effIntro, setQ, hs]

theorem notesWrapUp_run {before a stored : List Line} (h : Notes before a stored) : ∀ {s : QuoteParser},
    QuoteEnd s.quoteChecker before → (s.state = .waitingForQuotedBlock ∨ s.state = .waitingForQuotedBlockWrapUp) →
    NestedLines (before ++ a) →
    ∃ q' st', QuoteEnd q' (before ++ a) ∧ (st' = .waitingForQuotedBlockWrapUp ∨
        (st' = s.state ∧ ∀ l ∈ a, l.parts = [])) ∧ (st' = .waitingForQuotedBlockWrapUp → s.state = .waitingForQuotedBlock →
          ¬ ∀ l ∈ a, l.parts = []) ∧ ∀ b, s.parseLines (a ++ b) =
      (setQ q' { s with quotedBlockWrapUp := stored.foldl (fun s l => l.appendTo s) s.quotedBlockWrapUp, state := st' }).parseLines b := by
  induction h with
  | nil =>
    intro s hq hs _
    refine ⟨s.quoteChecker, s.state, by simpa using hq, .inr ⟨rfl, by simp⟩, ?_, fun b => rfl⟩
    intro h1 h2; rw [h1] at h2; cases h2
  | @empty before ls stored l empty next ih =>
    intro s hq hs hn
    obtain ⟨q1, hu, hq1⟩ := quoteEnd_next hq hn
    obtain ⟨q2, st2, hq2, hst, hst', hrun⟩ := ih (s := setQ q1 s) hq1 hs (by simpa using hn)
    refine ⟨q2, st2, by simpa using hq2, ?_, ?_, ?_⟩
    · rcases hst with h | ⟨h, h'⟩
      · exact .inl h
      · refine .inr ⟨h, ?_⟩
        simp only [List.mem_cons, forall_eq_or_imp]
        exact ⟨empty, h'⟩
    · intro h1 h2 h3
      exact hst' h1 h2 (fun l hl => h3 l (List.mem_cons_of_mem _ hl))
    · intro b
      have : step (setQ q1 s) l = setQ q1 s := by
        unfold step
        rcases hs with hs | hs
        · rw [show (setQ q1 s).state = _ from hs]
          simp [stateWaiting, isEmpty_iff.2 empty]
        · rw [show (setQ q1 s).state = _ from hs]
          simp [stateWaitingWrapUp, isEmpty_iff.2 empty]
      rw [List.cons_append, parseLines_cons hu, this, hrun]
      rfl
  | @note before ls note stored rest l c t bracket opens closes next ih =>
    intro s hq hs hn
    have hn1 : NestedLines ((before ++ [l]) ++ ls) := by
      have e : before ++ (l :: ls ++ rest) = ((before ++ [l]) ++ ls) ++ rest := by simp
      rw [e] at hn; exact nested_prefix hn
    obtain ⟨q1, hu, hq1⟩ := quoteEnd_next hq (ls := ls) (by simpa using hn1)
    have hnq : ¬ startsWithAny l ['„', '“'] = true := by
      rw [starts_quote bracket]
      intro hx
      exact quote_not_bracket hx opens
    have hstep : step (setQ q1 s) l = stateBlockWrapUp (setQ q1 { s with state := .quotedBlockWrapUp }) (l.slice 1 none) := by
      unfold step
      rcases hs with hs | hs
      · rw [show (setQ q1 s).state = _ from hs]
        simp only [stateWaiting, stateWaitingWrapUp, empty_false bracket, (starts_bracket bracket).2 opens, hnq]
        rfl
      · rw [show (setQ q1 s).state = _ from hs]
        simp only [stateWaitingWrapUp, empty_false bracket, (starts_bracket bracket).2 opens]
        rfl
    obtain ⟨q2, hq2, hrun⟩ := enclosed_run collects_wrapUp closes (s := setQ q1 { s with state := .quotedBlockWrapUp }) hq1 rfl hn1
    obtain ⟨q3, st3, hq3, hst, hst', hrun3⟩ := ih (s := effWrapUp (setQ q2 s) note) (show QuoteEnd q2 _ by simpa using hq2) (.inr rfl) (by simpa using hn)
    have hst3 : st3 = .waitingForQuotedBlockWrapUp := by
      rcases hst with h | ⟨h, _⟩
      · exact h
      · exact h
    refine ⟨q3, st3, by simpa using hq3, .inl hst3, ?_, ?_⟩
    · intro _ _ h
      have := h l (by simp)
      rw [← isEmpty_iff, empty_false bracket] at this
      cases this
    · intro b
      rw [List.append_assoc, List.cons_append, parseLines_cons hu, hstep, hrun]
      have : effWrapUp (setQ q2 (setQ q1 { s with state := .quotedBlockWrapUp })) note = effWrapUp (setQ q2 s) note := rfl
      rw [this, hrun3]
      simp [effWrapUp, setQ]

/-- Blocks without notes. -/
def bare (ls : List Line) : QuotedBlock := ⟨none, ls, none⟩

theorem blocks_run {before a : List Line} {blocks : List (List Line)} (h : Blocks before a blocks) : ∀ {s : QuoteParser},
    QuoteEnd s.quoteChecker before → (s.state = .start ∨ s.state = .startExpectIntro ∨ s.state = .waitingForQuotedBlock) →
    s.quotedLines = [] → NestedLines (before ++ a) →
    ∃ q', QuoteEnd q' (before ++ a) ∧ ∀ b, s.parseLines (a ++ b) =
      (setQ q' { s with blocks := s.blocks ++ blocks.map bare, state := if blocks = [] then s.state else .waitingForQuotedBlock }).parseLines b := by
  induction h with
  | nil => intro s hq _ _ _; exact ⟨s.quoteChecker, by simpa using hq, fun b => by simp [setQ]⟩
  | @empty before ls blocks l empty next ih =>
    intro s hq hs hql hn
    obtain ⟨q1, hu, hq1⟩ := quoteEnd_next hq hn
    obtain ⟨q2, hq2, hrun⟩ := ih (s := setQ q1 s) hq1 hs hql (by simpa using hn)
    refine ⟨q2, by simpa using hq2, ?_⟩
    intro b
    have : step (setQ q1 s) l = setQ q1 s := by
      unfold step
      rcases hs with hs | hs | hs <;> rw [show (setQ q1 s).state = _ from hs] <;>
        simp [stateStart, stateStartExpectIntro, stateWaiting, isEmpty_iff.2 empty]
    rw [List.cons_append, parseLines_cons hu, this, hrun]
    rfl
  | @block before ls block rest blocks l c t quote opens closes next ih =>
    intro s hq hs hql hn
    have hn1 : NestedLines ((before ++ [l]) ++ ls) := by
      have e : before ++ (l :: ls ++ rest) = ((before ++ [l]) ++ ls) ++ rest := by simp
      rw [e] at hn; exact nested_prefix hn
    obtain ⟨q1, hu, hq1⟩ := quoteEnd_next hq (ls := ls) (by simpa using hn1)
    have hnb : ¬ startsWithAny l ['(', '['] = true := by
      rw [starts_bracket quote]; exact quote_not_bracket opens
    have hstep : step (setQ q1 s) l = stateInside (setQ q1 { s with state := .insideQuotedBlock }) (l.slice 1 none) := by
      unfold step
      rcases hs with hs | hs | hs <;> rw [show (setQ q1 s).state = _ from hs] <;>
        simp only [stateStart, stateStartExpectIntro, stateWaiting, empty_false quote, (starts_quote quote).2 opens, hnb] <;>
        rfl
    obtain ⟨q2, hq2, hrun⟩ := enclosed_run collects_inside closes (s := setQ q1 { s with state := .insideQuotedBlock }) hq1 rfl hn1
    obtain ⟨q3, hq3, hrun3⟩ := ih (s := effInside (setQ q2 s) block) (show QuoteEnd q2 _ by simpa using hq2) (.inr (.inr rfl)) rfl (by simpa using hn)
    refine ⟨q3, by simpa using hq3, ?_⟩
    intro b
    rw [List.append_assoc, List.cons_append, parseLines_cons hu, hstep, hrun]
    have : effInside (setQ q2 (setQ q1 { s with state := .insideQuotedBlock })) block = effInside (setQ q2 s) block := rfl
    rw [this, hrun3]
    simp [effInside, setQ, hql, bare]

theorem wrap_run (ls : List Line) : ∀ {s : QuoteParser} {before : List Line}, QuoteEnd s.quoteChecker before → s.state = .wrapUp →
    NestedLines (before ++ ls) →
    ∃ q', s.parseLines ls = .ok (setQ q' { s with wrapUp := ls.foldl (fun s l => l.appendTo s) s.wrapUp }) := by
  induction ls with
  | nil => intro s _ _ _ _; exact ⟨s.quoteChecker, rfl⟩
  | cons l ls ih =>
    intro s before hq hs hn
    obtain ⟨q1, hu, hq1⟩ := quoteEnd_next hq hn
    obtain ⟨q2, hrun⟩ := ih (s := stateWrapUp (setQ q1 s) l) (before := before ++ [l]) hq1 hs (by simpa using hn)
    refine ⟨q2, ?_⟩
    have : step (setQ q1 s) l = stateWrapUp (setQ q1 s) l := by
      unfold step; rw [show (setQ q1 s).state = _ from hs]
    rw [parseLines_cons hu, this, hrun]
    rfl

/-! ### dividing lines -/

/-- The notes at the beginning of lines. -/
theorem notes_exist (n : Nat) : ∀ (before ls : List Line), ls.length ≤ n → ∃ a b stored, ls = a ++ b ∧ Notes before a stored ∧
    (b = [] ∨ ∃ l b', b = l :: b' ∧ l.parts ≠ [] ∧ ((∀ c t, l.content = c :: t → ¬ OpeningBracket c) ∨
      ((∃ c t, l.content = c :: t ∧ OpeningBracket c) ∧
        ∀ x y stored, b' = x ++ y → ¬ Enclosed [')', ']'] (before ++ a ++ [l]) (l.slice 1 none) x stored))) := by
  induction n with
  | zero =>
    intro before ls h
    have : ls = [] := List.length_eq_zero_iff.1 (by omega)
    subst this
    exact ⟨[], [], [], rfl, .nil, .inl rfl⟩
  | succ n ih =>
    intro before ls h
    cases ls with
    | nil => exact ⟨[], [], [], rfl, .nil, .inl rfl⟩
    | cons l ls =>
      simp only [List.length_cons] at h
      by_cases he : l.parts = []
      · obtain ⟨a, b, stored, rfl, h1, h2⟩ := ih (before ++ [l]) ls (by omega)
        refine ⟨l :: a, b, stored, rfl, .empty he h1, ?_⟩
        simpa using h2
      · by_cases hb : ∀ c t, l.content = c :: t → ¬ OpeningBracket c
        · exact ⟨[], l :: ls, [], rfl, .nil, .inr ⟨l, ls, rfl, he, .inl hb⟩⟩
        · simp only [Classical.not_forall, Classical.not_not] at hb
          obtain ⟨c, t, hc, ho⟩ := hb
          by_cases hx : ∃ x y stored, ls = x ++ y ∧ Enclosed [')', ']'] (before ++ [l]) (l.slice 1 none) x stored
          · obtain ⟨x, y, note, rfl, hx⟩ := hx
            obtain ⟨a, b, stored, rfl, h1, h2⟩ := ih (before ++ l :: x) y (by simp at h; omega)
            refine ⟨l :: x ++ a, b, note ++ stored, by simp, .note hc ho hx h1, ?_⟩
            simpa using h2
          · refine ⟨[], l :: ls, [], rfl, .nil, .inr ⟨l, ls, rfl, he, .inr ⟨⟨c, t, hc, ho⟩, ?_⟩⟩⟩
            intro x y stored e hy
            exact hx ⟨x, y, stored, e, by simpa using hy⟩

/-- The blocks at the beginning of lines. -/
theorem blocks_exist (n : Nat) : ∀ (before ls : List Line), ls.length ≤ n → ∃ a b blocks, ls = a ++ b ∧ Blocks before a blocks ∧
    (b = [] ∨ ∃ l b', b = l :: b' ∧ l.parts ≠ [] ∧ ((∀ c t, l.content = c :: t → ¬ OpeningQuote c) ∨
      ((∃ c t, l.content = c :: t ∧ OpeningQuote c) ∧
        ∀ x y stored, b' = x ++ y → ¬ Enclosed ['”'] (before ++ a ++ [l]) (l.slice 1 none) x stored))) := by
  induction n with
  | zero =>
    intro before ls h
    have : ls = [] := List.length_eq_zero_iff.1 (by omega)
    subst this
    exact ⟨[], [], [], rfl, .nil, .inl rfl⟩
  | succ n ih =>
    intro before ls h
    cases ls with
    | nil => exact ⟨[], [], [], rfl, .nil, .inl rfl⟩
    | cons l ls =>
      simp only [List.length_cons] at h
      by_cases he : l.parts = []
      · obtain ⟨a, b, stored, rfl, h1, h2⟩ := ih (before ++ [l]) ls (by omega)
        refine ⟨l :: a, b, stored, rfl, .empty he h1, ?_⟩
        simpa using h2
      · by_cases hb : ∀ c t, l.content = c :: t → ¬ OpeningQuote c
        · exact ⟨[], l :: ls, [], rfl, .nil, .inr ⟨l, ls, rfl, he, .inl hb⟩⟩
        · simp only [Classical.not_forall, Classical.not_not] at hb
          obtain ⟨c, t, hc, ho⟩ := hb
          by_cases hx : ∃ x y stored, ls = x ++ y ∧ Enclosed ['”'] (before ++ [l]) (l.slice 1 none) x stored
          · obtain ⟨x, y, note, rfl, hx⟩ := hx
            obtain ⟨a, b, stored, rfl, h1, h2⟩ := ih (before ++ l :: x) y (by simp at h; omega)
            refine ⟨l :: x ++ a, b, note :: stored, by simp, .block hc ho hx h1, ?_⟩
            simpa using h2
          · refine ⟨[], l :: ls, [], rfl, .nil, .inr ⟨l, ls, rfl, he, .inr ⟨⟨c, t, hc, ho⟩, ?_⟩⟩⟩
            intro x y stored e hy
            exact hx ⟨x, y, stored, e, by simpa using hy⟩

theorem blocks_nil_empty {before a : List Line} {blocks : List (List Line)} (h : Blocks before a blocks) :
    blocks = [] → ∀ l ∈ a, l.parts = [] := by
  induction h with
  | nil => simp
  | empty he _ ih =>
    intro hb
    simp only [List.mem_cons, forall_eq_or_imp]
    exact ⟨he, ih hb⟩
  | block => intro hb; cases hb

/-! ### the whole -/

/-- The blocks with the notes. -/
theorem noted_iff {i w : Str} {blocks : List (List Line)} (hne : blocks ≠ []) {bs : List QuotedBlock} :
    bs = setWrapUp w (setIntro i (blocks.map bare)) ↔
    bs.map QuotedBlock.lines = blocks ∧
    (∀ b ∈ bs.tail, b.intro = none) ∧ (∀ b ∈ bs.head?, b.intro = textOpt i) ∧
    (∀ b ∈ bs.dropLast, b.wrapUp = none) ∧ (∀ b ∈ bs.getLast?, b.wrapUp = textOpt w) := by
  have key : ∀ (blocks : List (List Line)) (pre : QuotedBlock), pre.wrapUp = none → ∀ bs : List QuotedBlock,
      (bs = setWrapUp w (pre :: blocks.map bare) ↔
      bs.map QuotedBlock.lines = pre.lines :: blocks ∧
      (∀ b ∈ bs.tail, b.intro = none) ∧ (∀ b ∈ bs.head?, b.intro = pre.intro) ∧
      (∀ b ∈ bs.dropLast, b.wrapUp = none) ∧ (∀ b ∈ bs.getLast?, b.wrapUp = textOpt w)) := by
    intro blocks
    induction blocks with
    | nil =>
      intro pre hp bs
      simp only [List.map_nil, setWrapUp]
      rcases bs with _ | ⟨b, _ | ⟨b', bs⟩⟩
      · simp
      · obtain ⟨bi, bl, bw⟩ := b
        simp [nonEmpty, textOpt]
        tauto
      · simp
    | cons x blocks ih =>
      intro pre hp bs
      rcases bs with _ | ⟨b, _ | ⟨b', bs⟩⟩
      · simp [setWrapUp]
      · simp only [List.map_cons, setWrapUp]
        simp only [List.cons.injEq, List.map_nil]
        constructor
        · rintro ⟨_, h⟩
          cases blocks <;> simp [setWrapUp] at h
        · rintro ⟨⟨_, h⟩, _⟩
          cases h
      · have := ih (bare x) rfl (b' :: bs)
        obtain ⟨bi, bl, bw⟩ := b
        obtain ⟨pi, pl, pw⟩ := pre
        simp only at hp
        subst hp
        simp only [List.map_cons, setWrapUp, List.cons.injEq] at this ⊢
        rw [this]
        simp [bare]
        tauto
  cases blocks with
  | nil => exact absurd rfl hne
  | cons x blocks =>
    simp only [List.map_cons, setIntro]
    exact key blocks _ rfl bs

theorem textOpt_eq (s : Str) : textOpt s = nonEmpty s := rfl

theorem expectIntro_iff {prev : Option Line} :
    expectIntro prev = true ↔ ∃ p, prev = some p ∧ p.content.getLast? = some ':' := by
  unfold expectIntro endsWithAny
  cases prev with
  | none => simp
  | some p =>
    cases h : p.content.getLast? with
    | none => simp [h]
    | some c => simp [h]

/-- The state after the notes before the blocks. -/
def afterNotes (e : Bool) (notes : List Line) (q : QuoteCheck) : QuoteParser :=
  setQ q { new e with quotedBlockIntro := Line.join notes }

theorem pre_run {e : Bool} {pre notes : List Line} (h : Notes [] pre notes) (he : pre ≠ [] → e = true) (hn : NestedLines pre) :
    ∃ q, QuoteEnd q pre ∧ ∀ b, (new e).parseLines (pre ++ b) = (afterNotes e notes q).parseLines b := by
  by_cases hp : pre = []
  · subst hp
    cases h
    exact ⟨.new, quoteEnd_new, fun b => rfl⟩
  · have he := he hp
    subst he
    obtain ⟨q, hq, hrun⟩ := notesIntro_run h (s := new true) quoteEnd_new rfl (by simpa using hn)
    exact ⟨q, by simpa using hq, hrun⟩

theorem notes_empty {before a stored : List Line} (h : Notes before a stored) : (∀ l ∈ a, l.parts = []) → stored = [] := by
  induction h with
  | nil => intro; rfl
  | empty he _ ih => intro hx; exact ih fun l hl => hx l (List.mem_cons_of_mem _ hl)
  | note hb => 
    intro hx
    have := hx _ (List.mem_append_left _ (List.mem_cons_self ..))
    rw [← isEmpty_iff, empty_false hb] at this
    cases this

theorem quoted_complete {prev : Option Line} {ls : List Line} {bs : List QuotedBlock} {w : Option Str}
    (h : QuotedAre prev ls bs w) : QuoteParser.extractMultiple prev ls = .ok ⟨bs, w, []⟩ := by
  obtain ⟨hn, pre, notes, mid, blocks, post, notes', wrap, rfl, h1, h2, h3, h4, h5, h6, h7, hb1, hb2, hb3, hb4, hb5, rfl⟩ := h
  have hbs := (noted_iff (i := Line.join notes) (w := Line.join notes') h4).2 ⟨hb1, hb2, hb3, hb4, hb5⟩
  have he : pre ≠ [] → expectIntro prev = true := fun hp => expectIntro_iff.2 (h2 hp)
  have hn1 : NestedLines (pre ++ mid ++ post) := nested_prefix hn
  have hn2 : NestedLines (pre ++ mid) := nested_prefix hn1
  obtain ⟨q1, hq1, run1⟩ := pre_run (e := expectIntro prev) h1 he (nested_prefix hn2)
  obtain ⟨q2, hq2, run2⟩ := blocks_run h3 (s := afterNotes (expectIntro prev) notes q1) hq1
    (by cases expectIntro prev <;> simp [afterNotes, new, setQ]) rfl hn2
  rw [if_neg h4] at run2
  obtain ⟨q3, st3, hq3, hst, hst', run3⟩ := notesWrapUp_run h6
    (s := setQ q2 { afterNotes (expectIntro prev) notes q1 with
      blocks := (afterNotes (expectIntro prev) notes q1).blocks ++ blocks.map bare, state := .waitingForQuotedBlock }) hq2 (.inl rfl) hn1
  have hfirst : ∃ first others, pre ++ mid ++ post ++ wrap = first :: others ∧
      startsWithAny first (startTokens (expectIntro prev)) = true := by
    cases h1 with
    | nil =>
      cases h3 with
      | nil => exact absurd rfl h4
      | empty he => exact absurd he (h5 _ rfl)
      | block hc ho =>
        refine ⟨_, _, rfl, ?_⟩
        refine startsWithAny_iff.2 ⟨_, _, ?_, hc⟩
        unfold startTokens
        rcases ho with rfl | rfl <;> cases expectIntro prev <;> simp
    | empty hem => exact absurd hem (h5 _ rfl)
    | note hc ho =>
      refine ⟨_, _, rfl, ?_⟩
      refine startsWithAny_iff.2 ⟨_, _, ?_, hc⟩
      unfold startTokens
      rw [he (by simp)]
      rcases ho with rfl | rfl <;> simp
  obtain ⟨first, others, hf, hs⟩ := hfirst
  have hrun : (new (expectIntro prev)).parseLines (pre ++ mid ++ post ++ wrap) =
      (setQ q3 { afterNotes (expectIntro prev) notes q1 with
        blocks := blocks.map bare, state := st3, quotedBlockWrapUp := Line.join notes' }).parseLines wrap := by
    rw [List.append_assoc, List.append_assoc, run1, run2, run3]
    rfl
  have hend : ∃ s', (new (expectIntro prev)).parseLines (pre ++ mid ++ post ++ wrap) = .ok s' ∧
      (s'.state = .waitingForQuotedBlock ∨ s'.state = .wrapUp ∨ s'.state = .waitingForQuotedBlockWrapUp) ∧
      s'.blocks = blocks.map bare ∧ s'.quotedBlockWrapUp = Line.join notes' ∧ s'.quotedBlockIntro = Line.join notes ∧
      s'.wrapUp = Line.join wrap := by
    rw [hrun]
    cases wrap with
    | nil =>
      refine ⟨_, rfl, ?_, rfl, rfl, rfl, rfl⟩
      rcases hst with h | ⟨h, _⟩
      · exact .inr (.inr h)
      · exact .inl h
    | cons l wrap =>
      obtain ⟨h8, h9⟩ := h7 l rfl
      obtain ⟨q4, hu, hq4⟩ := quoteEnd_next hq3 hn
      have hl : l.isEmpty = false := by rw [Bool.eq_false_iff]; intro hx; exact h8 (isEmpty_iff.1 hx)
      obtain ⟨c, t, hc⟩ : ∃ c t, l.content = c :: t := by
        cases hx : l.content with
        | nil => rw [(isEmpty_iff_content l).2 hx] at hl; cases hl
        | cons c t => exact ⟨c, t, rfl⟩
      obtain ⟨h10, h11⟩ := h9 c t hc
      have hnb : ¬ startsWithAny l ['(', '['] = true := by rw [starts_bracket hc]; exact h10
      have hstep : ∀ s : QuoteParser, s.state = st3 → step s l = stateWrapUp { s with state := .wrapUp } l := by
        intro s hs
        unfold step
        rw [hs]
        rcases hst with h | ⟨h, h'⟩
        · rw [h]; simp only [stateWaitingWrapUp, hl, hnb]; rfl
        · have hnq : ¬ startsWithAny l ['„', '“'] = true := by rw [starts_quote hc]; exact h11 h'
          rw [h]; simp only [setQ, stateWaiting, stateWaitingWrapUp, hl, hnb, hnq]; rfl
      rw [parseLines_cons (q := q4) hu, setQ_setQ, hstep _ rfl]
      obtain ⟨q5, hr⟩ := wrap_run wrap (before := pre ++ mid ++ post ++ [l])
        (s := stateWrapUp { setQ q4 { afterNotes (expectIntro prev) notes q1 with
          blocks := blocks.map bare, state := st3, quotedBlockWrapUp := Line.join notes' } with state := .wrapUp } l) hq4 rfl (by simpa using hn)
      rw [hr]
      exact ⟨_, rfl, .inr (.inl rfl), rfl, rfl, rfl, rfl⟩
  obtain ⟨s', hs', hst4, hbl, hw', hi', hw⟩ := hend
  unfold QuoteParser.extractMultiple
  rw [hf] at hs' ⊢
  simp only
  rw [hs, hs']
  simp only [Bool.not_true, Bool.false_eq_true, if_false, Res.bind_ok]
  rw [if_pos hst4, if_neg (by rw [hbl]; simpa using h4), hbl, hi', hw', hw, ← hbs]
  rfl

theorem starts_tokens {first : Line} {e : Bool} (h : startsWithAny first (startTokens e) = true) :
    ∃ c t, first.content = c :: t ∧ (e = false → OpeningQuote c) := by
  obtain ⟨c, t, hm, hc⟩ := startsWithAny_iff.1 h
  refine ⟨c, t, hc, ?_⟩
  rintro rfl
  simpa [startTokens, OpeningQuote] using hm

theorem quoted_sound {prev : Option Line} {ls : List Line} {r : Extracted (List QuotedBlock)}
    (h : QuoteParser.extractMultiple prev ls = .ok r) : QuotedAre prev ls r.elements r.parentWrapUp ∧ r.restOfWrapUp = [] := by
  have hor := h
  unfold QuoteParser.extractMultiple at h
  cases hls : ls with
  | nil => rw [hls] at h; cases h
  | cons first others =>
  rw [← hls]
  rw [hls] at h
  simp only at h
  rw [← hls] at h
  by_cases hst : startsWithAny first (startTokens (expectIntro prev)) = true
  case neg => simp [hst] at h
  simp only [hst, Bool.not_true, Bool.false_eq_true, if_false] at h
  rw [Res.bind_eq_ok] at h
  obtain ⟨s', hs', h⟩ := h
  by_cases hfin : s'.state = .waitingForQuotedBlock ∨ s'.state = .wrapUp ∨ s'.state = .waitingForQuotedBlockWrapUp
  case neg => rw [if_neg hfin] at h; cases h
  rw [if_pos hfin] at h
  by_cases hbl : s'.blocks = []
  case pos => rw [if_pos hbl] at h; cases h
  clear h
  obtain ⟨fc, ft, hfc, hfq⟩ := starts_tokens hst
  have hfe : first.parts ≠ [] := by
    intro hx
    have := isEmpty_iff.2 hx
    rw [empty_false hfc] at this
    cases this
  have hn : NestedLines ls := parseLines_nested (done := []) quoteEnd_new nested_nil hs'
  -- the notes before
  obtain ⟨pre, rest, notes, hpre, hnotes, hpe, hrest⟩ : ∃ pre rest notes, ls = pre ++ rest ∧ Notes [] pre notes ∧
      (pre ≠ [] → expectIntro prev = true) ∧ (rest = [] ∨ ∃ l b', rest = l :: b' ∧ l.parts ≠ [] ∧
        ((∀ c t, l.content = c :: t → ¬ OpeningBracket c) ∨ (expectIntro prev = true ∧ (∃ c t, l.content = c :: t ∧ OpeningBracket c) ∧
        ∀ x y stored, b' = x ++ y → ¬ Enclosed [')', ']'] (pre ++ [l]) (l.slice 1 none) x stored))) := by
    cases he : expectIntro prev with
    | false =>
      refine ⟨[], ls, [], rfl, .nil, by simp, .inr ⟨first, others, hls, hfe, .inl ?_⟩⟩
      intro c t hc
      rw [hfc] at hc
      simp only [List.cons.injEq] at hc
      obtain ⟨rfl, rfl⟩ := hc
      exact quote_not_bracket (hfq he)
    | true =>
      obtain ⟨a, b, stored, h1, h2, h3⟩ := notes_exist _ [] ls (Nat.le_refl _)
      refine ⟨a, b, stored, h1, h2, fun _ => rfl, ?_⟩
      rcases h3 with h3 | ⟨l, b', h3, h4, h5 | ⟨h5, h6⟩⟩
      · exact .inl h3
      · exact .inr ⟨l, b', h3, h4, .inl h5⟩
      · exact .inr ⟨l, b', h3, h4, .inr ⟨rfl, h5, h6⟩⟩
  rw [hpre] at hn hs'
  obtain ⟨q1, hq1, run1⟩ := pre_run (e := expectIntro prev) hnotes hpe (nested_prefix hn)
  rw [run1] at hs'
  rcases hrest with rfl | ⟨l, b', rfl, hle, hrest⟩
  · exfalso
    simp only [parseLines, Res.ok.injEq] at hs'
    subst hs'
    cases he : expectIntro prev <;> rw [he] at hfin <;> simp [afterNotes, setQ, new] at hfin
  rcases hrest with hnb | ⟨he, ⟨c, t, hc, ho⟩, hun⟩
  case inr =>
    exfalso
    obtain ⟨q2, hu, hq2⟩ := quoteEnd_next hq1 hn
    rw [he] at hs'
    have hstep : step (setQ q2 (afterNotes true notes q1)) l =
        stateIntro (setQ q2 { afterNotes true notes q1 with state := .quotedBlockIntro }) (l.slice 1 none) := by
      unfold step
      rw [show (setQ q2 (afterNotes true notes q1)).state = .startExpectIntro from rfl]
      simp only [stateStartExpectIntro, empty_false hc, (starts_bracket hc).2 ho]
      rfl
    rw [parseLines_cons (q := q2) hu, hstep] at hs'
    have := unclosed_run collects_intro b' (before := pre ++ [l]) hq2 rfl hun hs'
    rw [this] at hfin
    simp at hfin
  -- the blocks
  obtain ⟨mid, rest2, blocks, hmid, hblocks, hrest2⟩ := blocks_exist _ pre (l :: b') (Nat.le_refl _)
  rw [hmid] at hn hs' hpre
  rw [← List.append_assoc] at hn
  have hstart : (afterNotes (expectIntro prev) notes q1).state = .start ∨
      (afterNotes (expectIntro prev) notes q1).state = .startExpectIntro ∨
      (afterNotes (expectIntro prev) notes q1).state = .waitingForQuotedBlock := by
    cases expectIntro prev <;> simp [afterNotes, new, setQ]
  obtain ⟨q2, hq2, run2⟩ := blocks_run hblocks (s := afterNotes (expectIntro prev) notes q1) hq1 hstart rfl (nested_prefix hn)
  rw [run2] at hs'
  -- an open block
  have hopen : ∀ m b'', rest2 = m :: b'' → ¬ ((∃ c t, m.content = c :: t ∧ OpeningQuote c) ∧
        ∀ x y stored, b'' = x ++ y → ¬ Enclosed ['”'] (pre ++ mid ++ [m]) (m.slice 1 none) x stored) := by
    rintro m b'' rfl ⟨⟨c, t, hc, ho⟩, hun⟩
    obtain ⟨q3, hu, hq3⟩ := quoteEnd_next hq2 hn
    have hnb : ¬ startsWithAny m ['(', '['] = true := by rw [starts_bracket hc]; exact quote_not_bracket ho
    have hstep : ∀ s : QuoteParser, (s.state = .start ∨ s.state = .startExpectIntro ∨ s.state = .waitingForQuotedBlock) →
        step s m = stateInside { s with state := .insideQuotedBlock } (m.slice 1 none) := by
      intro s hs
      unfold step
      rcases hs with hs | hs | hs <;> rw [hs] <;>
        simp only [stateStart, stateStartExpectIntro, stateWaiting, empty_false hc, (starts_quote hc).2 ho, hnb] <;>
        rfl
    rw [parseLines_cons (q := q3) hu, hstep _ (by
      by_cases hb : blocks = []
      · simp only [hb, if_true]; exact hstart
      · simp only [hb, if_false]; exact .inr (.inr rfl))] at hs'
    have := unclosed_run collects_inside b'' (before := pre ++ mid ++ [m]) hq3 rfl hun hs'
    rw [this] at hfin
    simp at hfin
  have hne : blocks ≠ [] := by
    intro hb
    have hme := blocks_nil_empty hblocks hb
    cases mid with
    | cons m mid =>
      simp only [List.cons_append, List.cons.injEq] at hmid
      exact hle (by rw [hmid.1]; exact hme m (by simp))
    | nil =>
      simp only [List.nil_append] at hmid
      rcases hrest2 with h0 | ⟨m, b'', h0, hm, hq⟩
      · rw [h0] at hmid; cases hmid
      · rcases hq with hq | hq
        · rw [h0] at hmid
          simp only [List.cons.injEq] at hmid
          obtain ⟨rfl, rfl⟩ := hmid
          rw [h0] at hs' hn
          obtain ⟨q3, hu, hq3⟩ := quoteEnd_next hq2 hn
          have hl : l.isEmpty = false := by rw [Bool.eq_false_iff]; intro hx; exact hle (isEmpty_iff.1 hx)
          obtain ⟨c, t, hc⟩ : ∃ c t, l.content = c :: t := by
            cases hx : l.content with
            | nil => rw [(isEmpty_iff_content l).2 hx] at hl; cases hl
            | cons c t => exact ⟨c, t, rfl⟩
          have h1 : ¬ startsWithAny l ['(', '['] = true := by rw [starts_bracket hc]; exact hnb c t hc
          have h2 : ¬ startsWithAny l ['„', '“'] = true := by rw [starts_quote hc]; exact hq c t hc
          have hstep : ∀ s : QuoteParser, (s.state = .start ∨ s.state = .startExpectIntro) →
              step s l = stateWrapUp { s with state := .wrapUp } l := by
            intro s hs
            unfold step
            rcases hs with hs | hs <;> rw [hs] <;> simp only [stateStart, stateStartExpectIntro, hl, h1, h2] <;> rfl
          rw [parseLines_cons (q := q3) hu, hstep _ (by
            simp only [hb, if_true]
            cases expectIntro prev
            · exact .inl rfl
            · exact .inr rfl)] at hs'
          obtain ⟨q4, hr⟩ := wrap_run b' (before := pre ++ [] ++ [l]) (s := stateWrapUp
            { setQ q3 (setQ q2 { afterNotes (expectIntro prev) notes q1 with
                blocks := (afterNotes (expectIntro prev) notes q1).blocks ++ blocks.map bare,
                state := if blocks = [] then (afterNotes (expectIntro prev) notes q1).state else .waitingForQuotedBlock }) with
              state := .wrapUp } l) hq3 rfl (by simpa using hn)
          rw [hr] at hs'
          simp only [Res.ok.injEq] at hs'
          subst hs'
          subst hb
          exact hbl rfl
        · exact hopen m b'' h0 hq
  rw [if_neg hne] at hs'
  -- the notes after
  obtain ⟨post, wrap, notes', hpost, hnotes', hwrap⟩ := notes_exist _ (pre ++ mid) rest2 (Nat.le_refl _)
  have hwrap' : ∀ m, wrap.head? = some m → m.parts ≠ [] ∧ ∀ c t, m.content = c :: t →
      ¬ OpeningBracket c ∧ ((∀ l ∈ post, l.parts = []) → ¬ OpeningQuote c) := by
    intro m hm
    rcases hwrap with h0 | ⟨m', b'', h0, hme, hb⟩
    · rw [h0] at hm; cases hm
    · rw [h0] at hm
      simp only [List.head?_cons, Option.some.injEq] at hm
      subst hm
      refine ⟨hme, ?_⟩
      rcases hb with hb | ⟨⟨c, t, hc, ho⟩, hun⟩
      · intro c t hc
        refine ⟨hb c t hc, ?_⟩
        intro hpe hqc
        cases post with
        | cons p post =>
          rcases hrest2 with h1 | ⟨m2, b2, h1, h2, _⟩
          · rw [h1] at hpost; cases hpost
          · rw [h1] at hpost
            simp only [List.cons_append, List.cons.injEq] at hpost
            exact h2 (by rw [hpost.1]; exact hpe p (by simp))
        | nil =>
          rw [h0] at hpost
          rcases hrest2 with h1 | ⟨m2, b2, h1, h2, h3⟩
          · rw [h1] at hpost; cases hpost
          · rw [h1] at hpost
            simp only [List.nil_append, List.cons.injEq] at hpost
            obtain ⟨rfl, rfl⟩ := hpost
            rcases h3 with h3 | h3
            · exact h3 c t hc hqc
            · exact hopen _ _ h1 h3
      · exfalso
        rw [hpost] at hs' hn
        rw [← List.append_assoc] at hn
        obtain ⟨q3, st3, hq3, hst3, hst3', run3⟩ := notesWrapUp_run hnotes'
          (s := setQ q2 { afterNotes (expectIntro prev) notes q1 with
            blocks := (afterNotes (expectIntro prev) notes q1).blocks ++ blocks.map bare, state := .waitingForQuotedBlock })
          hq2 (.inl rfl) (nested_prefix hn)
        rw [run3, h0] at hs'
        rw [h0] at hn
        obtain ⟨q4, hu, hq4⟩ := quoteEnd_next hq3 hn
        have hnq : ¬ startsWithAny m' ['„', '“'] = true := by
          rw [starts_quote hc]
          intro hx
          exact quote_not_bracket hx ho
        have hstep : ∀ s : QuoteParser, s.state = st3 →
            step s m' = stateBlockWrapUp { s with state := .quotedBlockWrapUp } (m'.slice 1 none) := by
          intro s hs
          unfold step
          rw [hs]
          rcases hst3 with h | ⟨h, _⟩
          · rw [h]; simp only [stateWaitingWrapUp, empty_false hc, (starts_bracket hc).2 ho]; rfl
          · rw [h]; simp only [setQ, stateWaiting, stateWaitingWrapUp, empty_false hc, (starts_bracket hc).2 ho, hnq]; rfl
        rw [parseLines_cons (q := q4) hu, hstep _ rfl] at hs'
        have := unclosed_run collects_wrapUp b'' (before := pre ++ mid ++ post ++ [m']) hq4 rfl hun hs'
        rw [this] at hfin
        simp at hfin
  have hls' : ls = pre ++ mid ++ post ++ wrap := by rw [hpre, hpost]; simp
  have hall : QuotedAre prev ls (setWrapUp (Line.join notes') (setIntro (Line.join notes) (blocks.map bare)))
      (textOpt (Line.join wrap)) := by
    obtain ⟨g1, g2, g3, g4, g5⟩ := (noted_iff (i := Line.join notes) (w := Line.join notes') hne).1 rfl
    refine ⟨?_, pre, notes, mid, blocks, post, notes', wrap, hls', hnotes, fun hp => expectIntro_iff.1 (hpe hp), hblocks, hne, ?_,
      hnotes', hwrap', g1, g2, g3, g4, g5, rfl⟩
    · rw [hpre, ← List.append_assoc]; exact hn
    · intro m hm
      rw [hls] at hm
      simp only [List.head?_cons, Option.some.injEq] at hm
      rw [← hm]; exact hfe
  have := quoted_complete hall
  rw [hor] at this
  simp only [Res.ok.injEq] at this
  subst this
  exact ⟨hall, rfl⟩

end HunLaw
