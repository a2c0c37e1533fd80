import Verif.Lemmas.WrittenGroup

/-! A group of references in a text of words: only the group is recognised as references. -/

set_option autoImplicit false

namespace HunLaw.Grammar

open HunLaw P Spec

variable {α β : Type} {known : List Str}

/-! ### loops -/

theorem psManyRun_succ (p : PS α) (m : Nat) : ∀ (i : Inp) (s : St), i.rest.length < m →
    PS.manyRun p (m + 1) i s = PS.manyRun p m i s := by
  induction m with
  | zero => intro i s h; omega
  | succ m ih =>
    intro i s h
    rw [PS.manyRun, PS.manyRun]
    rcases hp : p.run i s with ⟨_ | ⟨a, j⟩, t⟩
    · rfl
    · simp only
      split
      · rename_i hl
        rw [ih j t (by omega)]
      · rfl

theorem psManyRun_more (p : PS α) (i : Inp) (s : St) (m : Nat) (h : i.rest.length < m) :
    PS.manyRun p m i s = PS.manyRun p (i.rest.length + 1) i s := by
  induction m with
  | zero => omega
  | succ m ih =>
    rcases Nat.lt_or_ge i.rest.length m with h1 | h1
    · rw [psManyRun_succ p m i s h1]; exact ih h1
    · have : m = i.rest.length := by omega
      rw [this]

theorem ReadsS.many_nil {p : PS α} {n : Nat} {rest : Str} (h : FailsS known p n rest) :
    ReadsS known (PS.many p) n [] rest [] := fun s hs => by
  simp only [PS.many, List.nil_append, PS.manyRun, h s hs]
  simp [byteLen]

/-- The rule with these abbreviations reads exactly this text with this result. It may introduce abbreviations. -/
def RunsS (known : List Str) (p : PS α) (n : Nat) (t rest : Str) (a : α) : Prop :=
  ∀ s : St, s.known = known → ∃ s', p.run ⟨n, t ++ rest⟩ s = (some (a, ⟨n + byteLen t, rest⟩), s')

theorem ReadsS.runs {p : PS α} {n : Nat} {t rest : Str} {a : α} (h : ReadsS known p n t rest a) : RunsS known p n t rest a :=
  fun s hs => ⟨s, h s hs⟩

/-- The rule with these abbreviations reads exactly this text with this result, and then the other ones are known. -/
def StepsS (known known' : List Str) (p : PS α) (n : Nat) (t rest : Str) (a : α) : Prop :=
  ∀ s : St, s.known = known → ∃ s', s'.known = known' ∧ p.run ⟨n, t ++ rest⟩ s = (some (a, ⟨n + byteLen t, rest⟩), s')

theorem ReadsS.steps {p : PS α} {n : Nat} {t rest : Str} {a : α} (h : ReadsS known p n t rest a) : StepsS known known p n t rest a :=
  fun s hs => ⟨s, hs, h s hs⟩

theorem RunsS.many_cons {known' : List Str} {p : PS α} {n : Nat} {t u rest : Str} {a : α} {l : List α} (ht : t ≠ [])
    (h1 : StepsS known known' p n t (u ++ rest) a) (h2 : RunsS known' (PS.many p) (n + byteLen t) u rest l) :
    RunsS known (PS.many p) n (t ++ u) rest (a :: l) := fun s hs => by
  obtain ⟨s1, hs1, h1⟩ := h1 s hs
  obtain ⟨s2, h2⟩ := h2 s1 hs1
  refine ⟨s2, ?_⟩
  simp only [PS.many, Prod.mk.injEq, Option.some.injEq] at h2 ⊢
  have hl : (u ++ rest).length < (t ++ (u ++ rest)).length := by
    have := List.length_pos_iff.2 ht
    simp only [List.length_append]; omega
  have h3 : PS.manyRun p ((t ++ (u ++ rest)).length + 1) ⟨n, t ++ (u ++ rest)⟩ s =
      ((a :: l, ⟨n + byteLen t + byteLen u, rest⟩), s2) := by
    rw [PS.manyRun, h1]
    simp only [hl, if_true]
    rw [psManyRun_more p ⟨n + byteLen t, u ++ rest⟩ s1 _ hl]
    have : PS.manyRun p ((u ++ rest).length + 1) ⟨n + byteLen t, u ++ rest⟩ s1 =
        ((l, ⟨n + byteLen t + byteLen u, rest⟩), s2) := Prod.ext h2.1 h2.2
    simp only [this]
  rw [List.append_assoc, h3, byteLen_append', Nat.add_assoc]
  exact ⟨rfl, rfl⟩

/-! ### words -/

/-- The references among the expressions. -/
def compoundOf : SimpleExpression → Option CompoundReference
  | .compound r => some r
  | _ => none

theorem fails_quote {n : Nat} {s : Str} (h : Head (· ≠ '„') (skipWs s)) : Fails quote n s :=
  Fails.bind (Fails.tok (by decide) fun e => h _ e.symm rfl)

theorem fails_attachment {n : Nat} {s : Str} (h : NoWs s) (h2 : Head (isDigit · = false) s) :
    Fails attachmentReference n s := by
  have hn : ∀ n, Fails (call number) n s := fun n => Fails.call_noWs h fun n => fails_number h2
  exact Fails.bind (fails_listOf h fun n => Fails.bind (Fails.alt (Fails.bind (hn _)) (Fails.bind (hn _))))

theorem fails_compound {n : Nat} {s : Str} (h : NoWs s) (hd : Head (isDigit · = false) s) (hl : NoLevel s)
    (ha : parseAbbreviation known s = none) : FailsS known compoundReference n s := by
  have hact : ∀ n, FailsS known (PS.call actReference) n s := fun n =>
    fails_actReference (fun n => fails_actId_head (by rw [skipWs_noWs (noWs_skipWs s), skipWs_noWs h]; exact hd))
      (by rw [skipWs_noWs h]; exact ha)
  refine FailsS.alt ?_ (FailsS.bind (hact n))
  exact FailsS.bind_of (t := []) (ReadsS.opt_none (hact n)) (FailsS.bind (FailsS.lift (fails_call_reference hl)))

theorem simpleExpression_token {n : Nat} {t rest : Str} (h : NoWs (t ++ rest)) (hq : Head (· ≠ '„') (t ++ rest))
    (hd : Head (isDigit · = false) (t ++ rest)) (hl : NoLevel (t ++ rest)) (ha : parseAbbreviation known (t ++ rest) = none)
    (ht : Reads anyToken n t rest ()) : ReadsS known simpleExpression n t rest .token := by
  refine ReadsS.right (FailsS.bind (FailsS.lift (Fails.call_noWs h fun n => fails_quote (by rwa [skipWs_noWs h])))) ?_
  refine ReadsS.right (FailsS.bind (FailsS.call_noWs h fun n => fails_compound h hd hl ha)) ?_
  refine ReadsS.right (FailsS.bind (FailsS.lift (Fails.call_noWs h fun n => fails_attachment h hd))) ?_
  exact ReadsS.map (g := fun _ => SimpleExpression.token) (ReadsS.lift (Reads.call h ht))

theorem reads_anyToken {c : Char} {x R : Str} (hc : isWs c = false) (hd : isDigit c = false)
    (hR : R = [] ∨ ∃ y, c :: x = y ++ [' ']) :
    ∃ t v, c :: x = t ++ v ∧ t ≠ [] ∧ ∀ n, Reads anyToken n t (v ++ R) () := by
  by_cases hw : isWordChar c = true
  · refine ⟨c :: x.takeWhile isWordChar, x.dropWhile isWordChar, by simp, by simp, fun n => ?_⟩
    refine Reads.left (Reads.call (noWs_cons hc) (Reads.many1_chars (by simp) ?_ ?_).map)
    · intro d hd
      rcases List.mem_cons.1 hd with rfl | hd
      · exact hw
      · exact List.all_eq_true.1 List.all_takeWhile d hd
    · intro d hd
      rcases hdr : x.dropWhile isWordChar with _ | ⟨e, r⟩
      · rcases hR with rfl | ⟨y, hy⟩
        · rw [hdr] at hd; simp at hd
        · have hall : ∀ e ∈ c :: x, isWordChar e = true := by
            intro e he
            rcases List.mem_cons.1 he with rfl | he
            · exact hw
            · have : x = x.takeWhile isWordChar := by
                have := List.takeWhile_append_dropWhile (p := isWordChar) (l := x)
                rw [hdr, List.append_nil] at this; exact this.symm
              rw [this] at he
              exact List.all_eq_true.1 List.all_takeWhile e he
          exact absurd (hall ' ' (by rw [hy]; simp)) (by decide)
      · rw [hdr] at hd
        simp at hd; subst hd
        have := List.head?_dropWhile_not isWordChar x
        rw [hdr] at this
        simpa using this
  · have hw : isWordChar c = false := by simpa using hw
    refine ⟨[c], x, rfl, by simp, fun n => ?_⟩
    refine Reads.right ?_ (Reads.right ?_ ?_)
    · exact Fails.call_noWs (noWs_cons hc) fun n => Fails.bind (Fails.many1 (Fails.char (by
        intro d hd; simp at hd; subst hd; exact hw)))
    · exact Fails.bind (Fails.call_noWs (noWs_cons hc) fun n => fails_number (.cons hd))
    · exact Reads.call (noWs_cons hc) (Reads.char rfl).map

/-- What the loop finds in a text. -/
def Found (known : List Str) (n : Nat) (s : Str) (out : List CompoundReference) : Prop :=
  ∃ t u l, s = t ++ u ∧ (∀ c ∈ u, isWs c = true) ∧
    RunsS known (PS.many (PS.call simpleExpression)) n t u l ∧ l.filterMap compoundOf = out

theorem found_nil {w : Str} (hw : ∀ c ∈ w, isWs c = true) (n : Nat) : parseAbbreviation known [] = none → Found known n w [] := by
  intro ha
  refine ⟨[], w, [], rfl, hw, (ReadsS.many_nil ?_).runs, rfl⟩
  have hs : skipWs w = [] := by
    unfold skipWs
    clear ha
    induction w with
    | nil => rfl
    | cons c w ih =>
      rw [List.dropWhile_cons, if_pos (hw c (List.mem_cons_self ..))]
      exact ih fun d hd => hw d (List.mem_cons_of_mem _ hd)
  have he : NoWs ([] : Str) := fun c hc => by simp at hc
  refine FailsS.call fun n => ?_
  rw [hs]
  refine FailsS.alt (FailsS.bind (FailsS.lift (Fails.call_noWs he fun n => fails_quote .nil))) ?_
  have hl : NoLevel [] := Ordinary.noLevel (s := []) (fun c hc => by simp at hc)
  refine FailsS.alt (FailsS.bind (FailsS.call_noWs he fun n => fails_compound he .nil hl ha)) ?_
  refine FailsS.alt (FailsS.bind (FailsS.lift (Fails.call_noWs he fun n => fails_attachment he .nil))) ?_
  refine FailsS.bind (FailsS.lift (Fails.call_noWs he fun n => ?_))
  exact Fails.alt (Fails.call_noWs he fun n => Fails.bind (Fails.many1 (Fails.char (by simp))))
    (Fails.alt (Fails.bind (Fails.call_noWs he fun n => fails_number .nil))
      (Fails.call_noWs he fun n => Fails.bind (Fails.char (by simp))))

/-- Words before something give nothing. -/
theorem found_words {R : Str} {N : Nat} {out : List CompoundReference}
    (hR : Head (fun c => c ≠ ')' ∧ isDashChar c = false) (skipWs R))
    (hK : ∀ w m, (∀ c ∈ w, isWs c = true) → m + byteLen w = N → Found known m (w ++ R) out) :
    ∀ (k : Nat) (pre : Str) (n : Nat), pre.length ≤ k → n + byteLen pre = N → Ordinary pre →
      (R = [] ∨ pre = [] ∨ ∃ y, pre = y ++ [' ']) →
      (∀ p q, pre = p ++ q → q ≠ [] → parseAbbreviation known (q ++ R) = none) → Found known n (pre ++ R) out := by
  intro k
  induction k with
  | zero =>
    intro pre n hk hn _ _ _
    have : pre = [] := List.length_eq_zero_iff.1 (by omega)
    subst this
    exact hK [] n (by simp) hn
  | succ k ih =>
    intro pre n hk hn ho hend ha
    obtain ⟨w, hw, e⟩ := skipWs_split pre
    rcases hs : skipWs pre with _ | ⟨c, x⟩
    · rw [hs, List.append_nil] at e
      subst e
      exact hK _ n hw hn
    · rw [hs] at e
      have hc : isWs c = false := by
        have := noWs_skipWs pre; rw [hs] at this; exact this c rfl
      have hox : Ordinary (c :: x) := by rw [e] at ho; exact ho.tail
      have hcc := ordinary_char (hox c (List.mem_cons_self ..))
      have hendx : R = [] ∨ ∃ y, c :: x = y ++ [' '] := by
        rcases hend with h | h | ⟨y, h⟩
        · exact .inl h
        · rw [h] at e; simp at e
        · right
          rw [h] at e
          rcases List.eq_nil_or_concat (c :: x) with h' | ⟨z, d, h'⟩
          · simp at h'
          · rw [List.concat_eq_append] at h'
            rw [h', ← List.append_assoc] at e
            have := List.append_inj_right' e rfl
            exact ⟨z, by rw [h', ← this]⟩
      have hnl : NoLevel (c :: x ++ R) := by
        have hsk : skipWs (c :: x ++ R) = c :: x ++ R := skipWs_cons hc
        refine .of_head (by rw [hsk]; exact .cons hcc.2.1) (by rw [hsk]; exact .cons hcc.2.2.1) ?_
        rw [hsk]
        refine noMark_text (fun c hc => (ordinary_char (hox c hc)).1) ?_ hR
        rcases hendx with h | ⟨y, h⟩
        · exact .inl h
        · exact .inr ⟨' ', by rw [h]; simp, by decide⟩
      obtain ⟨t, v, etv, ht, hr⟩ := reads_anyToken (R := R) hc hcc.2.2.1 hendx
      have hab : parseAbbreviation known (c :: x ++ R) = none := ha w (c :: x) e (by simp)
      have hstep : ReadsS known (PS.call simpleExpression) n (w ++ t) (v ++ R) .token := by
        have e2 : t ++ (v ++ R) = c :: x ++ R := by rw [etv, List.append_assoc]
        refine ReadsS.call_ws hw (by rw [e2]; exact noWs_cons hc) (simpleExpression_token ?_ ?_ ?_ ?_ ?_ (hr _)) <;> rw [e2]
        · exact noWs_cons hc
        · exact .cons hcc.2.2.2.1
        · exact .cons hcc.2.2.1
        · exact hnl
        · exact hab
      have epre : pre = (w ++ t) ++ v := by rw [e, etv, List.append_assoc]
      have hlen : v.length ≤ k := by
        have h1 := congrArg List.length epre
        simp only [List.length_append] at h1
        have := List.length_pos_iff.2 ht
        omega
      obtain ⟨t', u, l, es, hu, hread, hout⟩ := ih v (n + byteLen (w ++ t)) hlen
        (by rw [epre, byteLen_append'] at hn; omega) (by rw [epre] at ho; exact ho.tail)
        (by
          rcases hend with h | h | ⟨y, h⟩
          · exact .inl h
          · rw [h] at epre; simp at epre; exact absurd epre.2.1 ht
          · rcases List.eq_nil_or_concat v with h' | ⟨z, d, h'⟩
            · exact .inr (.inl h')
            · refine .inr (.inr ⟨z, ?_⟩)
              rw [List.concat_eq_append] at h'
              rw [epre, h', ← List.append_assoc] at h
              have := List.append_inj_right' h rfl
              rw [h', this])
        (fun p q hv hq => ha (w ++ t ++ p) q (by rw [epre, hv]; simp) hq)
      refine ⟨w ++ t ++ t', u, .token :: l, by rw [epre, List.append_assoc (w ++ t) v R, es, ← List.append_assoc], hu, ?_, hout⟩
      rw [es] at hstep
      exact RunsS.many_cons (by simp [ht]) hstep.steps hread

theorem group_head {g : PhraseGroup} (hg : g.Usual) : ∃ c r, g.text = c :: r ∧ isWs c = false ∧ c ≠ '„' ∧ c ≠ ')' ∧ isDashChar c = false := by
  obtain ⟨act, refs⟩ := g
  cases act with
  | some a =>
    obtain ⟨c, r, e, h1, h2, h3⟩ := act_head (hg.act a rfl)
    exact ⟨c, r ++ refsText refs, by rw [PhraseGroup.text]; simp [e, refsText], h1, h3, h2⟩
  | none =>
    cases refs with
    | nil => exact absurd hg.named (by simp)
    | cons x refs =>
      obtain ⟨sep, p⟩ := x
      have hsep : sep = [] := hg.first (sep, p) rfl
      obtain ⟨c, r, e, hc⟩ := (phrase_start (hg.references _ (List.mem_cons_self ..)) (refsText refs)).head
      refine ⟨c, r, ?_, hc.noWs, ?_⟩
      · rw [← e, PhraseGroup.text]; simp [hsep, refsText]
      · refine ⟨?_, hc.noMark⟩
        rintro rfl
        rcases hc with hc | hc | hc <;> revert hc <;> decide

/-- A group and words after it. -/
theorem found_group {g : PhraseGroup} (hg : g.Usual) {post : Str} {out : List CompoundReference} (hpost : Tailing post)
    (hact : ∀ a, g.act = some a → Shortens known a (refsText g.references ++ post))
    (hno : g.act = none → parseAbbreviation known (refsText g.references ++ post) = none)
    {N : Nat} (h : Found known (N + byteLen g.text) post out) :
    ∀ w m, (∀ c ∈ w, isWs c = true) → m + byteLen w = N → Found known m (w ++ (g.text ++ post)) (groupAt g N :: out) := by
  intro w m hw hN
  obtain ⟨t, u, l, e, hu, hread, hout⟩ := h
  obtain ⟨c, r, eg, hcw, hcq, -⟩ := group_head hg
  have hnw : NoWs (g.text ++ post) := by rw [eg]; exact noWs_cons hcw
  have hstep : ReadsS known (PS.call simpleExpression) m (w ++ g.text) post (.compound (groupAt g N)) := by
    subst hN
    refine ReadsS.call_ws hw hnw ?_
    refine ReadsS.right (FailsS.bind (FailsS.lift (Fails.call_noWs hnw fun n => fails_quote ?_))) ?_
    · rw [skipWs_noWs hnw, eg]; exact .cons hcq
    refine ReadsS.left (ReadsS.map (g := SimpleExpression.compound) (ReadsS.call hnw (reads_group hg hpost hact hno)))
  refine ⟨w ++ g.text ++ t, u, .compound (groupAt g N) :: l, by rw [e]; simp, hu, ?_, ?_⟩
  · rw [e] at hstep
    refine RunsS.many_cons (by rw [eg]; simp) hstep.steps ?_
    rw [byteLen_append', ← Nat.add_assoc, hN]
    exact hread
  · simp [compoundOf, hout]

end HunLaw.Grammar
