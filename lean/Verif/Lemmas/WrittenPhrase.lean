import Verif.Lemmas.Written

/-! The grammar recognises a whole reference in the usual form. -/

set_option autoImplicit false

namespace HunLaw.Grammar

open HunLaw P Spec

variable {α β : Type}

/-! ### where the levels cannot begin -/

theorem fails_listOf {p : P α} {n : Nat} {s : Str} (h : NoWs s) (hp : ∀ n, Fails p n s) : Fails (listOf p) n s :=
  Fails.bind (Fails.call_noWs h hp)

theorem fails_articlePart {n : Nat} {s : Str} (h : NoWs s) (h2 : Head (isDigit · = false) s) : Fails articlePart n s := by
  have hid : ∀ n, Fails (call articleId) n s := fun n =>
    Fails.call_noWs h fun n => Fails.slice (Fails.bind (fails_number h2))
  refine Fails.positioned (Fails.bind_of (t := []) (rest := s)
    (Reads.opt_none (Fails.bind (Fails.call_noWs h fun n => fails_number h2))) ?_)
  exact Fails.bind (Fails.alt (Fails.bind (hid _)) (Fails.bind (hid _)))

theorem fails_articleReference {n : Nat} {s : Str} (h : Head (isDigit · = false) (skipWs s)) :
    Fails (call articleReference) n s :=
  Fails.call fun _ => Fails.bind (fails_listOf (noWs_skipWs s) fun _ => fails_articlePart (noWs_skipWs s) h)

/-- What is in a bracket is neither the number of a paragraph nor an abbreviation. -/
structure Aside (r : Str) : Prop where
  digit : Head (isDigit · = false) (skipWs r) ∨
    ∃ k s, skipWs r = dec k ++ s ∧ Head (fun c => isDigit c = false ∧ lowerAz c = false) s ∧ Head (· ≠ ')') (skipWs s)
  short : ∀ u, skipWs r = 'a' :: u → ¬ str!"továbbiakban" <+: skipWs u

/-- If a bracket is next, it is an aside. -/
def NoBracket (s : Str) : Prop := ∀ r, s = '(' :: r → Aside r

theorem Head.noBracket {s : Str} (h : Head (· ≠ '(') s) : NoBracket s := fun r e => by
  subst e; exact absurd rfl (h _ rfl)

theorem NoBracket.cons {c : Char} {s : Str} (h : c ≠ '(') : NoBracket (c :: s) := Head.noBracket (.cons h)

theorem fails_paragraphReference {n : Nat} {s : Str} (h : NoBracket (skipWs s)) :
    Fails (call paragraphReference) n s := by
  have key : ∀ {β : Type} (f : Str → P β) n, Fails (do tok str!"("; let a ← call paragraphId; tok str!")"; f a) n (skipWs s) := by
    intro β f n
    by_cases hb : (skipWs s).head? = some '('
    · cases hs : skipWs s with
      | nil => rw [hs] at hb; cases hb
      | cons c r =>
        rw [hs] at hb; cases hb
        refine Fails.bind_of (t := ['(']) (Reads.tok (noWs_cons (by decide))) ?_
        rcases (h r hs).digit with ha | ⟨k, u, e, h1, h2⟩
        · exact Fails.bind (Fails.call fun _ => Fails.slice (Fails.bind (fails_number ha)))
        · obtain ⟨w, hw, er⟩ := skipWs_split r
          rw [er, e, ← List.append_assoc]
          refine Fails.bind_of (a := dec k) (Reads.call_ws hw (noWs_dec _ _) (Reads.slice (a := ()) (Reads.bind_last (reads_number (h1.mono fun c hc => hc.1)) ?_)))
            (Fails.bind (Fails.tok (by decide) fun e => h2 _ e.symm rfl))
          exact Reads.map (a := none) (Reads.opt_none (fails_suffixChar (h1.mono fun c hc => hc.2)))
    · exact Fails.bind (Fails.call_noWs (noWs_skipWs s) fun n => Fails.lit_head (by decide) fun e => hb e.symm)
  exact Fails.call fun _ => Fails.bind (fails_listOf (noWs_skipWs s) fun _ =>
    Fails.positioned (Fails.bind (Fails.alt (key _ _) (key _ _))))

theorem fails_dottedPart {p : P Str} {n : Nat} {s : Str} (h : NoWs s) (hp : ∀ n, Fails p n s) :
    Fails (dottedPart p) n s :=
  Fails.positioned (Fails.bind (Fails.alt (Fails.bind (Fails.call_noWs h hp)) (Fails.bind (Fails.call_noWs h hp))))

theorem fails_numericPointReference {n : Nat} {s : Str} (h : Head (isDigit · = false) (skipWs s)) :
    Fails (call numericPointReference) n s :=
  Fails.call fun _ => Fails.bind (fails_listOf (noWs_skipWs s) fun _ =>
    fails_dottedPart (noWs_skipWs s) fun _ => Fails.slice (Fails.bind (fails_number h)))

theorem fails_numericSubpointReference {n : Nat} {s : Str} (h : Head (isDigit · = false) (skipWs s)) :
    Fails (call numericSubpointReference) n s :=
  Fails.call fun _ => Fails.bind (fails_listOf (noWs_skipWs s) fun _ =>
    fails_dottedPart (noWs_skipWs s) fun _ => fails_number h)

/-- The letters at the beginning are not the letters of a point: no bracket or dash is after some of them. -/
def NoMark (s : Str) : Prop :=
  ∀ t u, s = t ++ u → t ≠ [] → t.length ≤ 2 → (∀ c ∈ t, lowerAz c = true) → Head (fun c => c ≠ ')' ∧ isDashChar c = false) (skipWs u)

theorem noMark_head {s : Str} (h : Head (lowerAz · = false) s) : NoMark s := by
  intro t u e ht _ hl
  subst e
  cases t with
  | nil => exact absurd rfl ht
  | cons c t =>
    have h1 : lowerAz c = false := h c rfl
    rw [hl c (List.mem_cons_self ..)] at h1; cases h1

theorem digraph_letters {w : Str} (h : w ∈ digraphs) : ∃ a b, w = [a, b] ∧ lowerAz a = true ∧ lowerAz b = true := by
  have : ∀ w ∈ digraphs, ∃ a ∈ w, ∃ b ∈ w, w = [a, b] ∧ lowerAz a = true ∧ lowerAz b = true := by decide +kernel
  obtain ⟨a, -, b, -, h⟩ := this w h
  exact ⟨a, b, h⟩

theorem reads_lits_mem {l : List Str} {s : Str} (h : ∃ w ∈ l, w <+: s) :
    ∃ w ∈ l, ∃ u, s = w ++ u ∧ ∀ n, Reads (lits l) n w u () := by
  induction l with
  | nil => obtain ⟨w, h, -⟩ := h; cases h
  | cons v l ih =>
    by_cases hv : v <+: s
    · obtain ⟨u, rfl⟩ := hv
      exact ⟨v, List.mem_cons_self .., u, rfl, fun n => Reads.left (p := P.lit v) (Reads.lit v)⟩
    · obtain ⟨w, hw, hp⟩ := h
      have : ∃ w ∈ l, w <+: s := by
        rcases List.mem_cons.1 hw with rfl | hw
        · exact absurd hp hv
        · exact ⟨w, hw, hp⟩
      obtain ⟨w, hw, u, rfl, hr⟩ := ih this
      exact ⟨w, List.mem_cons_of_mem _ hw, u, rfl, fun n => Reads.right (p := P.lit v) (Fails.lit hv) (hr n)⟩

theorem suffixChar_cases (s : Str) : (∀ n, Fails suffixChar n s) ∨
    ∃ t u, s = t ++ u ∧ t ≠ [] ∧ t.length ≤ 2 ∧ (∀ c ∈ t, lowerAz c = true) ∧ ∀ n, Reads suffixChar n t u () := by
  by_cases h : ∃ w ∈ digraphs, w <+: s
  · obtain ⟨w, hw, u, rfl, hr⟩ := reads_lits_mem h
    obtain ⟨a, b, rfl, ha, hb⟩ := digraph_letters hw
    refine .inr ⟨_, u, rfl, by simp, by simp, ?_, fun n => Reads.left (hr n)⟩
    intro c hc
    simp only [List.mem_cons, List.not_mem_nil, or_false] at hc
    rcases hc with rfl | rfl <;> assumption
  · have h' : ∀ w ∈ digraphs, ¬ w <+: s := fun w hw hp => h ⟨w, hw, hp⟩
    rcases s with _ | ⟨c, s⟩
    · exact .inl fun n => Fails.alt (Fails.lits h') (Fails.bind (Fails.char (by simp)))
    · cases hc : lowerAz c with
      | false => exact .inl fun n => fails_suffixChar (.cons hc)
      | true =>
        refine .inr ⟨[c], s, rfl, by simp, by simp, by simpa using hc, fun n => ?_⟩
        exact Reads.right (Fails.lits h') (Reads.char hc).map

theorem fails_tok_close {n : Nat} {u : Str} (h : Head (fun c => c ≠ ')' ∧ isDashChar c = false) (skipWs u)) :
    Fails (tok str!")") n u :=
  Fails.tok (by decide) fun e => (h _ e.symm).1 rfl

theorem fails_dash_mark {n : Nat} {u : Str} (h : Head (fun c => c ≠ ')' ∧ isDashChar c = false) (skipWs u)) :
    Fails (call dash) n u :=
  fails_call_dash (h.mono fun _ hc => hc.2)

theorem fails_alphabeticPointPart {n : Nat} {s : Str} (h : NoWs s) (hm : NoMark s) : Fails alphabeticPointPart n s := by
  rcases suffixChar_cases s with hf | ⟨t, u, rfl, ht, hlen, hl, hr⟩
  · have : ∀ n, Fails (call alphabeticPointId) n s := fun n => Fails.call_noWs h fun n => Fails.slice (hf n)
    exact Fails.positioned (Fails.bind (Fails.alt (Fails.bind (this _)) (Fails.bind (this _))))
  · have hid : ∀ n, Reads (call alphabeticPointId) n t u t := fun n => Reads.call h (Reads.slice (hr n))
    have hh := hm t u rfl ht hlen hl
    refine Fails.positioned (Fails.bind (Fails.alt (Fails.bind_of (hid _) ?_) (Fails.bind_of (hid _) ?_)))
    · exact Fails.bind_of (t := []) (Reads.opt_none (fails_tok_close hh)) (Fails.bind (fails_dash_mark hh))
    · exact Fails.bind (fails_tok_close hh)

theorem fails_alphabeticPointReference {n : Nat} {s : Str} (h : NoMark (skipWs s)) :
    Fails (call alphabeticPointReference) n s :=
  Fails.call fun _ => Fails.bind (fails_listOf (noWs_skipWs s) fun _ => fails_alphabeticPointPart (noWs_skipWs s) h)

theorem subpointId_cases (s : Str) : (∀ n, Fails alphabeticSubpointId n s) ∨
    ∃ t u, s = t ++ u ∧ t ≠ [] ∧ t.length ≤ 2 ∧ (∀ c ∈ t, lowerAz c = true) ∧ ∀ n, Reads alphabeticSubpointId n t u t := by
  rcases s with _ | ⟨c, s⟩
  · exact .inl fun n => Fails.slice (Fails.bind (Fails.char (by simp)))
  · cases hc : lowerAz c with
    | false => exact .inl fun n => Fails.slice (Fails.bind (Fails.char (Head.cons (f := (lowerAz · = false)) hc)))
    | true =>
      by_cases hd : ∃ d r, s = d :: r ∧ lowerAz d = true
      · obtain ⟨d, r, rfl, hd⟩ := hd
        refine .inr ⟨[c] ++ [d], r, rfl, by simp, by simp, by simp [hc, hd], fun n => Reads.slice (a := some d) ?_⟩
        exact Reads.bind (t := [c]) (Reads.char hc) (Reads.opt_some (Reads.char hd))
      · refine .inr ⟨[c], s, rfl, by simp, by simp, by simpa using hc, fun n => Reads.slice (a := none) ?_⟩
        refine Reads.bind_last (Reads.char hc) (Reads.opt_none (Fails.char ?_))
        intro d hd'
        cases s with
        | nil => simp at hd'
        | cons e s =>
          simp only [List.head?_cons, Option.some.injEq] at hd'
          subst hd'
          rw [Bool.eq_false_iff]
          exact fun h => hd ⟨_, _, rfl, h⟩

theorem fails_alphabeticSubpointPart {n : Nat} {s : Str} (h : NoWs s) (hm : NoMark s) :
    Fails alphabeticSubpointPart n s := by
  rcases subpointId_cases s with hf | ⟨t, u, rfl, ht, hlen, hl, hr⟩
  · have : ∀ n, Fails (call alphabeticSubpointId) n s := fun n => Fails.call_noWs h hf
    exact Fails.positioned (Fails.bind (Fails.alt (Fails.bind (this _)) (Fails.bind (this _))))
  · have hid : ∀ n, Reads (call alphabeticSubpointId) n t u t := fun n => Reads.call h (hr n)
    have hh := hm t u rfl ht hlen hl
    exact Fails.positioned (Fails.bind (Fails.alt (Fails.bind_of (hid _) (Fails.bind (fails_tok_close hh)))
      (Fails.bind_of (hid _) (Fails.bind (fails_tok_close hh)))))

theorem fails_alphabeticSubpointReference {n : Nat} {s : Str} (h : NoMark (skipWs s)) :
    Fails (call alphabeticSubpointReference) n s :=
  Fails.call fun _ => Fails.bind (fails_listOf (noWs_skipWs s) fun _ => fails_alphabeticSubpointPart (noWs_skipWs s) h)

/-- No level of a reference is next. -/
structure NoLevel (s : Str) : Prop where
  paragraph : NoBracket (skipWs s)
  article : ∀ n, Fails articleReference n (skipWs s)
  numericPoint : ∀ n, Fails numericPointReference n (skipWs s)
  numericSubpoint : ∀ n, Fails numericSubpointReference n (skipWs s)
  letters : NoMark (skipWs s)

theorem NoLevel.of_head {s : Str} (h1 : Head (· ≠ '(') (skipWs s)) (h2 : Head (isDigit · = false) (skipWs s))
    (h3 : NoMark (skipWs s)) : NoLevel s :=
  ⟨h1.noBracket, fun _ => Fails.bind (fails_listOf (noWs_skipWs s) fun _ => fails_articlePart (noWs_skipWs s) h2),
    fun _ => Fails.bind (fails_listOf (noWs_skipWs s) fun _ =>
      fails_dottedPart (noWs_skipWs s) fun _ => Fails.slice (Fails.bind (fails_number h2))),
    fun _ => Fails.bind (fails_listOf (noWs_skipWs s) fun _ => fails_dottedPart (noWs_skipWs s) fun _ => fails_number h2), h3⟩

theorem NoLevel.subpoint {n : Nat} {s : Str} (h : NoLevel s) : Fails withSubpoint n s :=
  Fails.alt (Fails.bind (fails_alphabeticSubpointReference h.letters)) (Fails.bind (Fails.call h.numericSubpoint))

theorem NoLevel.point {n : Nat} {s : Str} (h : NoLevel s) : Fails withPoint n s :=
  Fails.bind (Fails.alt (Fails.bind (fails_alphabeticPointReference h.letters))
    (Fails.bind (Fails.call h.numericPoint)))

theorem NoLevel.withParagraph {n : Nat} {s : Str} (h : NoLevel s) : Fails withParagraph n s :=
  Fails.bind (fails_paragraphReference h.paragraph)

theorem NoLevel.reference {n : Nat} {s : Str} (h : NoLevel s) : Fails reference n s := by
  have ha : ∀ n, Fails (call articleReference) n s := fun n => Fails.call h.article
  refine Fails.positioned (Fails.bind (Fails.alt (Fails.bind (ha n)) (Fails.alt (Fails.bind (ha n)) (Fails.bind ?_))))
  exact Fails.alt h.withParagraph (Fails.alt h.point h.subpoint)

theorem NoLevel.skip {s : Str} (h : NoLevel s) : NoLevel (skipWs s) := by
  have e : skipWs (skipWs s) = skipWs s := skipWs_noWs (noWs_skipWs s)
  exact ⟨by rw [e]; exact h.paragraph, by rw [e]; exact h.article, by rw [e]; exact h.numericPoint,
    by rw [e]; exact h.numericSubpoint, by rw [e]; exact h.letters⟩

theorem fails_call_reference {n : Nat} {s : Str} (h : NoLevel s) : Fails (call reference) n s :=
  Fails.call fun _ => h.skip.reference

/-! ### lists which end otherwise -/

/-- Neither a separator nor the end of the list is next. -/
def Bad (suffix : P Unit) (s : Str) : Prop := (∀ n, Fails (call listSeparator) n s) ∧ ∀ n, Fails (call suffix) n s

theorem fails_separated {p : P α} {n : Nat} {sep s : Str} (hsep : sep ∈ separators) (h : ItemStart s)
    (hp : ∀ n, Fails p n s) : Fails (do call listSeparator; call p) n (sep ++ s) := by
  obtain ⟨u, v, rfl, h1, h2⟩ := reads_separator (n := n) hsep h
  rw [List.append_assoc]
  rcases h2 with rfl | rfl
  · simp only [List.append_nil, List.nil_append] at *
    exact Fails.bind_of h1 (Fails.call_noWs h.noWs hp)
  · exact Fails.bind_of h1 (Fails.call_space h.noWs hp)

/-- The element is taken, or some of it is taken and the list is stuck, or it is not taken. -/
def Stuck (part : P β) (suffix : P Unit) (x r : Str) : Prop :=
  (∀ n, ∃ a, Reads part n x r a) ∨
  (∃ t u, x ++ r = t ++ u ∧ (∀ n, ∃ a, Reads part n t u a) ∧ Bad suffix u) ∨
  ∀ n, Fails part n (x ++ r)

theorem stuck_others {part : P β} {suffix : P Unit} {span : Span α → Str} {rest : Str}
    (l : List (Str × Span α)) (hsep : ∀ x ∈ l, x.1 ∈ separators) (hstart : ∀ x ∈ l, ∀ r, ItemStart (span x.2 ++ r))
    (hpart : ∀ x ∈ l, ∀ r, (Joined r ∨ r = rest) → Stuck part suffix (span x.2) r)
    (hrest : Bad suffix rest) (hjoined : ∀ r, Joined r → ∀ n, Fails (call suffix) n r) : ∀ n,
    ∃ t u x, othersText span l ++ rest = t ++ u ∧ Reads (many (do call listSeparator; call part)) n t u x ∧
      ∀ n, Fails (call suffix) n u := by
  induction l with
  | nil => exact fun n => ⟨[], rest, [], rfl, Reads.many_nil (Fails.bind (hrest.1 n)), hrest.2⟩
  | cons x l ih =>
    intro n
    obtain ⟨sep, x⟩ := x
    have hs := hsep _ (List.mem_cons_self ..)
    have hne : sep ≠ [] := by
      rintro rfl
      exact absurd hs (by decide : ([] : Str) ∉ separators)
    have hj := joined_or span (fun x hx => hsep x (List.mem_cons_of_mem _ hx)) rest
    have hst := hstart _ (List.mem_cons_self ..) (othersText span l ++ rest)
    have e : othersText span ((sep, x) :: l) ++ rest = sep ++ (span x ++ (othersText span l ++ rest)) := by
      simp [othersText]
    rw [e]
    rcases hpart _ (List.mem_cons_self ..) _ hj with h | ⟨t, u, he, h, hb⟩ | h
    · obtain ⟨a, ha⟩ := h (n + byteLen sep)
      obtain ⟨t, u, y, h1, h2, h3⟩ := ih (fun x hx => hsep x (List.mem_cons_of_mem _ hx))
        (fun x hx => hstart x (List.mem_cons_of_mem _ hx)) (fun x hx => hpart x (List.mem_cons_of_mem _ hx))
        (n + byteLen (sep ++ span x))
      refine ⟨(sep ++ span x) ++ t, u, a :: y, by rw [h1]; simp, ?_, h3⟩
      refine Reads.many_cons (by simp [hne]) ?_ h2
      rw [← h1]
      exact reads_separated hs hst ha
    · obtain ⟨a, ha⟩ := h (n + byteLen sep)
      refine ⟨sep ++ t, u, [a], by rw [he]; simp, ?_, hb.2⟩
      have := Reads.many_cons (t := sep ++ t) (u := []) (rest := u) (p := (do call listSeparator; call part)) (n := n)
        (by simp [hne]) (reads_separated hs (by rw [List.nil_append, ← he]; exact hst) ha)
        (Reads.many_nil (Fails.bind (hb.1 _)))
      simpa using this
    · refine ⟨[], _, [], rfl, Reads.many_nil (fails_separated hs hst h), ?_⟩
      exact hjoined _ ⟨sep, hs, _, rfl⟩

theorem fails_stuck {part : P β} {suffix : P Unit} {span : Span α → Str} {rest : Str} {f : Span α → Prop} {γ : Type}
    {g : List β → Unit → P γ} (l : Listing α) (hl : l.Fits f) (hstart : ∀ x, f x → ∀ r, ItemStart (span x ++ r))
    (hpart : ∀ x, f x → ∀ r, (Joined r ∨ r = rest) → Stuck part suffix (span x) r)
    (hrest : Bad suffix rest) (hjoined : ∀ r, Joined r → ∀ n, Fails (call suffix) n r) (n : Nat) :
    Fails (listOf part >>= fun l => call suffix >>= g l) n (span l.first ++ othersText span l.others ++ rest) := by
  have hj := joined_or span (fun x hx => (hl.2 x hx).1) rest
  have hst := hstart _ hl.1 (othersText span l.others ++ rest)
  rw [List.append_assoc]
  rcases hpart _ hl.1 _ hj with h | ⟨t, u, he, h, hb⟩ | h
  · obtain ⟨a, ha⟩ := h n
    obtain ⟨t, u, y, h1, h2, h3⟩ := stuck_others l.others (fun x hx => (hl.2 x hx).1)
      (fun x hx => hstart _ (hl.2 x hx).2) (fun x hx => hpart _ (hl.2 x hx).2) hrest hjoined (n + byteLen (span l.first))
    rw [h1] at ha hst ⊢
    rw [← List.append_assoc]
    refine Fails.bind_of (a := a :: y) (Reads.bind (Reads.call hst.noWs ha) h2.map) (Fails.bind (h3 _))
  · obtain ⟨a, ha⟩ := h n
    rw [he] at hst ⊢
    refine Fails.bind_of (a := [a]) (Reads.bind_last (Reads.call hst.noWs ha) ?_) (Fails.bind (hb.2 _))
    exact (Reads.many_nil (Fails.bind (hb.1 _))).map
  · exact Fails.bind (Fails.bind (Fails.call_noWs hst.noWs h))

/-! ### numbers of points are not numbers of articles -/

theorem reads_articleNum {n k : Nat} {s : Str} (h : Head (fun c => isDigit c = false ∧ c ≠ '/') s) :
    Reads articleId n (dec k) s (dec k) := by
  refine Reads.slice (a := ()) (Reads.bind_last (reads_number (h.mono fun c hc => hc.1)) ?_)
  exact (Reads.opt_none (Fails.bind (Fails.lit_head (s := ['/']) (by decide) fun e => (h _ e.symm).2 rfl))).map

theorem fails_book {n k : Nat} {s : Str} {f : Str → P β} (hf : ∀ b m s, Fails (tok str!":") m s → Fails (f b) m s)
    (h : Head (fun c => isDigit c = false ∧ c ≠ ':' ∧ isWs c = false) s) :
    Fails (call number >>= f) n (dec k ++ s) := by
  refine Fails.bind_of (Reads.call (noWs_dec _ _) (reads_number (h.mono fun c hc => hc.1))) (hf _ _ _ ?_)
  refine Fails.tok (by decide) ?_
  rw [skipWs_noWs (h.mono fun c hc => hc.2.2)]
  exact fun e => (h ':' e.symm).2.1 rfl

/-- The number is followed by something else than in the number of an article. -/
structure Other (c : Char) : Prop where
  digit : isDigit c = false
  slash : c ≠ '/'
  colon : c ≠ ':'
  dot : c ≠ '.'
  dash : isDashChar c = false
  ws : isWs c = false

theorem Other.of_lower {c : Char} (h : lowerAz c = true) : Other c := by
  have hw := lowerAz_noWs h
  simp only [lowerAz, Bool.and_eq_true, decide_eq_true_eq] at h
  refine ⟨?_, ?_, ?_, ?_, ?_, hw⟩
  · rw [Bool.eq_false_iff]; intro hd; rw [isDigit_iff] at hd; omega
  · rintro rfl; revert h; decide
  · rintro rfl; revert h; decide
  · rintro rfl; revert h; decide
  · rw [Bool.eq_false_iff]; intro hd
    simp only [isDashChar, List.contains_iff_mem, List.mem_cons, List.not_mem_nil, or_false] at hd
    rcases hd with rfl | rfl | rfl <;> revert h <;> decide

theorem fails_articlePart_other {n k : Nat} {s : Str} (h : Head Other s) : Fails articlePart n (dec k ++ s) := by
  have hs : skipWs s = s := skipWs_noWs (h.mono fun c hc => hc.ws)
  have hid : ∀ n, Reads (call articleId) n (dec k) s (dec k) := fun n =>
    Reads.call (noWs_dec _ _) (reads_articleNum (h.mono fun c hc => ⟨hc.digit, hc.slash⟩))
  have hdot : ∀ n, Fails (tok str!".") n s := fun n =>
    Fails.tok (by decide) (by rw [hs]; exact fun e => (h _ e.symm).dot rfl)
  refine Fails.positioned (Fails.bind_of (t := []) (rest := dec k ++ s)
    (Reads.opt_none (fails_book (fun _ _ _ h => h.bind) (h.mono fun c hc => ⟨hc.digit, hc.colon, hc.ws⟩))) ?_)
  refine Fails.bind (Fails.alt (Fails.bind_of (hid _) ?_) (Fails.bind_of (hid _) (Fails.bind (hdot _))))
  refine Fails.bind_of (t := []) (Reads.opt_none (Fails.bind (hdot _))) (Fails.bind (fails_call_dash ?_))
  rw [hs]; exact h.mono fun c hc => hc.dash

theorem fails_articlePart_upTo {n k m : Nat} {d : Char} {s : Str} (hd : d ∈ dashes) (h : Head Other s) :
    Fails articlePart n (dec k ++ d :: (dec m ++ s)) := by
  have hn := dashes_not hd
  have hs : skipWs s = s := skipWs_noWs (h.mono fun c hc => hc.ws)
  have hid : ∀ n, Reads (call articleId) n (dec k) (d :: (dec m ++ s)) (dec k) := fun n =>
    Reads.call (noWs_dec _ _) (reads_articleNum (.cons ⟨hn.1, hn.2.1⟩))
  have hdot : ∀ n, Fails (tok str!".") n (d :: (dec m ++ s)) := fun n =>
    Fails.tok (by decide) (by rw [skipWs_cons (dashes_noWs hd)]; simpa using fun e => hn.2.2.2.1 e.symm)
  refine Fails.positioned (Fails.bind_of (t := []) (rest := dec k ++ _)
    (Reads.opt_none (fails_book (fun _ _ _ h => h.bind) (.cons ⟨hn.1, hn.2.2.1, dashes_noWs hd⟩))) ?_)
  refine Fails.bind (Fails.alt (Fails.bind_of (hid _) ?_) (Fails.bind_of (hid _) (Fails.bind (hdot _))))
  refine Fails.bind_of (t := []) (Reads.opt_none (Fails.bind (hdot _))) ?_
  refine Fails.bind_of (t := [d]) (reads_call_dash hd) ?_
  refine Fails.bind_of (t := []) (rest := dec m ++ s) (Reads.opt_none (fails_book (fun _ _ _ h => h)
    (h.mono fun c hc => ⟨hc.digit, hc.colon, hc.ws⟩))) ?_
  refine Fails.bind_of (Reads.call (noWs_dec _ _) (reads_articleNum (h.mono fun c hc => ⟨hc.digit, hc.slash⟩))) ?_
  exact Fails.bind (Fails.tok (by decide) (by rw [hs]; exact fun e => (h _ e.symm).dot rfl))

theorem other_letters (c : HunChar) (s : Str) : Head Other (c.display ++ s) :=
  Head.append (Head.of_all fun x hx => .of_lower (letter_display.1 x hx)) letter_display.2.1

theorem stuck_dotted {s : Span NumericId} (hs : s.Fits fun _ => True) {r : Str} (hr : NoRange r) :
    Stuck articlePart articleSuffix (dottedSpan s) r := by
  have text : ∀ i : NumericId, i.suffix = none → i.display = (⟨none, i⟩ : ArticleId).display := by
    intro i hi
    rw [display_article, display_numeric, displaySlash_eq, hi]; rfl
  cases s with
  | one a =>
    cases ha : a.suffix with
    | none =>
      refine .inl fun n => ⟨articleAt (.one ⟨none, a⟩) n, ?_⟩
      have := reads_articlePart (n := n) (s := .one ⟨none, a⟩) (by intro c hc; simp [ha] at hc) hr
      rw [articleSpan, ← text a ha] at this
      exact this
    | some c =>
      refine .inr (.inr fun n => ?_)
      rw [dottedSpan, display_numeric, ha]
      simp only [lettered, List.append_assoc]
      exact fails_articlePart_other (other_letters _ _)
  | upTo d a b =>
    cases ha : a.suffix with
    | some c =>
      refine .inr (.inr fun n => ?_)
      rw [dottedSpan, display_numeric, ha]
      simp only [lettered, List.append_assoc]
      exact fails_articlePart_other (other_letters _ _)
    | none =>
      cases hb : b.suffix with
      | none =>
        refine .inl fun n => ⟨articleAt (.upTo d ⟨none, a⟩ ⟨none, b⟩) n, ?_⟩
        have := reads_articlePart (n := n) (s := .upTo d ⟨none, a⟩ ⟨none, b⟩)
          ⟨hs.1, rfl, by intro c hc; simp [ha] at hc, by intro c hc; simp [hb] at hc⟩ hr
        rw [articleSpan, ← text a ha, ← text b hb] at this
        exact this
      | some c =>
        refine .inr (.inr fun n => ?_)
        rw [dottedSpan, display_numeric, display_numeric, ha, hb]
        simp only [lettered, List.append_assoc, List.append_nil, List.cons_append]
        exact fails_articlePart_upTo hs.1 (other_letters _ _)

theorem skipWs_word {w : Str} (hw : w ≠ []) (hw1 : NoWs w) (s : Str) : skipWs (' ' :: w ++ s) = w ++ s := by
  rw [List.cons_append]
  unfold skipWs
  rw [List.dropWhile_cons]
  exact skipWs_noWs (noWs_append hw hw1)

/-- A list of points or of subpoints with numbers is not a list of articles. -/
theorem fails_article_dotted {n : Nat} {w rest : Str} {l : Listing NumericId} (hw : w ≠ []) (hw1 : NoWs w)
    (hw2 : Head (fun c => c ≠ '§' ∧ c ≠ ',' ∧ c ≠ ';' ∧ c ≠ 'é' ∧ c ≠ 'v' ∧ c ≠ 'i') w)
    (hl : l.Fits (Span.Fits fun _ => True)) :
    Fails articleReference n ((l.words dottedSpan (' ' :: w)).text ++ rest) := by
  rw [words_text, List.append_assoc]
  have hsk : skipWs (' ' :: w ++ l.ending ++ rest) = w ++ (l.ending ++ rest) := by
    rw [List.append_assoc]; exact skipWs_word hw hw1 _
  have hsign : Head (· ≠ '§') (skipWs (' ' :: w ++ l.ending ++ rest)) := by
    rw [hsk]; exact (hw2.mono fun c hc => hc.1).append hw
  refine fails_stuck l hl (fun s _ r => itemStart_dotted r) (fun s hs r hr => stuck_dotted hs (noRange_of_head ?_))
    ⟨fun n => fails_listSeparator ?_, fun n => Fails.call fun _ => fails_articleSuffix hsign⟩
    (fun r hr n => Fails.call fun _ => fails_articleSuffix (joined_head hr (by decide))) n
  · rcases hr with hr | rfl
    · exact joined_head hr (by decide)
    · exact hsign
  · rw [hsk]; exact (hw2.mono fun c hc => hc.2).append hw

/-! ### letters of subpoints are not letters of points -/

theorem prefixed_cases {i : PrefixedId} (hi : PrefixedUsual i) : (∃ c : HunChar, c.display = i.display) ∨
    ∃ x y, i.display = [x, y] ∧ lowerAz x = true ∧ lowerAz y = true ∧ ∀ n s, Reads suffixChar n [x] (y :: s) () := by
  obtain ⟨p, c⟩ := i
  obtain ⟨h1, ⟨k, rfl⟩⟩ := hi
  have hl : ∀ k, lowerAz (Char.ofNat (HunChar.code k)) = true := fun k =>
    (letter_display (c := .latin k)).1 _ (List.mem_singleton.2 rfl)
  cases p with
  | none => exact .inl ⟨.latin k, rfl⟩
  | some q =>
    obtain ⟨j, rfl⟩ := h1 q rfl
    have hd : (PrefixedId.mk (some (.latin j)) (.latin k)).display =
        [Char.ofNat (HunChar.code j), Char.ofNat (HunChar.code k)] := rfl
    rw [hd]
    by_cases h : [Char.ofNat (HunChar.code j), Char.ofNat (HunChar.code k)] ∈ digraphs
    · left
      revert h
      have : ∀ w ∈ digraphs, ∃ c : HunChar, c.display = w := by
        intro w hw
        simp only [digraphs, List.mem_cons, List.not_mem_nil, or_false] at hw
        rcases hw with rfl | rfl | rfl | rfl | rfl | rfl | rfl | rfl
        · exact ⟨.cs, rfl⟩
        · exact ⟨.dz, rfl⟩
        · exact ⟨.gy, rfl⟩
        · exact ⟨.ly, rfl⟩
        · exact ⟨.ny, rfl⟩
        · exact ⟨.sz, rfl⟩
        · exact ⟨.ty, rfl⟩
        · exact ⟨.zs, rfl⟩
      exact this _
    · refine .inr ⟨_, _, rfl, hl j, hl k, fun n s => Reads.right (Fails.lits fun w hw hp => ?_) (Reads.char (hl j)).map⟩
      obtain ⟨a, b, rfl, -, -⟩ := digraph_letters hw
      obtain ⟨r, hr⟩ := hp
      simp only [List.cons_append, List.nil_append, List.cons.injEq] at hr
      obtain ⟨rfl, rfl, -⟩ := hr
      exact h hw

theorem dashes_not_sep {d : Char} (h : d ∈ dashes) : d ≠ ',' ∧ d ≠ ';' ∧ d ≠ 'é' ∧ d ≠ 'v' ∧ d ≠ 'i' := by
  revert d; decide

theorem stuck_prefixed {s : Span PrefixedId} (hs : s.Fits PrefixedUsual) {r : Str} (hr : ∀ n, Fails (call dash) n r) :
    Stuck alphabeticPointPart (partSuffix str!"pont") (prefixedSpan s) r := by
  have close' : ∀ n t, Reads (tok str!")") n str!")" t () := fun n t => Reads.tok (noWs_cons (by decide))
  have id' : ∀ n (i : HunChar) t, Reads (call alphabeticPointId) n i.display (str!")" ++ t) i.display := fun n i t =>
    Reads.call (noWs_append letter_display.2.1 (Head.of_all fun c hc => lowerAz_noWs (letter_display.1 c hc)))
      (Reads.slice (reads_suffixChar (.cons (by decide))))
  have noClose : ∀ n y t, lowerAz y = true → Fails (tok str!")") n (y :: t) := fun n y t hy => by
    refine Fails.tok (by decide) ?_
    rw [skipWs_cons (lowerAz_noWs hy)]
    simp only [List.head?_cons, ne_eq, Option.some.injEq]
    rintro rfl; revert hy; decide
  have first : ∀ {i : PrefixedId} {x y : Char}, i.display = [x, y] → lowerAz x = true → lowerAz y = true →
      (∀ n s, Reads suffixChar n [x] (y :: s) ()) → ∀ n t, Fails alphabeticPointPart n (i.display ++ t) := by
    intro i x y he hx hy hread n t
    rw [he, show [x, y] ++ t = [x] ++ y :: t from rfl]
    have hid : ∀ n, Reads (call alphabeticPointId) n [x] (y :: t) [x] := fun n =>
      Reads.call (noWs_cons (lowerAz_noWs hx)) (Reads.slice (hread _ _))
    refine Fails.positioned (Fails.bind (Fails.alt (Fails.bind_of (hid _) ?_)
      (Fails.bind_of (hid _) (Fails.bind (noClose _ _ _ hy)))))
    refine Fails.bind_of (t := []) (Reads.opt_none (noClose _ _ _ hy)) (Fails.bind (fails_call_dash ?_))
    rw [skipWs_cons (lowerAz_noWs hy)]
    exact .cons (Other.of_lower hy).dash
  cases s with
  | one a =>
    rcases prefixed_cases hs with ⟨c, hc⟩ | ⟨x, y, he, hx, hy, hread⟩
    · refine .inl fun n => ⟨partAt HunChar.display letterSpan (.one c) n, ?_⟩
      rw [prefixedSpan, ← hc]
      exact reads_alphabeticPointPart (s := .one c) trivial hr
    · refine .inr (.inr fun n => ?_)
      rw [prefixedSpan, List.append_assoc]
      exact first he hx hy hread _ _
  | upTo d a b =>
    rcases prefixed_cases hs.2.1 with ⟨c, hc⟩ | ⟨x, y, he, hx, hy, hread⟩
    · rcases prefixed_cases hs.2.2 with ⟨c', hc'⟩ | ⟨x, y, he, hx, hy, hread⟩
      · refine .inl fun n => ⟨partAt HunChar.display letterSpan (.upTo d c c') n, ?_⟩
        rw [prefixedSpan, ← hc, ← hc']
        exact reads_alphabeticPointPart (s := .upTo d c c') ⟨hs.1, trivial, trivial⟩ hr
      · have hd := dashes_not hs.1
        have hsk : ∀ t, skipWs (d :: t) = d :: t := fun t => skipWs_cons (dashes_noWs hs.1)
        refine .inr (.inl ⟨c.display ++ str!")", d :: (b.display ++ str!")" ++ r), ?_,
          fun n => ⟨partAt HunChar.display letterSpan (.one c) n, ?_⟩,
          fun n => fails_listSeparator ?_, fun n => Fails.call fun _ => Fails.bind (Fails.lit_head (by decide) ?_)⟩)
        · rw [prefixedSpan, hc]; simp
        · refine reads_part (Reads.right ?_ (Reads.bind (id' _ _ _) (close' _ _).map))
          rw [List.append_assoc]
          refine Fails.bind_of (id' _ _ _) (Fails.bind_of (close' _ _).opt_some ?_)
          refine Fails.bind_of (t := [d]) (reads_call_dash hs.1) ?_
          rw [he]
          exact Fails.bind_of (t := [x]) (rest := y :: (str!")" ++ r))
            (Reads.call (noWs_cons (lowerAz_noWs hx)) (Reads.slice (hread _ _))) (Fails.bind (noClose _ _ _ hy))
        · rw [hsk]
          exact .cons (dashes_not_sep hs.1)
        · rw [hsk]
          have := hs.1
          simp only [List.head?_cons, ne_eq, Option.some.injEq]
          rintro rfl; revert this; decide
    · refine .inr (.inr fun n => ?_)
      simp only [prefixedSpan, List.append_assoc]
      exact first he hx hy hread _ _

theorem fails_partSuffix {n : Nat} {w s : Str} (h : ¬ w <+: skipWs s) : Fails (call (partSuffix w)) n s :=
  Fails.call fun _ => Fails.bind (Fails.lit h)

theorem not_prefix_joined {w r : Str} (h : Joined r) (hw : w ≠ []) (h2 : Head (· ∉ str!",;évi") w) : ¬ w <+: skipWs r := by
  obtain ⟨c, r', e, hc⟩ := joined_skip h
  rw [e]
  refine not_prefix_of_head hw fun e' => ?_
  exact h2 c (by rw [e']; rfl) hc

/-- A list of subpoints with letters is not a list of points. -/
theorem fails_point_prefixed {n : Nat} {rest : Str} {l : Listing PrefixedId} (hl : l.Fits (Span.Fits PrefixedUsual)) :
    Fails alphabeticPointReference n ((l.words prefixedSpan str!" alpont").text ++ rest) := by
  rw [words_text, List.append_assoc]
  have hsk : skipWs (str!" alpont" ++ l.ending ++ rest) = str!"alpont" ++ (l.ending ++ rest) := by
    rw [List.append_assoc]; exact skipWs_word (w := str!"alpont") (by decide) (noWs_cons (by decide)) _
  have hr : ∀ r, (Joined r ∨ r = str!" alpont" ++ l.ending ++ rest) → ∀ n, Fails (call dash) n r := fun r hr =>
    no_dash (w := str!"alpont") (by decide) (noWs_cons (by decide)) (.cons (by decide)) hr
  refine fails_stuck (suffix := partSuffix str!"pont") l hl (fun s hs r => itemStart_prefixed hs r)
    (fun s hs r h => stuck_prefixed hs (hr r h))
    ⟨fun n => fails_listSeparator ?_, fun n => fails_partSuffix ?_⟩
    (fun r hr n => fails_partSuffix (not_prefix_joined hr (by decide) (.cons (by decide)))) n
  · rw [hsk]; exact .cons (by decide)
  · rw [hsk]; exact not_prefix_of_head (by decide) (by simp)

/-- A list of subpoints with numbers is not a list of points. -/
theorem fails_point_dotted {n : Nat} {rest : Str} {l : Listing NumericId}
    (hl : l.Fits (Span.Fits fun i => i.suffix = none)) :
    Fails numericPointReference n ((l.words dottedSpan str!" alpont").text ++ rest) := by
  rw [words_text, List.append_assoc]
  have hsk : skipWs (str!" alpont" ++ l.ending ++ rest) = str!"alpont" ++ (l.ending ++ rest) := by
    rw [List.append_assoc]; exact skipWs_word (w := str!"alpont") (by decide) (noWs_cons (by decide)) _
  refine Fails.bind_of (reads_listOf l hl (value := partAt NumericId.display dottedSpan)
    (fun s _ r => itemStart_dotted r) (fun s hs n r hr => reads_dottedPart hs fun n i t _ ht =>
      reads_numericPointId (ht.mono ?_)) fun n => fails_listSeparator ?_) (Fails.bind (fails_partSuffix ?_))
  · rintro c (rfl | hc)
    · decide
    · have := dashes_not hc; exact ⟨this.1, this.2.2.2.2.2.1, this.2.1⟩
  · rw [hsk]; exact .cons (by decide)
  · rw [hsk]; exact not_prefix_of_head (by decide) (by simp)

end HunLaw.Grammar
