import Verif.Lemmas.OutputLayout
import Verif.Props.OutputLines

/-! Properties C100 and C101: empty lines and quoted lines in the text output. -/

set_option autoImplicit false

namespace HunLaw.Props

open HunLaw Spec Output

/-! ### C100 -/

/-- Parts of an act as they are shown in lines: each as lines with its text, and with an empty line before it unless
both the one before and itself are articles. The first argument tells if the one before is an article. -/
inductive PartsShown : Prop → List (ActChild Amendment) → List Str → Prop
  | nil (p : Prop) : PartsShown p [] []
  | article (p : Prop) (a : Article Amendment) (cs : List (ActChild Amendment)) (ls rest : List Str) : p → ls ≠ [] →
      noBlanks ls.flatten = noBlanks (articleShown amendmentShown a) → PartsShown True cs rest →
      PartsShown p (.article a :: cs) (ls ++ rest)
  | afterHeading (p : Prop) (a : Article Amendment) (cs : List (ActChild Amendment)) (ls rest : List Str) : ¬ p →
      ls ≠ [] → noBlanks ls.flatten = noBlanks (articleShown amendmentShown a) → PartsShown True cs rest →
      PartsShown p (.article a :: cs) ([] :: ls ++ rest)
  | heading (p : Prop) (c : ActChild Amendment) (cs : List (ActChild Amendment)) (ls rest : List Str) :
      (∀ a, c ≠ .article a) → ls ≠ [] → noBlanks ls.flatten = noBlanks (actChildShown amendmentShown c) →
      PartsShown False cs rest → PartsShown p (c :: cs) ([] :: ls ++ rest)

theorem noBlanks_ended (ls : List Str) : noBlanks (ls.flatMap (· ++ ['\n'])) = noBlanks ls.flatten := by
  induction ls with
  | nil => rfl
  | cons l ls ih =>
    rw [List.flatMap_cons, noBlanks_append, noBlanks_append, ih, List.flatten_cons, noBlanks_append,
      noBlanks_blank (s := ['\n']) (by simp), List.append_nil]

/-- The lines of something that is laid out. -/
theorem laid_split {p : Params} {out : Str} (h : Laid False p out) :
    ∃ ls : List Str, ls ≠ [] ∧ out = ls.flatMap (· ++ ['\n']) ∧ ∀ l ∈ ls, '\n' ∉ l := by
  obtain ⟨l, ls, rfl, h1, h2, -⟩ := h
  refine ⟨l :: ls, by simp, by simp, fun x hx => ?_⟩
  rcases List.mem_cons.1 hx with rfl | hx
  · exact h1
  · exact h2 x hx

theorem parts_shown {w : Wrapper} (hw : Wraps w) {p : Params} (hp : p.colored = false) {b : Bool}
    {l : List (ActChild Amendment)} {s : Str}
    (hq : ∀ x ∈ l, ActChildAll (fun _ _ => True) UnbrokenQuote (AmendmentAll (fun _ _ => True) UnbrokenQuote) x)
    (h : actChildren w (amendment w) p b l = .ok s) :
    ∃ ls, s = ls.flatMap (· ++ ['\n']) ∧ (∀ x ∈ ls, '\n' ∉ x) ∧ PartsShown (b = true) l ls := by
  induction l generalizing b s with
  | nil =>
    simp only [actChildren, Res.ok.injEq] at h
    subst h
    exact ⟨[], rfl, by simp, .nil _⟩
  | cons x l ih =>
    simp only [actChildren, Res.bind_eq_ok, Res.ok.injEq] at h
    obtain ⟨s1, h1, s2, h2, rfl⟩ := h
    have a1 : Laid False p s1 := laid_actChild (H := fun _ _ => True) (fun _ _ h => h.elim) hw (Q := UnbrokenQuote)
      (fun q hq => ⟨hq, fun h => h.elim⟩) (k := 6) (by decide)
      (g := amendmentShown) (P := AmendmentAll (fun _ _ => True) UnbrokenQuote)
      (fun q y t hy _ ht => laid_amendment (H := fun _ _ => True) (fun _ _ h => h.elim) hw (Q := UnbrokenQuote)
        (fun q hq => ⟨hq, fun h => h.elim⟩) q y t hy (fun h => h.elim) ht)
      p x s1 (hq x (by simp)) (fun h => h.elim) h1
    have a2 := shown_actChild hw (c := false) (g := amendmentShown) (shown_amendment hw) p x s1 hp
      (fun h => by simp at h) h1 []
    simp only [strip, List.append_nil, Bool.false_eq_true, if_false] at a2
    obtain ⟨ls, hne, rfl, hb⟩ := laid_split a1
    rw [noBlanks_ended] at a2
    obtain ⟨rest, rfl, hr, hs⟩ := ih (fun y hy => hq y (by simp [hy])) h2
    have hmem : ∀ y ∈ ls ++ rest, '\n' ∉ y := fun y hy => by
      rcases List.mem_append.1 hy with hy | hy
      · exact hb y hy
      · exact hr y hy
    have hmem' : ∀ y ∈ [] :: ls ++ rest, '\n' ∉ y := fun y hy => by
      rcases List.mem_cons.1 hy with rfl | hy
      · simp
      · exact hmem y hy
    have key : noBlanks ls.flatten = noBlanks (actChildShown amendmentShown x) := by simpa using a2
    cases x with
    | article a =>
      simp only [isArticle, eq_self_iff_true] at hs ⊢
      cases b with
      | true => exact ⟨ls ++ rest, by simp, hmem, .article _ a l ls rest rfl hne key hs⟩
      | false => exact ⟨[] :: ls ++ rest, by simp, hmem', .afterHeading _ a l ls rest (by simp) hne key hs⟩
    | subtitle t =>
      simp only [isArticle, Bool.false_eq_true] at hs ⊢
      exact ⟨[] :: ls ++ rest, by simp, hmem', .heading _ _ l ls rest (by simp) hne key hs⟩
    | structuralElement t =>
      simp only [isArticle, Bool.false_eq_true] at hs ⊢
      exact ⟨[] :: ls ++ rest, by simp, hmem', .heading _ _ l ls rest (by simp) hne key hs⟩

/-- C100: the output of an act is a line with its number and subject, an empty line, the preamble, an empty line, and
its parts; there is an empty line before each part, unless it is an article after another article or at the beginning. -/
theorem C100_spacing (w : Wrapper) (hw : Wraps w) (width : Nat) (a : Act Amendment) (out : Str)
    (hsub : '\n' ∉ a.subject)
    (hq : ∀ x ∈ a.children, ActChildAll (fun _ _ => True) UnbrokenQuote
      (AmendmentAll (fun _ _ => True) UnbrokenQuote) x)
    (h : cliAct w width false a = .ok out) :
    ∃ (id : Str) (preamble parts : List Str), a.identifier.display = .ok id ∧
      linesOf out = (List.replicate 5 ' ' ++ id ++ str!" " ++ a.subject) :: [] :: preamble ++ [[]] ++ parts ∧
      preamble ≠ [] ∧ noBlanks preamble.flatten = noBlanks a.preamble ∧ PartsShown True a.children parts := by
  simp only [cliAct, act, Res.bind_eq_ok, Res.ok.injEq] at h
  obtain ⟨id, h0, r, h1, s, h2, rfl⟩ := h
  obtain ⟨parts, rfl, hb, hs⟩ := parts_shown hw (by rfl) hq h2
  have a1 := (laid_wrapped (fits := False) hw h1 fun h => h.elim).1
  have a2 := (shown_wrapped hw (c := false) h1 (Shown.self fun h => by simp at h)).1 []
  simp only [strip, List.append_nil, Bool.false_eq_true, if_false] at a2
  obtain ⟨ls, hne, e, hl⟩ := laid_split a1
  rw [e, noBlanks_ended] at a2
  refine ⟨id, ls, parts, h0, ?_, hne, by simpa using a2, by simpa using hs⟩
  rw [e, ← linesOf_lines (ls := (List.replicate 5 ' ' ++ id ++ str!" " ++ a.subject) :: [] :: ls ++ [[]] ++ parts)]
  · simp [Params.header, Params.indentation, Params.new, Params.indented, Params.colorize]
  · intro x hx
    simp only [List.mem_append, List.mem_cons, List.not_mem_nil, or_false] at hx
    rcases hx with ((rfl | rfl | hx) | rfl) | hx
    · simp only [List.mem_append, not_or]
      exact ⟨⟨⟨fun h => absurd (List.eq_of_mem_replicate h) (by decide), actId_noBreak h0⟩, by decide⟩, hsub⟩
    · simp
    · exact hl x hx
    · simp
    · exact hb x hx

/-- A title, two articles, and another title between articles. -/
def spacedBody : List Line :=
  [sampleLine str!"ELSŐ RÉSZ" 0, sampleLine str!"ALAPOK" 0, sampleLine str!"" 0, sampleLine str!"1. § Egy." 0,
    sampleLine str!"2. § Kettő." 0, sampleLine str!"" 0, sampleLine str!"MÁSODIK RÉSZ" 0, sampleLine str!"EGYEBEK" 0,
    sampleLine str!"" 0, sampleLine str!"3. § Három." 0]

example : Res.map linesOf (printed 60 false spacedBody) =
    .ok [str!"     2022. évi I. törvény a dolgokról", [], str!"     ", [], [],
      str!"     ELSŐ RÉSZ", str!"     ALAPOK", [],
      str!"     1. §           Egy.",
      str!"     2. §           Kettő.", [],
      str!"     MÁSODIK RÉSZ", str!"     EGYEBEK", [],
      str!"     3. §           Három."] := by
  decide +kernel

/-! ### C101 -/

/-- The position of the leftmost line that has a text at all. -/
def Leftmost (m : Rat) (ls : List Line) : Prop := (∃ l ∈ ls, l.indent = m) ∧ 0 < m ∧ ∀ l ∈ ls, 0 < l.indent → m ≤ l.indent

/-- A line of a quoted block as it is shown: after so many spaces, and one more for every five units between the
leftmost line and it. -/
def quotedLine (spaces : Nat) (m : Rat) (l : Line) : Str :=
  List.replicate (spaces + ((l.indent - m) / 5).floor.toNat) ' ' ++ l.content

theorem fold_least (l : List Rat) (m : Rat) : let r := l.foldl (fun a b => if a > b then b else a) m
    (r = m ∨ r ∈ l) ∧ r ≤ m ∧ ∀ x ∈ l, r ≤ x := by
  induction l generalizing m with
  | nil => simp
  | cons y l ih =>
    simp only [List.foldl_cons]
    obtain ⟨h1, h2, h3⟩ := ih (if m > y then y else m)
    by_cases hy : m > y
    · simp only [if_pos hy] at h1 h2 h3 ⊢
      refine ⟨?_, h2.trans hy.le, fun x hx => ?_⟩
      · rcases h1 with h1 | h1
        · right
          rw [h1]
          simp
        · exact .inr (by simp [h1])
      · rcases List.mem_cons.1 hx with rfl | hx
        · exact h2
        · exact h3 x hx
    · simp only [if_neg hy] at h1 h2 h3 ⊢
      refine ⟨?_, h2, fun x hx => ?_⟩
      · rcases h1 with h1 | h1
        · exact .inl h1
        · exact .inr (by simp [h1])
      · rcases List.mem_cons.1 hx with rfl | hx
        · exact h2.trans (not_lt.1 hy)
        · exact h3 x hx

theorem minIndent_leftmost {ls : List Line} (h : ∃ l ∈ ls, 0 < l.indent ∧ l.indent ≤ 1000) :
    Leftmost (minIndent ls) ls := by
  obtain ⟨l, hl, h0, h1⟩ := h
  have key := fold_least ((ls.map Line.indent).filter fun i => decide (i > 0)) 1000
  have hmem : ∀ x : Rat, x ∈ (ls.map Line.indent).filter (fun i => decide (i > 0)) ↔ (∃ l ∈ ls, l.indent = x) ∧ 0 < x := by
    intro x
    simp
  obtain ⟨k1, k2, k3⟩ := key
  have e : minIndent ls = 1000 → l.indent = 1000 := fun e => le_antisymm h1 (e ▸ k3 _ ((hmem _).2 ⟨⟨l, hl, rfl⟩, h0⟩))
  have k1' : (∃ l ∈ ls, l.indent = minIndent ls) ∧ 0 < minIndent ls := by
    rcases k1 with k1 | k1
    · change minIndent ls = 1000 at k1
      rw [k1]
      exact ⟨⟨l, hl, e k1⟩, by norm_num⟩
    · exact (hmem _).1 k1
  exact ⟨k1'.1, k1'.2, fun x hx h => k3 _ ((hmem _).2 ⟨⟨x, hx, rfl⟩, h⟩)⟩

theorem leftmost_unique {m m' : Rat} {ls : List Line} (h : Leftmost m ls) (h' : Leftmost m' ls) : m = m' := by
  obtain ⟨⟨l, hl, rfl⟩, h2, h3⟩ := h
  obtain ⟨⟨l', hl', rfl⟩, h2', h3'⟩ := h'
  exact le_antisymm (h3 _ hl' h2') (h3' _ hl h2)

theorem quotedLines_text (m : Rat) {p : Params} (hp : p.indentNext = true) (ls : List Line) :
    (quotedLines m p ls).1 = ls.flatMap fun l => quotedLine (5 * p.level + 5) m l ++ ['\n'] := by
  induction ls generalizing p with
  | nil => rfl
  | cons l ls ih =>
    simp only [quotedLines, List.flatMap_cons]
    rw [ih (p := p.nextLine) rfl]
    congr 1
    simp only [Params.header, Params.indentation, hp, if_true, quotedLine, asUsize]
    rw [← List.replicate_append_replicate, Nat.mul_comm 5, ← List.append_assoc,
      List.replicate_append_replicate, List.replicate_append_replicate,
      show (l.indent - m) * (1 / 5) = (l.indent - m) / 5 by ring, Nat.add_comm _ 5, ← Nat.add_assoc, Nat.add_comm 5 (p.level * 5)]

/-- C101: a quoted block is shown as its introduction, an opening mark, its lines, a closing mark, and what is after
them. The lines stand five spaces further to the right than the marks, each with a space more for every five units
between the leftmost one and it, so they keep their layout. -/
theorem C101_block (w : Wrapper) (hw : Wraps w) (p : Params) (q : QuotedBlock) (out : Str) (m : Rat)
    (hm : Leftmost m q.lines) (hsmall : m ≤ 1000) (h : quotedBlock w p q = .ok out) :
    ∃ before after : Str, out = before ++ ['\n'] ++
        (q.lines.flatMap fun l => quotedLine (5 * p.level + 5) m l ++ ['\n']) ++ after ∧
      noBlanks before = noBlanks (q.intro.getD [] ++ str!"„") ∧ noBlanks after = noBlanks (str!"”" ++ q.wrapUp.getD []) := by
  have hm' : m = minIndent q.lines := by
    refine leftmost_unique hm (minIndent_leftmost ?_)
    obtain ⟨⟨l, hl, rfl⟩, h2, -⟩ := hm
    exact ⟨l, hl, h2, hsmall⟩
  subst hm'
  simp only [quotedBlock, Res.bind_eq_ok, Res.ok.injEq] at h
  obtain ⟨r0, h0, r1, h1, r2, h2, r3, h3, rfl⟩ := h
  have clean : ∀ t : Str, Clean false t := fun t h => by simp at h
  have s0 := shown_wrappedOpt hw (c := false) h0 (Shown.self (clean _))
  have s1 := shown_wrapped hw (c := false) h1 (Shown.self (clean _))
  have s2 := shown_wrapped hw (c := false) h2 (Shown.self (clean _))
  have s3 := shown_wrappedOpt hw (c := false) h3 (Shown.self (clean _))
  have e0 := s0.1 []
  have e1 := s1.1 []
  have e2 := s2.1 []
  have e3 := s3.1 []
  simp only [strip, List.append_nil, Bool.false_eq_true, if_false] at e0 e1 e2 e3
  obtain ⟨ls, hne, e, -⟩ := laid_split (laid_wrapped (fits := False) hw h1 fun h => h.elim).1
  have hend : ∃ t, r1.1 = t ++ ['\n'] := by
    rw [e]
    obtain ⟨ls', x, rfl⟩ : ∃ ls' x, ls = ls' ++ [x] := ⟨_, _, (List.dropLast_append_getLast hne).symm⟩
    exact ⟨ls'.flatMap (· ++ ['\n']) ++ x, by simp⟩
  obtain ⟨t, ht⟩ := hend
  have hl : r1.2.level = p.level := by rw [s1.2]; exact s0.2.2.1
  refine ⟨r0.1 ++ t, r2.1 ++ r3.1, ?_, ?_, ?_⟩
  · rw [quotedLines_text _ (by rw [s1.2]; rfl), hl, ht]
    simp
  · rw [ht, noBlanks_append, noBlanks_blank (s := ['\n']) (by simp), List.append_nil] at e1
    rw [noBlanks_append, noBlanks_append, e0, e1]
  · rw [noBlanks_append, noBlanks_append, e2, e3]

theorem infix_of_append {a b c : Str} (h : a <:+: b) : a <:+: c ++ b := by
  obtain ⟨s, t, rfl⟩ := h
  exact ⟨c ++ s, t, by simp⟩

theorem infix_append_right {a b c : Str} (h : a <:+: b) : a <:+: b ++ c := by
  obtain ⟨s, t, rfl⟩ := h
  exact ⟨s, t ++ c, by simp⟩

theorem list_infix {X : Type} {f : Params → X → Res Str} {p : Params} {l : List X} {s : Str}
    (h : list f p l = .ok s) {x : X} (hx : x ∈ l) : ∃ q t, Same p q ∧ f q x = .ok t ∧ t <:+: s := by
  induction l generalizing p s with
  | nil => simp at hx
  | cons y l ih =>
    simp only [list, Res.bind_eq_ok, Res.ok.injEq] at h
    obtain ⟨s1, h1, s2, h2, rfl⟩ := h
    rcases List.mem_cons.1 hx with rfl | hx
    · exact ⟨p, s1, Same.refl p, h1, infix_append_right List.infix_rfl⟩
    · obtain ⟨q, t, hq, ht, hi⟩ := ih h2 hx
      exact ⟨q, t, (same_nextLine p).trans hq, ht, infix_of_append hi⟩

theorem actChildren_infix {A : Type} {w : Wrapper} {f : Params → A → Res Str} {p : Params} {b : Bool}
    {l : List (ActChild A)} {s : Str} (h : actChildren w f p b l = .ok s) {x : ActChild A} (hx : x ∈ l) :
    ∃ t, actChild w f p x = .ok t ∧ t <:+: s := by
  induction l generalizing b s with
  | nil => simp at hx
  | cons y l ih =>
    simp only [actChildren, Res.bind_eq_ok, Res.ok.injEq] at h
    obtain ⟨s1, h1, s2, h2, rfl⟩ := h
    rcases List.mem_cons.1 hx with rfl | hx
    · exact ⟨s1, h1, infix_append_right (infix_of_append List.infix_rfl)⟩
    · obtain ⟨t, ht, hi⟩ := ih h2 hx
      exact ⟨t, ht, infix_of_append hi⟩

/-- C101: the lines of each quoted block in a paragraph are in the output of the act, the leftmost one after 25
spaces. -/
theorem C101_act (w : Wrapper) (hw : Wraps w) (width : Nat) (colored : Bool) (a : Act Amendment) (out : Str)
    (h : cliAct w width colored a = .ok out) (art : Article Amendment) (hart : .article art ∈ a.children)
    (par : Paragraph Amendment) (hpar : par ∈ art.children) (intro : Str) (wrapUp : Option Str) (l : List QuotedBlock)
    (hbody : par.body = .children intro (.quotedBlock l) wrapUp) (q : QuotedBlock) (hq : q ∈ l) (m : Rat)
    (hm : Leftmost m q.lines) (hsmall : m ≤ 1000) :
    (['\n'] ++ q.lines.flatMap fun l => quotedLine 25 m l ++ ['\n']) <:+: out := by
  simp only [cliAct, act, Res.bind_eq_ok, Res.ok.injEq] at h
  obtain ⟨id, h0, r, h1, s, h2, rfl⟩ := h
  obtain ⟨t, ht, hi⟩ := actChildren_infix h2 hart
  simp only [actChild, article, Res.bind_eq_ok, Res.ok.injEq] at ht
  obtain ⟨r1, k1, s1, k2, rfl⟩ := ht
  obtain ⟨p2, t2, hp2, ht2, hi2⟩ := list_infix k2 hpar
  have hl1 := (shown_wrappedOpt hw (c := false) k1 (Shown.self fun h => by simp at h)).2.2.1
  simp only [paragraph, sae, Res.bind_eq_ok, Res.ok.injEq, hbody, body] at ht2
  obtain ⟨s3, ⟨c3, -, r3, h3, s4, h4, r5, h5, rfl⟩, rfl⟩ := ht2
  obtain ⟨-, e3⟩ := shown_wrapped hw (c := false) h3 (Shown.self fun h => by simp at h)
  obtain ⟨p6, t6, hp6, ht6, hi6⟩ := list_infix (show list (quotedBlock w) r3.2 l = .ok s4 from h4) hq
  obtain ⟨x, y, rfl, -, -⟩ := C101_block w hw p6 q t6 m hm hsmall ht6
  have hlevel : p6.level = 4 := by
    rw [hp6.2.1, e3]
    simp only [Params.nextLine, Params.indented, Params.sameLine]
    rw [hp2.2.1, hl1]
    rfl
  rw [hlevel] at hi6
  refine infix_of_append (List.IsInfix.trans ?_ hi)
  refine infix_append_right (infix_of_append (List.IsInfix.trans ?_ hi2))
  refine infix_of_append (infix_append_right (infix_of_append (List.IsInfix.trans ?_ hi6)))
  exact infix_append_right ⟨x, [], by simp⟩

/-- An oath of three lines, the second one further to the right. -/
def oathBody : List Line :=
  [sampleLine str!"1. § Az eskü szövege:" 0, sampleLine str!"„Esküszöm, hogy" 60,
    sampleLine str!"hű leszek" 75, sampleLine str!"hozzá.”" 60]

example : Res.map linesOf (printed 60 false oathBody) =
    .ok [str!"     2022. évi I. törvény a dolgokról", [], str!"     ", [],
      str!"     1. §           Az eskü szövege:",
      str!"                    „",
      str!"                         Esküszöm, hogy",
      str!"                            hű leszek",
      str!"                         hozzá.",
      str!"                    ”"] := by
  decide +kernel

end HunLaw.Props
