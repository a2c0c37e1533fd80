import Verif.Lemmas.Places
import Verif.Lemmas.WrittenText

/-! The grammar finds the act at the beginning of an amending sentence: the article "A", the title of the act in words,
and the act. The rule for the title remembers its result, so the context changes; the lemmas here say that it changes
only by that. -/

set_option autoImplicit false

namespace HunLaw.Grammar

open HunLaw P Spec

variable {α β : Type} {known : List Str} {G : St → Prop}

/-! ### rules which keep a property of the context -/

/-- The rule takes the text if the context has the property, and the context has it afterwards too. -/
def ReadsG (G : St → Prop) (p : PS α) (n : Nat) (t rest : Str) (a : α) : Prop :=
  ∀ s : St, G s → ∃ s', G s' ∧ p.run ⟨n, t ++ rest⟩ s = (some (a, ⟨n + byteLen t, rest⟩), s')

/-- The rule does not fit if the context has the property, and the context has it afterwards too. -/
def FailsG (G : St → Prop) (p : PS α) (n : Nat) (r : Str) : Prop :=
  ∀ s : St, G s → ∃ s', G s' ∧ p.run ⟨n, r⟩ s = (none, s')

theorem ReadsG.of {p : PS α} {n : Nat} {t rest : Str} {a : α} (hG : ∀ s, G s → s.known = known)
    (h : ReadsS known p n t rest a) : ReadsG G p n t rest a := fun s hs => ⟨s, hs, h s (hG s hs)⟩

theorem FailsG.of {p : PS α} {n : Nat} {r : Str} (hG : ∀ s, G s → s.known = known) (h : FailsS known p n r) :
    FailsG G p n r := fun s hs => ⟨s, hs, h s (hG s hs)⟩

theorem ReadsG.lift {p : P α} {n : Nat} {t rest : Str} {a : α} (h : Reads p n t rest a) :
    ReadsG G (PS.lift p) n t rest a := fun s hs => ⟨s, hs, by unfold Reads at h; simp only [PS.lift, h]⟩

theorem FailsG.lift {p : P α} {n : Nat} {r : Str} (h : Fails p n r) : FailsG G (PS.lift p) n r := fun s hs =>
  ⟨s, hs, by unfold Fails at h; simp only [PS.lift, h]⟩

theorem ReadsG.pure {n : Nat} {rest : Str} (a : α) : ReadsG G (Pure.pure a : PS α) n [] rest a := fun s hs =>
  ⟨s, hs, by show (some (a, _), s) = _; simp [byteLen]⟩

theorem ReadsG.bind {p : PS α} {f : α → PS β} {n : Nat} {t u rest : Str} {a : α} {b : β}
    (h1 : ReadsG G p n t (u ++ rest) a) (h2 : ReadsG G (f a) (n + byteLen t) u rest b) :
    ReadsG G (p >>= f) n (t ++ u) rest b := fun s hs => by
  obtain ⟨s1, g1, e1⟩ := h1 s hs
  obtain ⟨s2, g2, e2⟩ := h2 s1 g1
  refine ⟨s2, g2, ?_⟩
  rw [ps_bind_run, List.append_assoc, e1]
  simp only
  rw [e2, byteLen_append', Nat.add_assoc]

theorem ReadsG.map {p : PS α} {g : α → β} {n : Nat} {t rest : Str} {a : α} (h : ReadsG G p n t rest a) :
    ReadsG G (p >>= fun x => Pure.pure (g x)) n t rest (g a) := by
  have := ReadsG.bind (f := fun x => Pure.pure (g x)) (u := []) (rest := rest) h (ReadsG.pure (g a))
  simpa using this

theorem FailsG.bind {p : PS α} {f : α → PS β} {n : Nat} {r : Str} (h : FailsG G p n r) :
    FailsG G (p >>= f) n r := fun s hs => by
  obtain ⟨s1, g1, e1⟩ := h s hs
  exact ⟨s1, g1, by rw [ps_bind_run, e1]⟩

theorem FailsG.bind_of {p : PS α} {f : α → PS β} {n : Nat} {t rest : Str} {a : α} (h1 : ReadsG G p n t rest a)
    (h2 : FailsG G (f a) (n + byteLen t) rest) : FailsG G (p >>= f) n (t ++ rest) := fun s hs => by
  obtain ⟨s1, g1, e1⟩ := h1 s hs
  obtain ⟨s2, g2, e2⟩ := h2 s1 g1
  exact ⟨s2, g2, by rw [ps_bind_run, e1]; exact e2⟩

theorem ReadsG.left {p q : PS α} {n : Nat} {t rest : Str} {a : α} (h : ReadsG G p n t rest a) :
    ReadsG G (p <|> q) n t rest a := fun s hs => by
  obtain ⟨s1, g1, e1⟩ := h s hs
  exact ⟨s1, g1, by rw [ps_alt_run, e1]⟩

theorem ReadsG.right {p q : PS α} {n : Nat} {t rest : Str} {a : α} (h : FailsG G p n (t ++ rest))
    (h2 : ReadsG G q n t rest a) : ReadsG G (p <|> q) n t rest a := fun s hs => by
  obtain ⟨s1, g1, e1⟩ := h s hs
  obtain ⟨s2, g2, e2⟩ := h2 s1 g1
  exact ⟨s2, g2, by rw [ps_alt_run, e1]; exact e2⟩

theorem FailsG.alt {p q : PS α} {n : Nat} {r : Str} (h : FailsG G p n r) (h2 : FailsG G q n r) :
    FailsG G (p <|> q) n r := fun s hs => by
  obtain ⟨s1, g1, e1⟩ := h s hs
  obtain ⟨s2, g2, e2⟩ := h2 s1 g1
  exact ⟨s2, g2, by rw [ps_alt_run, e1]; exact e2⟩

theorem ReadsG.opt_some {p : PS α} {n : Nat} {t rest : Str} {a : α} (h : ReadsG G p n t rest a) :
    ReadsG G (PS.opt p) n t rest (some a) := fun s hs => by
  obtain ⟨s1, g1, e1⟩ := h s hs
  exact ⟨s1, g1, by simp only [PS.opt, PS.optRun, e1]⟩

theorem ReadsG.opt_none {p : PS α} {n : Nat} {rest : Str} (h : FailsG G p n rest) :
    ReadsG G (PS.opt p) n [] rest none := fun s hs => by
  obtain ⟨s1, g1, e1⟩ := h s hs
  exact ⟨s1, g1, by simp only [PS.opt, PS.optRun, List.nil_append, e1]; simp [byteLen]⟩

theorem ReadsG.call_ws {p : PS α} {n : Nat} {w t rest : Str} {a : α} (hw : ∀ c ∈ w, isWs c = true)
    (h : NoWs (t ++ rest)) (h2 : ReadsG G p (n + byteLen w) t rest a) : ReadsG G (PS.call p) n (w ++ t) rest a :=
  ReadsG.bind (ReadsG.lift (Reads.ws hw h)) h2

theorem ReadsG.call {p : PS α} {n : Nat} {t rest : Str} {a : α} (h : NoWs (t ++ rest))
    (h2 : ReadsG G p n t rest a) : ReadsG G (PS.call p) n t rest a :=
  ReadsG.call_ws (w := []) (by simp) h (by simpa [byteLen] using h2)

theorem FailsG.call_noWs {p : PS α} {n : Nat} {r : Str} (hr : NoWs r) (h : FailsG G p n r) :
    FailsG G (PS.call p) n r := by
  have := FailsG.bind_of (f := fun _ => p) (t := []) (rest := r) (ReadsG.lift (G := G) (Reads.ws (n := n) (w := []) (by simp) hr))
    (by simpa [byteLen] using h)
  exact this

/-! ### looking ahead, and whitespace before a rule -/

theorem ps_not_run (p : PS α) (i : Inp) (s : St) : (PS.not p).run i s = match p.run i s with
    | (some _, t) => (none, t)
    | (none, t) => (some ((), i), t) := rfl

theorem ReadsS.not {p : PS α} {n : Nat} {rest : Str} (h : FailsS known p n rest) :
    ReadsS known (PS.not p) n [] rest () := fun s hs => by
  rw [ps_not_run, List.nil_append, h s hs]; simp [byteLen]

theorem FailsS.not {p : PS α} {n : Nat} {t rest : Str} {a : α} (h : ReadsS known p n t rest a) :
    FailsS known (PS.not p) n (t ++ rest) := fun s hs => by
  rw [ps_not_run, h s hs]

theorem ps_call_run (p : PS α) (i : Inp) (s : St) :
    (PS.call p).run i s = p.run (i.drop (i.rest.takeWhile isWs).length) s := rfl

theorem ps_call_ws (p : PS α) {n : Nat} {w r : Str} (hw : ∀ c ∈ w, isWs c = true) (hr : NoWs r) (s : St) :
    (PS.call p).run ⟨n, w ++ r⟩ s = (PS.call p).run ⟨n + byteLen w, r⟩ s := by
  rw [ps_call_run, ps_call_run]
  simp only [takeWhile_append_noWs hw hr, takeWhile_noWs hr]
  simp [Inp.drop, byteLen]

theorem ReadsS.ws_before {p : PS α} {n : Nat} {w t rest : Str} {a : α} (hw : ∀ c ∈ w, isWs c = true)
    (h : NoWs (t ++ rest)) (h2 : ReadsS known (PS.call p) (n + byteLen w) t rest a) :
    ReadsS known (PS.call p) n (w ++ t) rest a := fun s hs => by
  rw [List.append_assoc, ps_call_ws p hw h, h2 s hs, byteLen_append', Nat.add_assoc]

theorem ReadsG.ws_before {p : PS α} {n : Nat} {w t rest : Str} {a : α} (hw : ∀ c ∈ w, isWs c = true)
    (h : NoWs (t ++ rest)) (h2 : ReadsG G (PS.call p) (n + byteLen w) t rest a) :
    ReadsG G (PS.call p) n (w ++ t) rest a := fun s hs => by
  obtain ⟨s1, g1, e1⟩ := h2 s hs
  exact ⟨s1, g1, by rw [List.append_assoc, ps_call_ws p hw h, e1, byteLen_append', Nat.add_assoc]⟩

/-! ### the words of the title -/

/-- What is after the name of the act is not one of the words after which the act is a part of a title. -/
def NotTitle (rest : Str) : Prop :=
  ∀ w ∈ [str!"hatálybalépés", str!"módosítás", str!"összefüggő"], ¬ w <+: skipWs rest

theorem reads_notTitle {n : Nat} {rest : Str} (h : NotTitle rest) : Reads notTitleWord n [] rest () :=
  Reads.not (Fails.toks h)

/-- The rule takes the text in a context with the first property, and gives one with the second. -/
def ReadsFrom (G G' : St → Prop) (p : PS α) (n : Nat) (t rest : Str) (a : α) : Prop :=
  ∀ s : St, G s → ∃ s', G' s' ∧ p.run ⟨n, t ++ rest⟩ s = (some (a, ⟨n + byteLen t, rest⟩), s')

/-- These abbreviations, perhaps with more of the one which is introduced, and these titles. -/
def Knows (known : List Str) (new : Option Str) (titles : List (Nat × Nat)) (s : St) : Prop :=
  (∃ l, (∀ x ∈ l, new = some x) ∧ s.known = known ++ l) ∧ s.titles = titles

theorem FailsG.not {p : PS α} {n : Nat} {t rest : Str} {a : α} (h : ReadsG G p n t rest a) :
    FailsG G (PS.not p) n (t ++ rest) := fun s hs => by
  obtain ⟨s1, g1, e1⟩ := h s hs
  exact ⟨s1, g1, by rw [ps_not_run, e1]⟩

theorem ReadsFrom.many_nil {G' : St → Prop} {p : PS α} {n : Nat} {rest : Str} (hG : ∀ s, G s → G' s) (h : FailsG G' p n rest) :
    ReadsFrom G G' (PS.many p) n [] rest [] := fun s hs => by
  obtain ⟨s1, g1, e1⟩ := h s (hG s hs)
  refine ⟨s1, g1, ?_⟩
  simp only [PS.many, List.nil_append, PS.manyRun, e1]
  simp [byteLen]

theorem ReadsFrom.many_cons {G' : St → Prop} {p : PS α} {n : Nat} {t u rest : Str} {a : α} {l : List α} (ht : t ≠ [])
    (hG : ∀ s, G s → s.known = known)
    (h1 : ReadsS known p n t (u ++ rest) a) (h2 : ReadsFrom G G' (PS.many p) (n + byteLen t) u rest l) :
    ReadsFrom G G' (PS.many p) n (t ++ u) rest (a :: l) := fun s hs => by
  have h1 := h1 s (hG s hs)
  obtain ⟨s', g', h2⟩ := h2 s hs
  refine ⟨s', g', ?_⟩
  simp only [PS.many, Prod.mk.injEq, Option.some.injEq] at h2 ⊢
  have hl : (u ++ rest).length < (t ++ (u ++ rest)).length := by
    have := List.length_pos_iff.2 ht
    simp only [List.length_append]; omega
  have h3 : PS.manyRun p ((t ++ (u ++ rest)).length + 1) ⟨n, t ++ (u ++ rest)⟩ s =
      ((a :: l, ⟨n + byteLen t + byteLen u, rest⟩), s') := by
    rw [PS.manyRun, h1]
    simp only [hl, if_true]
    rw [psManyRun_more p ⟨n + byteLen t, u ++ rest⟩ s _ hl]
    have : PS.manyRun p ((u ++ rest).length + 1) ⟨n + byteLen t, u ++ rest⟩ s =
        ((l, ⟨n + byteLen t + byteLen u, rest⟩), s') := Prod.ext h2.1 h2.2
    rw [this]
  rw [List.append_assoc, h3]
  simp [byteLen_append', Nat.add_assoc]

/-- The loop over the words of the title takes them up to the act. -/
theorem title_words {T : Str} {rest : Str} {new : Option Str} {at_ : Nat → ActReference} (hT : NoWs (T ++ rest))
    (hact : ∀ n titles, ReadsG (Knows known new titles) (PS.call actReference) n T rest (at_ n))
    (hnt : NotTitle rest) :
    ∀ (k : Nat) (pre : Str) (n : Nat), pre.length ≤ k → Ordinary pre → (pre = [] ∨ ∃ y, pre = y ++ [' ']) →
      (∀ p q, pre = p ++ q → q ≠ [] → parseAbbreviation known (q ++ (T ++ rest)) = none) →
      ∃ t v l, pre = t ++ v ∧ (∀ c ∈ v, isWs c = true) ∧ ∀ titles,
        ReadsFrom (fun s => s.known = known ∧ s.titles = titles) (Knows known new titles) (PS.many actTitleToken) n t (v ++ (T ++ rest)) l := by
  have hG : ∀ titles s, (s.known = known ∧ s.titles = titles) → Knows known new titles s := fun titles s h =>
    ⟨⟨[], by simp, by rw [h.1, List.append_nil]⟩, h.2⟩
  have hstop : ∀ w n titles, (∀ c ∈ w, isWs c = true) → FailsG (Knows known new titles) actTitleToken n (w ++ (T ++ rest)) := by
    intro w n titles hw
    refine FailsG.bind ?_
    rw [← List.append_assoc]
    refine FailsG.not (a := ()) ?_
    have h1 : ReadsG (Knows known new titles) (PS.call actReference) n (w ++ T) rest (at_ (n + byteLen w)) :=
      ReadsG.ws_before hw hT (hact _ _)
    have := ReadsG.bind (f := fun _ => PS.lift notTitleWord) (u := []) (rest := rest) h1 (ReadsG.lift (reads_notTitle hnt))
    simpa using this
  intro k
  induction k with
  | zero =>
    intro pre n hk _ _ _
    have : pre = [] := List.length_eq_zero_iff.1 (by omega)
    subst this
    exact ⟨[], [], [], rfl, by simp, fun titles => ReadsFrom.many_nil (hG titles) (hstop [] n titles (by simp))⟩
  | succ k ih =>
    intro pre n hk ho hend hab
    obtain ⟨w, hw, e⟩ := skipWs_split pre
    rcases hsk : skipWs pre with _ | ⟨c, x⟩
    · rw [hsk, List.append_nil] at e
      subst e
      exact ⟨[], pre, [], rfl, hw, fun titles => ReadsFrom.many_nil (hG titles) (hstop pre n titles hw)⟩
    · rw [hsk] at e
      have hc : isWs c = false := by
        have := noWs_skipWs pre; rw [hsk] at this; exact this c rfl
      have hox : Ordinary (c :: x) := by rw [e] at ho; exact ho.tail
      have hcc := ordinary_char (hox c (List.mem_cons_self ..))
      have hendx : ∃ y, c :: x = y ++ [' '] := by
        rcases hend with h | ⟨y, h⟩
        · rw [h] at e; simp at e
        · rw [h] at e
          rcases List.eq_nil_or_concat (c :: x) with h' | ⟨z, d, h'⟩
          · simp at h'
          · rw [List.concat_eq_append] at h'
            rw [h', ← List.append_assoc] at e
            have := List.append_inj_right' e rfl
            exact ⟨z, by rw [h', ← this]⟩
      obtain ⟨t, v, etv, ht, hread⟩ := reads_anyToken (R := T ++ rest) hc hcc.2.2.1 (.inr hendx)
      have habc : parseAbbreviation known (c :: x ++ (T ++ rest)) = none := hab w (c :: x) e (by simp)
      have e2 : t ++ (v ++ (T ++ rest)) = c :: x ++ (T ++ rest) := by rw [etv, List.append_assoc]
      have hnw : NoWs (c :: x ++ (T ++ rest)) := noWs_cons hc
      have hskw : skipWs (w ++ (c :: x ++ (T ++ rest))) = c :: x ++ (T ++ rest) := by
        unfold skipWs; rw [List.dropWhile_append_of_pos hw]; exact skipWs_noWs hnw
      have hstep : ReadsS known actTitleToken n (w ++ t) (v ++ (T ++ rest)) () := by
        have h1 : ReadsS known (PS.not (do
            let _ ← PS.call actReference
            PS.lift notTitleWord)) n [] ((w ++ t) ++ (v ++ (T ++ rest))) () := by
          refine ReadsS.not (FailsS.bind (fails_actReference (fun n => ?_) ?_))
          · rw [List.append_assoc, e2, hskw]
            exact fails_actId_head (by rw [skipWs_noWs hnw]; exact .cons hcc.2.2.1)
          · rw [List.append_assoc, e2, hskw]; exact habc
        have h2 : Reads (call anyToken) n (w ++ t) (v ++ (T ++ rest)) () :=
          Reads.call_ws hw (by rw [e2]; exact hnw) (hread _)
        have := ReadsS.bind (f := fun _ => PS.lift (call anyToken)) h1 (ReadsS.lift (by simpa [byteLen] using h2))
        rw [List.nil_append] at this
        exact this
      have epre : pre = (w ++ t) ++ v := by rw [e, etv, List.append_assoc]
      have hlen : v.length ≤ k := by
        have h1 := congrArg List.length epre
        simp only [List.length_append] at h1
        have := List.length_pos_iff.2 ht
        omega
      obtain ⟨t', u, l, es, hu, hmany⟩ := ih v (n + byteLen (w ++ t)) hlen (by rw [epre] at ho; exact ho.tail)
        (by
          rcases hend with h | ⟨y, h⟩
          · rw [h] at epre; simp at epre; exact absurd epre.2.1 ht
          · rcases List.eq_nil_or_concat v with h' | ⟨z, d, h'⟩
            · exact .inl h'
            · refine .inr ⟨z, ?_⟩
              rw [List.concat_eq_append] at h'
              rw [epre, h', ← List.append_assoc] at h
              have := List.append_inj_right' h rfl
              rw [h', this])
        (fun p q hv hq => hab (w ++ t ++ p) q (by rw [epre, hv]; simp) hq)
      refine ⟨w ++ t ++ t', u, () :: l, by rw [epre, es, List.append_assoc, List.append_assoc, List.append_assoc], hu, fun titles => ?_⟩
      rw [es, List.append_assoc t'] at hstep
      exact ReadsFrom.many_cons (by simp [ht]) (fun s h => h.1) hstep (hmany titles)

/-! ### the title and the act -/

/-- The context at the act: the title is not read yet, or it is read and the abbreviation is perhaps introduced. -/
def Remembers (known : List Str) (new : Option Str) (k m : Nat) (s : St) : Prop :=
  (s.titles.lookup k = none ∧ s.known = known) ∨
  (s.titles.lookup k = some m ∧ ∃ l, (∀ x ∈ l, new = some x) ∧ s.known = known ++ l)

theorem remembers_start (known : List Str) (new : Option Str) (k m : Nat) : Remembers known new k m ⟨known, []⟩ := .inl ⟨rfl, rfl⟩

theorem reads_titleBody {G' : St → Prop} {k : Nat} {t r : Str} {l : List Unit} (h : ReadsFrom G G' (PS.many actTitleToken) k t r l) :
    ReadsFrom G G' actTitleBody k t r () := by
  intro s hs
  obtain ⟨s', g', e⟩ := h s hs
  refine ⟨s', g', ?_⟩
  unfold actTitleBody
  rw [ps_bind_run, e]
  rfl

theorem actTitleRun_some {i : Inp} {s : St} {m : Nat} (h : s.titles.lookup i.pos = some m) :
    actTitleRun i s = (some ((), i.drop m), s) := by unfold actTitleRun; rw [h]

theorem actTitleRun_none {i j : Inp} {s t : St} (h : s.titles.lookup i.pos = none) (h2 : actTitleBody.run i s = (some ((), j), t)) :
    actTitleRun i s = (some ((), j), { t with titles := (i.pos, i.rest.length - j.rest.length) :: t.titles }) := by
  unfold actTitleRun; rw [h]; simp only [h2]

theorem actTitle_run (i : Inp) (s : St) : actTitle.run i s = actTitleRun i s := rfl

/-- The context when the title is read. -/
def TitleRead (known : List Str) (new : Option Str) (k m : Nat) (s : St) : Prop :=
  s.titles.lookup k = some m ∧ ∃ l, (∀ x ∈ l, new = some x) ∧ s.known = known ++ l

theorem reads_actTitle {new : Option Str} {k : Nat} {t r : Str} {l : List Unit}
    (h : ∀ titles, ReadsFrom (fun s => s.known = known ∧ s.titles = titles) (Knows known new titles) (PS.many actTitleToken) k t r l) :
    ReadsFrom (Remembers known new k t.length) (TitleRead known new k t.length) actTitle k t r () := by
  intro s hs
  rw [actTitle_run]
  rcases hs with ⟨hl, hk⟩ | ⟨hl, hk⟩
  · obtain ⟨s', ⟨hk', ht'⟩, e⟩ := reads_titleBody (h s.titles) s ⟨hk, rfl⟩
    refine ⟨⟨s'.known, (k, t.length) :: s'.titles⟩, ⟨by simp, hk'⟩, ?_⟩
    rw [actTitleRun_none (i := ⟨k, t ++ r⟩) hl e]
    simp
  · refine ⟨s, ⟨hl, hk⟩, ?_⟩
    rw [actTitleRun_some (i := ⟨k, t ++ r⟩) hl]
    simp [Inp.drop]

theorem reads_titled {T : Str} {rest : Str} {new : Option Str} {at_ : Nat → ActReference} (hT : NoWs (T ++ rest))
    (hact : ∀ n titles, ReadsG (Knows known new titles) (PS.call actReference) n T rest (at_ n))
    (hnt : NotTitle rest) {title : Str} (ht : Ordinary title) (hspaced : title = [] ∨ ∃ y, title = y ++ [' '])
    (hstart : Head (isWs · = false) title)
    (hfree : ∀ p q, title = p ++ q → q ≠ [] → parseAbbreviation known (q ++ (T ++ rest)) = none) (k : Nat) :
    ∃ m, ReadsG (Remembers known new k m) titledActReference k (title ++ T) rest (at_ (k + byteLen title)) := by
  obtain ⟨t, v, l, e, hv, hread⟩ := title_words hT hact hnt title.length title k (Nat.le_refl _) ht hspaced hfree
  refine ⟨t.length, fun s hs => ?_⟩
  have hnw : NoWs (t ++ (v ++ (T ++ rest))) := by
    have : t ++ (v ++ (T ++ rest)) = title ++ (T ++ rest) := by rw [e]; simp
    rw [this]
    rcases title with _ | ⟨c, x⟩
    · exact hT
    · exact noWs_cons (hstart c rfl)
  obtain ⟨s1, ⟨h1, h2⟩, e1⟩ := reads_actTitle hread s hs
  obtain ⟨s2, ⟨h3, h4⟩, e2⟩ := ReadsG.ws_before hv hT (hact (k + byteLen t + byteLen v) s1.titles) s1 ⟨h2, rfl⟩
  refine ⟨s2, .inr ⟨by rw [h4]; exact h1, h3⟩, ?_⟩
  have e3 : title ++ T ++ rest = t ++ (v ++ (T ++ rest)) := by rw [e]; simp
  have e4 : (PS.call actTitle).run ⟨k, t ++ (v ++ (T ++ rest))⟩ s = (some ((), ⟨k + byteLen t, v ++ (T ++ rest)⟩), s1) := by
    rw [ps_call_run]
    simp only [takeWhile_noWs hnw, List.length_nil]
    rw [show (⟨k, t ++ (v ++ (T ++ rest))⟩ : Inp).drop 0 = ⟨k, t ++ (v ++ (T ++ rest))⟩ by simp [Inp.drop, byteLen]]
    exact e1
  rw [List.append_assoc] at e2
  unfold titledActReference
  rw [e3, ps_bind_run, e4]
  show (PS.call actReference).run ⟨k + byteLen t, v ++ (T ++ rest)⟩ s1 = _
  rw [e2]
  simp [e, byteLen_append', Nat.add_assoc]

/-- The articles before the title. -/
def articles : List Str := [str!"A ", str!"Az ", str!"a ", str!"az "]

theorem reads_azAny {t rest : Str} {n : Nat} (h : t ∈ articles) : Reads (call azAny) n t rest () := by
  have hn : NoWs (t ++ rest) := by
    revert h; revert t; simp only [articles, List.mem_cons, List.not_mem_nil, or_false]
    rintro t (rfl | rfl | rfl | rfl) <;> exact noWs_cons (by decide)
  refine Reads.call hn ?_
  have hz : ∀ n (r : Str), Reads (opt (lit str!"z")) n [] (' ' :: r) none := fun n r =>
    Reads.opt_none (Fails.lit (by intro h; obtain ⟨u, h⟩ := h; simp at h))
  have h1 : ∀ (x : Str) n r, Reads (do lit x; let _ ← opt (lit str!"z"); lit str!" ") n (x ++ [' ']) r () := fun x n r => by
    have := Reads.bind (f := fun _ => (do let _ ← opt (lit str!"z"); lit str!" ")) (Reads.lit x)
      (Reads.bind (f := fun _ => lit str!" ") (hz (n + byteLen x) r) (Reads.lit (n := n + byteLen x + byteLen []) (rest := r) [' ']))
    simpa using this
  have h2 : ∀ (x : Str) n r, Reads (do lit x; let _ ← opt (lit str!"z"); lit str!" ") n (x ++ str!"z ") r () := fun x n r => by
    have := Reads.bind (f := fun _ => (do let _ ← opt (lit str!"z"); lit str!" ")) (Reads.lit x)
      (Reads.bind (f := fun _ => lit str!" ") (Reads.opt_some (Reads.lit (n := n + byteLen x) (rest := [' '] ++ r) ['z']))
        (Reads.lit (n := n + byteLen x + byteLen ['z']) (rest := r) [' ']))
    simpa using this
  have hA : ∀ n (r : Str), Fails az n ('A' :: r) := fun n r => Fails.bind (Fails.lit (by intro h; obtain ⟨u, h⟩ := h; simp at h))
  simp only [articles, List.mem_cons, List.not_mem_nil, or_false] at h
  rcases h with rfl | rfl | rfl | rfl
  · exact Reads.right (hA _ _) (h1 str!"A" n rest)
  · exact Reads.right (hA _ _) (h2 str!"A" n rest)
  · exact Reads.left (h1 str!"a" n rest)
  · exact Reads.left (h2 str!"a" n rest)

end HunLaw.Grammar
