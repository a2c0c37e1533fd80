import Verif.Model.Output
import Verif.Spec.Output
import Verif.Lemmas.Ranges
import Verif.Lemmas.Str

/-!
Lemmas for the text output.
-/

set_option autoImplicit false

namespace HunLaw.Output

open HunLaw HunLaw.Spec

/-! ### splitting at references -/

theorem splitBytes_some {n : Nat} {s a b : Str} : splitBytes n s = some (a, b) ↔ s = a ++ b ∧ byteLen a = n := by
  induction s generalizing n a b with
  | nil =>
    cases n with
    | zero =>
      simp only [splitBytes, Option.some.injEq, Prod.mk.injEq]
      constructor
      · rintro ⟨rfl, rfl⟩; exact ⟨rfl, rfl⟩
      · rintro ⟨h1, h2⟩
        have := List.append_eq_nil_iff.1 h1.symm
        exact ⟨this.1.symm, this.2.symm⟩
    | succ n =>
      simp only [splitBytes, reduceCtorEq, false_iff, not_and]
      intro h1 h2
      have := (List.append_eq_nil_iff.1 h1.symm).1
      subst this
      simp [byteLen] at h2
  | cons c s ih =>
    have hc : 0 < utf8Len c := by unfold utf8Len; split <;> (try split) <;> (try split) <;> omega
    cases n with
    | zero =>
      simp only [splitBytes, Option.some.injEq, Prod.mk.injEq]
      constructor
      · rintro ⟨rfl, rfl⟩; exact ⟨rfl, rfl⟩
      · rintro ⟨h1, h2⟩
        cases a with
        | nil => exact ⟨rfl, h1⟩
        | cons x a =>
          simp only [List.cons_append, List.cons.injEq] at h1
          obtain ⟨rfl, h1⟩ := h1
          simp only [byteLen] at h2
          omega
    | succ n =>
      simp only [splitBytes]
      split
      · rename_i hle
        simp only [Option.map_eq_some_iff, Prod.mk.injEq, Prod.exists]
        constructor
        · rintro ⟨x, y, h1, rfl, rfl⟩
          obtain ⟨rfl, h2⟩ := ih.1 h1
          refine ⟨rfl, ?_⟩
          simp only [byteLen]
          omega
        · rintro ⟨h1, h2⟩
          cases a with
          | nil => simp [byteLen] at h2
          | cons x a =>
            simp only [List.cons_append, List.cons.injEq] at h1
            obtain ⟨rfl, h1⟩ := h1
            simp only [byteLen] at h2
            exact ⟨a, b, ih.2 ⟨h1, by omega⟩, rfl, rfl⟩
      · rename_i hlt
        simp only [reduceCtorEq, false_iff, not_and]
        intro h1 h2
        cases a with
        | nil => simp [byteLen] at h2
        | cons x a =>
          simp only [List.cons_append, List.cons.injEq] at h1
          obtain ⟨rfl, h1⟩ := h1
          simp only [byteLen] at h2
          omega

theorem sliceFrom_ok {text t : Str} {n : Nat} :
    sliceFrom text n = .ok t ↔ ∃ a, text = a ++ t ∧ byteLen a = n := by
  unfold sliceFrom
  rcases h : splitBytes n text with _ | ⟨a, b⟩
  · simp only [reduceCtorEq, false_iff]
    rintro ⟨a, h1⟩
    rw [splitBytes_some.2 h1] at h
    cases h
  · obtain ⟨h1, h2⟩ := splitBytes_some.1 h
    simp only [Res.ok.injEq]
    constructor
    · rintro rfl; exact ⟨a, h1, h2⟩
    · rintro ⟨a', h1', h2'⟩
      have := splitBytes_some.2 ⟨h1', h2'⟩
      rw [this] at h
      simp only [Option.some.injEq, Prod.mk.injEq] at h
      exact h.2.symm

theorem sliceFrom_ne_err {text : Str} {n : Nat} : sliceFrom text n ≠ .err := by
  unfold sliceFrom
  split <;> simp

theorem slice_ok {text t : Str} {n m : Nat} :
    slice text n m = .ok t ↔ ∃ a b, text = a ++ t ++ b ∧ byteLen a = n ∧ byteLen a + byteLen t = m := by
  unfold slice
  split
  · rename_i hlt
    simp only [reduceCtorEq, false_iff]
    rintro ⟨a, b, h1, h2, h3⟩
    omega
  · rcases h : splitBytes m text with _ | ⟨x, y⟩
    · simp only [reduceCtorEq, false_iff]
      rintro ⟨a, b, h1, h2, h3⟩
      have : splitBytes m text = some (a ++ t, b) := splitBytes_some.2 ⟨h1, by rw [byteLen_append]; exact h3⟩
      rw [this] at h
      cases h
    · obtain ⟨h1, h2⟩ := splitBytes_some.1 h
      simp only [sliceFrom_ok]
      constructor
      · rintro ⟨a, rfl, h3⟩
        exact ⟨a, y, h1, h3, by rw [← byteLen_append]; exact h2⟩
      · rintro ⟨a, b, h3, h4, h5⟩
        have : splitBytes m text = some (a ++ t, b) := splitBytes_some.2 ⟨h3, by rw [byteLen_append]; exact h5⟩
        rw [this] at h
        simp only [Option.some.injEq, Prod.mk.injEq] at h
        exact ⟨a, h.1.symm, h4⟩

/-- Two ways to cut a text at the same byte are the same. -/
theorem cut_unique {a b c d : Str} (h : a ++ b = c ++ d) (hl : byteLen a = byteLen c) : a = c ∧ b = d := by
  have h1 := splitBytes_some.2 (show a ++ b = a ++ b ∧ byteLen a = byteLen a from ⟨rfl, rfl⟩)
  have h2 := splitBytes_some.2 (show c ++ d = c ++ d ∧ byteLen c = byteLen c from ⟨rfl, rfl⟩)
  rw [h, hl, h2] at h1
  simp only [Option.some.injEq, Prod.mk.injEq] at h1
  exact ⟨h1.1.symm, h1.2.symm⟩

theorem splitFrom_ok {text : Str} {n : Nat} {refs : List OutgoingRef} {l : List (Str × Bool)}
    (h : splitFrom text n refs = .ok l) :
    (∃ a, text = a ++ l.flatMap (·.1) ∧ byteLen a = n) ∧ highlighted n l = ranges refs := by
  induction refs generalizing n l with
  | nil =>
    simp only [splitFrom, Res.bind_eq_ok, Res.ok.injEq] at h
    obtain ⟨t, h1, rfl⟩ := h
    obtain ⟨a, h2, h3⟩ := sliceFrom_ok.1 h1
    exact ⟨⟨a, by simpa using h2, h3⟩, by simp [highlighted, ranges]⟩
  | cons r rs ih =>
    simp only [splitFrom, Res.bind_eq_ok, Res.ok.injEq] at h
    obtain ⟨b, h1, i, h2, rest, h3, rfl⟩ := h
    obtain ⟨a1, x1, e1, f1, g1⟩ := slice_ok.1 h1
    obtain ⟨a2, x2, e2, f2, g2⟩ := slice_ok.1 h2
    obtain ⟨⟨a3, e3, f3⟩, h4⟩ := ih h3
    have c1 := cut_unique (e1.symm.trans (e2.trans (List.append_assoc ..))) (by rw [byteLen_append]; omega)
    have c2 := cut_unique (e2.symm.trans e3) (by rw [byteLen_append]; omega)
    refine ⟨⟨a1, ?_, f1⟩, ?_⟩
    · rw [e1, c1.2, c2.2]
      simp
    · have k1 : n + byteLen b = r.start := by omega
      have k2 : r.start + byteLen i = r.fin := by omega
      simp only [highlighted, Bool.false_eq_true, ↓reduceIte, List.nil_append, k1, k2, h4, ranges, List.map_cons,
        List.singleton_append]

theorem splitFrom_inOrder {text : Str} {n : Nat} {refs : List OutgoingRef} (hn : CharBoundary text n)
    (h : RangesInOrder text n (ranges refs)) : ∃ l, splitFrom text n refs = .ok l := by
  induction refs generalizing n with
  | nil =>
    obtain ⟨a, b, h1, h2⟩ := hn
    exact ⟨[(b, false)], by simp [splitFrom, sliceFrom_ok.2 ⟨a, h1, h2⟩]⟩
  | cons r rs ih =>
    simp only [ranges, List.map_cons, RangesInOrder] at h
    obtain ⟨h1, h2, h3, h4, h5⟩ := h
    obtain ⟨l, hl⟩ := ih h4 h5
    have key : ∀ {i j : Nat}, CharBoundary text i → CharBoundary text j → i ≤ j → ∃ t, slice text i j = .ok t := by
      rintro i j ⟨a, b, e1, f1⟩ ⟨c, d, e2, f2⟩ hij
      have : a <+: c := by
        have ha : a <+: text := ⟨b, e1.symm⟩
        have hc : c <+: text := ⟨d, e2.symm⟩
        rcases List.prefix_or_prefix_of_prefix ha hc with h | h
        · exact h
        · obtain ⟨t, rfl⟩ := h
          rw [byteLen_append] at f1
          have : byteLen t = 0 := by omega
          cases t with
          | nil => simp
          | cons x t =>
            have hc : 0 < utf8Len x := by unfold utf8Len; split <;> (try split) <;> (try split) <;> omega
            simp only [byteLen] at this
            omega
      obtain ⟨t, rfl⟩ := this
      exact ⟨t, slice_ok.2 ⟨a, d, e2, f1, by rw [byteLen_append] at f2; omega⟩⟩
    obtain ⟨b, hb⟩ := key hn h3 h1
    obtain ⟨i, hi⟩ := key h3 h4 (by omega)
    exact ⟨_, by simp only [splitFrom, hb, hi, hl, Res.bind_ok]; rfl⟩

/-! ### what is written -/

/-- The output of a coloured text without its escape sequences. -/
def strip (colored : Bool) (s : Str) : Str := if colored then unescape false s else s

/-- The output shows the text, up to blanks and escape sequences, whatever comes after it. -/
def Shown (c : Bool) (out text : Str) : Prop :=
  ∀ s, strip c (noBlanks out ++ s) = noBlanks text ++ strip c s

/-- There are no escape characters in the text, if it is to be coloured. -/
def Clean (c : Bool) (t : Str) : Prop := c = true → '\x1B' ∉ t

theorem clean_append {c : Bool} {a b : Str} : Clean c (a ++ b) ↔ Clean c a ∧ Clean c b := by
  unfold Clean
  simp only [List.mem_append, not_or]
  constructor
  · exact fun h => ⟨fun hc => (h hc).1, fun hc => (h hc).2⟩
  · exact fun h hc => ⟨h.1 hc, h.2 hc⟩

theorem clean_flatMap {X : Type} {c : Bool} {f : X → Str} {l : List X} (h : Clean c (l.flatMap f)) :
    ∀ x ∈ l, Clean c (f x) := by
  intro x hx hc he
  exact h hc (List.mem_flatMap.2 ⟨x, hx, he⟩)

theorem noBlanks_append (a b : Str) : noBlanks (a ++ b) = noBlanks a ++ noBlanks b := by
  simp [noBlanks]

theorem noBlanks_blank {s : Str} (h : ∀ c ∈ s, c = ' ' ∨ c = '\n') : noBlanks s = [] := by
  simp only [noBlanks, List.filter_eq_nil_iff, Bool.and_eq_true, bne_iff_ne, ne_eq, not_and, not_not]
  intro c hc
  rcases h c hc with rfl | rfl <;> simp

theorem noBlanks_replicate (n : Nat) : noBlanks (List.replicate n ' ') = [] :=
  noBlanks_blank fun c hc => .inl (List.eq_of_mem_replicate hc)

theorem Shown.nil (c : Bool) : Shown c [] [] := fun s => rfl

theorem Shown.append {c : Bool} {a b t u : Str} (h1 : Shown c a t) (h2 : Shown c b u) :
    Shown c (a ++ b) (t ++ u) := by
  intro s
  rw [noBlanks_append, List.append_assoc, h1, h2, noBlanks_append, List.append_assoc]

theorem Shown.congr {c : Bool} {a b t u : Str} (h : Shown c a t) (h1 : noBlanks b = noBlanks a)
    (h2 : noBlanks u = noBlanks t) : Shown c b u := by
  intro s
  rw [h1, h2, h]

theorem Shown.left {c : Bool} {a b t : Str} (h : Shown c a t) (h1 : noBlanks b = noBlanks a) : Shown c b t :=
  h.congr h1 rfl

theorem unescape_clean {t : Str} (h : '\x1B' ∉ t) (s : Str) : unescape false (t ++ s) = t ++ unescape false s := by
  induction t with
  | nil => rfl
  | cons x t ih =>
    simp only [List.mem_cons, not_or] at h
    rw [List.cons_append, List.cons_append, unescape, if_neg (fun e => h.1 e.symm), ih h.2]

theorem Shown.self {c : Bool} {t : Str} (h : Clean c t) : Shown c t t := by
  intro s
  cases c with
  | false => rfl
  | true =>
    simp only [strip, ↓reduceIte]
    refine unescape_clean (fun hm => h rfl ?_) s
    exact (List.mem_filter.1 hm).1

theorem unescape_code {code : Str} (h : 'm' ∉ code) (s : Str) :
    unescape true (code ++ 'm' :: s) = unescape false s := by
  induction code with
  | nil => simp [unescape]
  | cons x t ih =>
    simp only [List.mem_cons, not_or] at h
    have hx : (x != 'm') = true := by simpa using fun e : x = 'm' => h.1 e.symm
    rw [List.cons_append, unescape, hx, ih h.2]

/-- A code of an escape sequence. -/
def IsCode (code : Str) : Prop := 'm' ∉ code ∧ noBlanks code = code

theorem Shown.colorize {p : Params} {t code : Str} (hc : Clean p.colored t) (h : IsCode code) :
    Shown p.colored (p.colorize t code) t := by
  unfold Params.colorize
  cases hp : p.colored with
  | false =>
    rw [hp] at hc
    exact Shown.self hc
  | true =>
    rw [hp] at hc
    intro s
    have h2 := Shown.self hc
    simp only [↓reduceIte]
    rw [noBlanks_append, noBlanks_append, noBlanks_append, noBlanks_append, h.2]
    have e1 : noBlanks ['\x1B', '['] = ['\x1B', '['] := by decide
    have e2 : noBlanks ['m'] = ['m'] := by decide
    have e3 : noBlanks ['\x1B', '[', '0', 'm'] = ['\x1B', '[', '0', 'm'] := by decide
    rw [e1, e2, e3]
    have h3 := h2 (['\x1B', '[', '0', 'm'] ++ s)
    simp only [strip, ↓reduceIte] at h3 ⊢
    simp only [List.append_assoc, List.cons_append, List.nil_append] at h3 ⊢
    rw [unescape, if_pos rfl, unescape]
    rw [show (('[' : Char) != 'm') = true by decide, unescape_code h.1, h3]
    simp [unescape]

theorem noBlanks_flatten {text : Str} {ls : List Str} (h : WrapsTo text ls) : noBlanks ls.flatten = noBlanks text := by
  induction h with
  | last l gap hg => simp [noBlanks_append, noBlanks_blank hg]
  | cons l gap rest ls hg _ ih => simp [noBlanks_append, noBlanks_blank hg, ih]

theorem wrapsTo_ne_nil {text : Str} {ls : List Str} (h : WrapsTo text ls) : ls ≠ [] := by
  cases h <;> simp

theorem noBlanks_indentation (p : Params) : noBlanks p.indentation = [] := by
  unfold Params.indentation
  split
  · exact noBlanks_replicate _
  · rfl

theorem noBlanks_lines (p : Params) (ls : List Str) : noBlanks (p.lines ls).1 = noBlanks ls.flatten := by
  induction ls generalizing p with
  | nil => rfl
  | cons l ls ih =>
    have e : noBlanks ['\n'] = [] := by decide
    simp only [Params.lines, noBlanks_append, noBlanks_indentation, ih, e, List.flatten_cons, List.nil_append,
      List.append_nil]

theorem lines_snd {p : Params} {ls : List Str} (h : ls ≠ []) : (p.lines ls).2 = p.nextLine := by
  induction ls generalizing p with
  | nil => exact absurd rfl h
  | cons l ls ih =>
    cases ls with
    | nil => rfl
    | cons l' ls =>
      simp only [Params.lines] at ih ⊢
      exact ih (p := p.nextLine) (by simp)

section

variable {w : Wrapper}

theorem wrapped_ok (hw : Wraps w) {p : Params} {t : Str} {r : Str × Params} (h : p.wrapped w t = .ok r) :
    p.level * 5 ≤ p.width ∧ r = ((p.lines (w t (p.width - p.level * 5))).1, p.nextLine) := by
  unfold Params.wrapped at h
  split at h
  · cases h
  · rename_i hlt
    simp only [Res.ok.injEq] at h
    subst h
    refine ⟨by omega, ?_⟩
    exact Prod.ext rfl (lines_snd (wrapsTo_ne_nil (hw.pieces _ _)))

theorem shown_wrapped (hw : Wraps w) {c : Bool} {p : Params} {t u : Str} {r : Str × Params}
    (h : p.wrapped w t = .ok r) (ht : Shown c t u) : Shown c r.1 u ∧ r.2 = p.nextLine := by
  obtain ⟨-, rfl⟩ := wrapped_ok hw h
  refine ⟨ht.left ?_, rfl⟩
  rw [noBlanks_lines, noBlanks_flatten (hw.pieces _ _)]

/-- The parameters are the same but for the indentation of the next line. -/
def Same (p q : Params) : Prop := q.width = p.width ∧ q.level = p.level ∧ q.colored = p.colored

theorem same_nextLine (p : Params) : Same p p.nextLine := ⟨rfl, rfl, rfl⟩
theorem Same.refl (p : Params) : Same p p := ⟨rfl, rfl, rfl⟩

theorem shown_wrappedOpt (hw : Wraps w) {c : Bool} {p : Params} {t : Option Str} {u : Str} {r : Str × Params}
    (h : p.wrappedOpt w t = .ok r) (ht : Shown c (t.getD []) u) : Shown c r.1 u ∧ Same p r.2 := by
  cases t with
  | none =>
    simp only [Params.wrappedOpt, Res.ok.injEq] at h
    subst h
    exact ⟨ht, Same.refl p⟩
  | some t =>
    obtain ⟨h1, h2⟩ := shown_wrapped hw h ht
    exact ⟨h1, h2 ▸ same_nextLine p⟩

theorem shown_list {X : Type} {f : Params → X → Res Str} {g : X → Str} {c : Bool}
    (hf : ∀ p x s, p.colored = c → Clean c (g x) → f p x = .ok s → Shown c s (g x)) {p : Params} {l : List X} {s : Str}
    (hp : p.colored = c) (hc : Clean c (l.flatMap g)) (h : list f p l = .ok s) : Shown c s (l.flatMap g) := by
  induction l generalizing p s with
  | nil =>
    simp only [list, Res.ok.injEq] at h
    subst h
    exact Shown.nil c
  | cons x l ih =>
    simp only [list, Res.bind_eq_ok, Res.ok.injEq] at h
    obtain ⟨a, h1, b, h2, rfl⟩ := h
    rw [List.flatMap_cons, clean_append] at hc
    rw [List.flatMap_cons]
    exact (hf _ _ _ hp hc.1 h1).append (ih (p := p.nextLine) hp hc.2 h2)

theorem shown_flatMap {X : Type} {f g : X → Str} {c : Bool} {l : List X} (h : ∀ x ∈ l, Shown c (f x) (g x)) :
    Shown c (l.flatMap f) (l.flatMap g) := by
  induction l with
  | nil => exact Shown.nil c
  | cons x l ih =>
    rw [List.flatMap_cons, List.flatMap_cons]
    exact (h x (by simp)).append (ih fun y hy => h y (by simp [hy]))

theorem isCode_default (i : SemanticInfo) : IsCode (defaultColor i) := by
  unfold defaultColor
  split <;> exact ⟨by decide, by decide⟩

theorem shown_colorizeSae {p : Params} {text t : Str} {i : SemanticInfo} (hc : Clean p.colored text)
    (h : colorizeSae text p i = .ok t) : Shown p.colored t text := by
  simp only [colorizeSae, Res.bind_eq_ok, Res.ok.injEq] at h
  obtain ⟨pieces, h1, rfl⟩ := h
  obtain ⟨⟨a, h2, h3⟩, -⟩ := splitFrom_ok h1
  have ha : a = [] := by
    have := cut_unique (a := []) (b := text) (c := a) (d := pieces.flatMap (·.1)) (by simpa using h2) (by simpa [byteLen] using h3.symm)
    exact this.1.symm
  subst ha
  simp only [List.nil_append] at h2
  rw [h2] at hc
  conv => rhs; rw [h2]
  refine shown_flatMap fun x hx => Shown.colorize (clean_flatMap hc x hx) ?_
  split
  · exact ⟨by decide, by decide⟩
  · exact isCode_default i

theorem shown_body (hw : Wraps w) {C : Type} {children : Params → C → Res Str} {g : C → Str} {c : Bool}
    (hf : ∀ p x s, p.colored = c → Clean c (g x) → children p x = .ok s → Shown c s (g x)) {p : Params}
    {i : SemanticInfo} {b : SAEBody C} {s : Str} (hp : p.colored = c) (hc : Clean c (bodyShown g b))
    (h : body w children p i b = .ok s) : Shown c s (bodyShown g b) := by
  subst hp
  cases b with
  | text t =>
    simp only [body, Res.bind_eq_ok, Res.ok.injEq] at h
    obtain ⟨t', h1, r, h2, rfl⟩ := h
    exact (shown_wrapped hw h2 (shown_colorizeSae hc h1)).1
  | children intro x wrapUp =>
    simp only [body, Res.bind_eq_ok, Res.ok.injEq] at h
    obtain ⟨t', h1, r, h2, s', h3, r2, h4, rfl⟩ := h
    simp only [bodyShown, clean_append] at hc ⊢
    obtain ⟨h5, h6⟩ := shown_wrapped hw h2 (shown_colorizeSae hc.1.1 h1)
    rw [h6] at h3
    exact (h5.append (hf p.nextLine _ _ rfl hc.1.2 h3)).append
      (shown_wrappedOpt hw h4 (Shown.self hc.2)).1

theorem noBlanks_pad (n : Nat) (s : Str) : noBlanks (pad n s) = noBlanks s := by
  rw [pad, noBlanks_append, noBlanks_replicate, List.append_nil]

theorem shown_header {c : Bool} {p : Params} {t u : Str} (h : Shown c t u) : Shown c (p.header t) u :=
  h.left (by rw [Params.header, noBlanks_append, noBlanks_indentation, List.nil_append])

theorem shown_sae (hw : Wraps w) {I C : Type} {children : Params → C → Res Str} {g : C → Str} {c : Bool}
    (hf : ∀ p x s, p.colored = c → Clean c (g x) → children p x = .ok s → Shown c s (g x)) {p : Params}
    {head : Str} {e : SAE I C} {s : Str} (hp : p.colored = c) (hc : Clean c (head ++ bodyShown g e.body))
    (h : sae w head children p e = .ok s) : Shown c s (head ++ bodyShown g e.body) := by
  simp only [sae, Res.bind_eq_ok, Res.ok.injEq] at h
  obtain ⟨s', h1, rfl⟩ := h
  rw [clean_append] at hc
  refine (shown_header ((Shown.self hc.1).left (noBlanks_pad _ _))).append ?_
  exact shown_body hw hf (p := p.sameLine.indented) hp hc.2 h1

theorem shown_noChildren {c : Bool} : ∀ (p : Params) (x : NoChildren) (s : Str), p.colored = c →
    Clean c (noChildrenShown x) → noChildren p x = .ok s → Shown c s (noChildrenShown x) := fun _ x => nomatch x

theorem shown_alphabeticSubpoint (hw : Wraps w) {c : Bool} (p : Params) (e : AlphabeticSubpoint) (s : Str)
    (hp : p.colored = c) (hc : Clean c (alphabeticSubpointShown e)) (h : alphabeticSubpoint w p e = .ok s) :
    Shown c s (alphabeticSubpointShown e) := shown_sae hw shown_noChildren hp hc h

theorem shown_numericSubpoint (hw : Wraps w) {c : Bool} (p : Params) (e : NumericSubpoint) (s : Str)
    (hp : p.colored = c) (hc : Clean c (numericSubpointShown e)) (h : numericSubpoint w p e = .ok s) :
    Shown c s (numericSubpointShown e) := shown_sae hw shown_noChildren hp hc h

theorem shown_alphabeticPoint (hw : Wraps w) {c : Bool} (p : Params) (e : AlphabeticPoint) (s : Str)
    (hp : p.colored = c) (hc : Clean c (alphabeticPointShown e)) (h : alphabeticPoint w p e = .ok s) :
    Shown c s (alphabeticPointShown e) := by
  refine shown_sae hw (fun p x s hp hc h => ?_) hp hc h
  cases x with
  | alphabeticSubpoint l => exact shown_list (shown_alphabeticSubpoint hw) hp hc h
  | numericSubpoint l => exact shown_list (shown_numericSubpoint hw) hp hc h

theorem shown_numericPoint (hw : Wraps w) {c : Bool} (p : Params) (e : NumericPoint) (s : Str)
    (hp : p.colored = c) (hc : Clean c (numericPointShown e)) (h : numericPoint w p e = .ok s) :
    Shown c s (numericPointShown e) := by
  refine shown_sae hw (fun p x s hp hc h => ?_) hp hc h
  cases x with
  | alphabeticSubpoint l => exact shown_list (shown_alphabeticSubpoint hw) hp hc h

theorem noBlanks_quotedLines (min : Rat) (p : Params) (l : List Line) :
    noBlanks (quotedLines min p l).1 = noBlanks (l.flatMap Line.content) := by
  induction l generalizing p with
  | nil => rfl
  | cons x l ih =>
    have e : noBlanks ['\n'] = [] := by decide
    simp only [quotedLines, Params.header, noBlanks_append, noBlanks_indentation, noBlanks_replicate, ih, e,
      List.flatMap_cons, List.nil_append, List.append_nil]

theorem quotedLines_same (min : Rat) (p : Params) (l : List Line) : Same p (quotedLines min p l).2 := by
  induction l generalizing p with
  | nil => exact Same.refl p
  | cons x l ih => exact ih p.nextLine

theorem clean_mark (c : Bool) : Clean c str!"„" ∧ Clean c str!"”" := by
  constructor <;> intro _ <;> decide

theorem shown_quotedBlock (hw : Wraps w) {c : Bool} (p : Params) (q : QuotedBlock) (s : Str)
    (_ : p.colored = c) (hc : Clean c (quotedBlockShown q)) (h : quotedBlock w p q = .ok s) :
    Shown c s (quotedBlockShown q) := by
  simp only [quotedBlock, Res.bind_eq_ok, Res.ok.injEq] at h
  obtain ⟨r0, h0, r1, h1, r2, h2, r3, h3, rfl⟩ := h
  simp only [quotedBlockShown, clean_append] at hc ⊢
  obtain ⟨⟨⟨⟨c0, -⟩, c1⟩, -⟩, c3⟩ := hc
  exact ((((shown_wrappedOpt hw h0 (Shown.self c0)).1.append
    (shown_wrapped hw h1 (Shown.self (clean_mark c).1)).1).append
    ((Shown.self c1).left (noBlanks_quotedLines _ _ _))).append
    (shown_wrapped hw h2 (Shown.self (clean_mark c).2)).1).append
    (shown_wrappedOpt hw h3 (Shown.self c3)).1

theorem paragraphHeader_eq (i : ParagraphId) : paragraphHeader i = paragraphNumber i := by
  rcases i with ⟨_ | n⟩ <;> rfl

theorem shown_paragraph {A : Type} (hw : Wraps w) {c : Bool} {f : Params → A → Res Str} {g : A → Str}
    (hf : ∀ p x s, p.colored = c → Clean c (g x) → f p x = .ok s → Shown c s (g x))
    (p : Params) (e : Paragraph A) (s : Str) (hp : p.colored = c) (hc : Clean c (paragraphShown g e))
    (h : paragraph w f p e = .ok s) : Shown c s (paragraphShown g e) := by
  unfold paragraph at h
  rw [paragraphHeader_eq] at h
  refine shown_sae hw (fun p x s hp hc h => ?_) hp hc h
  cases x with
  | alphabeticPoint l => exact shown_list (shown_alphabeticPoint hw) hp hc h
  | numericPoint l => exact shown_list (shown_numericPoint hw) hp hc h
  | quotedBlock l => exact shown_list (shown_quotedBlock hw) hp hc h
  | amendment a => exact hf _ _ _ hp hc h

theorem isCode_bold : IsCode bold := ⟨by decide, by decide⟩
theorem isCode_italic : IsCode italic := ⟨by decide, by decide⟩

theorem shown_article {A : Type} (hw : Wraps w) {c : Bool} {f : Params → A → Res Str} {g : A → Str}
    (hf : ∀ p x s, p.colored = c → Clean c (g x) → f p x = .ok s → Shown c s (g x))
    (p : Params) (a : Article A) (s : Str) (hp : p.colored = c) (hc : Clean c (articleShown g a))
    (h : article w f p a = .ok s) : Shown c s (articleShown g a) := by
  simp only [article, Res.bind_eq_ok, Res.ok.injEq] at h
  obtain ⟨r, h1, s', h2, rfl⟩ := h
  simp only [articleShown, clean_append] at hc ⊢
  obtain ⟨⟨⟨c0, c1⟩, c2⟩, c3⟩ := hc
  have e0 : Shown c (p.header (p.colorize (pad 10 (a.identifier.display ++ str!". §")) bold))
      (a.identifier.display ++ str!". §") := by
    subst hp
    refine shown_header ?_
    refine Shown.congr (a := p.colorize (pad 10 (a.identifier.display ++ str!". §")) bold)
      (t := pad 10 (a.identifier.display ++ str!". §")) (Shown.colorize ?_ isCode_bold) rfl
      (noBlanks_pad _ _).symm
    rw [pad, clean_append, clean_append]
    exact ⟨⟨c0, c1⟩, fun _ hm => absurd (List.eq_of_mem_replicate hm) (by decide)⟩
  have e1 : Shown c ((articleTitle a.title).getD []) (inBrackets str!"[" str!"]" a.title) := by
    cases ht : a.title with
    | none => exact Shown.nil c
    | some t =>
      rw [ht] at c2
      refine (Shown.self c2).left ?_
      simp only [articleTitle, Option.map_some, Option.getD_some, inBrackets]
      rw [noBlanks_append, noBlanks_append, noBlanks_append, noBlanks_append]
      rfl
  obtain ⟨e2, e3⟩ := shown_wrappedOpt hw h1 e1
  have e4 := shown_list (shown_paragraph hw hf) (by rw [e3.2.2]; exact hp) c3 h2
  refine ((e0.append e2).append e4).left ?_
  rw [noBlanks_append]
  have : noBlanks (emptyEnd a.children) = [] := by
    unfold emptyEnd
    split <;> rfl
  rw [this, List.append_nil]

theorem shown_actChild {A : Type} (hw : Wraps w) {c : Bool} {f : Params → A → Res Str} {g : A → Str}
    (hf : ∀ p x s, p.colored = c → Clean c (g x) → f p x = .ok s → Shown c s (g x))
    (p : Params) (a : ActChild A) (s : Str) (hp : p.colored = c) (hc : Clean c (actChildShown g a))
    (h : actChild w f p a = .ok s) : Shown c s (actChildShown g a) := by
  cases a with
  | article a => exact shown_article hw hf p a s hp hc h
  | structuralElement e =>
    simp only [actChild, structuralElement, Res.bind_eq_ok, Res.ok.injEq] at h
    obtain ⟨hd, h0, r, h1, r2, h2, rfl⟩ := h
    have h0' : e.headerString = some hd := by
      cases he : e.headerString <;> rw [he] at h0 <;> simp [Res.ofOption] at h0
      rw [h0]
    simp only [actChildShown, h0', Option.getD_some, clean_append] at hc ⊢
    subst hp
    obtain ⟨e1, e2⟩ := shown_wrapped hw h1 (Shown.colorize hc.1 isCode_italic)
    refine e1.append (shown_wrappedOpt hw h2 ?_).1
    unfold nonEmpty
    cases ht : e.title with
    | nil => exact Shown.nil _
    | cons x t =>
      rw [ht] at hc
      exact Shown.colorize hc.2 isCode_italic
  | subtitle t =>
    simp only [actChild, subtitle, Res.bind_eq_ok, Res.ok.injEq] at h
    obtain ⟨r, h1, rfl⟩ := h
    subst hp
    rcases t with ⟨_ | i, t, n⟩
    · exact (shown_wrapped hw h1 (Shown.colorize hc isCode_bold)).1
    · simp only [actChildShown, clean_append] at hc ⊢
      refine (shown_wrapped hw h1 ((Shown.colorize (t := subtitleText ⟨some i, t, n⟩) ?_ isCode_bold).congr rfl ?_)).1
      · simp only [subtitleText, clean_append]
        exact ⟨⟨hc.1.1, fun _ => by decide⟩, hc.2⟩
      · simp only [subtitleText, noBlanks_append]
        rfl

theorem shown_quoted {C : Type} (hw : Wraps w) {c : Bool} {f : Params → C → Res Str} {g : C → Str}
    (hf : ∀ p x s, p.colored = c → Clean c (g x) → f p x = .ok s → Shown c s (g x))
    (p : Params) (i : Option Str) (x : C) (wu : Option Str) (s : Str) (hp : p.colored = c)
    (hc : Clean c (inBrackets str!"(" str!")" i ++ str!"„" ++ g x ++ str!"”" ++ inBrackets str!"(" str!")" wu))
    (h : quoted w f p i x wu = .ok s) :
    Shown c s (inBrackets str!"(" str!")" i ++ str!"„" ++ g x ++ str!"”" ++ inBrackets str!"(" str!")" wu) := by
  simp only [quoted, Res.bind_eq_ok, Res.ok.injEq] at h
  obtain ⟨r0, h0, r1, h1, s', h4, r2, h2, r3, h3, rfl⟩ := h
  simp only [clean_append] at hc
  obtain ⟨⟨⟨⟨c0, -⟩, c1⟩, -⟩, c3⟩ := hc
  have e : ∀ {t : Option Str}, Clean c (inBrackets str!"(" str!")" t) →
      Shown c ((bracketed p t).getD []) (inBrackets str!"(" str!")" t) := by
    intro t ht
    subst hp
    cases t with
    | none => exact Shown.nil _
    | some t => exact Shown.colorize ht isCode_italic
  obtain ⟨e0, f0⟩ := shown_wrappedOpt hw h0 (e c0)
  obtain ⟨e1, f1⟩ := shown_wrapped hw h1 (Shown.self (clean_mark c).1)
  refine (((e0.append e1).append (hf _ _ _ ?_ c1 h4)).append
    (shown_wrapped hw h2 (Shown.self (clean_mark c).2)).1).append
    (shown_wrappedOpt hw h3 (e c3)).1
  rw [f1]
  exact f0.2.2.trans hp

theorem shown_noAmendment {c : Bool} : ∀ (p : Params) (x : Empty) (s : Str), p.colored = c →
    Clean c (noAmendmentShown x) → noAmendment p x = .ok s → Shown c s (noAmendmentShown x) := fun _ x => nomatch x

theorem shown_amendment (hw : Wraps w) {c : Bool} (p : Params) (a : Amendment) (s : Str)
    (hp : p.colored = c) (hc : Clean c (amendmentShown a)) (h : amendment w p a = .ok s) :
    Shown c s (amendmentShown a) := by
  cases a with
  | structural i l wu =>
    exact shown_quoted hw (f := list (actChild w noAmendment)) (g := fun l => l.flatMap (actChildShown noAmendmentShown))
      (fun p x s hp hc h => shown_list (shown_actChild hw shown_noAmendment) hp hc h) p i l wu s hp hc h
  | block i x wu =>
    refine shown_quoted hw (g := fun x => match x with
      | .paragraph l => l.flatMap (paragraphShown noAmendmentShown)
      | .alphabeticPoint l => l.flatMap alphabeticPointShown
      | .numericPoint l => l.flatMap numericPointShown
      | .alphabeticSubpoint l => l.flatMap alphabeticSubpointShown
      | .numericSubpoint l => l.flatMap numericSubpointShown) (fun p x s hp hc h => ?_) p i x wu s hp hc h
    cases x with
    | paragraph l => exact shown_list (shown_paragraph hw shown_noAmendment) hp hc h
    | alphabeticPoint l => exact shown_list (shown_alphabeticPoint hw) hp hc h
    | numericPoint l => exact shown_list (shown_numericPoint hw) hp hc h
    | alphabeticSubpoint l => exact shown_list (shown_alphabeticSubpoint hw) hp hc h
    | numericSubpoint l => exact shown_list (shown_numericSubpoint hw) hp hc h

theorem shown_actChildren {A : Type} (hw : Wraps w) {c : Bool} {f : Params → A → Res Str} {g : A → Str}
    (hf : ∀ p x s, p.colored = c → Clean c (g x) → f p x = .ok s → Shown c s (g x))
    {p : Params} {b : Bool} {l : List (ActChild A)} {s : Str} (hp : p.colored = c)
    (hc : Clean c (l.flatMap (actChildShown g))) (h : actChildren w f p b l = .ok s) :
    Shown c s (l.flatMap (actChildShown g)) := by
  induction l generalizing b s with
  | nil =>
    simp only [actChildren, Res.ok.injEq] at h
    subst h
    exact Shown.nil c
  | cons x l ih =>
    simp only [actChildren, Res.bind_eq_ok, Res.ok.injEq] at h
    obtain ⟨s1, h1, s2, h2, rfl⟩ := h
    rw [List.flatMap_cons, clean_append] at hc
    rw [List.flatMap_cons]
    refine ((shown_actChild hw hf p x s1 hp hc.1 h1).left ?_).append (ih hc.2 h2)
    rw [noBlanks_append]
    split <;> simp [noBlanks]

theorem shown_act (hw : Wraps w) {c : Bool} {p : Params} {a : Act Amendment} {s : Str} (hp : p.colored = c)
    (hc : Clean c (actShown a)) (h : act w (amendment w) p a = .ok s) : Shown c s (actShown a) := by
  simp only [act, Res.bind_eq_ok, Res.ok.injEq] at h
  obtain ⟨i, h0, r, h1, s', h2, rfl⟩ := h
  simp only [actShown, h0, clean_append] at hc ⊢
  obtain ⟨⟨⟨c0, c1⟩, c2⟩, c3⟩ := hc
  have e0 : Shown c (p.header (p.colorize i bold ++ str!" " ++ a.subject)) (i ++ a.subject) := by
    subst hp
    refine shown_header ?_
    refine ((Shown.colorize c0 isCode_bold).append (Shown.self c1)).left ?_
    simp only [noBlanks_append]
    rw [show noBlanks str!" " = [] by decide, List.append_nil]
  have e1 := (shown_wrapped hw h1 (Shown.self c2)).1
  have e2 := shown_actChildren hw (shown_amendment hw) (p := p.nextLine) hp c3 h2
  refine ((e0.append e1).append e2).left ?_
  simp only [noBlanks_append]
  rw [show noBlanks ['\n', '\n'] = [] by decide, show noBlanks ['\n'] = [] by decide, List.append_nil, List.append_nil]

/-! ### no failure -/

/-- There is room for so many more levels. -/
def Room (k : Nat) (p : Params) : Prop := (p.level + k) * 5 ≤ p.width

theorem Room.same {k : Nat} {p q : Params} (h : Room k p) (hs : Same p q) : Room k q := by
  unfold Room at *
  rw [hs.1, hs.2.1]
  exact h

theorem Room.mono {k m : Nat} {p : Params} (h : Room k p) (hk : m ≤ k) : Room m p := by
  unfold Room at *
  omega

theorem Room.indented {k : Nat} {p : Params} (h : Room (k + 1) p) : Room k p.indented := by
  unfold Room Params.indented at *
  dsimp only
  omega

theorem Same.trans {p q r : Params} (h1 : Same p q) (h2 : Same q r) : Same p r :=
  ⟨h2.1.trans h1.1, h2.2.1.trans h1.2.1, h2.2.2.trans h1.2.2⟩

theorem lines_same (p : Params) (ls : List Str) : Same p (p.lines ls).2 := by
  induction ls generalizing p with
  | nil => exact Same.refl p
  | cons l ls ih => exact ih p.nextLine

theorem wrapped_total {p : Params} (h : Room 0 p) (t : Str) : ∃ r, p.wrapped w t = .ok r ∧ Same p r.2 := by
  unfold Room at h
  refine ⟨_, ?_, lines_same p (w t (p.width - p.level * 5))⟩
  rw [Params.wrapped, if_neg (by omega)]

theorem wrappedOpt_total {p : Params} (h : Room 0 p) (t : Option Str) :
    ∃ r, p.wrappedOpt w t = .ok r ∧ Same p r.2 := by
  cases t with
  | none => exact ⟨_, rfl, Same.refl p⟩
  | some t => exact wrapped_total h t

theorem list_total {X : Type} {f : Params → X → Res Str} {k : Nat} {l : List X}
    (hf : ∀ p, Room k p → ∀ x ∈ l, ∃ s, f p x = .ok s) {p : Params} (hp : Room k p) :
    ∃ s, list f p l = .ok s := by
  induction l generalizing p with
  | nil => exact ⟨_, rfl⟩
  | cons x l ih =>
    obtain ⟨s, hs⟩ := hf p hp x (by simp)
    obtain ⟨t, ht⟩ := ih (fun p hp y hy => hf p hp y (by simp [hy])) (p := p.nextLine) (hp.same (same_nextLine p))
    exact ⟨s ++ t, by simp [list, hs, ht]⟩

theorem colorizeSae_total {text : Str} {i : SemanticInfo} (h : RangesInOrder text 0 (ranges i.outgoingReferences))
    (p : Params) : ∃ t, colorizeSae text p i = .ok t := by
  obtain ⟨l, hl⟩ := splitFrom_inOrder (text := text) (n := 0) ⟨[], text, rfl, rfl⟩ h
  exact ⟨_, by simp only [colorizeSae, splitAtReferences, hl, Res.bind_ok]; rfl⟩

theorem sae_total {I C : Type} {children : Params → C → Res Str} {P : C → Prop} {k : Nat}
    (hf : ∀ p, Room k p → ∀ x, P x → ∃ s, children p x = .ok s) {p : Params} {head : Str} {e : SAE I C}
    (hp : Room (k + 1) p) (h : ReferencesFit e P) : ∃ s, sae w head children p e = .ok s := by
  have hq : Room k p.sameLine.indented := Room.indented (p := p.sameLine) hp
  have : ∃ s, body w children p.sameLine.indented e.semanticInfo e.body = .ok s := by
    generalize p.sameLine.indented = q at hq
    unfold ReferencesFit at h
    cases hb : e.body with
    | text t =>
      rw [hb] at h
      obtain ⟨t', h1⟩ := colorizeSae_total h q
      obtain ⟨r, h2, -⟩ := wrapped_total (w := w) (hq.mono (Nat.zero_le _)) t'
      exact ⟨r.1, by simp [body, h1, h2]⟩
    | children intro x wu =>
      rw [hb] at h
      obtain ⟨t', h1⟩ := colorizeSae_total h.1 q
      obtain ⟨r, h2, h3⟩ := wrapped_total (w := w) (hq.mono (Nat.zero_le _)) t'
      obtain ⟨s, h4⟩ := hf r.2 (hq.same h3) x h.2
      obtain ⟨r2, h5, -⟩ := wrappedOpt_total (w := w) ((hq.same h3).mono (Nat.zero_le _)) wu
      exact ⟨_, by simp only [body, h1, h2, h4, h5, Res.bind_ok]; rfl⟩
  obtain ⟨s, hs⟩ := this
  exact ⟨_, by simp only [sae, hs, Res.bind_ok]; rfl⟩

theorem alphabeticSubpoint_total {p : Params} (hp : Room 1 p) {e : AlphabeticSubpoint} (h : AlphabeticSubpointFits e) :
    ∃ s, alphabeticSubpoint w p e = .ok s := sae_total (fun _ _ x => nomatch x) hp h

theorem numericSubpoint_total {p : Params} (hp : Room 1 p) {e : NumericSubpoint} (h : NumericSubpointFits e) :
    ∃ s, numericSubpoint w p e = .ok s := sae_total (fun _ _ x => nomatch x) hp h

theorem alphabeticPoint_total {p : Params} (hp : Room 2 p) {e : AlphabeticPoint} (h : AlphabeticPointFits e) :
    ∃ s, alphabeticPoint w p e = .ok s := by
  refine sae_total (fun p hp x hx => ?_) hp h
  cases x with
  | alphabeticSubpoint l => exact list_total (fun p hp x h => alphabeticSubpoint_total hp (hx x h)) hp
  | numericSubpoint l => exact list_total (fun p hp x h => numericSubpoint_total hp (hx x h)) hp

theorem numericPoint_total {p : Params} (hp : Room 2 p) {e : NumericPoint} (h : NumericPointFits e) :
    ∃ s, numericPoint w p e = .ok s := by
  refine sae_total (fun p hp x hx => ?_) hp h
  cases x with
  | alphabeticSubpoint l => exact list_total (fun p hp x h => alphabeticSubpoint_total hp (hx x h)) hp

theorem quotedBlock_total {p : Params} (hp : Room 0 p) (q : QuotedBlock) : ∃ s, quotedBlock w p q = .ok s := by
  obtain ⟨r0, h0, s0⟩ := wrappedOpt_total (w := w) hp q.intro
  obtain ⟨r1, h1, s1⟩ := wrapped_total (w := w) (hp.same s0) str!"„"
  have s2 := quotedLines_same (minIndent q.lines) r1.2 q.lines
  obtain ⟨r2, h2, s3⟩ := wrapped_total (w := w) (hp.same ((s0.trans s1).trans s2)) str!"”"
  obtain ⟨r3, h3, -⟩ := wrappedOpt_total (w := w) (hp.same (((s0.trans s1).trans s2).trans s3)) q.wrapUp
  exact ⟨_, by simp only [quotedBlock, h0, h1, h2, h3, Res.bind_ok]; rfl⟩

theorem paragraph_total {A : Type} {f : Params → A → Res Str} {P : A → Prop} {k : Nat} (hk : 2 ≤ k)
    (hf : ∀ p, Room k p → ∀ x, P x → ∃ s, f p x = .ok s) {p : Params} (hp : Room (k + 1) p) {e : Paragraph A}
    (h : ParagraphFits P e) : ∃ s, paragraph w f p e = .ok s := by
  refine sae_total (fun p hp x hx => ?_) hp h
  cases x with
  | alphabeticPoint l => exact list_total (fun p hp x h => alphabeticPoint_total hp (hx x h)) (hp.mono hk)
  | numericPoint l => exact list_total (fun p hp x h => numericPoint_total hp (hx x h)) (hp.mono hk)
  | quotedBlock l => exact list_total (fun p hp x _ => quotedBlock_total hp x) (hp.mono (Nat.zero_le _))
  | amendment a => exact hf p hp a hx

theorem actChild_total {A : Type} {f : Params → A → Res Str} {P : A → Prop} {k : Nat} (hk : 2 ≤ k)
    (hf : ∀ p, Room k p → ∀ x, P x → ∃ s, f p x = .ok s) {p : Params} (hp : Room (k + 3) p) {e : ActChild A}
    (h : ActChildFits P e) : ∃ s, actChild w f p e = .ok s := by
  have h0 : Room 0 p := hp.mono (Nat.zero_le _)
  cases e with
  | structuralElement e =>
    obtain ⟨hd, h1⟩ := Option.ne_none_iff_exists'.1 h
    obtain ⟨r, h2, s2⟩ := wrapped_total (w := w) h0 (p.colorize hd italic)
    obtain ⟨r2, h3, -⟩ := wrappedOpt_total (w := w) (h0.same s2) ((nonEmpty e.title).map fun t => p.colorize t italic)
    exact ⟨_, by simp only [actChild, structuralElement, h1, Res.ofOption, h2, h3, Res.bind_ok]; rfl⟩
  | subtitle t =>
    obtain ⟨r, h2, s2⟩ := wrapped_total (w := w) h0 (p.colorize (subtitleText t) bold)
    exact ⟨_, by simp only [actChild, subtitle, h2, Res.bind_ok]; rfl⟩
  | article a =>
    have hq : Room (k + 1) p.sameLine.indented.indented :=
      Room.indented (p := p.sameLine.indented) (Room.indented (p := p.sameLine) hp)
    obtain ⟨r, h2, s2⟩ := wrappedOpt_total (w := w) (hq.mono (Nat.zero_le _)) (articleTitle a.title)
    obtain ⟨s, h3⟩ := list_total (l := a.children) (f := paragraph w f) (k := k + 1)
      (fun p hp x hx => paragraph_total hk hf hp (h x hx)) (hq.same s2)
    exact ⟨_, by simp only [actChild, article, h2, h3, Res.bind_ok]; rfl⟩

theorem quoted_total {C : Type} {f : Params → C → Res Str} {k : Nat} {x : C}
    (hf : ∀ p, Room k p → ∃ s, f p x = .ok s) {p : Params} (hp : Room (k + 1) p) (i wu : Option Str) :
    ∃ s, quoted w f p i x wu = .ok s := by
  have h0 : Room 0 p := hp.mono (Nat.zero_le _)
  obtain ⟨r0, h1, s0⟩ := wrappedOpt_total (w := w) h0 (bracketed p i)
  obtain ⟨r1, h2, s1⟩ := wrapped_total (w := w) (h0.same s0) str!"„"
  obtain ⟨s, h3⟩ := hf r1.2.indented (Room.indented (hp.same (s0.trans s1)))
  obtain ⟨r2, h4, s2⟩ := wrapped_total (w := w) (h0.same (s0.trans s1)) str!"”"
  obtain ⟨r3, h5, -⟩ := wrappedOpt_total (w := w) (h0.same ((s0.trans s1).trans s2)) (bracketed p wu)
  exact ⟨_, by simp only [quoted, h1, h2, h3, h4, h5, Res.bind_ok]; rfl⟩

theorem amendment_total {p : Params} (hp : Room 6 p) {a : Amendment} (h : AmendmentFits a) :
    ∃ s, amendment w p a = .ok s := by
  cases a with
  | structural i l wu =>
    refine quoted_total (k := 5) (fun p hp => ?_) hp i wu
    exact list_total (fun p hp x hx => actChild_total (k := 2) (P := NoAmendmentFits) (Nat.le_refl _)
      (fun _ _ x => nomatch x) hp (h x hx)) hp
  | block i c wu =>
    refine quoted_total (k := 5) (fun p hp => ?_) hp i wu
    cases c with
    | paragraph l =>
      exact list_total (k := 3) (fun p hp x hx => paragraph_total (k := 2) (P := NoAmendmentFits) (Nat.le_refl _)
        (fun _ _ x => nomatch x) hp (h x hx)) (hp.mono (by omega))
    | alphabeticPoint l => exact list_total (fun p hp x hx => alphabeticPoint_total hp (h x hx)) (hp.mono (by omega))
    | numericPoint l => exact list_total (fun p hp x hx => numericPoint_total hp (h x hx)) (hp.mono (by omega))
    | alphabeticSubpoint l =>
      exact list_total (fun p hp x hx => alphabeticSubpoint_total hp (h x hx)) (hp.mono (by omega))
    | numericSubpoint l => exact list_total (fun p hp x hx => numericSubpoint_total hp (h x hx)) (hp.mono (by omega))

theorem actChildren_total {p : Params} (hp : Room 9 p) {b : Bool} {l : List (ActChild Amendment)}
    (h : ∀ c ∈ l, ActChildFits AmendmentFits c) : ∃ s, actChildren w (amendment w) p b l = .ok s := by
  induction l generalizing b with
  | nil => exact ⟨_, rfl⟩
  | cons c l ih =>
    obtain ⟨s, hs⟩ := actChild_total (w := w) (f := amendment w) (k := 6) (P := AmendmentFits) (by omega) (fun p hp x hx => amendment_total hp hx) hp
      (h c (by simp))
    obtain ⟨t, ht⟩ := ih (b := isArticle c) fun c hc => h c (by simp [hc])
    exact ⟨_, by simp only [actChildren, hs, ht, Res.bind_ok]; rfl⟩

theorem act_total {p : Params} (hp : Room 9 p) {a : Act Amendment} {id : Str} (hid : a.identifier.display = .ok id)
    (h : ∀ c ∈ a.children, ActChildFits AmendmentFits c) : ∃ s, act w (amendment w) p a = .ok s := by
  obtain ⟨r, h1, -⟩ := wrapped_total (w := w) ((hp.same (same_nextLine p)).mono (Nat.zero_le _)) a.preamble
  obtain ⟨s, h2⟩ := actChildren_total (w := w) (b := true) (hp.same (same_nextLine p)) h
  exact ⟨_, by simp only [act, hid, h1, h2, Res.bind_ok]; rfl⟩

end

end HunLaw.Output
