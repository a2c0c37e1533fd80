import Verif.Lemmas.Output
import Verif.Lemmas.Identifiers
import Verif.Lemmas.MkAct

/-!
Lemmas for the lines of the text output: their indentation and their width.
-/

set_option autoImplicit false

namespace HunLaw.Output

open HunLaw HunLaw.Spec

/-- The output consists of lines, each with a line break after it; the first one and the rest are as given. -/
def Layout (First Rest : Str → Prop) (out : Str) : Prop :=
  ∃ (l : Str) (ls : List Str), out = l ++ ['\n'] ++ ls.flatMap (· ++ ['\n']) ∧ '\n' ∉ l ∧ (∀ x ∈ ls, '\n' ∉ x) ∧ First l ∧ ∀ x ∈ ls, Rest x

theorem Layout.mono {F F' R R' : Str → Prop} {out : Str} (h : Layout F R out) (hF : ∀ l, F l → F' l)
    (hR : ∀ l, R l → R' l) : Layout F' R' out := by
  obtain ⟨l, ls, h1, h2, h3, h4, h5⟩ := h
  exact ⟨l, ls, h1, h2, h3, hF l h4, fun x hx => hR x (h5 x hx)⟩

theorem Layout.append {F R : Str → Prop} {a b : Str} (h1 : Layout F R a) (h2 : Layout R R b) :
    Layout F R (a ++ b) := by
  obtain ⟨l, ls, rfl, a1, a2, a3, a4⟩ := h1
  obtain ⟨m, ms, rfl, b1, b2, b3, b4⟩ := h2
  refine ⟨l, ls ++ m :: ms, by simp, a1, ?_, a3, ?_⟩
  · intro x hx
    rcases List.mem_append.1 hx with hx | hx
    · exact a2 x hx
    · rcases List.mem_cons.1 hx with rfl | hx
      · exact b1
      · exact b2 x hx
  · intro x hx
    rcases List.mem_append.1 hx with hx | hx
    · exact a4 x hx
    · rcases List.mem_cons.1 hx with rfl | hx
      · exact b3
      · exact b4 x hx

theorem Layout.prepend {F F' R : Str → Prop} {h out : Str} (hb : '\n' ∉ h) (hl : Layout F R out)
    (hF : ∀ l, F l → F' (h ++ l)) : Layout F' R (h ++ out) := by
  obtain ⟨l, ls, rfl, a1, a2, a3, a4⟩ := hl
  refine ⟨h ++ l, ls, by simp, ?_, a2, hF l a3, a4⟩
  simp only [List.mem_append, not_or]
  exact ⟨hb, a1⟩

/-- A line at the level of the parameters; `fits` tells whether the width matters. -/
def LineOk (fits : Prop) (p : Params) (l : Str) : Prop := Indented (5 * p.level) l ∧ (fits → l.length ≤ p.width)

/-- The first line at the level of the parameters, the beginning of which may have been written already. -/
def FirstOk (fits : Prop) (p : Params) (l : Str) : Prop :=
  if p.indentNext then LineOk fits p l else fits → l.length + 5 * p.level ≤ p.width

/-- The output is laid out for the parameters. -/
def Laid (fits : Prop) (p : Params) (out : Str) : Prop := Layout (FirstOk fits p) (LineOk fits p) out

variable {w : Wrapper} {fits : Prop}

theorem Laid.next {p : Params} {a b : Str} (h1 : Laid fits p a) (h2 : Laid fits p.nextLine b) :
    Laid fits p (a ++ b) := Layout.append h1 (h2.mono (fun _ h => h) fun _ h => h)

theorem lineOk_level {p q : Params} {l : Str} (hw : q.width = p.width) (hl : q.level ≤ p.level) (h : LineOk fits p l) :
    LineOk fits q l := by
  refine ⟨?_, fun hf => hw ▸ h.2 hf⟩
  rcases h.1 with h | h
  · exact .inl h
  · right
    refine List.IsPrefix.trans ?_ h
    have : 5 * p.level = 5 * q.level + (5 * p.level - 5 * q.level) := by omega
    rw [this, ← List.replicate_append_replicate]
    exact List.prefix_append _ _

theorem Laid.deeper {p : Params} {out : Str} (h : Laid fits p.indented out) (hp : p.indentNext = true) :
    Laid fits p out := by
  refine h.mono (fun l hl => ?_) fun l hl => lineOk_level (p := p.indented) rfl (by simp [Params.indented]) hl
  unfold FirstOk at hl ⊢
  rw [if_pos hp]
  rw [show p.indented.indentNext = true from hp, if_pos rfl] at hl
  exact lineOk_level (p := p.indented) rfl (by simp [Params.indented]) hl

theorem indented_indentation (p : Params) (hp : p.indentNext = true) (l : Str) :
    Indented (5 * p.level) (p.indentation ++ l) := by
  right
  rw [Params.indentation, if_pos hp, Nat.mul_comm]
  exact List.prefix_append _ _

theorem indentation_length (p : Params) : p.indentation.length = if p.indentNext then 5 * p.level else 0 := by
  unfold Params.indentation
  split <;> simp [Nat.mul_comm]

theorem indentation_noBreak (p : Params) : '\n' ∉ p.indentation := by
  unfold Params.indentation
  split
  · intro h
    exact absurd (List.eq_of_mem_replicate h) (by decide)
  · simp

/-- A line which is written with its indentation. -/
theorem firstOk_indentation {p : Params} {l : Str} (h : fits → l.length + 5 * p.level ≤ p.width) :
    FirstOk fits p (p.indentation ++ l) := by
  unfold FirstOk
  split
  · rename_i hp
    refine ⟨indented_indentation p hp l, fun hf => ?_⟩
    have := h hf
    rw [List.length_append, indentation_length, if_pos hp]
    omega
  · rename_i hp
    intro hf
    rw [List.length_append, indentation_length, if_neg hp]
    have := h hf
    omega

theorem laid_lines {p : Params} {ls : List Str} (hne : ls ≠ []) (hb : ∀ l ∈ ls, '\n' ∉ l)
    (hl : ∀ l ∈ ls, fits → l.length + 5 * p.level ≤ p.width) : Laid fits p (p.lines ls).1 := by
  induction ls generalizing p with
  | nil => exact absurd rfl hne
  | cons l ls ih =>
    have h1 : Laid fits p (p.indentation ++ l ++ ['\n']) := by
      refine ⟨p.indentation ++ l, [], by simp, ?_, by simp, firstOk_indentation (hl l (by simp)), by simp⟩
      simp only [List.mem_append, not_or]
      exact ⟨indentation_noBreak p, hb l (by simp)⟩
    cases ls with
    | nil => simpa [Params.lines] using h1
    | cons m ms =>
      simp only [Params.lines] at ih ⊢
      exact h1.next (ih (p := p.nextLine) (by simp) (fun l hl => hb l (by simp [hl])) (fun x hx => hl x (by simp [hx])))

/-- There is room for so many more levels and a character. -/
def Wide (k : Nat) (p : Params) : Prop := (p.level + k) * 5 < p.width

theorem Wide.same {k : Nat} {p q : Params} (h : Wide k p) (hs : Same p q) : Wide k q := by
  unfold Wide at *
  rw [hs.1, hs.2.1]
  exact h

theorem Wide.mono {k m : Nat} {p : Params} (h : Wide k p) (hk : m ≤ k) : Wide m p := by
  unfold Wide at *
  omega

theorem Wide.indented {k : Nat} {p : Params} (h : Wide (k + 1) p) : Wide k p.indented := by
  unfold Wide Params.indented at *
  dsimp only
  omega

/-- What is needed for the width of what is written with the parameters. -/
def Fitting (fits : Prop) (k : Nat) (p : Params) (text : Str) : Prop :=
  fits → p.colored = false ∧ Wide k p ∧ '\x1B' ∉ text

theorem laid_wrapped (hw : Wraps w) {p : Params} {t : Str} {r : Str × Params} (h : p.wrapped w t = .ok r)
    (hf : fits → Wide 0 p ∧ '\x1B' ∉ t) : Laid fits p r.1 ∧ r.2 = p.nextLine := by
  obtain ⟨h1, rfl⟩ := wrapped_ok hw h
  refine ⟨laid_lines (wrapsTo_ne_nil (hw.pieces _ _)) (hw.noBreak _ _) fun l hl hfit => ?_, rfl⟩
  have h2 := hw.short _ _ (hf hfit).2 l hl
  have h3 := (hf hfit).1
  unfold Wide at h3
  omega

/-- Nothing or some lines. -/
def LaidOpt (fits : Prop) (p : Params) (r : Str × Params) : Prop :=
  (r.1 = [] ∧ r.2 = p) ∨ (Laid fits p r.1 ∧ r.2 = p.nextLine)

theorem laid_wrappedOpt (hw : Wraps w) {p : Params} {t : Option Str} {r : Str × Params}
    (h : p.wrappedOpt w t = .ok r) (hf : fits → Wide 0 p ∧ ∀ x ∈ t, '\x1B' ∉ x) : LaidOpt fits p r := by
  cases t with
  | none =>
    simp only [Params.wrappedOpt, Res.ok.injEq] at h
    subst h
    exact .inl ⟨rfl, rfl⟩
  | some t => exact .inr (laid_wrapped hw h fun hfit => ⟨(hf hfit).1, (hf hfit).2 t rfl⟩)

theorem LaidOpt.same {p : Params} {r : Str × Params} (h : LaidOpt fits p r) : Same p r.2 := by
  rcases h with ⟨-, h⟩ | ⟨-, h⟩ <;> rw [h]
  · exact Same.refl p
  · exact same_nextLine p

/-- Optional lines and then others. -/
theorem LaidOpt.then {p : Params} {r : Str × Params} {b : Str} (h : LaidOpt fits p r) (hb : Laid fits r.2 b) :
    Laid fits p (r.1 ++ b) := by
  rcases h with ⟨h1, h2⟩ | ⟨h1, h2⟩
  · rw [h1, List.nil_append]
    rw [h2] at hb
    exact hb
  · rw [h2] at hb
    exact h1.next hb

/-- Lines and then optional others. -/
theorem Laid.thenOpt {p : Params} {r : Str × Params} {a : Str} (h : Laid fits p a) (hb : LaidOpt fits p.nextLine r) :
    Laid fits p (a ++ r.1) := by
  rcases hb with ⟨h1, -⟩ | ⟨h1, -⟩
  · rw [h1, List.append_nil]
    exact h
  · exact h.next h1

/-- Lists have no line or are laid out. -/
theorem laid_list {X : Type} {f : Params → X → Res Str} {p : Params} {l : List X} {s : Str}
    (hf : ∀ q, Same p q → ∀ x ∈ l, ∀ s, f q x = .ok s → Laid fits q s) (h : list f p l = .ok s) :
    (l = [] ∧ s = []) ∨ (l ≠ [] ∧ Laid fits p s) := by
  induction l generalizing p s with
  | nil =>
    simp only [list, Res.ok.injEq] at h
    exact .inl ⟨rfl, h.symm⟩
  | cons x l ih =>
    simp only [list, Res.bind_eq_ok, Res.ok.injEq] at h
    obtain ⟨a, h1, b, h2, rfl⟩ := h
    have e1 := hf p (Same.refl p) x (by simp) a h1
    refine .inr ⟨by simp, ?_⟩
    rcases ih (p := p.nextLine) (fun q hq y hy => hf q hq y (by simp [hy])) h2 with ⟨-, rfl⟩ | ⟨-, h3⟩
    · rw [List.append_nil]
      exact e1
    · exact e1.next h3

/-- Lists after something else. -/
theorem Laid.thenList {p : Params} {X : Type} {l : List X} {a s : Str} (h : Laid fits p a)
    (hs : (l = [] ∧ s = []) ∨ (l ≠ [] ∧ Laid fits p.nextLine s)) : Laid fits p (a ++ s) := by
  rcases hs with ⟨-, rfl⟩ | ⟨-, hs⟩
  · rw [List.append_nil]
    exact h
  · exact h.next hs

/-- The children are nothing or laid out. -/
def LaidChildren (fits : Prop) (p : Params) (s : Str) : Prop := s = [] ∨ Laid fits p s

theorem laidChildren_list {X : Type} {f : Params → X → Res Str} {p : Params} {l : List X} {s : Str}
    (hf : ∀ q, Same p q → ∀ x ∈ l, ∀ s, f q x = .ok s → Laid fits q s) (h : list f p l = .ok s) :
    LaidChildren fits p s := by
  rcases laid_list hf h with h | h
  · exact .inl h.2
  · exact .inr h.2

theorem plain_colorizeSae {p : Params} {text t : Str} {i : SemanticInfo} (hp : p.colored = false)
    (h : colorizeSae text p i = .ok t) : t = text := by
  simp only [colorizeSae, Res.bind_eq_ok, Res.ok.injEq] at h
  obtain ⟨pieces, h1, rfl⟩ := h
  obtain ⟨⟨a, h2, h3⟩, -⟩ := splitFrom_ok h1
  have ha : a = [] := by
    have := cut_unique (a := []) (b := text) (c := a) (d := pieces.flatMap (·.1)) (by simpa using h2)
      (by simpa [byteLen] using h3.symm)
    exact this.1.symm
  subst ha
  rw [h2]
  simp [Params.colorize, hp]

theorem laid_body (hw : Wraps w) {C : Type} {children : Params → C → Res Str} {g : C → Str} {P : C → Prop}
    {k : Nat} {p : Params} {i : SemanticInfo} {b : SAEBody C} {s : Str}
    (hf : ∀ q, Same p q → ∀ x s, P x → Fitting fits k q (g x) → children q x = .ok s → LaidChildren fits q s)
    (hP : match b with | .text _ => True | .children _ c _ => P c) (hc : Fitting fits k p (bodyShown g b))
    (h : body w children p i b = .ok s) : Laid fits p s := by
  cases b with
  | text t =>
    simp only [body, Res.bind_eq_ok, Res.ok.injEq] at h
    obtain ⟨t', h1, r, h2, rfl⟩ := h
    refine (laid_wrapped hw h2 fun hfit => ?_).1
    have := hc hfit
    rw [plain_colorizeSae this.1 h1]
    exact ⟨this.2.1.mono (Nat.zero_le _), this.2.2⟩
  | children intro x wrapUp =>
    simp only [body, Res.bind_eq_ok, Res.ok.injEq] at h
    obtain ⟨t', h1, r, h2, s', h3, r2, h4, rfl⟩ := h
    have hcc : ∀ hfit : fits, '\x1B' ∉ intro ∧ '\x1B' ∉ g x ∧ '\x1B' ∉ wrapUp.getD [] := by
      intro hfit
      have := (hc hfit).2.2
      simp only [bodyShown, List.mem_append, not_or] at this
      exact ⟨this.1.1, this.1.2, this.2⟩
    obtain ⟨h5, h6⟩ := laid_wrapped (fits := fits) hw h2 fun hfit => by
      rw [plain_colorizeSae (hc hfit).1 h1]
      exact ⟨(hc hfit).2.1.mono (Nat.zero_le _), (hcc hfit).1⟩
    rw [h6] at h3 h4
    have h7 := hf p.nextLine (same_nextLine p) x s' hP
      (fun hfit => ⟨(hc hfit).1, (hc hfit).2.1.same (same_nextLine p), (hcc hfit).2.1⟩) h3
    have h8 : LaidOpt fits p.nextLine r2 := laid_wrappedOpt hw h4 fun hfit => by
      refine ⟨((hc hfit).2.1.same (same_nextLine p)).mono (Nat.zero_le _), ?_⟩
      intro x hx
      rw [Option.mem_def] at hx
      have := (hcc hfit).2.2
      rw [hx] at this
      exact this
    refine Laid.thenOpt ?_ h8
    rcases h7 with rfl | h7
    · rw [List.append_nil]
      exact h5
    · exact h5.next h7

theorem pad_noBreak {n : Nat} {s : Str} (h : '\n' ∉ s) : '\n' ∉ pad n s := by
  unfold pad
  simp only [List.mem_append, not_or]
  exact ⟨h, fun hm => absurd (List.eq_of_mem_replicate hm) (by decide)⟩

theorem pad_length {n : Nat} {s : Str} (h : s.length ≤ n) : (pad n s).length = n := by
  unfold pad
  rw [List.length_append, List.length_replicate]
  omega

/-- The first line of an element: its header is before the text. -/
def HeadedBy (p : Params) (head l : Str) : Prop := p.indentation ++ head <+: l

/-- An element with a header: the first line begins with it, the rest is deeper. -/
def Headed (fits : Prop) (k : Nat) (p : Params) (head out : Str) : Prop :=
  Layout (fun l => FirstOk fits p l ∧ HeadedBy p head l)
    (LineOk fits { p with level := p.level + k }) out

theorem Headed.laid {k : Nat} {p : Params} {head out : Str} (h : Headed fits k p head out) : Laid fits p out :=
  h.mono (fun _ h => h.1) fun _ h => lineOk_level (p := { p with level := p.level + k }) rfl (by simp) h

theorem headed_of {k : Nat} {p q : Params} {full head out : Str} (hq : q = { p.sameLine with level := p.level + k })
    (hb : '\n' ∉ full) (hpre : head <+: full) (hl : fits → full.length ≤ 5 * k) (h : Laid fits q out) :
    Headed fits k p head (p.header full ++ out) := by
  subst hq
  unfold Headed
  refine Layout.prepend (F := FirstOk fits { p.sameLine with level := p.level + k }) ?_ h fun l hF => ?_
  · rw [Params.header, List.mem_append, not_or]
    exact ⟨indentation_noBreak p, hb⟩
  · refine ⟨?_, ?_⟩
    · rw [Params.header, List.append_assoc]
      refine firstOk_indentation fun hfit => ?_
      have h1 : l.length + 5 * (p.level + k) ≤ p.width := by
        simpa [FirstOk, Params.sameLine] using hF hfit
      have := hl hfit
      rw [List.length_append]
      omega
    · obtain ⟨t, ht⟩ := hpre
      exact ⟨t ++ l, by rw [Params.header, ← ht]; simp⟩

theorem headed_sae (hw : Wraps w) {I C : Type} {children : Params → C → Res Str} {g : C → Str} {P : C → Prop}
    {k : Nat} {p : Params} {head : Str} {e : SAE I C} {s : Str} {H : Nat → Str → Prop}
    (hf : ∀ q, q.colored = p.colored → ∀ x s, P x → Fitting fits k q (g x) → children q x = .ok s → LaidChildren fits q s)
    (hH : ∀ s, fits → H 5 s → s.length ≤ 5) (hb : '\n' ∉ head) (hP : SaeAll H head P e)
    (hc : Fitting fits (k + 1) p (head ++ bodyShown g e.body)) (h : sae w head children p e = .ok s) :
    Headed fits 1 p head s := by
  simp only [sae, Res.bind_eq_ok, Res.ok.injEq] at h
  obtain ⟨s', h1, rfl⟩ := h
  have hl : Laid fits p.sameLine.indented s' := by
    refine laid_body hw (g := g) (P := P) (k := k) (fun q hq => hf q hq.2.2) ?_ ?_ h1
    · exact hP.2
    · intro hfit
      obtain ⟨c1, c2, c3⟩ := hc hfit
      simp only [List.mem_append, not_or] at c3
      exact ⟨c1, Wide.indented (p := p.sameLine) c2, c3.2⟩
  refine headed_of (q := p.sameLine.indented) rfl (pad_noBreak hb) (List.prefix_append _ _) (fun hfit => ?_) hl
  rw [pad_length (hH _ hfit hP.1)]

/-! ### identifiers -/

theorem letters_noBreak {c : Char} (h : 97 ≤ c.toNat ∧ c.toNat ≤ 122) : c ≠ '\n' := by
  rintro rfl
  revert h
  decide

theorem numeric_noBreak (i : NumericId) (t : Str) (ht : '\n' ∉ t) : '\n' ∉ i.display ++ t := by
  rw [List.mem_append, not_or]
  exact ⟨i.not_mem_display (by decide) (by decide), ht⟩

theorem prefixed_noBreak (i : PrefixedId) (t : Str) (ht : '\n' ∉ t) : '\n' ∉ i.display ++ t := by
  rw [List.mem_append, not_or]
  exact ⟨fun h => letters_noBreak (i.display_chars _ h) rfl, ht⟩

theorem letter_noBreak (i : HunChar) (t : Str) (ht : '\n' ∉ t) : '\n' ∉ i.display ++ t := by
  rw [List.mem_append, not_or]
  exact ⟨fun h => letters_noBreak (HunChar.display_mem h) rfl, ht⟩

theorem paragraphNumber_noBreak (i : ParagraphId) : '\n' ∉ paragraphNumber i := by
  rcases i with ⟨_ | n⟩
  · simp [paragraphNumber]
  · have := numeric_noBreak n str!")" (by decide)
    simp only [paragraphNumber, List.append_assoc, List.mem_append, List.mem_cons, List.not_mem_nil, or_false, not_or]
      at this ⊢
    exact ⟨by decide, this⟩

theorem slash_noBreak (i : NumericId) : '\n' ∉ i.displaySlash := by
  intro h
  rcases i.displaySlash_chars _ h with h | h | h
  · revert h; decide
  · revert h; decide
  · revert h; decide

theorem article_noBreak (i : ArticleId) : '\n' ∉ i.display ++ str!". §" := by
  rw [List.mem_append, not_or]
  refine ⟨?_, by decide⟩
  rcases i with ⟨_ | b, n⟩
  · exact slash_noBreak n
  · simp only [ArticleId.display, List.mem_append, List.mem_cons, not_or]
    exact ⟨⟨not_mem_dec (by decide), by decide, by simp⟩, slash_noBreak n⟩

/-! ### elements -/

theorem Fitting.left {k : Nat} {p : Params} {a b : Str} (h : Fitting fits k p (a ++ b)) : Fitting fits k p a := by
  intro hf
  have := h hf
  simp only [List.mem_append, not_or] at this
  exact ⟨this.1, this.2.1, this.2.2.1⟩

theorem Fitting.right {k : Nat} {p : Params} {a b : Str} (h : Fitting fits k p (a ++ b)) : Fitting fits k p b := by
  intro hf
  have := h hf
  simp only [List.mem_append, not_or] at this
  exact ⟨this.1, this.2.1, this.2.2.2⟩

theorem Fitting.same {k : Nat} {p q : Params} {a : Str} (h : Fitting fits k p a) (hs : Same p q) :
    Fitting fits k q a := by
  intro hf
  exact ⟨hs.2.2.trans (h hf).1, (h hf).2.1.same hs, (h hf).2.2⟩

theorem Fitting.mem {X : Type} {k : Nat} {p : Params} {g : X → Str} {l : List X} (h : Fitting fits k p (l.flatMap g))
    {x : X} (hx : x ∈ l) : Fitting fits k p (g x) := by
  intro hf
  refine ⟨(h hf).1, (h hf).2.1, fun hm => (h hf).2.2 (List.mem_flatMap.2 ⟨x, hx, hm⟩)⟩

theorem Fitting.mono {k m : Nat} {p : Params} {a : Str} (h : Fitting fits k p a) (hk : m ≤ k) : Fitting fits m p a :=
  fun hf => ⟨(h hf).1, (h hf).2.1.mono hk, (h hf).2.2⟩

theorem Fitting.indented {k : Nat} {p : Params} {a : Str} (h : Fitting fits (k + 1) p a) :
    Fitting fits k p.indented a := fun hf => ⟨(h hf).1, (h hf).2.1.indented, (h hf).2.2⟩

/-- Lists of elements that are laid out. -/
theorem laidChildren_map {X : Type} {f : Params → X → Res Str} {g : X → Str} {P : X → Prop} {k : Nat} {p : Params}
    {l : List X} {s : Str} (hf : ∀ q x s, P x → Fitting fits k q (g x) → f q x = .ok s → Laid fits q s)
    (hP : ∀ x ∈ l, P x) (hc : Fitting fits k p (l.flatMap g)) (h : list f p l = .ok s) : LaidChildren fits p s :=
  laidChildren_list (fun q hq x hx s => hf q x s (hP x hx) ((hc.mem hx).same hq)) h

variable {H : Nat → Str → Prop} {Q : QuotedBlock → Prop} (hH : ∀ n s, fits → H n s → s.length ≤ n)

include hH

theorem headed_alphabeticSubpoint (hw : Wraps w) (p : Params) (e : AlphabeticSubpoint) (s : Str)
    (hP : AlphabeticSubpointAll H e) (hc : Fitting fits 1 p (alphabeticSubpointShown e))
    (h : alphabeticSubpoint w p e = .ok s) : Headed fits 1 p (e.identifier.display ++ str!")") s :=
  headed_sae hw (k := 0) (fun _ _ x => nomatch x) (hH 5) (prefixed_noBreak e.identifier str!")" (by decide)) hP hc h

theorem headed_numericSubpoint (hw : Wraps w) (p : Params) (e : NumericSubpoint) (s : Str)
    (hP : NumericSubpointAll H e) (hc : Fitting fits 1 p (numericSubpointShown e))
    (h : numericSubpoint w p e = .ok s) : Headed fits 1 p (e.identifier.display ++ str!".") s :=
  headed_sae hw (k := 0) (fun _ _ x => nomatch x) (hH 5) (numeric_noBreak e.identifier str!"." (by decide)) hP hc h

theorem headed_alphabeticPoint (hw : Wraps w) (p : Params) (e : AlphabeticPoint) (s : Str)
    (hP : AlphabeticPointAll H e) (hc : Fitting fits 2 p (alphabeticPointShown e))
    (h : alphabeticPoint w p e = .ok s) : Headed fits 1 p (e.identifier.display ++ str!")") s := by
  refine headed_sae hw (k := 1) (fun q _ x s hP hc h => ?_) (hH 5) (letter_noBreak e.identifier str!")" (by decide)) hP hc h
  cases x with
  | alphabeticSubpoint l =>
    exact laidChildren_map (fun q x s hP hc h => (headed_alphabeticSubpoint hH hw q x s hP hc h).laid) hP hc h
  | numericSubpoint l =>
    exact laidChildren_map (fun q x s hP hc h => (headed_numericSubpoint hH hw q x s hP hc h).laid) hP hc h

theorem headed_numericPoint (hw : Wraps w) (p : Params) (e : NumericPoint) (s : Str)
    (hP : NumericPointAll H e) (hc : Fitting fits 2 p (numericPointShown e))
    (h : numericPoint w p e = .ok s) : Headed fits 1 p (e.identifier.display ++ str!".") s := by
  refine headed_sae hw (k := 1) (fun q _ x s hP hc h => ?_) (hH 5) (numeric_noBreak e.identifier str!"." (by decide)) hP hc h
  cases x with
  | alphabeticSubpoint l =>
    exact laidChildren_map (fun q x s hP hc h => (headed_alphabeticSubpoint hH hw q x s hP hc h).laid) hP hc h

omit hH

theorem laid_quotedLines (min : Rat) {p : Params} {l : List Line} (hb : ∀ x ∈ l, '\n' ∉ x.content)
    (hf : fits → l = []) : (l = [] ∧ (quotedLines min p l).1 = []) ∨ (Laid fits p (quotedLines min p l).1 ∧ l ≠ []) := by
  induction l generalizing p with
  | nil => exact .inl ⟨rfl, rfl⟩
  | cons x l ih =>
    refine .inr ⟨?_, by simp⟩
    have h1 : Laid fits p (p.header (List.replicate (asUsize ((x.indent - min) * (1 / 5)) + 5) ' ') ++ x.content ++ ['\n']) := by
      refine ⟨p.header (List.replicate (asUsize ((x.indent - min) * (1 / 5)) + 5) ' ') ++ x.content, [], by simp, ?_, by simp, ?_, by simp⟩
      · simp only [Params.header, List.mem_append, not_or]
        exact ⟨⟨indentation_noBreak p, fun h => absurd (List.eq_of_mem_replicate h) (by decide)⟩, hb x (by simp)⟩
      · rw [Params.header, List.append_assoc]
        exact firstOk_indentation fun hfit => absurd (hf hfit) (by simp)
    simp only [quotedLines]
    rcases ih (p := p.nextLine) (fun y hy => hb y (by simp [hy])) (fun hfit => absurd (hf hfit) (by simp)) with ⟨rfl, -⟩ | ⟨h2, -⟩
    · simpa [quotedLines] using h1
    · exact h1.next h2

theorem quotedLines_nextLine (min : Rat) {p : Params} (hp : p = p.nextLine) (l : List Line) :
    (quotedLines min p l).2 = p := by
  induction l generalizing p with
  | nil => rfl
  | cons x l ih =>
    simp only [quotedLines]
    rw [← hp]
    exact ih hp

theorem nextLine_nextLine (p : Params) : p.nextLine = p.nextLine.nextLine := rfl

theorem laid_quotedBlock (hw : Wraps w) (hQ : ∀ q, Q q → UnbrokenQuote q ∧ (fits → q.lines = []))
    (p : Params) (q : QuotedBlock) (s : Str) (hP : Q q) (hc : Fitting fits 0 p (quotedBlockShown q))
    (h : quotedBlock w p q = .ok s) : Laid fits p s := by
  simp only [quotedBlock, Res.bind_eq_ok, Res.ok.injEq] at h
  obtain ⟨r0, h0, r1, h1, r2, h2, r3, h3, rfl⟩ := h
  unfold quotedBlockShown at hc
  have a0 : LaidOpt fits p r0 := laid_wrappedOpt hw h0 fun hf => by
    refine ⟨(hc hf).2.1, fun x hx => ?_⟩
    have := (hc.left.left.left.left hf).2.2
    rw [Option.mem_def.1 hx] at this
    exact this
  have w0 : ∀ hf : fits, Wide 0 r0.2 := fun hf => (hc hf).2.1.same a0.same
  obtain ⟨a1, e1⟩ := laid_wrapped (fits := fits) hw h1 fun hf => ⟨w0 hf, by decide⟩
  rw [e1, quotedLines_nextLine _ (nextLine_nextLine _)] at h2
  rw [e1]
  have w1 : ∀ hf : fits, Wide 0 r0.2.nextLine := fun hf => (w0 hf).same (same_nextLine _)
  obtain ⟨a2, e2⟩ := laid_wrapped (fits := fits) hw h2 fun hf => ⟨w1 hf, by decide⟩
  rw [e2] at h3
  have a3 : LaidOpt fits r0.2.nextLine r3 := laid_wrappedOpt hw h3 fun hf => by
    refine ⟨w1 hf, fun x hx => ?_⟩
    have := (hc.right hf).2.2
    rw [Option.mem_def.1 hx] at this
    exact this
  have hq := laid_quotedLines (fits := fits) (minIndent q.lines) (p := r0.2.nextLine) (hQ q hP).1 (hQ q hP).2
  have b1 : Laid fits r0.2.nextLine (r2.1 ++ r3.1) := a2.thenOpt a3
  have b2 : Laid fits r0.2.nextLine ((quotedLines (minIndent q.lines) r0.2.nextLine q.lines).1 ++ (r2.1 ++ r3.1)) := by
    rcases hq with ⟨-, hq⟩ | ⟨hq, -⟩
    · rw [hq, List.nil_append]
      exact b1
    · exact hq.next b1
  have b3 := a0.then (a1.next b2)
  simpa only [List.append_assoc] using b3

include hH

theorem headed_paragraph {A : Type} (hw : Wraps w) (hQ : ∀ q, Q q → UnbrokenQuote q ∧ (fits → q.lines = []))
    {k : Nat} (hk : 2 ≤ k) {f : Params → A → Res Str} {g : A → Str} {P : A → Prop}
    (hf : ∀ q x s, P x → Fitting fits k q (g x) → f q x = .ok s → Laid fits q s)
    (p : Params) (e : Paragraph A) (s : Str)
    (hP : ParagraphAll H Q P e) (hc : Fitting fits (k + 1) p (paragraphShown g e))
    (h : paragraph w f p e = .ok s) : Headed fits 1 p (paragraphNumber e.identifier) s := by
  unfold paragraph at h
  rw [paragraphHeader_eq] at h
  refine headed_sae hw (k := k) (fun q _ x s hP hc h => ?_) (hH 5) (paragraphNumber_noBreak _) hP hc h
  cases x with
  | alphabeticPoint l =>
    exact laidChildren_map (fun q x s hP hc h => (headed_alphabeticPoint hH hw q x s hP (hc.mono hk) h).laid) hP hc h
  | numericPoint l =>
    exact laidChildren_map (fun q x s hP hc h => (headed_numericPoint hH hw q x s hP (hc.mono hk) h).laid) hP hc h
  | quotedBlock l =>
    exact laidChildren_map
      (fun q x s hP hc h => laid_quotedBlock hw hQ q x s hP (hc.mono (Nat.zero_le _)) h) hP hc h
  | amendment a => exact .inr (hf q a s hP hc h)

theorem headed_article {A : Type} (hw : Wraps w) (hQ : ∀ q, Q q → UnbrokenQuote q ∧ (fits → q.lines = []))
    {k : Nat} (hk : 2 ≤ k) {f : Params → A → Res Str} {g : A → Str} {P : A → Prop}
    (hf : ∀ q x s, P x → Fitting fits k q (g x) → f q x = .ok s → Laid fits q s)
    (p : Params) (a : Article A) (s : Str)
    (hP : ArticleAll H Q P a) (hc : Fitting fits (k + 3) p (articleShown g a))
    (h : article w f p a = .ok s) :
    Headed fits 2 p (p.colorize (pad 10 (a.identifier.display ++ str!". §")) bold) s := by
  simp only [article, Res.bind_eq_ok, Res.ok.injEq] at h
  obtain ⟨r, h0, s', h1, rfl⟩ := h
  unfold articleShown at hc
  have hd : ∀ x, Fitting fits (k + 3) p x → Fitting fits (k + 1) p.sameLine.indented.indented x :=
    fun x hx => Fitting.indented (Fitting.indented (p := p.sameLine) fun hf => hx hf)
  have a0 : LaidOpt fits p.sameLine.indented.indented r := laid_wrappedOpt hw h0 fun hf => by
    refine ⟨((hd _ hc) hf).2.1.mono (Nat.zero_le _), fun x hx => ?_⟩
    cases ht : a.title with
    | none => simp [articleTitle, ht] at hx
    | some t =>
      simp only [articleTitle, ht, Option.map_some, Option.mem_def, Option.some.injEq] at hx
      subst hx
      have := (hc.left.right hf).2.2
      simp only [ht, inBrackets, List.mem_append, not_or] at this ⊢
      exact ⟨⟨by decide, this.1.2⟩, by decide⟩
  have a1 : (a.children = [] ∧ s' = []) ∨ (a.children ≠ [] ∧ Laid fits r.2 s') := by
    refine laid_list (fun q hq x hx s h => ?_) h1
    exact (headed_paragraph hH hw hQ hk hf q x s (hP.2 x hx)
      (((hd _ hc.right).same (a0.same.trans hq)).mem hx) h).laid
  have e1 : ∀ q, Laid fits q ['\n'] ↔ FirstOk fits q [] := by
    intro q
    constructor
    · rintro ⟨l, ls, h1, -, -, h4, -⟩
      have : l = [] := by
        cases l with
        | nil => rfl
        | cons x l => simp at h1
      exact this ▸ h4
    · intro h
      exact ⟨[], [], rfl, by simp, by simp, h, by simp⟩
  have e2 : ∀ q, Same p.sameLine.indented.indented q → Laid fits q ['\n'] := by
    intro q hq
    rw [e1]
    unfold FirstOk
    split
    · exact ⟨.inl rfl, fun _ => by simp⟩
    · intro hf
      have := ((hd _ hc).same hq hf).2.1
      unfold Wide at this
      simp only [List.length_nil]
      omega
  have a2 : Laid fits p.sameLine.indented.indented (r.1 ++ (s' ++ emptyEnd a.children)) := by
    refine a0.then ?_
    rcases a1 with ⟨h1, h2⟩ | ⟨h1, h2⟩
    · rw [h1, h2]
      exact e2 _ a0.same
    · rw [emptyEnd, if_neg (by simpa using h1), List.append_nil]
      exact h2
  have hb : '\n' ∉ pad 10 (a.identifier.display ++ str!". §") := pad_noBreak (article_noBreak _)
  have := headed_of (fits := fits) (p := p) (q := p.sameLine.indented.indented) (k := 2)
    (full := p.colorize (pad 10 (a.identifier.display ++ str!". §")) bold) rfl ?_ (List.prefix_refl _) ?_ a2
  · simpa only [List.append_assoc] using this
  · unfold Params.colorize
    split
    · simp only [List.mem_append, not_or]
      exact ⟨⟨by decide, hb⟩, by decide⟩
    · exact hb
  · intro hf
    rw [Params.colorize, (hc hf).1]
    rw [if_neg (by decide), pad_length (hH 10 _ hf hP.1)]

omit hH

theorem plain_colorize {p : Params} (hp : p.colored = false) (t code : Str) : p.colorize t code = t := by
  simp [Params.colorize, hp]

theorem laid_structuralElement (hw : Wraps w) (p : Params) (e : StructuralElement) (s : Str)
    (hc : Fitting fits 0 p (e.headerString.getD [] ++ e.title)) (h : structuralElement w p e = .ok s) :
    Laid fits p s := by
  simp only [structuralElement, Res.bind_eq_ok, Res.ok.injEq] at h
  obtain ⟨t, h0, r, h1, r2, h2, rfl⟩ := h
  cases he : e.headerString with
  | none => simp [he, Res.ofOption] at h0
  | some t' =>
    simp only [he, Res.ofOption, Res.ok.injEq] at h0
    subst h0
    rw [he] at hc
    obtain ⟨a1, e1⟩ := laid_wrapped (fits := fits) hw h1 fun hf => by
      rw [plain_colorize (hc hf).1]
      exact ⟨(hc hf).2.1, (hc.left hf).2.2⟩
    rw [e1] at h2
    refine a1.thenOpt (laid_wrappedOpt hw h2 fun hf => ⟨(hc hf).2.1.same (same_nextLine p), fun x hx => ?_⟩)
    unfold nonEmpty at hx
    split at hx
    · simp at hx
    · simp only [Option.map_some, Option.mem_def, Option.some.injEq] at hx
      rw [plain_colorize (hc hf).1] at hx
      subst hx
      exact (hc.right hf).2.2

theorem laid_subtitle (hw : Wraps w) {A : Type} {g : A → Str} (p : Params) (e : Subtitle) (s : Str)
    (hc : Fitting fits 0 p (actChildShown g (.subtitle e))) (h : subtitle w p e = .ok s) : Laid fits p s := by
  simp only [subtitle, Res.bind_eq_ok, Res.ok.injEq] at h
  obtain ⟨r, h1, rfl⟩ := h
  refine (laid_wrapped hw h1 fun hf => ?_).1
  rw [plain_colorize (hc hf).1]
  refine ⟨(hc hf).2.1, ?_⟩
  have := (hc hf).2.2
  rcases e with ⟨_ | i, t⟩
  · exact this
  · simp only [actChildShown, subtitleText, List.mem_append, not_or] at this ⊢
    exact ⟨⟨this.1.1, by decide⟩, this.2⟩

include hH

theorem laid_actChild {A : Type} (hw : Wraps w) (hQ : ∀ q, Q q → UnbrokenQuote q ∧ (fits → q.lines = []))
    {k : Nat} (hk : 2 ≤ k) {f : Params → A → Res Str} {g : A → Str} {P : A → Prop}
    (hf : ∀ q x s, P x → Fitting fits k q (g x) → f q x = .ok s → Laid fits q s)
    (p : Params) (a : ActChild A) (s : Str)
    (hP : ActChildAll H Q P a) (hc : Fitting fits (k + 3) p (actChildShown g a))
    (h : actChild w f p a = .ok s) : Laid fits p s := by
  cases a with
  | structuralElement e => exact laid_structuralElement hw p e s (hc.mono (Nat.zero_le _)) h
  | subtitle e => exact laid_subtitle hw p e s (hc.mono (Nat.zero_le _)) h
  | article a => exact (headed_article hH hw hQ hk hf p a s hP hc h).laid

omit hH

theorem laid_quoted {C : Type} (hw : Wraps w) {k : Nat} {f : Params → C → Res Str} {g : C → Str} {P : C → Prop}
    (hf : ∀ q x s, P x → Fitting fits k q (g x) → f q x = .ok s → LaidChildren fits q s)
    (p : Params) (i : Option Str) (x : C) (wu : Option Str) (s : Str) (hP : P x)
    (hc : Fitting fits (k + 1) p
      (inBrackets str!"(" str!")" i ++ str!"„" ++ g x ++ str!"”" ++ inBrackets str!"(" str!")" wu))
    (h : quoted w f p i x wu = .ok s) : Laid fits p s := by
  simp only [quoted, Res.bind_eq_ok, Res.ok.injEq] at h
  obtain ⟨r0, h0, r1, h1, s', hs, r2, h2, r3, h3, rfl⟩ := h
  have hbr : ∀ (t : Option Str), Fitting fits (k + 1) p (inBrackets str!"(" str!")" t) → ∀ hf : fits, ∀ x ∈ bracketed p t, '\x1B' ∉ x := by
    intro t ht hf x hx
    cases t with
    | none => simp [bracketed] at hx
    | some t =>
      simp only [bracketed, Option.map_some, Option.mem_def, Option.some.injEq] at hx
      rw [plain_colorize (ht hf).1] at hx
      subst hx
      exact (ht hf).2.2
  have a0 : LaidOpt fits p r0 := laid_wrappedOpt hw h0 fun hf =>
    ⟨(hc hf).2.1.mono (Nat.zero_le _), hbr _ hc.left.left.left.left hf⟩
  have w0 : ∀ hf : fits, Wide 0 r0.2 := fun hf => ((hc hf).2.1.mono (Nat.zero_le _)).same a0.same
  obtain ⟨a1, e1⟩ := laid_wrapped (fits := fits) hw h1 fun hf => ⟨w0 hf, by decide⟩
  rw [e1] at hs h2
  have w1 : ∀ hf : fits, Wide 0 r0.2.nextLine := fun hf => (w0 hf).same (same_nextLine _)
  have as' : LaidChildren fits r0.2.nextLine.indented s' := by
    refine hf _ x s' hP ?_ hs
    exact (hc.left.left.right.same (a0.same.trans (same_nextLine _))).indented
  obtain ⟨a2, e2⟩ := laid_wrapped (fits := fits) hw h2 fun hf => ⟨w1 hf, by decide⟩
  rw [e2] at h3
  have a3 : LaidOpt fits r0.2.nextLine r3 := laid_wrappedOpt hw h3 fun hf => ⟨w1 hf, hbr _ hc.right hf⟩
  have b1 : Laid fits r0.2.nextLine (r2.1 ++ r3.1) := a2.thenOpt a3
  have b2 : Laid fits r0.2.nextLine (s' ++ (r2.1 ++ r3.1)) := by
    rcases as' with rfl | hq
    · exact b1
    · exact (hq.deeper rfl).next b1
  have b3 := a0.then (a1.next b2)
  simpa only [List.append_assoc] using b3

include hH

theorem laid_amendment (hw : Wraps w) (hQ : ∀ q, Q q → UnbrokenQuote q ∧ (fits → q.lines = []))
    (p : Params) (a : Amendment) (s : Str) (hP : AmendmentAll H Q a) (hc : Fitting fits 6 p (amendmentShown a))
    (h : amendment w p a = .ok s) : Laid fits p s := by
  have hno : ∀ (q : Params) (x : Empty) (s : Str), NoAmendmentFits x → Fitting fits 2 q (noAmendmentShown x) →
      noAmendment q x = .ok s → Laid fits q s := fun _ x => nomatch x
  cases a with
  | structural i l wu =>
    refine laid_quoted hw (k := 5) (f := list (actChild w noAmendment)) (g := fun l => l.flatMap (actChildShown noAmendmentShown))
      (P := fun l => ∀ x ∈ l, ActChildAll H Q NoAmendmentFits x) (fun q x s hP hc h => ?_) p i l wu s hP hc h
    exact laidChildren_map (fun q x s hP hc h => laid_actChild hH hw hQ (k := 2) (by decide) hno q x s hP hc h) hP hc h
  | block i c wu =>
    refine laid_quoted hw (k := 5) (f := blockAmendmentChildren w) (P := fun c => match c with
      | .paragraph l => ∀ x ∈ l, ParagraphAll H Q NoAmendmentFits x
      | .alphabeticPoint l => ∀ x ∈ l, AlphabeticPointAll H x
      | .numericPoint l => ∀ x ∈ l, NumericPointAll H x
      | .alphabeticSubpoint l => ∀ x ∈ l, AlphabeticSubpointAll H x
      | .numericSubpoint l => ∀ x ∈ l, NumericSubpointAll H x) (g := fun c => match c with
      | .paragraph l => l.flatMap (paragraphShown noAmendmentShown)
      | .alphabeticPoint l => l.flatMap alphabeticPointShown
      | .numericPoint l => l.flatMap numericPointShown
      | .alphabeticSubpoint l => l.flatMap alphabeticSubpointShown
      | .numericSubpoint l => l.flatMap numericSubpointShown) (fun q x s hP hc h => ?_) p i c wu s ?_ ?_ h
    · cases x with
      | paragraph l =>
        exact laidChildren_map (fun q x s hP hc h =>
          (headed_paragraph hH hw hQ (k := 2) (by decide) hno q x s hP (hc.mono (by decide)) h).laid) hP hc h
      | alphabeticPoint l =>
        exact laidChildren_map (fun q x s hP hc h =>
          (headed_alphabeticPoint hH hw q x s hP (hc.mono (by decide)) h).laid) hP hc h
      | numericPoint l =>
        exact laidChildren_map (fun q x s hP hc h =>
          (headed_numericPoint hH hw q x s hP (hc.mono (by decide)) h).laid) hP hc h
      | alphabeticSubpoint l =>
        exact laidChildren_map (fun q x s hP hc h =>
          (headed_alphabeticSubpoint hH hw q x s hP (hc.mono (by decide)) h).laid) hP hc h
      | numericSubpoint l =>
        exact laidChildren_map (fun q x s hP hc h =>
          (headed_numericSubpoint hH hw q x s hP (hc.mono (by decide)) h).laid) hP hc h
    · cases c <;> exact hP
    · cases c <;> exact hc

/-- The children of an act: each is laid out, maybe with an empty line before. -/
theorem laid_actChildren {A : Type} (hw : Wraps w) (hQ : ∀ q, Q q → UnbrokenQuote q ∧ (fits → q.lines = []))
    {k : Nat} (hk : 2 ≤ k) {f : Params → A → Res Str} {g : A → Str} {P : A → Prop}
    (hf : ∀ q x s, P x → Fitting fits k q (g x) → f q x = .ok s → Laid fits q s)
    {p : Params} (hp : p.indentNext = true) {b : Bool} {l : List (ActChild A)} {s : Str}
    (hP : ∀ x ∈ l, ActChildAll H Q P x) (hc : Fitting fits (k + 3) p (l.flatMap (actChildShown g)))
    (h : actChildren w f p b l = .ok s) : LaidChildren fits p s := by
  have hpp : p = p.nextLine := by
    rcases p with ⟨a, b, c, d⟩
    simp only at hp
    simp [Params.nextLine, hp]
  have e0 : Laid fits p ['\n'] := by
    refine ⟨[], [], rfl, by simp, by simp, ?_, by simp⟩
    rw [FirstOk, if_pos hp]
    exact ⟨.inl rfl, fun _ => by simp⟩
  induction l generalizing b s with
  | nil =>
    simp only [actChildren, Res.ok.injEq] at h
    exact .inl h.symm
  | cons x l ih =>
    simp only [actChildren, Res.bind_eq_ok, Res.ok.injEq] at h
    obtain ⟨a, h1, b', h2, rfl⟩ := h
    have a1 := laid_actChild hH hw hQ hk hf p x a (hP x (by simp)) (hc.mem (by simp)) h1
    have a2 := ih (fun y hy => hP y (by simp [hy])) (by
      rw [List.flatMap_cons] at hc
      exact hc.right) h2
    have a3 : Laid fits p (a ++ b') := by
      rcases a2 with rfl | a2
      · rw [List.append_nil]
        exact a1
      · exact a1.next (hpp ▸ a2)
    right
    rw [List.append_assoc]
    split
    · exact e0.next (hpp ▸ a3)
    · exact a3

omit hH

theorem roman_noBreak {n : Nat} {s : Str} (h : romanTo n = some s) : '\n' ∉ s := by
  obtain ⟨h1, h2⟩ := romanTo_range h
  obtain ⟨s', e1, -, e3, -⟩ := roman_roundtrip h1 h2
  rw [h] at e1
  cases e1
  intro hm
  exact absurd (e3 _ hm) (by decide)

theorem actId_noBreak {i : ActId} {s : Str} (h : i.display = .ok s) : '\n' ∉ s := by
  unfold ActId.display at h
  split at h
  · split at h
    · rename_i r hr
      simp only [Res.ok.injEq] at h
      subst h
      simp only [List.mem_append, not_or]
      exact ⟨⟨⟨decInt_not_mem (by decide) (by decide), by decide⟩, roman_noBreak hr⟩, by decide⟩
    · cases h
  · cases h

theorem colorize_noBreak {p : Params} {t code : Str} (h1 : '\n' ∉ t) (h2 : '\n' ∉ code) : '\n' ∉ p.colorize t code := by
  unfold Params.colorize
  split
  · simp only [List.mem_append, not_or]
    exact ⟨⟨⟨⟨by decide, h2⟩, by decide⟩, h1⟩, by decide⟩
  · exact h1

include hH

/-- The output of an act: a line with its header, and laid out lines. -/
theorem laid_act (hw : Wraps w) (hQ : ∀ q, Q q → UnbrokenQuote q ∧ (fits → q.lines = []))
    {p : Params} (hp : p.indentNext = true) {a : Act Amendment} {s : Str}
    (hsub : '\n' ∉ a.subject)
    (hhead : fits → ∀ id, a.identifier.display = .ok id → 5 * p.level + id.length + 1 + a.subject.length ≤ p.width)
    (hP : ∀ x ∈ a.children, ActChildAll H Q (AmendmentAll H Q) x) (hc : Fitting fits 9 p (actShown a))
    (h : act w (amendment w) p a = .ok s) : Laid fits p s := by
  have hpp : p.nextLine = p := by
    rcases p with ⟨a, b, c, d⟩
    simp only at hp
    simp [Params.nextLine, hp]
  simp only [act, Res.bind_eq_ok, Res.ok.injEq, hpp] at h
  obtain ⟨id, h0, r, h1, s', h2, rfl⟩ := h
  simp only [actShown, h0] at hc
  have e0 : Laid fits p ['\n'] := by
    refine ⟨[], [], rfl, by simp, by simp, ?_, by simp⟩
    rw [FirstOk, if_pos hp]
    exact ⟨.inl rfl, fun _ => by simp⟩
  have a0 : Laid fits p (p.header (p.colorize id bold ++ str!" " ++ a.subject) ++ ['\n']) := by
    refine ⟨p.header (p.colorize id bold ++ str!" " ++ a.subject), [], by simp, ?_, by simp, ?_, by simp⟩
    · simp only [Params.header, List.mem_append, not_or]
      exact ⟨indentation_noBreak p, ⟨colorize_noBreak (actId_noBreak h0) (by decide), by decide⟩, hsub⟩
    · refine firstOk_indentation fun hf => ?_
      rw [plain_colorize (hc hf).1]
      have := hhead hf id h0
      simp only [List.length_append, List.length_cons, List.length_nil]
      omega
  obtain ⟨a1, -⟩ := laid_wrapped (fits := fits) hw h1 fun hf =>
    ⟨(hc hf).2.1.mono (Nat.zero_le _), (hc.left.right hf).2.2⟩
  have a2 := laid_actChildren hH hw hQ (k := 6) (by decide)
    (fun q x s hP hc h => laid_amendment hH hw hQ q x s hP hc h) hp hP hc.right h2
  have a3 : Laid fits p (['\n'] ++ s') := by
    rcases a2 with rfl | a2
    · exact e0
    · exact e0.next (hpp.symm ▸ a2)
  have a4 := a0.next (hpp.symm ▸ (e0.next (hpp.symm ▸ (a1.next (hpp.symm ▸ a3)))))
  simpa only [List.append_assoc, List.cons_append, List.nil_append] using a4

omit hH

theorem linesOf_lines {ls : List Str} (h : ∀ l ∈ ls, '\n' ∉ l) : linesOf (ls.flatMap (· ++ ['\n'])) = ls := by
  unfold linesOf
  induction ls with
  | nil => rfl
  | cons l ls ih =>
    rw [List.flatMap_cons, List.append_assoc, List.singleton_append, splitAll_append (h l (by simp)),
      List.dropLast_cons_of_ne_nil (splitAll_ne_nil _ _), ih fun x hx => h x (by simp [hx])]

end HunLaw.Output
