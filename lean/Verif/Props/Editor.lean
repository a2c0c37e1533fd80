import Verif.Lemmas.Editor
import Verif.Props.Fixups

/-! Property C114: what the fixup editor shows, and where it is opened. -/

set_option autoImplicit false

namespace HunLaw.Props

open HunLaw Spec

theorem marks_level (s : Str) : ((s.filter fun c => c == '„' || c == '“').length : Int) = s.count '„' + s.count '“' := by
  induction s with
  | nil => rfl
  | cons c s ih =>
    by_cases h1 : c = '„'
    · subst h1
      rw [List.filter_cons_of_pos (by decide), List.count_cons_self, List.count_cons_of_ne (by decide)]
      push_cast [List.length_cons]; omega
    · by_cases h2 : c = '“'
      · subst h2
        rw [List.filter_cons_of_pos (by decide), List.count_cons_self, List.count_cons_of_ne (by decide)]
        push_cast [List.length_cons]; omega
      · rw [List.filter_cons_of_neg (by simp [h1, h2]), List.count_cons_of_ne (by simpa using h1),
          List.count_cons_of_ne (by simpa using h2)]
        exact ih

theorem marks_closing (s : Str) : ((s.filter fun c => c == '”').length : Int) = s.count '”' := by
  rw [List.count_eq_length_filter]

theorem openQuotes_cons (l : Line) (ls : List Line) (n : Nat) : openQuotes (l :: ls) (n + 1) =
    (l.content.filter fun c => c == '„' || c == '“').length - (l.content.filter fun c => c == '”').length + openQuotes ls n := by
  rw [marks_level, marks_closing]
  simp only [openQuotes, texts, List.map_cons, List.take_succ_cons, List.flatten_cons, List.count_append]
  push_cast
  ring

theorem openQuotes_zero (ls : List Line) : openQuotes ls 0 = 0 := rfl

theorem editorLines_shown (level : Int) (body : List Line) :
    (editorLines level body).length = body.length ∧ ∀ i l, body[i]? = some l →
      ∃ s, (editorLines level body)[i]? = some s ∧ editorLine (level + openQuotes body (i + 1)) l s := by
  induction body generalizing level with
  | nil => exact ⟨rfl, fun i l h => by simp at h⟩
  | cons x xs ih =>
    simp only [editorLines]
    obtain ⟨h1, h2⟩ := ih (level + (x.content.filter fun c => c == '„' || c == '“').length
      - (x.content.filter fun c => c == '”').length)
    refine ⟨by simp [h1], fun i l h => ?_⟩
    cases i with
    | zero =>
      simp only [List.getElem?_cons_zero, Option.some.injEq] at h
      subst h
      refine ⟨_, rfl, ?_⟩
      rw [openQuotes_cons, openQuotes_zero]
      have e : level + (((x.content.filter fun c => c == '„' || c == '“').length : Int) -
          (x.content.filter fun c => c == '”').length + 0) = level +
          (x.content.filter fun c => c == '„' || c == '“').length - (x.content.filter fun c => c == '”').length := by ring
      rw [e]
      generalize (level + (x.content.filter fun c => c == '„' || c == '“').length
        - (x.content.filter fun c => c == '”').length : Int) = v
      refine ⟨4 - (decInt v).length, (x.indent / 5).floor.toNat, by simp [pad4, quickDisplay], by omega, fun h0 => ?_⟩
      have hpos : 0 ≤ (x.indent / 5).floor := Rat.le_floor_iff.2 (by simpa using div_nonneg h0 (by norm_num))
      have e : (((x.indent / 5).floor.toNat : Nat) : Rat) = ((x.indent / 5).floor : Int) := by
        have : (((x.indent / 5).floor.toNat : Nat) : Int) = (x.indent / 5).floor := Int.toNat_of_nonneg hpos
        exact_mod_cast congrArg (Int.cast (R := Rat)) this
      rw [e]
      have g1 : (((x.indent / 5).floor : Int) : Rat) ≤ x.indent / 5 := Rat.floor_le _
      have g2 : x.indent / 5 < ((x.indent / 5).floor : Int) + 1 := by
        have := Rat.lt_floor_add_one (x.indent / 5)
        push_cast at this; exact this
      constructor <;> linarith
    | succ i =>
      simp only [List.getElem?_cons_succ] at h
      obtain ⟨s, hs, hs'⟩ := h2 i l h
      refine ⟨s, by simpa using hs, ?_⟩
      rw [openQuotes_cons]
      convert hs' using 1
      ring

/-- C114: the editor is given one line for every line of the act, with how many quotations are open after it, its
indentation and its text. -/
theorem C114_shown (body : List Line) : (editorLines 0 body).length = body.length ∧ ∀ i l, body[i]? = some l →
    ∃ s, (editorLines 0 body)[i]? = some s ∧ editorLine (openQuotes body (i + 1)) l s := by
  simpa using editorLines_shown 0 body

theorem openAtFrom_spec (body : List Line) (i : Nat) (level : Int) (e u : Option Nat) :
    (e = none → ∀ n, n < body.length → level + openQuotes body (n + 1) < 0 →
      (∀ m, m < n → 0 ≤ level + openQuotes body (m + 1)) → openAtFrom i level e u body = i + n) ∧
    (∀ x, e = some x → openAtFrom i level e u body = x) ∧
    (e = none → (∀ n, n < body.length → 0 ≤ level + openQuotes body (n + 1)) →
      ((∀ n, n < body.length → 0 < level + openQuotes body (n + 1)) → openAtFrom i level e u body = u.getD 0) ∧
      ∀ n, n < body.length → level + openQuotes body (n + 1) = 0 →
        (∀ m, n < m → m < body.length → level + openQuotes body (m + 1) ≠ 0) → openAtFrom i level e u body = i + n + 1) := by
  induction body generalizing i level e u with
  | nil =>
    refine ⟨fun _ n h => by simp at h, ?_, fun h _ => ⟨fun _ => ?_, fun n h => by simp at h⟩⟩
    · rintro x rfl; rfl
    · subst h; rfl
  | cons x xs ih =>
    set v : Int := level + (x.content.filter fun c => c == '„' || c == '“').length
      - (x.content.filter fun c => c == '”').length with hv
    have h1 : ∀ n, level + openQuotes (x :: xs) (n + 1) = v + openQuotes xs n := by
      intro n; rw [openQuotes_cons, hv]; ring
    simp only [openAtFrom, ← hv, h1]
    refine ⟨?_, ?_, ?_⟩
    · rintro rfl n hn hneg hbefore
      cases n with
      | zero =>
        rw [openQuotes_zero] at hneg
        rw [if_pos ⟨by omega, rfl⟩]
        exact (ih (i + 1) v (some i) _).2.1 i rfl
      | succ n =>
        have h0 := hbefore 0 (by omega)
        rw [openQuotes_zero] at h0
        rw [if_neg (by omega)]
        rw [(ih (i + 1) v none _).1 rfl n (by simpa using hn) hneg fun m hm => hbefore (m + 1) (by omega)]
        omega
    · rintro y rfl
      simp only [reduceCtorEq, and_false, if_false]
      exact (ih (i + 1) v (some y) _).2.1 y rfl
    · rintro rfl hge
      have h0 := hge 0 (by simp)
      rw [openQuotes_zero] at h0
      rw [if_neg (by omega)]
      obtain ⟨g1, g2⟩ := (ih (i + 1) v none (if v > 0 then u else some (i + 1))).2.2 rfl
        fun n hn => hge (n + 1) (by simpa using hn)
      constructor
      · intro hpos
        have := hpos 0 (by simp)
        rw [openQuotes_zero] at this
        rw [g1 fun n hn => hpos (n + 1) (by simpa using hn), if_pos (by omega)]
      · intro n hn hz hlater
        cases n with
        | zero =>
          rw [openQuotes_zero] at hz
          rw [g1, if_neg (by omega)]
          · rfl
          · intro n hn
            have h2 := hlater (n + 1) (by omega) (by simpa using hn)
            have h3 := hge (n + 1) (by simpa using hn)
            omega
        | succ n =>
          rw [g2 n (by simpa using hn) hz fun m hm hml => hlater (m + 1) (by omega) (by simpa using hml)]
          omega

/-- C114: the editor is opened at the first line with a closing quotation mark too many. -/
theorem C114_opens_at_error (body : List Line) (n : Nat) (hn : n < body.length) (h : openQuotes body (n + 1) < 0)
    (hfirst : ∀ m ≤ n, 0 ≤ openQuotes body m) : editorOpensAt body = n + 1 := by
  unfold editorOpensAt
  rw [(openAtFrom_spec body 0 0 none none).1 rfl n hn (by simpa using h)
    fun m hm => by simpa using hfirst (m + 1) (by omega)]
  omega

/-- C114: otherwise it is opened after the longest beginning of the act in which all quotations are closed. -/
theorem C114_opens_at_unclosed (body : List Line) (n : Nat) (hn : n ≤ body.length)
    (hge : ∀ m ≤ body.length, 0 ≤ openQuotes body m) (h : openQuotes body n = 0)
    (hlast : ∀ m, n < m → m ≤ body.length → openQuotes body m ≠ 0) : editorOpensAt body = n + 1 := by
  unfold editorOpensAt
  have g := (openAtFrom_spec body 0 0 none none).2.2 rfl fun m hm => by simpa using hge (m + 1) (by omega)
  cases n with
  | zero =>
    rw [g.1]
    · rfl
    · intro m hm
      have h1 := hlast (m + 1) (by omega) (by omega)
      have h2 := hge (m + 1) (by omega)
      omega
  | succ n =>
    rw [g.2 n (by omega) (by simpa using h) fun m hm hml => by simpa using hlast (m + 1) (by omega) (by omega)]
    omega

/-- An act in which a quotation is not closed: the second line opens one. -/
def unclosedBody : List Line := [sampleLine str!"„a”" 0, sampleLine str!"„b" 12, sampleLine str!"c" 3]

example : editorLines 0 unclosedBody = [str!"   0 „a”", str!"   1   „b", str!"   1 c"] ∧
    editorOpensAt unclosedBody = 2 ∧ openQuotes unclosedBody 1 = 0 ∧ openQuotes unclosedBody 2 = 1 ∧
    openQuotes unclosedBody 3 = 1 := by decide +kernel

example : editorOpensAt [sampleLine str!"„a”" 0, sampleLine str!"b”" 12, sampleLine str!"c”" 3] = 2 ∧
    openQuotes [sampleLine str!"„a”" 0, sampleLine str!"b”" 12, sampleLine str!"c”" 3] 2 = -1 := by decide +kernel

end HunLaw.Props
