import Verif.Lemmas.Titled
import Verif.Lemmas.WrittenValue
import Verif.Spec.Structural

/-! How the act at the beginning of an amending sentence is read, with the abbreviation which is introduced for it. -/

set_option autoImplicit false

namespace HunLaw.Grammar

open HunLaw P Spec

variable {known : List Str}

/-- The result for the act of an amending sentence. -/
def introAct (n : Nat) (a : ActName) (new : Option Str) : ActReference :=
  match actAt n a with
  | .actId x _ => .actId x new
  | .abbreviation s p => .abbreviation s p

theorem introAct_none (n : Nat) (a : ActName) : introAct n a none = actAt n a := by cases a <;> rfl

theorem head_letter {x : Str} (h : ∃ c, x.head? = some c ∧ (c ∈ lowerLetters ∨ c ∈ upperLetters)) (r : Str) :
    ∃ c t, x ++ r = c :: t ∧ isWs c = false ∧ isDigit c = false := by
  obtain ⟨c, hc, hl⟩ := h
  cases x with
  | nil => cases hc
  | cons d x => cases hc; exact ⟨c, x ++ r, rfl, letter_char hl⟩

theorem reads_newName {x : Str} (hx : ')' ∉ x) (hh : ∃ c, x.head? = some c ∧ (c ∈ lowerLetters ∨ c ∈ upperLetters)) (n : Nat) (r : Str) :
    Reads fromNowOnName n (' ' :: x) (')' :: r) (some x) := by
  obtain ⟨c, t, e, hc1, hc2⟩ := head_letter hh (')' :: r)
  have hw : NoWs (x ++ ')' :: r) := by rw [e]; exact noWs_cons hc1
  refine Reads.right (Fails.bind ?_) (Reads.map (g := some) (Reads.call_space hw ?_))
  · refine fails_actId_head ?_
    have : skipWs (' ' :: x ++ ')' :: r) = x ++ ')' :: r := by
      show skipWs (x ++ ')' :: r) = _
      exact skipWs_noWs hw
    rw [this, e]
    exact .cons hc2
  · refine Reads.slice (Reads.many1_chars ?_ ?_ ?_)
    · rintro rfl
      obtain ⟨c, h, -⟩ := hh
      cases h
    · intro c hc
      simpa using fun h : c = ')' => hx (h ▸ hc)
    · intro c hc
      cases hc
      decide

theorem reads_fromNowOn {x : Str} (hx : ')' ∉ x) (hh : ∃ c, x.head? = some c ∧ (c ∈ lowerLetters ∨ c ∈ upperLetters)) (n : Nat) (r : Str) :
    Reads fromNowOn n (introduction (some x)) r (some x) := by
  have e : introduction (some x) = str!" (" ++ (str!"a" ++ (str!" továbbiakban" ++ (str!":" ++ ((' ' :: x) ++ str!")")))) := by
    simp [introduction]
  rw [e]
  refine Reads.bind (Reads.tok_space (s := str!"(") (noWs_cons (by decide))) (Reads.bind (Reads.tok (noWs_cons (by decide)))
    (Reads.bind (Reads.tok_space (s := str!"továbbiakban") (noWs_cons (by decide))) (Reads.bind (a := some ())
      (Reads.opt_some (Reads.tok (noWs_cons (by decide)))) (Reads.bind (a := some x) ?_ (Reads.map (g := fun _ => some x) (a := ()) (Reads.tok (noWs_cons (by decide))))))))
  exact reads_newName hx hh _ _

theorem reads_introAct {a : ActName} (ha : a.Usual) {new : Option Str}
    (hnew : ∀ x, new = some x → (∃ b e, a = .number b e) ∧ ')' ∉ x ∧ ∃ c, x.head? = some c ∧ (c ∈ lowerLetters ∨ c ∈ upperLetters))
    {rest : Str} (h : AfterAct rest) (h2 : Shortens known a rest) (n : Nat) (titles : List (Nat × Nat)) :
    ReadsG (Knows known new titles) (PS.call actReference) n (a.text ++ introduction new) rest (introAct n a new) := by
  cases new with
  | none =>
    rw [introAct_none, introduction, List.append_nil]
    refine ReadsG.of (fun s hs => ?_) (reads_actReference ha h h2)
    obtain ⟨⟨l, hl, e⟩, -⟩ := hs
    cases l with
    | nil => rw [e, List.append_nil]
    | cons x l => cases hl x (List.mem_cons_self ..)
  | some x =>
    obtain ⟨⟨b, e, rfl⟩, hx, hh⟩ := hnew x rfl
    have hw := act_noWs ha (introduction (some x) ++ rest)
    rw [← List.append_assoc] at hw
    refine ReadsG.call hw (ReadsG.left (ReadsG.call hw fun s hs => ?_))
    have h1 : Reads actIdWithFromNowOn n ((ActName.number b e).text ++ introduction (some x)) rest (actIdAt b e n, some x) :=
      Reads.bind (f := fun i => opt fromNowOn >>= fun a => pure (i, a.join))
        (Reads.call (by rw [← List.append_assoc]; exact hw) (reads_actId ha (n := n) (.cons (by decide))))
        ((Reads.opt_some (reads_fromNowOn hx hh _ _)).map (g := fun b' : Option (Option Str) => (actIdAt b e n, b'.join)))
    obtain ⟨⟨l, hl, e1⟩, e2⟩ := hs
    refine ⟨s.store (some x), ⟨⟨l ++ [x], ?_, ?_⟩, e2⟩, ?_⟩
    · intro y hy
      rcases List.mem_append.1 hy with hy | hy
      · exact hl y hy
      · rw [List.mem_singleton.1 hy]
    · simp [St.store, e1]
    · show checkedRun _ _ = _
      unfold Reads at h1
      simp only [checkedRun, h1, introAct, actAt]

end HunLaw.Grammar
