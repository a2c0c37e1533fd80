import Verif.Props.MkAct
import Verif.Props.Identifiers
import Verif.Spec.Dates

/-! Property C125: the day of a date is read whole. -/

set_option autoImplicit false

namespace HunLaw.Props

open HunLaw HunLaw.Re HunLaw.Spec

/-- The full property: if a date is read, then the text begins with it, and no digit follows the day. -/
def C125_statement : Prop :=
  ∀ (s : Str) (d : Date), Date.fromHungarian s = some d → ∃ day rest, BeginsWithDate s d day rest ∧ ¬ Starts Re.digit rest

theorem writesNumber_iff (s : Str) (n : Nat) : WritesNumber s n ↔ parseDigits s = some n := by
  have key : ∀ (s : Str) (acc n : Nat), parseDigitsFrom acc s = some n ↔
      AllDigits s ∧ s.foldl (fun acc c => 10 * acc + (c.toNat - '0'.toNat)) acc = n := by
    intro s
    induction s with
    | nil => intro acc n; simp [parseDigitsFrom, AllDigits]
    | cons c cs ih =>
      intro acc n
      have e : isDigit c = true ↔ '0'.toNat ≤ c.toNat ∧ c.toNat ≤ '9'.toNat := by simp [isDigit]
      simp only [parseDigitsFrom]
      by_cases h : isDigit c = true
      · rw [if_pos h, ih]
        simp only [AllDigits, List.forall_mem_cons, List.foldl_cons, ← e, h, true_and]
        rfl
      · rw [if_neg h]
        simp only [AllDigits, List.forall_mem_cons, ← e]
        simp [h]
  unfold WritesNumber decimalValue parseDigits
  cases s with
  | nil => simp
  | cons c cs => rw [key]; simp

theorem hungarian_run {year month day rest : Str} {x y : Char} (h1 : year.length = 4) (h2 : ∀ c ∈ year, digit c = true)
    (hx : x ≠ '\n') (hm : month ≠ []) (hm' : ' ' ∉ month) (hy : y ≠ '\n') (hd : ∀ c ∈ day, digit c = true)
    (hday : day.length = 2 ∨ day.length = 1 ∧ (digit y = false ∨ rest = [] ∨ rest.head? = some '\n')) :
    ∃ m, matchAt Date.hungarianRe (year ++ x :: ' ' :: month ++ ' ' :: day ++ y :: rest) = some m ∧
      (m.group 1).map Prod.snd = some year ∧ (m.group 2).map Prod.snd = some month ∧
      (m.group 3).map Prod.snd = some day := by
  obtain ⟨a, b, c, e, rfl⟩ : ∃ a b c e, year = [a, b, c, e] := by
    rcases year with _ | ⟨a, _ | ⟨b, _ | ⟨c, _ | ⟨e, _ | ⟨f, t⟩⟩⟩⟩⟩ <;> simp at h1
    exact ⟨a, b, c, e, rfl⟩
  have hx' : anyChar x = true := by simpa [anyChar] using hx
  have hy' : anyChar y = true := by simpa [anyChar] using hy
  have hlast : ∀ pre caps, ∃ m : MState, (run (.seq (.cap 3 (.seq (.cls digit) (.opt (.cls digit)))) (.cls anyChar))
      ⟨pre, day ++ y :: rest, caps⟩).head? = some m ∧ m.caps = (3, pre, day) :: caps := by
    intro pre caps
    rcases hday with hl | ⟨hl, hr⟩
    · obtain ⟨p, q, rfl⟩ : ∃ p q, day = [p, q] := by
        rcases day with _ | ⟨p, _ | ⟨q, _ | ⟨r, t⟩⟩⟩ <;> simp at hl
        exact ⟨p, q, rfl⟩
      have hp := hd p (by simp)
      have hq := hd q (by simp)
      simp [run, Re.opt, hp, hq, hy']
    · obtain ⟨p, rfl⟩ : ∃ p, day = [p] := by
        rcases day with _ | ⟨p, _ | ⟨q, t⟩⟩ <;> simp at hl
        exact ⟨p, rfl⟩
      have hp := hd p (by simp)
      rcases hr with hr | rfl | hr
      · simp [run, Re.opt, hp, hr, hy']
      · by_cases hq : digit y = true <;> simp [run, Re.opt, hp, hq, hy']
      · cases rest with
        | nil => cases hr
        | cons z rest =>
          cases hr
          have hz : anyChar '\n' = false := rfl
          by_cases hq : digit y = true <;> simp [run, Re.opt, hp, hq, hy', hz]
  obtain ⟨m, hm1, hm2⟩ := hlast ([] ++ [a, b, c, e] ++ [x] ++ str!" " ++ month ++ str!" ")
    [(2, [] ++ [a, b, c, e] ++ [x] ++ str!" ", month), (1, [], [a, b, c, e])]
  refine ⟨m, ?_, ?_⟩
  · unfold matchAt Date.hungarianRe
    simp only [seqs]
    have e1 : [a, b, c, e] ++ x :: ' ' :: month ++ ' ' :: day ++ y :: rest =
        [a, b, c, e] ++ (x :: (str!" " ++ (month ++ (str!" " ++ (day ++ y :: rest))))) := by simp
    rw [e1]
    refine run_seq_head (run_cap_text (t := [a, b, c, e]) ?_) (run_seq_head (run_cls_head hx')
      (run_seq_head run_lit_head (run_seq_head (run_cap_text (t := month) (run_many1_head hm ?_ ?_))
      (run_seq_head run_lit_head hm1))))
    · simp [run, h2 a, h2 b, h2 c, h2 e]
    · intro c hc
      simp only [bne_iff_ne, ne_eq]
      rintro rfl
      exact hm' hc
    · intro c hc
      simp at hc
      simp [← hc]
  · unfold MState.group
    rw [hm2]
    simp

theorem digit_of_allDigits {s : Str} (h : AllDigits s) : ∀ c ∈ s, digit c = true := by
  intro c hc
  apply digit_of_isDigit
  simpa [isDigit] using h c hc

theorem reads_four {a b c e : Char} {n : Nat} (h : parseDigits [a, b, c, e] = some n) : n ≤ 9999 := by
  have h1 := (writesNumber_iff _ _).2 h
  obtain ⟨-, h2, h3⟩ := h1
  have ha := h2 a (by simp)
  have hb := h2 b (by simp)
  have hc := h2 c (by simp)
  have he := h2 e (by simp)
  simp only [decimalValue, List.foldl_cons, List.foldl_nil] at h3
  have e0 : '0'.toNat = 48 := rfl
  have e9 : '9'.toNat = 57 := rfl
  omega

theorem reads_year {year : Str} {v : I32} (h1 : year.length = 4) (h2 : ∀ c ∈ year, digit c = true) :
    parseI32 year = some v ↔ ∃ n : Nat, parseDigits year = some n ∧ v.val = n := by
  have e : parseSigned (-2147483648) 2147483647 year = (parseDigits year).bind fun n =>
      if -2147483648 ≤ (n : Int) ∧ (n : Int) ≤ 2147483647 then some (n : Int) else none := by
    unfold parseSigned
    simp only
    split
    · exact absurd (h2 '-' (by simp)) (by decide)
    · exact absurd (h2 '+' (by simp)) (by decide)
    · rfl
  unfold parseI32
  rw [e]
  cases hp : parseDigits year with
  | none => simp
  | some n =>
    have hn : n ≤ 9999 := by
      rcases year with _ | ⟨a, _ | ⟨b, _ | ⟨c, _ | ⟨e, _ | ⟨f, t⟩⟩⟩⟩⟩ <;> simp at h1
      exact reads_four hp
    have hr : -2147483648 ≤ (n : Int) ∧ (n : Int) ≤ 2147483647 := by omega
    simp only [Option.bind_some, if_pos hr, dif_pos hr, Option.some.injEq, exists_eq_left']
    constructor
    · rintro rfl; rfl
    · intro h; exact Subtype.ext h.symm

theorem reads_day {day : Str} {n : Nat} (h1 : day.length ≤ 2) (h2 : ∀ c ∈ day, digit c = true) :
    parseUnsigned 4294967295 day = some n ↔ parseDigits day = some n := by
  have hplus : dropPlus day = day := by
    cases day with
    | nil => rfl
    | cons c cs =>
      unfold dropPlus
      split
      · exact absurd (h2 '+' (by simp_all)) (by decide)
      · rfl
  unfold parseUnsigned
  rw [hplus]
  cases hp : parseDigits day with
  | none => simp
  | some m =>
    have hm : m ≤ 99 := by
      obtain ⟨h3, h4, h5⟩ := (writesNumber_iff _ _).2 hp
      have e0 : '0'.toNat = 48 := rfl
      have e9 : '9'.toNat = 57 := rfl
      rcases day with _ | ⟨a, _ | ⟨b, _ | ⟨c, t⟩⟩⟩
      · exact absurd rfl h3
      · have ha := h4 a (by simp)
        simp only [decimalValue, List.foldl_cons, List.foldl_nil] at h5
        omega
      · have ha := h4 a (by simp)
        have hb := h4 b (by simp)
        simp only [decimalValue, List.foldl_cons, List.foldl_nil] at h5
        omega
      · simp at h1
    have : m ≤ 4294967295 := by omega
    simp [this]

theorem reads_groups {s : Str} {m : MState} {year month day : Str} {d : Date} (h : matchAt Date.hungarianRe s = some m)
    (g1 : (m.group 1).map Prod.snd = some year) (g2 : (m.group 2).map Prod.snd = some month)
    (g3 : (m.group 3).map Prod.snd = some day) (hy : year.length = 4) (hy' : ∀ c ∈ year, digit c = true)
    (hd : day.length ≤ 2) (hd' : ∀ c ∈ day, digit c = true) :
    Date.fromHungarian s = some d ↔ RealDate d ∧ (∃ n : Nat, WritesNumber year n ∧ d.year = n) ∧
      monthNames[d.month - 1]? = some month ∧ WritesNumber day d.day := by
  unfold Date.fromHungarian
  rw [h]
  cases hg1 : m.group 1 with
  | none => rw [hg1] at g1; simp at g1
  | some p1 =>
  cases hg2 : m.group 2 with
  | none => rw [hg2] at g2; simp at g2
  | some p2 =>
  cases hg3 : m.group 3 with
  | none => rw [hg3] at g3; simp at g3
  | some p3 =>
  rw [hg1] at g1
  rw [hg2] at g2
  rw [hg3] at g3
  simp only [Option.map_some, Option.some.injEq] at g1 g2 g3
  simp only [Option.bind_eq_bind, Option.bind_some, hg1, hg2, hg3, g1, g2, g3, Option.bind_eq_some_iff]
  simp only [reads_year hy hy', reads_day hd hd', month_iff, ofYmd_iff, ← writesNumber_iff]
  constructor
  · rintro ⟨yv, ⟨n, h1, h2⟩, mv, h3, dv, h4, rfl, h5⟩
    exact ⟨h5, ⟨n, h1, h2⟩, h3.2, h4⟩
  · rintro ⟨h5, ⟨n, h1, h2⟩, h3, h4⟩
    obtain ⟨v, hv⟩ : ∃ v : I32, parseI32 year = some v := by
      have hn : n ≤ 9999 := by
        rcases year with _ | ⟨a, _ | ⟨b, _ | ⟨c, _ | ⟨e, _ | ⟨f, t⟩⟩⟩⟩⟩ <;> simp at hy
        exact reads_four ((writesNumber_iff _ _).1 h1)
      exact ⟨⟨n, by omega⟩, (reads_year hy hy').2 ⟨n, (writesNumber_iff _ _).1 h1, rfl⟩⟩
    obtain ⟨n', h6, h7⟩ := (reads_year hy hy').1 hv
    have : n' = n := by
      rw [(writesNumber_iff _ _).1 h1] at h6
      exact (Option.some.inj h6).symm
    subst this
    refine ⟨v, ⟨n', h1, h7⟩, d.month, ⟨h5.1, h3⟩, d.day, h4, ?_, ?_⟩
    · rw [h7, ← h2]
    · rw [h7, ← h2]; exact h5

/-- C125: exactly these texts are read: after the day there is one more character, no line break; it is no digit if the day has
one digit, except at the end of a line.
Missing: the exception, see `C125_violated`. -/
theorem C125_exact_partial (s : Str) (d : Date) :
    Date.fromHungarian s = some d ↔ ∃ day y rest, BeginsWithDate s d day (y :: rest) ∧ y ≠ '\n' ∧
      (day.length = 2 ∨ day.length = 1 ∧ (digit y = false ∨ rest = [] ∨ rest.head? = some '\n')) := by
  constructor
  · intro h
    cases hm : matchAt Date.hungarianRe s with
    | none =>
      unfold Date.fromHungarian at h
      rw [hm] at h; simp at h
    | some m =>
      obtain ⟨year, x, month, day, y, rest, e, h1, h2, h3, h4, h5, g1, g2, g3, hx, hy⟩ := hungarian_match hm
      obtain ⟨h6, ⟨n, h7, h8⟩, h9, h10⟩ := (reads_groups hm g1 g2 g3 h1 h2 (by omega) h4).1 h
      have e' : s = year ++ x :: ' ' :: month ++ ' ' :: day ++ y :: rest := by rw [e]; simp
      refine ⟨day, y, rest, ⟨h6, year, month, x, n, e', hx, h1, h7, h8, h9, h10⟩, hy, ?_⟩
      rcases h3 with h3 | h3
      · refine .inr ⟨h3, ?_⟩
        by_contra hc
        push Not at hc
        obtain ⟨c1, c2, c3⟩ := hc
        obtain ⟨p, rfl⟩ : ∃ p, day = [p] := by
          rcases day with _ | ⟨p, _ | ⟨q, t⟩⟩ <;> simp at h3
          exact ⟨p, rfl⟩
        cases rest with
        | nil => exact c2 rfl
        | cons z rest =>
          have hmon := month_shape month (List.mem_of_getElem? h9)
          have hz : z ≠ '\n' := fun e => c3 (by rw [e]; rfl)
          obtain ⟨m', e2, -, -, g⟩ := hungarian_run (rest := rest) (day := [p, y]) h1 h2 hx hmon.1 h5 hz
            (by
              intro c hc
              simp only [List.mem_cons, List.not_mem_nil, or_false] at hc
              rcases hc with rfl | rfl
              · exact h4 _ (by simp)
              · simpa using c1) (.inl rfl)
          have e3 : year ++ x :: ' ' :: month ++ ' ' :: [p, y] ++ z :: rest = s := by rw [e']; simp
          rw [e3, hm] at e2
          cases e2
          rw [g3] at g
          simp at g
      · exact .inl h3
  · rintro ⟨day, y, rest, ⟨hreal, year, month, x, n, rfl, hx, hl, hyear, hn, hmon, hday⟩, hy, hd⟩
    have hmne : month ≠ [] ∧ ' ' ∉ month := by
      have := month_shape month (List.mem_of_getElem? hmon)
      exact ⟨this.1, fun hm => by simpa using this.2 _ hm⟩
    obtain ⟨m, e, g1, g2, g3⟩ := hungarian_run (rest := rest) hl (digit_of_allDigits hyear.2.1) hx hmne.1 hmne.2 hy
      (digit_of_allDigits hday.2.1) hd
    exact (reads_groups e g1 g2 g3 hl (digit_of_allDigits hyear.2.1) (by omega) (digit_of_allDigits hday.2.1)).2
      ⟨hreal, ⟨n, hyear, hn⟩, hmon, hday⟩

/-- A text that ends with the day: the day is cut in two. -/
example : Date.fromHungarian str!"2021. május 13" = some ⟨2021, 5, 1⟩ ∧
    Date.fromHungarian str!"2021. május 13." = some ⟨2021, 5, 13⟩ ∧ Date.fromHungarian str!"2021. május 1٣." = none := by
  decide +kernel

theorem C125_violated : ¬ C125_statement := by
  intro h
  obtain ⟨day, rest, ⟨-, year, month, x, y, e, hx, hl, hyear, hy, hmon, hday⟩, hr⟩ := h str!"2021. május 13" ⟨2021, 5, 1⟩ (by decide +kernel)
  simp only [monthNames, List.getElem?_cons_succ, List.getElem?_cons_zero, Option.some.injEq] at hmon
  subst hmon
  obtain ⟨a, b, c, d, rfl⟩ : ∃ a b c d, year = [a, b, c, d] := by
    rcases year with _ | ⟨a, _ | ⟨b, _ | ⟨c, _ | ⟨d, _ | ⟨f, t⟩⟩⟩⟩⟩ <;> simp at hl
    exact ⟨a, b, c, d, rfl⟩
  simp only [List.cons_append, List.nil_append, List.cons.injEq] at e
  obtain ⟨-, -, -, -, -, -, -, -, -, -, -, -, e⟩ := e
  rcases day with _ | ⟨p, _ | ⟨q, t⟩⟩
  · exact hday.1 rfl
  · simp at e
    exact hr ⟨'3', [], e.2.symm, by decide⟩
  · simp at e
    obtain ⟨rfl, rfl, rfl, -⟩ := e
    exact absurd hday.2.2 (by decide)

/-- The conditions of the theorem for the date of a gazette. -/
example : BeginsWithDate str!"2021. május 7., péntek" ⟨2021, 5, 7⟩ str!"7" str!"., péntek" :=
  ⟨⟨by decide, by decide, by decide, .inl (by decide)⟩, str!"2021", str!"május", '.', 2021, rfl, by decide, rfl,
    ⟨by decide, by simp [AllDigits], by decide⟩, rfl, rfl, ⟨by decide, by simp [AllDigits], by decide⟩⟩

end HunLaw.Props
