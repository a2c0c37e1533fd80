import Verif.Model.Serde
import Verif.Spec.Serde
import Verif.Lemmas.Cache
import Verif.Lemmas.Builder
import Verif.Props.MkAct
import Verif.Props.Reference

/-!
Lemmas about storing and reading.
-/

set_option autoImplicit false

namespace HunLaw.Serde

open HunLaw Spec Semantic

/-- What is written is read back. -/
def Lossless {α : Type} (c : Codec α) (ok : α → Prop) : Prop := ∀ x, ok x → c.de (c.ser x) = some x

/-- Only such values are read. -/
def Sound {α : Type} (c : Codec α) (ok : α → Prop) : Prop := ∀ v x, c.de v = some x → ok x

/-- No value is written as `null`. -/
def NonNull {α : Type} (c : Codec α) : Prop := ∀ x, c.ser x ≠ .null

abbrev all {α : Type} : α → Prop := fun _ => True

/-! ### Fields -/

theorem entries_append (a b : List (Str × Value)) (k : Str) : entries (a ++ b) k = entries a k ++ entries b k := by
  simp [entries]

theorem entries_put {α : Type} (c : Codec α) (k' k : Str) (x : α) :
    entries (put c k' x) k = if k' = k then [c.ser x] else [] := by
  simp only [entries, put, List.filter_cons, List.filter_nil]
  split <;> simp_all

theorem entries_putSome {α : Type} (c : Codec α) (k' k : Str) (x : Option α) :
    entries (putSome c k' x) k = if k' = k then (x.map c.ser).toList else [] := by
  cases x with
  | none => simp [entries, putSome]
  | some x =>
    have := entries_put c k' k x
    simpa [put, putSome] using this

theorem entries_putUnless {α : Type} (s : Bool) (c : Codec α) (k' k : Str) (x : α) :
    entries (putUnless s c k' x) k = if k' = k then (if s then [] else [c.ser x]) else [] := by
  cases s with
  | true => simp [entries, putUnless]
  | false =>
    have := entries_put c k' k x
    simpa [put, putUnless] using this

theorem required_of {α : Type} {c : Codec α} {ok : α → Prop} (hc : Lossless c ok) {m : List (Str × Value)} {k : Str}
    {x : α} (hx : ok x) (h : entries m k = [c.ser x]) : required c m k = some x := by
  rw [required, h]
  exact hc x hx

theorem optional_of {α : Type} {c : Codec α} {ok : α → Prop} (hc : Lossless c ok) (hn : NonNull c)
    {m : List (Str × Value)} {k : Str} {x : Option α} (hx : ∀ y, x = some y → ok y)
    (h : entries m k = (x.map c.ser).toList) : optional c m k = some x := by
  rw [optional, h]
  cases x with
  | none => rfl
  | some x =>
    have : optionDe c (c.ser x) = (c.de (c.ser x)).map some := by
      have := hn x
      unfold optionDe
      split <;> simp_all
    simp only [Option.map_some, Option.toList_some, this, hc x (hx x rfl)]

theorem defaulted_of {α : Type} {c : Codec α} {ok : α → Prop} (hc : Lossless c ok) {d : α} {m : List (Str × Value)}
    {k : Str} {x : α} {s : Bool} (hs : s = true → x = d) (hx : ok x) (h : entries m k = if s then [] else [c.ser x]) :
    defaulted c d m k = some x := by
  rw [defaulted, h]
  cases s with
  | true => simp [hs rfl]
  | false => exact hc x hx

theorem required_sound {α : Type} {c : Codec α} {ok : α → Prop} (hc : Sound c ok) {m : List (Str × Value)} {k : Str}
    {x : α} (h : required c m k = some x) : ok x := by
  unfold required at h
  split at h
  · exact hc _ _ h
  · cases h

theorem optional_sound {α : Type} {c : Codec α} {ok : α → Prop} (hc : Sound c ok) {m : List (Str × Value)} {k : Str}
    {x : Option α} (h : optional c m k = some x) : ∀ y, x = some y → ok y := by
  unfold optional at h
  split at h
  · cases h
    simp
  · unfold optionDe at h
    split at h
    · cases h
      simp
    · rintro y rfl
      simp only [Option.map_eq_some_iff, Option.some.injEq, exists_eq_right] at h
      exact hc _ _ h
  · cases h

theorem defaulted_sound {α : Type} {c : Codec α} {ok : α → Prop} (hc : Sound c ok) {d : α} (hd : ok d)
    {m : List (Str × Value)} {k : Str} {x : α} (h : defaulted c d m k = some x) : ok x := by
  unfold defaulted at h
  split at h
  · cases h
    exact hd
  · exact hc _ _ h
  · cases h

/-! ### Basic types -/

theorem text_lossless : Lossless text all := fun _ _ => rfl
theorem text_nonNull : NonNull text := fun _ => by simp [text]
theorem boolean_lossless : Lossless boolean all := fun _ _ => rfl
theorem double_lossless : Lossless double all := fun _ _ => rfl
theorem character_lossless : Lossless character all := fun _ _ => rfl
theorem natural_lossless : Lossless natural all := fun n _ => by simp [natural]
theorem finite_lossless (n : Nat) : Lossless (finite n) all := fun x _ => by simp [finite]
theorem finite_nonNull (n : Nat) : NonNull (finite n) := fun x => by simp [finite]
theorem i16_lossless : Lossless i16 all := fun x _ => by simp [i16, x.property]
theorem i32_lossless : Lossless i32 all := fun x _ => by simp [i32, x.property]

theorem list_lossless {α : Type} {c : Codec α} {ok : α → Prop} (hc : Lossless c ok) :
    Lossless (list c) fun l => ∀ x ∈ l, ok x := by
  intro l hl
  show (l.map c.ser).mapM c.de = some l
  induction l with
  | nil => rfl
  | cons x l ih =>
    rw [List.map_cons, List.mapM_cons, hc x (hl x (by simp)), ih fun y hy => hl y (by simp [hy])]
    rfl

theorem mapM_all {α β : Type} {f : α → Option β} {ok : β → Prop} (hf : ∀ a b, f a = some b → ok b) {l : List α}
    {r : List β} (h : l.mapM f = some r) : ∀ x ∈ r, ok x := by
  induction l generalizing r with
  | nil => cases h; simp
  | cons a l ih =>
    rw [List.mapM_cons] at h
    cases h1 : f a with
    | none => rw [h1] at h; cases h
    | some b =>
      cases h2 : l.mapM f with
      | none => rw [h1, h2] at h; cases h
      | some r' =>
        rw [h1, h2] at h
        cases h
        intro x hx
        rcases List.mem_cons.1 hx with rfl | hx
        · exact hf _ _ h1
        · exact ih h2 x hx

theorem list_sound {α : Type} {c : Codec α} {ok : α → Prop} (hc : Sound c ok) :
    Sound (list c) fun l => ∀ x ∈ l, ok x := by
  intro v l h
  cases v <;> first | cases h | skip
  exact mapM_all hc h

theorem viaText_lossless {α : Type} {display : α → Str} {parse : Str → Option α} {ok : α → Prop}
    (h : ∀ x, ok x → parse (display x) = some x) : Lossless (viaText display parse) ok := h

theorem viaText_nonNull {α : Type} {display : α → Str} {parse : Str → Option α} : NonNull (viaText display parse) :=
  fun x => by simp [viaText]

theorem viaText_sound {α : Type} {display : α → Str} {parse : Str → Option α} {ok : α → Prop}
    (h : ∀ s x, parse s = some x → ok x) : Sound (viaText display parse) ok := by
  intro v x hx
  cases v <;> first | cases hx | skip
  exact h _ _ hx

/-! ### Dates -/

theorem parseDigitsFrom_zeros (k : Nat) (s : Str) : parseDigitsFrom 0 (List.replicate k '0' ++ s) = parseDigitsFrom 0 s := by
  induction k with
  | zero => rfl
  | succ k ih =>
    rw [List.replicate_succ, List.cons_append, parseDigitsFrom, if_pos (by decide)]
    exact ih

theorem parseDigits_padTo (w n : Nat) : parseDigits (Date.padTo w (dec n)) = some n := by
  have h := parseDigits_dec n
  have hne : dec n ≠ [] := dec_ne_nil n
  have e : ∀ s : Str, s ≠ [] → parseDigits s = parseDigitsFrom 0 s := by
    intro s hs
    cases s with
    | nil => exact absurd rfl hs
    | cons => rfl
  rw [e _ hne] at h
  rw [e _ (by simp [Date.padTo, hne]), Date.padTo, parseDigitsFrom_zeros, h]

theorem padTo_digits (w n : Nat) : ∀ c ∈ Date.padTo w (dec n), isDigit c = true := by
  intro c hc
  rcases List.mem_append.1 hc with hc | hc
  · rw [List.mem_replicate] at hc
    rw [hc.2]
    decide
  · exact dec_digits n c hc

theorem takeWhile_digits {s t : Str} (hs : ∀ c ∈ s, isDigit c = true) (ht : ∀ c, t.head? = some c → isDigit c = false) :
    (s ++ t).takeWhile isDigit = s := by
  rw [List.takeWhile_append_of_pos hs]
  have : t.takeWhile isDigit = [] := by
    cases t with
    | nil => rfl
    | cons c t => rw [List.takeWhile_cons, ht c rfl]; rfl
  rw [this, List.append_nil]

theorem scanNumber_padTo {w n : Nat} {max : Option Nat} {t : Str} (hm : ∀ k, max = some k → (Date.padTo w (dec n)).length ≤ k)
    (ht : ∀ c, t.head? = some c → isDigit c = false) :
    scanNumber max (Date.padTo w (dec n) ++ t) = some (n, t) := by
  have h1 := takeWhile_digits (padTo_digits w n) ht
  unfold scanNumber
  cases max with
  | none => simp only [h1, parseDigits_padTo, List.drop_left]
  | some k =>
    simp only [h1, List.take_of_length_le (hm k rfl), parseDigits_padTo, List.drop_left]

theorem dec_length_two {n : Nat} (h : n ≤ 99) : (dec n).length ≤ 2 := by
  have : ∀ n : Fin 100, (dec n.val).length ≤ 2 := by decide +kernel
  exact this ⟨n, by omega⟩

theorem decAux_length (f n k : Nat) (h : n < 10 ^ (k + 1)) : (decAux f n).length ≤ k + 1 := by
  induction k generalizing f n with
  | zero =>
    cases f with
    | zero => simp [decAux]
    | succ f => simp [decAux, show n < 10 by omega]
  | succ k ih =>
    cases f with
    | zero => simp [decAux]
    | succ f =>
      rw [decAux]
      split
      · simp
      · have := ih f (n / 10) (by
          rw [Nat.div_lt_iff_lt_mul (by omega)]
          rw [Nat.pow_succ] at h
          exact h)
        simp only [List.length_append, List.length_cons, List.length_nil]
        omega

theorem padTo_length {w n : Nat} (h : (dec n).length ≤ w) : (Date.padTo w (dec n)).length = w := by
  simp only [Date.padTo, List.length_append, List.length_replicate]
  omega

theorem scanYear_display (y : Int) {t : Str} (ht : ∀ c, t.head? = some c → isDigit c = false) :
    scanYear (Date.displayYear y ++ t) = some (y, t) := by
  unfold Date.displayYear
  split
  · rename_i h
    have hl : (dec y.natAbs).length ≤ 4 := by
      unfold dec
      exact decAux_length _ _ 3 (by omega)
    have h1 := scanNumber_padTo (w := 4) (n := y.natAbs) (max := some 4) (t := t)
      (fun k hk => by cases hk; rw [padTo_length hl]) ht
    have hd : ∀ c, (Date.padTo 4 (dec y.natAbs) ++ t).head? = some c → isDigit c = true := by
      intro c hc
      have hne : Date.padTo 4 (dec y.natAbs) ≠ [] := by simp [Date.padTo, dec_ne_nil]
      cases hp : Date.padTo 4 (dec y.natAbs) with
      | nil => exact absurd hp hne
      | cons a l =>
        rw [hp] at hc
        cases hc
        exact padTo_digits 4 y.natAbs c (by rw [hp]; simp)
    unfold scanYear
    split
    · rename_i e
      rw [e] at hd
      have := hd '-' rfl
      simp [not_isDigit_minus] at this
    · rename_i e
      rw [e] at hd
      have := hd '+' rfl
      simp [not_isDigit_plus] at this
    · rw [h1]
      simp only [Option.map_some, Option.some.injEq, Prod.mk.injEq, and_true]
      omega
  · have h1 := scanNumber_padTo (w := 4) (n := y.natAbs) (max := none) (t := t) (fun k hk => by cases hk) ht
    rename_i h
    by_cases hy : y < 0
    · simp only [if_pos hy, List.cons_append, scanYear, h1, Option.map_some, Option.some.injEq, Prod.mk.injEq, and_true]
      omega
    · simp only [if_neg hy, List.cons_append, scanYear, h1, Option.map_some, Option.some.injEq, Prod.mk.injEq, and_true]
      omega

theorem date_lossless : Lossless date ProperDate := by
  refine viaText_lossless fun d hd => ?_
  obtain ⟨hr, h1, h2⟩ := hd
  have hm : d.month ≤ 12 := hr.2.1
  have hday : d.day ≤ 99 := by
    have := hr.2.2.2
    have key : ∀ k, monthDays.getD k 0 ≤ 31 := by
      intro k
      by_cases hk : k < 12
      · have : ∀ k : Fin 12, monthDays.getD k.val 0 ≤ 31 := by decide
        exact this ⟨k, hk⟩
      · rw [List.getD_eq_getElem?_getD, List.getElem?_eq_none (by simp only [monthDays, List.length_cons, List.length_nil]; omega)]
        simp
    have := key (d.month - 1)
    omega
  have l1 : (Date.padTo 2 (dec d.month)).length ≤ 2 := by rw [padTo_length (dec_length_two (by omega))]
  have l2 : (Date.padTo 2 (dec d.day)).length ≤ 2 := by rw [padTo_length (dec_length_two hday)]
  have hy : ∀ t c, (str!"-" ++ t : Str).head? = some c → isDigit c = false := by
    intro t c h
    cases h
    decide
  unfold parseDate Date.display
  simp only [List.append_assoc]
  rw [scanYear_display d.year (hy _)]
  simp only [Option.bind_eq_bind, Option.bind_some, List.cons_append, List.nil_append, scanHyphen]
  rw [scanNumber_padTo (fun k hk => by cases hk; exact l1) (t := '-' :: Date.padTo 2 (dec d.day)) (hy _)]
  simp only [Option.bind_some]
  have := scanNumber_padTo (w := 2) (n := d.day) (max := some 2) (t := []) (fun k hk => by cases hk; exact l2) (by simp)
  rw [List.append_nil] at this
  rw [this]
  simp only [Option.bind_some]
  rw [if_pos ⟨trivial, h1, h2⟩]
  exact (Props.ofYmd_iff _ _ _ _).2 ⟨rfl, hr⟩

theorem date_sound : Sound date ProperDate := by
  refine viaText_sound fun s d h => ?_
  unfold parseDate at h
  obtain ⟨⟨y, s1⟩, -, h⟩ := bind_some_split h
  obtain ⟨s2, -, h⟩ := bind_some_split h
  obtain ⟨⟨m, s3⟩, -, h⟩ := bind_some_split h
  obtain ⟨s4, -, h⟩ := bind_some_split h
  obtain ⟨⟨n, s5⟩, -, h⟩ := bind_some_split h
  simp only at h
  split at h
  · rename_i hc
    obtain ⟨rfl, hr⟩ := (Props.ofYmd_iff _ _ _ _).1 h
    exact ⟨hr, hc.2⟩
  · cases h

theorem date_nonNull : NonNull date := viaText_nonNull

/-! ### Identifiers -/

theorem numericId_lossless : Lossless numericId all := viaText_lossless fun i _ => NumericId.parse_display i
theorem hunChar_lossless : Lossless hunChar all := viaText_lossless fun i _ => HunChar.parse_display i
theorem articleId_lossless : Lossless articleId all := viaText_lossless fun i _ => ArticleId.parse_display i
theorem prefixedId_lossless : Lossless prefixedId PlainPrefixed :=
  viaText_lossless fun _ h => PrefixedId.parse_display h.1 h.2
theorem prefixedId_sound : Sound prefixedId PlainPrefixed :=
  viaText_sound fun s p h => ⟨(Props.C09_prefixed_parse_plain s p h).1, (Props.C09_prefixed_parse_plain s p h).2.1⟩

theorem numericId_nonNull : NonNull numericId := viaText_nonNull

theorem paragraphId_lossless : Lossless paragraphId all := by
  rintro ⟨_ | i⟩ -
  · rfl
  · show (optionDe numericId (numericId.ser i)).map ParagraphId.mk = _
    have : optionDe numericId (numericId.ser i) = (numericId.de (numericId.ser i)).map some := rfl
    rw [this, numericId_lossless i trivial]
    rfl

/-- The entries of a map written field by field. -/
macro "ents" : tactic =>
  `(tactic| (simp [entries_append, entries_put, entries_putSome, entries_putUnless]))

theorem actId_lossless : Lossless actId all := by
  intro a _
  simp only [actId, fields, Option.bind_eq_bind, Option.bind_some]
  rw [required_of (x := a.year) i16_lossless trivial ?_]
  rw [required_of (x := a.number) i32_lossless trivial ?_]
  · simp
  all_goals ents

theorem actId_nonNull : NonNull actId := fun _ => by simp [actId]

theorem range_lossless {α : Type} [DecidableEq α] {c : Codec α} {ok : α → Prop} (hc : Lossless c ok)
    (hm : ∀ m, c.de (.map m) = none) : Lossless (range c) fun r => ok r.start ∧ ok r.fin := by
  rintro ⟨a, b⟩ ⟨ha, hb⟩
  by_cases h : a = b
  · subst h
    simp [range, hc a ha]
  · simp only [range, ne_eq, h, not_false_eq_true, if_true, hm, fields, Option.bind_eq_bind, Option.bind_some]
    rw [required_of (x := a) hc ha ?_]
    rw [required_of (x := b) hc hb ?_]
    · simp
    all_goals ents

theorem range_sound {α : Type} [DecidableEq α] {c : Codec α} {ok : α → Prop} (hc : Sound c ok) :
    Sound (range c) fun r => ok r.start ∧ ok r.fin := by
  intro v r h
  simp only [range] at h
  split at h
  · rename_i x hx
    cases h
    exact ⟨hc _ _ hx, hc _ _ hx⟩
  · obtain ⟨m, -, h⟩ := bind_some_split h
    obtain ⟨a, h1, h⟩ := bind_some_split h
    obtain ⟨b, h2, h⟩ := bind_some_split h
    cases h
    exact ⟨required_sound hc h1, required_sound hc h2⟩

theorem range_nonNull {α : Type} [DecidableEq α] {c : Codec α} (hc : NonNull c) : NonNull (range c) := by
  intro r
  simp only [range]
  split
  · simp
  · exact hc _

theorem viaText_map {α : Type} {display : α → Str} {parse : Str → Option α} (m : List (Str × Value)) :
    (viaText display parse).de (.map m) = none := rfl

theorem numericRange_lossless : Lossless (range numericId) all := fun r _ =>
  range_lossless numericId_lossless viaText_map r ⟨trivial, trivial⟩
theorem articleRange_lossless : Lossless (range articleId) all := fun r _ =>
  range_lossless articleId_lossless viaText_map r ⟨trivial, trivial⟩
theorem numericRange_nonNull : NonNull (range numericId) := range_nonNull viaText_nonNull
theorem articleRange_nonNull : NonNull (range articleId) := range_nonNull viaText_nonNull

theorem numericParse_none {s : Str} (h : ∀ c t, s = c :: t → isDigit c = false) : NumericId.parse s = none := by
  cases hp : NumericId.parse s with
  | none => rfl
  | some i =>
    obtain ⟨ds, tail, rfl, h1, h2, -⟩ := (Props.C05_numeric_parse_iff s i).1 hp
    cases ds with
    | nil => exact absurd rfl h1
    | cons c t =>
      have := h c (t ++ tail) rfl
      rw [isDigit_iff.2 (h2 c (by simp))] at this
      cases this

/-- The ranges of other identifiers are not read as ranges of numbers. -/
theorem numericRange_none {α : Type} [DecidableEq α] {display : α → Str} {parse : Str → Option α} (r : IdRange α)
    (h : ∀ x c t, display x = c :: t → isDigit c = false) : (range numericId).de ((range (viaText display parse)).ser r) = none := by
  have hn : ∀ x, numericId.de ((viaText display parse).ser x) = none := fun x => numericParse_none (h x)
  obtain ⟨a, b⟩ := r
  by_cases he : a = b
  · subst he
    simp only [range, ne_eq, not_true_eq_false, if_false, hn]
    rfl
  · have e : numericId.de (.map (put (viaText display parse) str!"start" a ++ put (viaText display parse) str!"end" b)) = none := rfl
    simp only [range, ne_eq, he, not_false_eq_true, if_true, e, fields, Option.bind_eq_bind, Option.bind_some]
    have : required numericId (put (viaText display parse) str!"start" a ++ put (viaText display parse) str!"end" b)
        str!"start" = none := by
      have : entries (put (viaText display parse) str!"start" a ++ put (viaText display parse) str!"end" b)
        str!"start" = [(viaText display parse).ser a] := by ents
      rw [required, this]
      exact hn a
    rw [this]
    rfl

theorem head_of_all {p : Char → Prop} {s : Str} (h : ∀ c ∈ s, p c) : ∀ c t, s = c :: t → p c := by
  rintro c t rfl
  exact h c (by simp)

theorem point_lossless : Lossless point all := by
  rintro (r | r) -
  · simp [point, numericRange_lossless r trivial]
  · have h := numericRange_none (parse := HunChar.parse) r fun x => head_of_all (Props.hc_not_digit x).2
    have h2 := range_lossless hunChar_lossless viaText_map r ⟨trivial, trivial⟩
    simp only [point]
    rw [show (range numericId).de ((range hunChar).ser r) = none from h, h2]
    rfl

theorem point_nonNull : NonNull point := by
  rintro (r | r)
  · exact numericRange_nonNull r
  · exact range_nonNull viaText_nonNull r

/-- The ends of a subpoint part are of plain letters. -/
def SubpointOk : RefPartSubpoint → Prop
  | .numeric _ => True
  | .alphabetic r => PlainPrefixed r.start ∧ PlainPrefixed r.fin

theorem subpoint_lossless : Lossless subpoint SubpointOk := by
  rintro (r | r) hr
  · simp [subpoint, numericRange_lossless r trivial]
  · have h := numericRange_none (parse := PrefixedId.parse) r fun x => head_of_all (Props.pfx_not_digit x).2
    have h2 := range_lossless prefixedId_lossless viaText_map r hr
    simp only [subpoint]
    rw [show (range numericId).de ((range prefixedId).ser r) = none from h, h2]
    rfl

theorem subpoint_nonNull : NonNull subpoint := by
  rintro (r | r)
  · exact numericRange_nonNull r
  · exact range_nonNull viaText_nonNull r

theorem subpoint_sound : Sound subpoint SubpointOk := by
  intro v x h
  simp only [subpoint] at h
  split at h
  · cases h
    trivial
  · simp only [Option.map_eq_some_iff] at h
    obtain ⟨r, h', rfl⟩ := h
    exact range_sound prefixedId_sound _ _ h'

/-! ### References -/

theorem plainSubpoint_iff (r : Ref) : PlainSubpoint r ↔ ∀ s, r.subpoint = some s → SubpointOk s := by
  constructor
  · rintro h (s | s) hs
    · trivial
    · exact h s hs
  · intro h s hs
    exact h _ hs

/-- The fields of a reference are read as they are and then checked. -/
theorem reference_checked (r : Ref) (hr : PlainSubpoint r) : reference.de (reference.ser r) = r.tryFrom := by
  simp only [reference, fields, Option.bind_eq_bind, Option.bind_some]
  rw [optional_of (x := r.act) actId_lossless actId_nonNull (fun _ _ => trivial) ?_]
  rw [Option.bind_some, optional_of (x := r.article) articleRange_lossless articleRange_nonNull (fun _ _ => trivial) ?_]
  rw [Option.bind_some, optional_of (x := r.paragraph) numericRange_lossless numericRange_nonNull (fun _ _ => trivial) ?_]
  rw [Option.bind_some, optional_of (x := r.point) point_lossless point_nonNull (fun _ _ => trivial) ?_]
  rw [Option.bind_some, optional_of (x := r.subpoint) subpoint_lossless subpoint_nonNull ((plainSubpoint_iff r).1 hr) ?_]
  · rfl
  all_goals ents

theorem reference_lossless : Lossless reference ProperRef := fun r hr => by
  rw [reference_checked r hr.2]
  exact Ref.tryFrom_eq_some.2 ⟨rfl, hr.1⟩

theorem reference_sound : Sound reference ProperRef := by
  intro v r h
  simp only [reference] at h
  obtain ⟨m, -, h⟩ := bind_some_split h
  obtain ⟨a, -, h⟩ := bind_some_split h
  obtain ⟨b, -, h⟩ := bind_some_split h
  obtain ⟨c, -, h⟩ := bind_some_split h
  obtain ⟨d, -, h⟩ := bind_some_split h
  obtain ⟨e, he, h⟩ := bind_some_split h
  obtain ⟨rfl, hw⟩ := Ref.tryFrom_eq_some.1 h
  exact ⟨hw, (plainSubpoint_iff _).2 (optional_sound subpoint_sound he)⟩

theorem structuralParentRef_lossless : Lossless structuralParentRef all := by
  rintro x -
  cases x <;>
    simp [structuralParentRef, variant, variantOf, numericId_lossless _ trivial, numericRange_lossless _ trivial,
      text_lossless _ trivial]

theorem structuralParentRef_nonNull : NonNull structuralParentRef := by
  intro x
  cases x <;> simp [structuralParentRef, variant]

theorem structuralElementRef_lossless : Lossless structuralElementRef all := by
  rintro x -
  cases x <;>
    simp [structuralElementRef, variant, variantOf, numericId_lossless _ trivial, numericRange_lossless _ trivial,
      text_lossless _ trivial, articleId_lossless _ trivial, articleRange_lossless _ trivial]

theorem structuralRef_lossless : Lossless structuralRef all := by
  intro r _
  simp only [structuralRef, fields, Option.bind_eq_bind, Option.bind_some]
  rw [optional_of (x := r.act) actId_lossless actId_nonNull (fun _ _ => trivial) ?_]
  rw [Option.bind_some, optional_of (x := r.book) numericId_lossless numericId_nonNull (fun _ _ => trivial) ?_]
  rw [Option.bind_some,
    optional_of (x := r.parent) structuralParentRef_lossless structuralParentRef_nonNull (fun _ _ => trivial) ?_]
  rw [Option.bind_some, required_of (x := r.element) structuralElementRef_lossless trivial ?_]
  rw [Option.bind_some,
    defaulted_of (x := r.titleOnly) (s := !r.titleOnly) boolean_lossless (by simp) trivial ?_]
  · rfl
  all_goals ents

/-! ### Semantic information -/

theorem outgoingRef_lossless : Lossless outgoingRef fun o => ProperRef o.reference := by
  intro o ho
  simp only [outgoingRef, fields, Option.bind_eq_bind, Option.bind_some]
  rw [required_of (x := o.start) natural_lossless trivial ?_]
  rw [Option.bind_some, required_of (x := o.fin) natural_lossless trivial ?_]
  rw [Option.bind_some, required_of (x := o.reference) reference_lossless ho ?_]
  · rfl
  all_goals ents

theorem outgoingRef_sound : Sound outgoingRef fun o => ProperRef o.reference := by
  intro v o h
  simp only [outgoingRef] at h
  obtain ⟨m, -, h⟩ := bind_some_split h
  obtain ⟨a, -, h⟩ := bind_some_split h
  obtain ⟨b, -, h⟩ := bind_some_split h
  obtain ⟨r, hr, h⟩ := bind_some_split h
  cases h
  exact required_sound reference_sound hr

theorem amendedPart_lossless : Lossless amendedPart all := by
  rintro x -
  cases x <;> simp [amendedPart]

theorem amendedSae_lossless : Lossless amendedSae fun x => ProperRef x.1 := by
  rintro ⟨r, p⟩ hr
  simp only [amendedSae, fields, Option.bind_eq_bind, Option.bind_some]
  rw [required_of (x := r) reference_lossless hr ?_]
  rw [Option.bind_some, defaulted_of (x := p) (s := p = .all) amendedPart_lossless (by simp) trivial ?_]
  · rfl
  all_goals ents

theorem amendedSae_sound : Sound amendedSae fun x => ProperRef x.1 := by
  intro v o h
  simp only [amendedSae] at h
  obtain ⟨m, -, h⟩ := bind_some_split h
  obtain ⟨r, hr, h⟩ := bind_some_split h
  obtain ⟨b, -, h⟩ := bind_some_split h
  cases h
  exact required_sound reference_sound hr

def ProperAmendedRef (x : TextAmendmentRef) : Prop :=
  (∀ r p, x = .sae r p → ProperRef r) ∧ ∀ r, x = .articleTitle r → ProperRef r

theorem textAmendmentRef_lossless : Lossless textAmendmentRef ProperAmendedRef := by
  rintro x ⟨h1, h2⟩
  cases x with
  | sae r p => simp [textAmendmentRef, variant, variantOf, amendedSae_lossless (r, p) (h1 r p rfl)]
  | structural r => simp [textAmendmentRef, variant, variantOf, structuralRef_lossless r trivial]
  | articleTitle r => simp [textAmendmentRef, variant, variantOf, reference_lossless r (h2 r rfl)]

theorem textAmendmentRef_sound : Sound textAmendmentRef ProperAmendedRef := by
  intro v x h
  simp only [textAmendmentRef] at h
  obtain ⟨⟨k, v⟩, -, h⟩ := bind_some_split h
  simp only at h
  split at h
  · simp only [Option.map_eq_some_iff] at h
    obtain ⟨⟨r, p⟩, h', rfl⟩ := h
    refine ⟨?_, by simp⟩
    rintro r' p' e
    cases e
    exact amendedSae_sound _ _ h'
  split at h
  · simp only [Option.map_eq_some_iff] at h
    obtain ⟨r, h', rfl⟩ := h
    exact ⟨by simp, by simp⟩
  split at h
  · simp only [Option.map_eq_some_iff] at h
    obtain ⟨r, h', rfl⟩ := h
    refine ⟨by simp, ?_⟩
    rintro r' e
    cases e
    exact reference_sound _ _ h'
  · cases h

theorem textAmendment_lossless : Lossless textAmendment fun a => ProperAmendedRef a.reference := by
  intro a ha
  simp only [textAmendment, fields, Option.bind_eq_bind, Option.bind_some]
  rw [required_of (x := a.reference) textAmendmentRef_lossless ha ?_]
  rw [Option.bind_some, required_of (x := a.fromText) text_lossless trivial ?_]
  rw [Option.bind_some, required_of (x := a.toText) text_lossless trivial ?_]
  · rfl
  all_goals ents

theorem textAmendment_sound : Sound textAmendment fun a => ProperAmendedRef a.reference := by
  intro v o h
  simp only [textAmendment] at h
  obtain ⟨m, -, h⟩ := bind_some_split h
  obtain ⟨r, hr, h⟩ := bind_some_split h
  obtain ⟨b, -, h⟩ := bind_some_split h
  obtain ⟨b, -, h⟩ := bind_some_split h
  cases h
  exact required_sound textAmendmentRef_sound hr

theorem dayInMonth_lossless : Lossless dayInMonth all := by
  rintro ⟨m, d⟩ -
  simp only [dayInMonth, fields, Option.bind_eq_bind, Option.bind_some]
  rw [optional_of (x := m) (finite_lossless 256) (finite_nonNull 256) (fun _ _ => trivial) ?_]
  rw [Option.bind_some, required_of (x := d) (finite_lossless 65536) trivial ?_]
  · rfl
  all_goals ents

def ProperDateType (x : EnforcementDateType) : Prop := ∀ d, x = .date d → ProperDate d

theorem enforcementDateType_lossless : Lossless enforcementDateType ProperDateType := by
  intro x hx
  cases x with
  | date d => simp [enforcementDateType, variant, variantOf, date_lossless d (hx d rfl)]
  | daysAfterPublication n => simp [enforcementDateType, variant, variantOf, finite_lossless 65536 n trivial]
  | dayInMonthAfterPublication m d =>
    simp [enforcementDateType, variant, variantOf, dayInMonth_lossless (m, d) trivial]

theorem enforcementDateType_sound : Sound enforcementDateType ProperDateType := by
  intro v x h
  simp only [enforcementDateType] at h
  obtain ⟨⟨k, v⟩, -, h⟩ := bind_some_split h
  simp only at h
  split at h
  · simp only [Option.map_eq_some_iff] at h
    obtain ⟨d, h', rfl⟩ := h
    rintro r' e
    cases e
    exact date_sound _ _ h'
  split at h
  · simp only [Option.map_eq_some_iff] at h
    obtain ⟨r, h', rfl⟩ := h
    simp [ProperDateType]
  split at h
  · simp only [Option.map_eq_some_iff] at h
    obtain ⟨r, h', rfl⟩ := h
    simp [ProperDateType]
  · cases h

def ProperEnforcement (e : EnforcementDate) : Prop :=
  (∀ r ∈ e.positions, ProperRef r) ∧ ProperDateType e.date ∧ ∀ d, e.inlineRepeal = some d → ProperDate d

theorem enforcementDate_lossless : Lossless enforcementDate ProperEnforcement := by
  rintro e ⟨h1, h2, h3⟩
  simp only [enforcementDate, fields, Option.bind_eq_bind, Option.bind_some]
  rw [defaulted_of (x := e.positions) (s := e.positions.isEmpty) (list_lossless reference_lossless) (by simp) h1 ?_]
  rw [Option.bind_some, defaulted_of (x := e.structuralPositions) (s := e.structuralPositions.isEmpty)
    (list_lossless structuralRef_lossless) (by simp) (fun _ _ => trivial) ?_]
  rw [Option.bind_some, defaulted_of (x := e.isDefault) (s := !e.isDefault) boolean_lossless (by simp) trivial ?_]
  rw [Option.bind_some, required_of (x := e.date) enforcementDateType_lossless h2 ?_]
  rw [Option.bind_some, optional_of (x := e.inlineRepeal) date_lossless date_nonNull h3 ?_]
  · rfl
  all_goals ents

theorem enforcementDate_sound : Sound enforcementDate ProperEnforcement := by
  intro v o h
  simp only [enforcementDate] at h
  obtain ⟨m, -, h⟩ := bind_some_split h
  obtain ⟨a, ha, h⟩ := bind_some_split h
  obtain ⟨b, -, h⟩ := bind_some_split h
  obtain ⟨c, -, h⟩ := bind_some_split h
  obtain ⟨d, hd, h⟩ := bind_some_split h
  obtain ⟨e, he, h⟩ := bind_some_split h
  cases h
  exact ⟨defaulted_sound (list_sound reference_sound) (by simp) ha, required_sound enforcementDateType_sound hd,
    optional_sound date_sound he⟩

def ProperRepeal (x : RepealRef) : Prop := ∀ r, x = .reference r → ProperRef r

theorem repealRef_lossless : Lossless repealRef ProperRepeal := by
  intro x hx
  cases x with
  | reference r => simp [repealRef, variant, variantOf, reference_lossless r (hx r rfl)]
  | structural r => simp [repealRef, variant, variantOf, structuralRef_lossless r trivial]

theorem repealRef_sound : Sound repealRef ProperRepeal := by
  intro v x h
  simp only [repealRef] at h
  obtain ⟨⟨k, v⟩, -, h⟩ := bind_some_split h
  simp only at h
  split at h
  · simp only [Option.map_eq_some_iff] at h
    obtain ⟨d, h', rfl⟩ := h
    rintro r' e
    cases e
    exact reference_sound _ _ h'
  split at h
  · simp only [Option.map_eq_some_iff] at h
    obtain ⟨r, h', rfl⟩ := h
    simp [ProperRepeal]
  · cases h

theorem announced_lossless {α : Type} {c : Codec α} {ok : α → Prop} (hc : Lossless c ok) :
    Lossless (announced c) fun x => ok x.1 := by
  rintro ⟨r, p⟩ hr
  simp only [announced, fields, Option.bind_eq_bind, Option.bind_some]
  rw [required_of (x := r) hc hr ?_]
  rw [Option.bind_some, required_of (x := p) boolean_lossless trivial ?_]
  · rfl
  all_goals ents

theorem announced_sound {α : Type} {c : Codec α} {ok : α → Prop} (hc : Sound c ok) :
    Sound (announced c) fun x => ok x.1 := by
  intro v o h
  simp only [announced] at h
  obtain ⟨m, -, h⟩ := bind_some_split h
  obtain ⟨r, hr, h⟩ := bind_some_split h
  obtain ⟨b, -, h⟩ := bind_some_split h
  cases h
  exact required_sound hc hr

theorem specialPhrase_lossless : Lossless specialPhrase ProperPhrase := by
  intro x hx
  cases x with
  | blockAmendment p b =>
    simp [specialPhrase, variant, variantOf, announced_lossless reference_lossless (p, b) hx]
  | enforcementDate e => simp [specialPhrase, variant, variantOf, enforcementDate_lossless e hx]
  | repeal l =>
    have := list_lossless repealRef_lossless l fun r hr r' e => hx r' (e ▸ hr)
    simp [specialPhrase, variant, variantOf, this]
  | textAmendment l =>
    have := list_lossless textAmendment_lossless l hx
    simp [specialPhrase, variant, variantOf, this]
  | structuralBlockAmendment p b =>
    simp [specialPhrase, variant, variantOf, announced_lossless structuralRef_lossless (p, b) trivial]

theorem specialPhrase_nonNull : NonNull specialPhrase := by
  intro x
  cases x <;> simp [specialPhrase, variant]

theorem specialPhrase_sound : Sound specialPhrase ProperPhrase := by
  intro v x h
  simp only [specialPhrase] at h
  obtain ⟨⟨k, v⟩, -, h⟩ := bind_some_split h
  simp only at h
  split at h
  · simp only [Option.map_eq_some_iff] at h
    obtain ⟨d, h', rfl⟩ := h
    exact announced_sound reference_sound _ _ h'
  split at h
  · simp only [Option.map_eq_some_iff] at h
    obtain ⟨r, h', rfl⟩ := h
    exact enforcementDate_sound _ _ h'
  split at h
  · simp only [Option.map_eq_some_iff] at h
    obtain ⟨l, h', rfl⟩ := h
    intro r hr
    exact list_sound repealRef_sound _ _ h' _ hr r rfl
  split at h
  · simp only [Option.map_eq_some_iff] at h
    obtain ⟨l, h', rfl⟩ := h
    exact list_sound textAmendment_sound _ _ h'
  split at h
  · simp only [Option.map_eq_some_iff] at h
    obtain ⟨l, h', rfl⟩ := h
    trivial
  · cases h

theorem mapInsert_last {k : Str} {a : ActId} {m : List (Str × ActId)}
    (h : ∀ e ∈ m, e.1.map Char.toNat < k.map Char.toNat) : mapInsert k a m = m ++ [(k, a)] := by
  induction m with
  | nil => rfl
  | cons e m ih =>
    obtain ⟨k1, v1⟩ := e
    have h1 := h (k1, v1) (by simp)
    rw [mapInsert, if_neg, if_neg, ih fun e he => h e (by simp [he])]
    · rfl
    · rw [strLt_iff]
      exact fun h2 => absurd (List.lt_trans h1 h2) (List.lt_irrefl _)
    · rintro rfl
      exact absurd h1 (List.lt_irrefl _)

theorem mapCollect_append {m l : List (Str × ActId)} (h : Increasing ((m ++ l).map (·.1))) :
    l.foldl (fun m e => mapInsert e.1 e.2 m) m = m ++ l := by
  induction l generalizing m with
  | nil => simp
  | cons e l ih =>
    have key : ∀ (m : List (Str × ActId)) (l : List (Str × ActId)), Increasing ((m ++ e :: l).map (·.1)) →
        ∀ x ∈ m, x.1.map Char.toNat < e.1.map Char.toNat := by
      intro m l h
      induction m with
      | nil => simp
      | cons y m ih =>
        intro x hx
        rcases List.mem_cons.1 hx with rfl | hx
        · exact h.1 e.1 (by simp)
        · exact ih h.2 x hx
    rw [List.foldl_cons, mapInsert_last (key m l h), ih]
    · simp
    · simpa using h

theorem mapCollect_increasing {l : List (Str × ActId)} (h : ProperMap l) : mapCollect l = l :=
  mapCollect_append (m := []) h

theorem mapCollect_proper (l : List (Str × ActId)) : ProperMap (mapCollect l) := by
  have : ∀ (l m : List (Str × ActId)), ProperMap m → ProperMap (l.foldl (fun m e => mapInsert e.1 e.2 m) m) := by
    intro l
    induction l with
    | nil => intro m h; exact h
    | cons e l ih => intro m h; exact ih _ (mapInsert_increasing _ _ h)
  exact this l [] trivial

theorem abbreviations_lossless : Lossless abbreviations ProperMap := by
  intro l hl
  simp only [abbreviations, fields, Option.bind_eq_bind, Option.bind_some]
  have : (l.map fun e => (e.1, actId.ser e.2)).mapM abbreviationEntry = some l := by
    clear hl
    induction l with
    | nil => rfl
    | cons e l ih =>
      rw [List.map_cons, List.mapM_cons, ih]
      simp [abbreviationEntry, actId_lossless e.2 trivial]
  rw [this, Option.bind_some, mapCollect_increasing hl]

theorem abbreviations_sound : Sound abbreviations ProperMap := by
  intro v o h
  simp only [abbreviations] at h
  obtain ⟨m, -, h⟩ := bind_some_split h
  obtain ⟨l, -, h⟩ := bind_some_split h
  cases h
  exact mapCollect_proper l

theorem semanticInfo_lossless : Lossless semanticInfo ProperInfo := by
  rintro i ⟨h1, h2, h3⟩
  simp only [semanticInfo, fields, Option.bind_eq_bind, Option.bind_some]
  rw [defaulted_of (x := i.outgoingReferences) (s := i.outgoingReferences.isEmpty) (list_lossless outgoingRef_lossless)
    (by simp) h1 ?_]
  rw [Option.bind_some, defaulted_of (x := i.newAbbreviations) (s := i.newAbbreviations.isEmpty)
    abbreviations_lossless (by simp) h2 ?_]
  rw [Option.bind_some, optional_of (x := i.specialPhrase) specialPhrase_lossless specialPhrase_nonNull h3 ?_]
  · rfl
  all_goals ents

theorem semanticInfo_sound : Sound semanticInfo ProperInfo := by
  intro v o h
  simp only [semanticInfo] at h
  obtain ⟨m, -, h⟩ := bind_some_split h
  obtain ⟨a, ha, h⟩ := bind_some_split h
  obtain ⟨b, hb, h⟩ := bind_some_split h
  obtain ⟨c, hc, h⟩ := bind_some_split h
  cases h
  exact ⟨defaulted_sound (list_sound outgoingRef_sound) (by simp) ha,
    defaulted_sound abbreviations_sound (by trivial) hb, optional_sound specialPhrase_sound hc⟩

theorem properInfo_default : ProperInfo SemanticInfo.default := ⟨by simp [SemanticInfo.default], trivial, by simp [SemanticInfo.default]⟩

/-! ### Lines -/

theorem linePart_lossless : Lossless linePart all := by
  intro p _
  simp only [linePart, fields, Option.bind_eq_bind, Option.bind_some]
  rw [required_of (x := p.dx) double_lossless trivial ?_]
  rw [Option.bind_some, required_of (x := p.content) character_lossless trivial ?_]
  rw [Option.bind_some, required_of (x := p.bold) boolean_lossless trivial ?_]
  · rfl
  all_goals ents

theorem storedLine_lossless : Lossless storedLine all := by
  intro l _
  simp only [storedLine, fields, Option.bind_eq_bind, Option.bind_some]
  rw [required_of (x := l.parts) (list_lossless linePart_lossless) (fun _ _ => trivial) ?_]
  rw [Option.bind_some, required_of (x := l.justified) boolean_lossless trivial ?_]
  rw [Option.bind_some, required_of (x := l.cachedContent) text_lossless trivial ?_]
  rw [Option.bind_some, required_of (x := l.cachedBold) boolean_lossless trivial ?_]
  · rfl
  all_goals ents

theorem line_lossless : Lossless line all := by
  intro l _
  simp only [line]
  rw [storedLine_lossless (store l) trivial]
  rfl

/-! ### Structure -/

theorem saeBody_lossless {C : Type} {c : Codec C} {ok : C → Prop} (hc : Lossless c ok) :
    Lossless (saeBody c) fun b => ∀ i x w, b = .children i x w → ok x := by
  intro b hb
  cases b with
  | text t => rfl
  | children i x w =>
    simp only [saeBody, fields, Option.bind_eq_bind, Option.bind_some]
    rw [required_of (x := i) text_lossless trivial ?_]
    rw [Option.bind_some, required_of (x := x) hc (hb i x w rfl) ?_]
    rw [Option.bind_some, optional_of (x := w) text_lossless text_nonNull (fun _ _ => trivial) ?_]
    · rfl
    all_goals ents

theorem saeBody_sound {C : Type} {c : Codec C} {ok : C → Prop} (hc : Sound c ok) :
    Sound (saeBody c) fun b => ∀ i x w, b = .children i x w → ok x := by
  intro v b h
  simp only [saeBody] at h
  split at h
  · cases h
    simp
  · obtain ⟨m, -, h⟩ := bind_some_split h
    obtain ⟨a, ha, h⟩ := bind_some_split h
    obtain ⟨x, hx, h⟩ := bind_some_split h
    obtain ⟨w, hw, h⟩ := bind_some_split h
    cases h
    rintro i x w e
    cases e
    exact required_sound hc hx

/-- The identifier is found in the fields of an element. -/
def FieldLossless {I : Type} (f : IdField I) (ok : I → Prop) : Prop :=
  ∀ i m, ok i → entries m str!"identifier" = [] → f.read (f.write i ++ m) = some i ∧
    ∀ k, k ≠ str!"identifier" → entries (f.write i) k = []

theorem plainId_lossless {I : Type} {c : Codec I} {ok : I → Prop} (hc : Lossless c ok) : FieldLossless (plainId c) ok := by
  intro i m hi hm
  refine ⟨required_of hc hi ?_, ?_⟩
  · show entries (put c _ i ++ m) _ = _
    rw [entries_append, hm, entries_put]
    rfl
  · intro k hk
    show entries (put c _ i) k = _
    rw [entries_put, if_neg (Ne.symm hk)]

theorem paragraphField_lossless : FieldLossless paragraphField all := by
  intro i m hi hm
  refine ⟨defaulted_of (s := i.id.isNone) paragraphId_lossless ?_ trivial ?_, ?_⟩
  · intro h
    obtain ⟨_ | i⟩ := i
    · rfl
    · cases h
  · show entries (putUnless _ paragraphId _ i ++ m) _ = _
    rw [entries_append, hm, entries_putUnless]
    simp
  · intro k hk
    show entries (putUnless _ paragraphId _ i) k = _
    rw [entries_putUnless, if_neg (Ne.symm hk)]

theorem infoEmpty_default {i : SemanticInfo} (h : infoEmpty i = true) : i = SemanticInfo.default := by
  obtain ⟨a, b, c⟩ := i
  simp only [infoEmpty, Bool.and_eq_true, List.isEmpty_iff, Option.isNone_iff_eq_none] at h
  obtain ⟨⟨rfl, rfl⟩, rfl⟩ := h
  rfl

theorem changeCause_lossless : Lossless changeCause fun c => ∀ r, c = .amendment r → ProperRef r := by
  intro c hc
  cases c with
  | amendment r => simp [changeCause, variant, variantOf, reference_lossless r (hc r rfl)]
  | autoRepeal => rfl
  | other s => simp [changeCause, variant, variantOf, text_lossless s trivial]

theorem lastChange_lossless : Lossless lastChange ProperChange := by
  intro x h
  simp only [lastChange, fields, Option.bind_eq_bind, Option.bind_some]
  rw [required_of (x := x.date) date_lossless h.1 ?_]
  · rw [Option.bind_some, required_of (x := x.cause) changeCause_lossless h.2 ?_]
    · rfl
    · rfl
  · rfl

theorem lastChange_nonNull : NonNull lastChange := fun x => by simp [lastChange]

theorem lastChange_sound : Sound lastChange ProperChange := by
  intro v x h
  simp only [lastChange] at h
  obtain ⟨m, -, h⟩ := bind_some_split h
  obtain ⟨d, hd, h⟩ := bind_some_split h
  obtain ⟨c, hc, h⟩ := bind_some_split h
  cases h
  refine ⟨required_sound date_sound hd, ?_⟩
  rintro r rfl
  unfold required at hc
  split at hc
  · rename_i v _
    unfold changeCause at hc
    simp only at hc
    split at hc
    · split at hc <;> cases hc
    · obtain ⟨⟨k, w⟩, -, hc⟩ := bind_some_split hc
      simp only at hc
      split at hc
      · obtain ⟨r', h', e⟩ := Option.map_eq_some_iff.1 hc
        cases e
        exact reference_sound _ _ h'
      · split at hc
        · obtain ⟨r', h', e⟩ := Option.map_eq_some_iff.1 hc
          cases e
        · cases hc
  · cases hc

theorem sae_lossless {I C : Type} {f : IdField I} {c : Codec C} {okId : I → Prop} {ok : C → Prop}
    (hf : FieldLossless f okId) (hc : Lossless c ok) : Lossless (sae f c) (ProperSae okId ok) := by
  rintro e ⟨h1, h2, h3, h6⟩
  simp only [sae, fields, Option.bind_eq_bind, Option.bind_some, List.append_assoc]
  have hm : entries (put (saeBody c) str!"body" e.body ++
    (putUnless (infoEmpty e.semanticInfo) semanticInfo str!"semantic_info" e.semanticInfo ++
    putSome lastChange str!"last_change" e.lastChange)) str!"identifier" = [] := by ents
  obtain ⟨h4, h5⟩ := hf e.identifier _ h1 hm
  rw [h4, Option.bind_some, required_of (x := e.body) (saeBody_lossless hc) h2 ?_]
  rw [Option.bind_some, defaulted_of (x := e.semanticInfo) (s := infoEmpty e.semanticInfo) semanticInfo_lossless
    infoEmpty_default h3 ?_]
  rw [Option.bind_some, optional_of (x := e.lastChange) lastChange_lossless lastChange_nonNull h6 ?_]
  · rfl
  · rw [entries_append, h5 _ (by decide)]
    ents
  · rw [entries_append, h5 _ (by decide)]
    ents
  · rw [entries_append, h5 _ (by decide)]
    ents

theorem sae_sound {I C : Type} {f : IdField I} {c : Codec C} {okId : I → Prop} {ok : C → Prop}
    (hf : ∀ m i, f.read m = some i → okId i) (hc : Sound c ok) : Sound (sae f c) (ProperSae okId ok) := by
  intro v e h
  simp only [sae] at h
  obtain ⟨m, -, h⟩ := bind_some_split h
  obtain ⟨i, hi, h⟩ := bind_some_split h
  obtain ⟨b, hb, h⟩ := bind_some_split h
  obtain ⟨s, hs, h⟩ := bind_some_split h
  obtain ⟨n, hn, h⟩ := bind_some_split h
  cases h
  exact ⟨hf _ _ hi, required_sound (saeBody_sound hc) hb, defaulted_sound semanticInfo_sound properInfo_default hs,
    optional_sound lastChange_sound hn⟩

theorem noChildren_lossless {ok : NoChildren → Prop} : Lossless noChildren ok := fun x _ => nomatch x
theorem noChildren_sound {ok : NoChildren → Prop} : Sound noChildren ok := fun _ _ h => by cases h

theorem alphabeticSubpoint_lossless : Lossless alphabeticSubpoint ProperAlphabeticSubpoint :=
  sae_lossless (plainId_lossless prefixedId_lossless) noChildren_lossless
theorem alphabeticSubpoint_sound : Sound alphabeticSubpoint ProperAlphabeticSubpoint :=
  sae_sound (fun _ _ h => required_sound prefixedId_sound h) noChildren_sound
theorem numericSubpoint_lossless : Lossless numericSubpoint ProperNumericSubpoint :=
  sae_lossless (plainId_lossless numericId_lossless) noChildren_lossless
theorem numericSubpoint_sound : Sound numericSubpoint ProperNumericSubpoint :=
  sae_sound (fun _ _ _ => trivial) noChildren_sound

theorem numericPoint_lossless : Lossless numericPoint ProperNumericPoint := by
  refine sae_lossless (plainId_lossless numericId_lossless) ?_
  rintro ⟨l⟩ h
  simp [numericPointChildren, variant, variantOf, list_lossless alphabeticSubpoint_lossless l h]

theorem numericPoint_sound : Sound numericPoint ProperNumericPoint := by
  refine sae_sound (fun _ _ _ => trivial) ?_
  intro v x h
  simp only [numericPointChildren] at h
  obtain ⟨⟨k, v⟩, -, h⟩ := bind_some_split h
  simp only at h
  split at h
  · simp only [Option.map_eq_some_iff] at h
    obtain ⟨l, h', rfl⟩ := h
    exact list_sound alphabeticSubpoint_sound _ _ h'
  · cases h

theorem alphabeticPoint_lossless : Lossless alphabeticPoint ProperAlphabeticPoint := by
  refine sae_lossless (plainId_lossless hunChar_lossless) ?_
  rintro (l | l) h
  · simp [alphabeticPointChildren, variant, variantOf, list_lossless alphabeticSubpoint_lossless l h]
  · simp [alphabeticPointChildren, variant, variantOf, list_lossless numericSubpoint_lossless l h]

theorem alphabeticPoint_sound : Sound alphabeticPoint ProperAlphabeticPoint := by
  refine sae_sound (fun _ _ _ => trivial) ?_
  intro v x h
  simp only [alphabeticPointChildren] at h
  obtain ⟨⟨k, v⟩, -, h⟩ := bind_some_split h
  simp only at h
  split at h
  · simp only [Option.map_eq_some_iff] at h
    obtain ⟨l, h', rfl⟩ := h
    exact list_sound alphabeticSubpoint_sound _ _ h'
  split at h
  · simp only [Option.map_eq_some_iff] at h
    obtain ⟨l, h', rfl⟩ := h
    exact list_sound numericSubpoint_sound _ _ h'
  · cases h

theorem quotedBlock_lossless : Lossless quotedBlock all := by
  intro q _
  simp only [quotedBlock, fields, Option.bind_eq_bind, Option.bind_some]
  rw [optional_of (x := q.intro) text_lossless text_nonNull (fun _ _ => trivial) ?_]
  rw [Option.bind_some, required_of (x := q.lines) (list_lossless line_lossless) (fun _ _ => trivial) ?_]
  rw [Option.bind_some, optional_of (x := q.wrapUp) text_lossless text_nonNull (fun _ _ => trivial) ?_]
  · rfl
  all_goals ents

/-- What is written for amendments is read back, and it is not taken for other children. -/
def AmendmentLossless {A : Type} (c : AmendmentCodec A) (ok : A → Prop) : Prop :=
  ∀ x, ok x → ∃ k v, c.ser x = variant k v ∧ c.de k v = some x ∧ k ≠ str!"AlphabeticPoint" ∧ k ≠ str!"NumericPoint" ∧
    k ≠ str!"QuotedBlock"

def AmendmentSound {A : Type} (c : AmendmentCodec A) (ok : A → Prop) : Prop := ∀ k v x, c.de k v = some x → ok x

theorem paragraph_lossless {A : Type} {a : AmendmentCodec A} {ok : A → Prop} (ha : AmendmentLossless a ok) :
    Lossless (paragraph a) (ProperParagraph ok) := by
  refine sae_lossless paragraphField_lossless ?_
  rintro (l | l | l | x) h
  · simp [paragraphChildren, variant, variantOf, list_lossless alphabeticPoint_lossless l h]
  · simp [paragraphChildren, variant, variantOf, list_lossless numericPoint_lossless l h]
  · simp [paragraphChildren, variant, variantOf, list_lossless quotedBlock_lossless l fun _ _ => trivial]
  · obtain ⟨k, v, h1, h2, h3, h4, h5⟩ := ha x h
    simp [paragraphChildren, h1, variant, variantOf, h2, h3, h4, h5]

theorem paragraph_sound {A : Type} {a : AmendmentCodec A} {ok : A → Prop} (ha : AmendmentSound a ok) :
    Sound (paragraph a) (ProperParagraph ok) := by
  refine sae_sound (fun _ _ _ => trivial) ?_
  intro v x h
  simp only [paragraphChildren] at h
  obtain ⟨⟨k, v⟩, -, h⟩ := bind_some_split h
  simp only at h
  split at h
  · simp only [Option.map_eq_some_iff] at h
    obtain ⟨l, h', rfl⟩ := h
    exact list_sound alphabeticPoint_sound _ _ h'
  split at h
  · simp only [Option.map_eq_some_iff] at h
    obtain ⟨l, h', rfl⟩ := h
    exact list_sound numericPoint_sound _ _ h'
  split at h
  · simp only [Option.map_eq_some_iff] at h
    obtain ⟨l, h', rfl⟩ := h
    trivial
  · simp only [Option.map_eq_some_iff] at h
    obtain ⟨l, h', rfl⟩ := h
    exact ha _ _ _ h'

theorem article_lossless {A : Type} {a : AmendmentCodec A} {ok : A → Prop} (ha : AmendmentLossless a ok) :
    Lossless (article a) fun x => (∀ p ∈ x.children, ProperParagraph ok p) ∧ ∀ n, x.lastChange = some n → ProperChange n := by
  intro x hx
  simp only [article, fields, Option.bind_eq_bind, Option.bind_some]
  rw [required_of (x := x.identifier) articleId_lossless trivial ?_]
  rw [Option.bind_some, optional_of (x := x.title) text_lossless text_nonNull (fun _ _ => trivial) ?_]
  rw [Option.bind_some, required_of (x := x.children) (list_lossless (paragraph_lossless ha)) hx.1 ?_]
  rw [Option.bind_some, optional_of (x := x.lastChange) lastChange_lossless lastChange_nonNull hx.2 ?_]
  · rfl
  all_goals ents

theorem article_sound {A : Type} {a : AmendmentCodec A} {ok : A → Prop} (ha : AmendmentSound a ok) :
    Sound (article a) fun x => (∀ p ∈ x.children, ProperParagraph ok p) ∧ ∀ n, x.lastChange = some n → ProperChange n := by
  intro v e h
  simp only [article] at h
  obtain ⟨m, -, h⟩ := bind_some_split h
  obtain ⟨i, hi, h⟩ := bind_some_split h
  obtain ⟨b, hb, h⟩ := bind_some_split h
  obtain ⟨s, hs, h⟩ := bind_some_split h
  obtain ⟨n, hn, h⟩ := bind_some_split h
  cases h
  exact ⟨required_sound (list_sound (paragraph_sound ha)) hs, optional_sound lastChange_sound hn⟩

theorem isSpecial_lossless : Lossless isSpecial all := by
  intro b _
  simp only [isSpecial, fields, Option.bind_eq_bind, Option.bind_some]
  rw [defaulted_of (x := b) (s := !b) boolean_lossless (by simp) trivial ?_]
  ents

theorem elementType_lossless : Lossless elementType all := by
  rintro x -
  cases x with
  | part b => simp [elementType, variant, variantOf, isSpecial_lossless b trivial]
  | _ => simp [elementType]

theorem structuralElement_lossless :
    Lossless structuralElement fun e => ∀ n, e.lastChange = some n → ProperChange n := by
  intro e he
  simp only [structuralElement, fields, Option.bind_eq_bind, Option.bind_some]
  rw [required_of (x := e.identifier) numericId_lossless trivial ?_]
  rw [Option.bind_some, required_of (x := e.title) text_lossless trivial ?_]
  rw [Option.bind_some, required_of (x := e.elementType) elementType_lossless trivial ?_]
  rw [Option.bind_some, optional_of (x := e.lastChange) lastChange_lossless lastChange_nonNull he ?_]
  · rfl
  all_goals ents

theorem subtitle_lossless : Lossless subtitle fun s => ∀ n, s.lastChange = some n → ProperChange n := by
  intro s hs
  simp only [subtitle, fields, Option.bind_eq_bind, Option.bind_some]
  rw [optional_of (x := s.identifier) numericId_lossless numericId_nonNull (fun _ _ => trivial) ?_]
  rw [Option.bind_some, required_of (x := s.title) text_lossless trivial ?_]
  rw [Option.bind_some, optional_of (x := s.lastChange) lastChange_lossless lastChange_nonNull hs ?_]
  · rfl
  all_goals ents

theorem structuralElement_sound :
    Sound structuralElement fun e => ∀ n, e.lastChange = some n → ProperChange n := by
  intro v e h
  simp only [structuralElement] at h
  obtain ⟨m, -, h⟩ := bind_some_split h
  obtain ⟨i, hi, h⟩ := bind_some_split h
  obtain ⟨b, hb, h⟩ := bind_some_split h
  obtain ⟨t, ht, h⟩ := bind_some_split h
  obtain ⟨n, hn, h⟩ := bind_some_split h
  cases h
  exact optional_sound lastChange_sound hn

theorem subtitle_sound : Sound subtitle fun s => ∀ n, s.lastChange = some n → ProperChange n := by
  intro v e h
  simp only [subtitle] at h
  obtain ⟨m, -, h⟩ := bind_some_split h
  obtain ⟨i, hi, h⟩ := bind_some_split h
  obtain ⟨b, hb, h⟩ := bind_some_split h
  obtain ⟨n, hn, h⟩ := bind_some_split h
  cases h
  exact optional_sound lastChange_sound hn

theorem actChild_lossless {A : Type} {a : AmendmentCodec A} {ok : A → Prop} (ha : AmendmentLossless a ok) :
    Lossless (actChild a) (ProperChild ok) := by
  rintro (e | s | x) h
  · simp [actChild, variant, variantOf, structuralElement_lossless e h]
  · simp [actChild, variant, variantOf, subtitle_lossless s h]
  · simp [actChild, variant, variantOf, article_lossless ha x h]

theorem actChild_sound {A : Type} {a : AmendmentCodec A} {ok : A → Prop} (ha : AmendmentSound a ok) :
    Sound (actChild a) (ProperChild ok) := by
  intro v x h
  simp only [actChild] at h
  obtain ⟨⟨k, v⟩, -, h⟩ := bind_some_split h
  simp only at h
  split at h
  · simp only [Option.map_eq_some_iff] at h
    obtain ⟨l, h', rfl⟩ := h
    exact structuralElement_sound _ _ h'
  split at h
  · simp only [Option.map_eq_some_iff] at h
    obtain ⟨l, h', rfl⟩ := h
    exact subtitle_sound _ _ h'
  split at h
  · simp only [Option.map_eq_some_iff] at h
    obtain ⟨l, h', rfl⟩ := h
    exact article_sound ha _ _ h'
  · cases h

theorem noAmendment_lossless : AmendmentLossless noAmendment all := fun x => nomatch x
theorem noAmendment_sound : AmendmentSound noAmendment all := fun _ _ _ h => by cases h

theorem amended_lossless {C : Type} {c : Codec C} {ok : C → Prop} (hc : Lossless c ok) :
    Lossless (amended c) fun x => ok x.2.1 := by
  rintro ⟨i, x, w⟩ hx
  simp only [amended, fields, Option.bind_eq_bind, Option.bind_some]
  rw [optional_of (x := i) text_lossless text_nonNull (fun _ _ => trivial) ?_]
  rw [Option.bind_some, required_of (x := x) hc hx ?_]
  rw [Option.bind_some, optional_of (x := w) text_lossless text_nonNull (fun _ _ => trivial) ?_]
  · rfl
  all_goals ents

theorem amended_sound {C : Type} {c : Codec C} {ok : C → Prop} (hc : Sound c ok) :
    Sound (amended c) fun x => ok x.2.1 := by
  intro v e h
  simp only [amended] at h
  obtain ⟨m, -, h⟩ := bind_some_split h
  obtain ⟨i, hi, h⟩ := bind_some_split h
  obtain ⟨b, hb, h⟩ := bind_some_split h
  obtain ⟨s, hs, h⟩ := bind_some_split h
  cases h
  exact required_sound hc hb

theorem blockAmendmentChildren_lossless :
    Lossless blockAmendmentChildren fun c => ProperAmendment (.block none c none) := by
  rintro (l | l | l | l | l) h
  · simp [blockAmendmentChildren, variant, variantOf, list_lossless (paragraph_lossless noAmendment_lossless) l h]
  · simp [blockAmendmentChildren, variant, variantOf, list_lossless alphabeticPoint_lossless l h]
  · simp [blockAmendmentChildren, variant, variantOf, list_lossless numericPoint_lossless l h]
  · simp [blockAmendmentChildren, variant, variantOf, list_lossless alphabeticSubpoint_lossless l h]
  · simp [blockAmendmentChildren, variant, variantOf, list_lossless numericSubpoint_lossless l h]

theorem blockAmendmentChildren_sound :
    Sound blockAmendmentChildren fun c => ProperAmendment (.block none c none) := by
  intro v x h
  simp only [blockAmendmentChildren] at h
  obtain ⟨⟨k, v⟩, -, h⟩ := bind_some_split h
  simp only at h
  split at h
  · simp only [Option.map_eq_some_iff] at h
    obtain ⟨l, h', rfl⟩ := h
    exact list_sound (paragraph_sound noAmendment_sound) _ _ h'
  split at h
  · simp only [Option.map_eq_some_iff] at h
    obtain ⟨l, h', rfl⟩ := h
    exact list_sound alphabeticPoint_sound _ _ h'
  split at h
  · simp only [Option.map_eq_some_iff] at h
    obtain ⟨l, h', rfl⟩ := h
    exact list_sound numericPoint_sound _ _ h'
  split at h
  · simp only [Option.map_eq_some_iff] at h
    obtain ⟨l, h', rfl⟩ := h
    exact list_sound alphabeticSubpoint_sound _ _ h'
  split at h
  · simp only [Option.map_eq_some_iff] at h
    obtain ⟨l, h', rfl⟩ := h
    exact list_sound numericSubpoint_sound _ _ h'
  · cases h

theorem amendment_lossless : AmendmentLossless amendment ProperAmendment := by
  rintro (⟨i, c, w⟩ | ⟨i, c, w⟩) h
  · have hc : ProperAmendment (.block none c none) := by
      cases c <;> exact h
    refine ⟨_, _, rfl, ?_, by decide, by decide, by decide⟩
    simp [amendment, amended_lossless blockAmendmentChildren_lossless (i, c, w) hc]
  · refine ⟨_, _, rfl, ?_, by decide, by decide, by decide⟩
    simp [amendment, amended_lossless (list_lossless (actChild_lossless noAmendment_lossless)) (i, c, w) h]

theorem amendment_sound : AmendmentSound amendment ProperAmendment := by
  intro k v x h
  simp only [amendment] at h
  split at h
  · simp only [Option.map_eq_some_iff] at h
    obtain ⟨⟨i, c, w⟩, h', rfl⟩ := h
    have := amended_sound blockAmendmentChildren_sound _ _ h'
    cases c <;> exact this
  split at h
  · simp only [Option.map_eq_some_iff] at h
    obtain ⟨⟨i, c, w⟩, h', rfl⟩ := h
    exact amended_sound (list_sound (actChild_sound noAmendment_sound)) _ _ h'
  · cases h

theorem act_lossless : Lossless (act amendment) ProperAct := by
  rintro a ⟨h1, h2, h3⟩
  simp only [act, fields, Option.bind_eq_bind, Option.bind_some]
  rw [required_of (x := a.identifier) actId_lossless trivial ?_]
  rw [Option.bind_some, required_of (x := a.subject) text_lossless trivial ?_]
  rw [Option.bind_some, required_of (x := a.preamble) text_lossless trivial ?_]
  rw [Option.bind_some, required_of (x := a.publicationDate) date_lossless h1 ?_]
  rw [Option.bind_some, defaulted_of (x := a.containedAbbreviations) (s := a.containedAbbreviations.isEmpty)
    abbreviations_lossless (by simp) h2 ?_]
  rw [Option.bind_some, required_of (x := a.children) (list_lossless (actChild_lossless amendment_lossless)) h3 ?_]
  · rfl
  all_goals ents

theorem act_sound : Sound (act amendment) ProperAct := by
  intro v e h
  simp only [act] at h
  obtain ⟨m, -, h⟩ := bind_some_split h
  obtain ⟨i, -, h⟩ := bind_some_split h
  obtain ⟨b, -, h⟩ := bind_some_split h
  obtain ⟨s, -, h⟩ := bind_some_split h
  obtain ⟨d, hd, h⟩ := bind_some_split h
  obtain ⟨l, hl, h⟩ := bind_some_split h
  obtain ⟨c, hc, h⟩ := bind_some_split h
  cases h
  exact ⟨required_sound date_sound hd, defaulted_sound abbreviations_sound (by trivial) hl,
    required_sound (list_sound (actChild_sound amendment_sound)) hc⟩

theorem fixup_lossless : Lossless fixup all := by
  intro f _
  simp only [fixup, fields, Option.bind_eq_bind, Option.bind_some]
  rw [defaulted_of (x := f.after) (s := f.after.isEmpty) (list_lossless text_lossless) (by simp) (fun _ _ => trivial) ?_]
  rw [Option.bind_some, required_of (x := f.old) text_lossless trivial ?_]
  rw [Option.bind_some, required_of (x := f.new) text_lossless trivial ?_]
  rw [Option.bind_some, defaulted_of (x := f.setBold) (s := !f.setBold) boolean_lossless (by simp) trivial ?_]
  · rfl
  all_goals ents

end HunLaw.Serde
