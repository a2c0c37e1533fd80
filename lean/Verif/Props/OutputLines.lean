import Verif.Lemmas.OutputLines
import Verif.Lemmas.OutputLayout
import Verif.Props.Output

/-! Properties C87 and C88: lines that are written out as they are. -/

set_option autoImplicit false

namespace HunLaw.Props

open HunLaw Spec Output

/-! ### C87 -/

/-- A line which can be written with tags: it begins with something else than a space, has no two spaces next to each
other and no tags in it. -/
def Writable (l : Line) : Prop :=
  (∃ c cs, l.content = c :: cs ∧ c ≠ ' ') ∧ ¬ str!"  " <:+: l.content ∧ ¬ str!"<BOLD>" <:+: l.content ∧
    ¬ str!"<NJ>" <:+: l.content

/-- C87: a line that is written with testing tags and read back has the same text, and is bold and justified if the
line is. -/
theorem C87_content (l : Line) (h : Writable l) : (fromTestStr (displayLine true l)).content = l.content ∧
    (fromTestStr (displayLine true l)).isBold = l.isBold ∧
    (fromTestStr (displayLine true l)).justified = l.justified := by
  obtain ⟨⟨c, cs, hl, hc⟩, hd, hb, hn⟩ := h
  rw [Output.readBack hl hc hd hb hn]
  refine ⟨?_, allBold (by simp) (fun p hp => ?_) _, rfl⟩
  · rw [hl, List.infix_cons_iff, not_or] at hd
    have := (testParts_content l.isBold cs).1 hd.2
    rw [hl]
    simp only [Line.content, Line.fromParts, List.map_cons, this]
  · rcases List.mem_cons.1 hp with rfl | hp
    · rfl
    · exact testParts_bold _ _ _ p hp

/-- C87: the indentation of the line that is read back. -/
theorem C87_indent (l : Line) (h : Writable l) : (fromTestStr (displayLine true l)).indent =
    10 + 5 * max (((l.indent * (1 / 5)).floor.toNat : Nat) : Rat)
      ((if l.isBold then 6 else 0) + if l.justified then 0 else 4) := by
  obtain ⟨⟨c, cs, hl, hc⟩, hd, hb, hn⟩ := h
  rw [Output.readBack hl hc hd hb hn]
  unfold Line.indent Line.fromParts
  simp only [asUsize]
  have : ((tagWidth l : Nat) : Rat) = (if l.isBold then 6 else 0) + if l.justified then 0 else 4 := by
    unfold tagWidth
    cases l.isBold <;> cases l.justified <;> norm_num
  rw [← this]
  push_cast
  ring

/-- C87 in full: lines with the same indentation have the same indentation when they are read back. -/
def C87_statement : Prop :=
  ∀ l l' : Line, Writable l → Writable l' → l.indent = l'.indent →
    (fromTestStr (displayLine true l)).indent = (fromTestStr (displayLine true l')).indent

/-- A bold line. -/
def boldLetter : Line := .fromParts [⟨5, 'a', true⟩] true

/-- The same, not bold. -/
def plainLetter : Line := .fromParts [⟨5, 'a', false⟩] true

theorem writable_of {l : Line} (h : l.content = str!"a") : Writable l := by
  rw [Writable, h]
  exact ⟨⟨'a', [], rfl, by decide⟩, by decide, by decide, by decide⟩

/-- C87 is false: tags take the place of the spaces, and when there are not enough of them, the line moves to the
right. -/
theorem C87_violated : ¬ C87_statement := by
  intro h
  have h1 := h boldLetter plainLetter (writable_of rfl) (writable_of rfl) rfl
  exact absurd h1 (by decide +kernel)

/-- C87, the part that holds: the indentation that is read back depends on the indentation only, if it is 50 or more.
Missing: lines with less space before them than their tags need, for which it is false (`C87_violated`). -/
theorem C87_indent_partial (l l' : Line) (h : Writable l) (h' : Writable l') (hi : l.indent = l'.indent)
    (h50 : 50 ≤ l.indent) :
    (fromTestStr (displayLine true l)).indent = (fromTestStr (displayLine true l')).indent := by
  have key : ∀ b j : Bool, (if b then 6 else 0) + (if j then 0 else 4) ≤
      (((l.indent * (1 / 5)).floor.toNat : Nat) : Rat) := by
    intro b j
    have h1 : (10 : Int) ≤ (l.indent * (1 / 5)).floor := by
      rw [Rat.le_floor_iff]
      push_cast
      linarith
    have h2 : (10 : Rat) ≤ (((l.indent * (1 / 5)).floor.toNat : Nat) : Rat) := by
      have : 10 ≤ (l.indent * (1 / 5)).floor.toNat := by omega
      exact_mod_cast this
    have h3 : ∀ b j : Bool, ((if b then 6 else 0) + (if j then 0 else 4) : Rat) ≤ 10 := by
      intro b j
      cases b <;> cases j <;> norm_num
    exact (h3 b j).trans h2
  rw [C87_indent l h, C87_indent l' h', ← hi, max_eq_left (key _ _), max_eq_left (key _ _)]

example : Writable (.fromParts [⟨75, '1', true⟩, ⟨5, '.', true⟩, ⟨5, ' ', true⟩, ⟨5, '§', true⟩] false) := by
  refine ⟨⟨'1', str!". §", rfl, by decide⟩, by decide, by decide, by decide⟩

/-! ### C88 -/

/-- The line without tags: spaces according to its indentation, and its text. -/
def ShownAs (l : Line) (s : Str) : Prop := s = List.replicate (l.indent / 5).floor.toNat ' ' ++ l.content

theorem displayLine_shown (l : Line) : ShownAs l (displayLine false l) := by
  simp [displayLine, ShownAs, asUsize, div_eq_mul_inv]

theorem displayLine_noBreak {t : Bool} {l : Line} (h : '\n' ∉ l.content) : '\n' ∉ displayLine t l := by
  intro hm
  simp only [displayLine, List.mem_append, List.mem_replicate] at hm
  rcases hm with ((hm | hm) | hm) | hm
  · split at hm
    · exact absurd hm (by decide)
    · simp at hm
  · split at hm
    · exact absurd hm (by decide)
    · simp at hm
  · exact absurd hm.2 (by decide)
  · exact h hm

theorem shown_lines (page : List Line) : List.Forall₂ ShownAs page (page.map (displayLine false)) := by
  induction page with
  | nil => exact .nil
  | cons l ls ih => exact .cons (displayLine_shown l) ih

/-- C88: a page is shown line by line. -/
theorem C88_page (page : List Line) (h : ∀ l ∈ page, '\n' ∉ l.content) :
    List.Forall₂ ShownAs page (linesOf (cliPage false page)) := by
  have : cliPage false page = (page.map (displayLine false)).flatMap (· ++ ['\n']) := by
    simp [cliPage, List.flatMap_map]
  rw [this, linesOf_lines fun s hs => ?_]
  · exact shown_lines page
  · obtain ⟨l, hl, rfl⟩ := List.mem_map.1 hs
    exact displayLine_noBreak (h l hl)

/-- What is shown of pages: a heading with the number of the page, then its lines. -/
inductive PagesShown (count : Nat) : Nat → List (List Line) → List Str → Prop
  | nil (n : Nat) : PagesShown count n [] []
  | cons (n : Nat) (page : List Line) (pages : List (List Line)) (ls rest : List Str) :
      List.Forall₂ ShownAs page ls → PagesShown count (n + 1) pages rest →
      PagesShown count n (page :: pages)
        (str!"" :: (str!"------- page " ++ dec n ++ str!"/" ++ dec count ++ str!" -------") :: str!"" :: ls ++ rest)

theorem dec_noBreak (n : Nat) : '\n' ∉ dec n := fun h => by
  have := dec_digits n _ h
  exact absurd this (by decide)

theorem pagesFrom_shown (count n : Nat) (pages : List (List Line)) (h : ∀ p ∈ pages, ∀ l ∈ p, '\n' ∉ l.content) :
    ∃ ls, cliPagesFrom false count n pages = ls.flatMap (· ++ ['\n']) ∧ (∀ l ∈ ls, '\n' ∉ l) ∧
      PagesShown count (n + 1) pages ls := by
  induction pages generalizing n with
  | nil => exact ⟨[], rfl, by simp, .nil _⟩
  | cons page pages ih =>
    obtain ⟨ls, h1, h2, h3⟩ := ih (n + 1) fun p hp => h p (by simp [hp])
    refine ⟨_, ?_, ?_, .cons (n + 1) page pages (page.map (displayLine false)) ls (shown_lines page) h3⟩
    · simp [cliPagesFrom, cliPage, h1, List.flatMap_map]
    · intro l hl
      rcases List.mem_append.1 hl with hl | hl
      · rcases List.mem_cons.1 hl with rfl | hl
        · simp
        rcases List.mem_cons.1 hl with rfl | hl
        · simp only [List.mem_append, not_or]
          exact ⟨⟨⟨⟨by decide, dec_noBreak _⟩, by decide⟩, dec_noBreak _⟩, by decide⟩
        rcases List.mem_cons.1 hl with rfl | hl
        · simp
        obtain ⟨x, hx, rfl⟩ := List.mem_map.1 hl
        exact displayLine_noBreak (h page (by simp) x hx)
      · exact h2 l hl

/-- C88: pages are shown one after the other, each with its number and then line by line. -/
theorem C88_pages (pages : List (List Line)) (h : ∀ p ∈ pages, ∀ l ∈ p, '\n' ∉ l.content) :
    PagesShown pages.length 1 pages (linesOf (cliPages false pages)) := by
  obtain ⟨ls, h1, h2, h3⟩ := pagesFrom_shown pages.length 0 pages h
  rw [cliPages, h1, linesOf_lines h2]
  exact h3

/-- The number written with at least so many digits. -/
def Padded (w n : Nat) (s : Str) : Prop :=
  ∃ k, s = List.replicate k '0' ++ dec n ∧ w ≤ s.length ∧ (k = 0 ∨ s.length = w)

/-- The date in the ISO form: `2022-03-05`, with a sign if the year is not of four digits. -/
def IsoDate (d : Date) (s : Str) : Prop :=
  ∃ y m day, s = y ++ str!"-" ++ m ++ str!"-" ++ day ∧ Padded 2 d.month m ∧ Padded 2 d.day day ∧
    (0 ≤ d.year ∧ d.year ≤ 9999 → Padded 4 d.year.natAbs y) ∧
    (9999 < d.year → ∃ t, y = '+' :: t ∧ Padded 4 d.year.natAbs t) ∧
    (d.year < 0 → ∃ t, y = '-' :: t ∧ Padded 4 d.year.natAbs t)

theorem padTo_padded (w n : Nat) : Padded w n (Date.padTo w (dec n)) := by
  refine ⟨_, rfl, ?_, ?_⟩ <;> simp only [Date.padTo, List.length_append, List.length_replicate] <;> omega

theorem showDate_iso (d : Date) : IsoDate d (showDate d) := by
  refine ⟨_, _, _, rfl, padTo_padded _ _, padTo_padded _ _, ?_, ?_, ?_⟩
  · intro h
    rw [Date.displayYear, if_pos h]
    exact padTo_padded _ _
  · intro h
    rw [Date.displayYear, if_neg (by omega), if_neg (by omega)]
    exact ⟨_, rfl, padTo_padded _ _⟩
  · intro h
    rw [Date.displayYear, if_neg (by omega), if_pos h]
    exact ⟨_, rfl, padTo_padded _ _⟩

theorem padded_noBreak {w n : Nat} {s : Str} (h : Padded w n s) : '\n' ∉ s := by
  obtain ⟨k, rfl, -, -⟩ := h
  rw [List.mem_append, not_or]
  exact ⟨fun h => by simp at h, dec_noBreak _⟩

theorem iso_noBreak {d : Date} {s : Str} (h : IsoDate d s) : '\n' ∉ s := by
  obtain ⟨y, m, day, rfl, hm, hd, h1, h2, h3⟩ := h
  have hy : '\n' ∉ y := by
    by_cases a : d.year < 0
    · obtain ⟨t, rfl, ht⟩ := h3 a
      rw [List.mem_cons, not_or]
      exact ⟨by decide, padded_noBreak ht⟩
    by_cases b : d.year ≤ 9999
    · exact padded_noBreak (h1 ⟨by omega, b⟩)
    · obtain ⟨t, rfl, ht⟩ := h2 (by omega)
      rw [List.mem_cons, not_or]
      exact ⟨by decide, padded_noBreak ht⟩
  simp only [List.mem_append, not_or]
  exact ⟨⟨⟨⟨hy, by decide⟩, padded_noBreak hm⟩, by decide⟩, padded_noBreak hd⟩

theorem display_range {i : ActId} {s : Str} (h : i.display = .ok s) : 1 ≤ i.number.val ∧ i.number.val ≤ 3999 := by
  unfold ActId.display at h
  split at h
  · split at h
    · rename_i r hr
      have := romanTo_range hr
      omega
    · cases h
  · cases h

/-- C88: the lines of an act can be shown exactly if its number can be written with Roman numerals. -/
theorem C88_act_total (a : ActRawText) (t : Bool) :
    (∃ out, cliRawAct t a = .ok out) ↔ 1 ≤ a.identifier.number.val ∧ a.identifier.number.val ≤ 3999 := by
  constructor
  · rintro ⟨out, h⟩
    simp only [cliRawAct, Res.bind_eq_ok] at h
    obtain ⟨id, hid, -⟩ := h
    exact display_range hid
  · rintro ⟨h1, h2⟩
    obtain ⟨id, hid⟩ := actId_display h1 h2
    exact ⟨_, by simp only [cliRawAct, hid, Res.bind_ok]; rfl⟩

/-- C88: the lines of an act are shown after its number, title and date. -/
theorem C88_act (a : ActRawText) (out : Str) (hs : '\n' ∉ a.subject) (h : ∀ l ∈ a.body, '\n' ∉ l.content)
    (ho : cliRawAct false a = .ok out) : ∃ id date ls, a.identifier.display = .ok id ∧ IsoDate a.publicationDate date ∧
      linesOf out = (str!"Act ID: " ++ id ++ str!" - " ++ a.subject) :: (str!"Pub date: " ++ date) :: [] :: ls ∧
      List.Forall₂ ShownAs a.body ls := by
  simp only [cliRawAct, Res.bind_eq_ok, Res.ok.injEq] at ho
  obtain ⟨id, hid, rfl⟩ := ho
  refine ⟨id, showDate a.publicationDate, _, hid, showDate_iso _, ?_, shown_lines _⟩
  rw [← linesOf_lines (ls := (str!"Act ID: " ++ id ++ str!" - " ++ a.subject) ::
    (str!"Pub date: " ++ showDate a.publicationDate) :: [] :: a.body.map (displayLine false))]
  · simp [cliPage, List.flatMap_map]
  · intro l hl
    rcases List.mem_cons.1 hl with rfl | hl
    · simp only [List.mem_append, not_or]
      exact ⟨⟨⟨by decide, actId_noBreak hid⟩, by decide⟩, hs⟩
    rcases List.mem_cons.1 hl with rfl | hl
    · simp only [List.mem_append, not_or]
      exact ⟨by decide, iso_noBreak (showDate_iso _)⟩
    rcases List.mem_cons.1 hl with rfl | hl
    · simp
    obtain ⟨x, hx, rfl⟩ := List.mem_map.1 hl
    exact displayLine_noBreak (h x hx)

example : Res.map linesOf (cliRawAct false (sampleRaw [sampleLine str!"1. § Szöveg" 25])) =
    .ok [str!"Act ID: 2022. évi I. törvény - a dolgokról", str!"Pub date: 2021-05-07", [], str!"     1. § Szöveg"] := by
  decide +kernel

/-! ### C87 for listings -/

/-- The line is read back from the text with its content, boldness and justification. -/
def ReadsBack (l : Line) (s : Str) : Prop :=
  Writable l → (fromTestStr s).content = l.content ∧ (fromTestStr s).isBold = l.isBold ∧
    (fromTestStr s).justified = l.justified

theorem tagged_lines (page : List Line) : List.Forall₂ ReadsBack page (page.map (displayLine true)) := by
  induction page with
  | nil => exact .nil
  | cons l ls ih => exact .cons (C87_content l) ih

/-- C87: each line of a page that is listed with testing tags can be read back from its line in the listing. -/
theorem C87_page (page : List Line) (h : ∀ l ∈ page, '\n' ∉ l.content) :
    List.Forall₂ ReadsBack page (linesOf (cliPage true page)) := by
  have : cliPage true page = (page.map (displayLine true)).flatMap (· ++ ['\n']) := by
    simp [cliPage, List.flatMap_map]
  rw [this, linesOf_lines fun s hs => ?_]
  · exact tagged_lines page
  · obtain ⟨l, hl, rfl⟩ := List.mem_map.1 hs
    exact displayLine_noBreak (h l hl)

/-- C87: each line of an act that is listed with testing tags can be read back from its line in the listing. -/
theorem C87_act (a : ActRawText) (out : Str) (hs : '\n' ∉ a.subject) (h : ∀ l ∈ a.body, '\n' ∉ l.content)
    (ho : cliRawAct true a = .ok out) : ∃ first second third ls, linesOf out = first :: second :: third :: ls ∧
      List.Forall₂ ReadsBack a.body ls := by
  simp only [cliRawAct, Res.bind_eq_ok, Res.ok.injEq] at ho
  obtain ⟨id, hid, rfl⟩ := ho
  refine ⟨str!"Act ID: " ++ id ++ str!" - " ++ a.subject, str!"Pub date: " ++ showDate a.publicationDate, [], _, ?_,
    tagged_lines _⟩
  rw [← linesOf_lines (ls := (str!"Act ID: " ++ id ++ str!" - " ++ a.subject) ::
    (str!"Pub date: " ++ showDate a.publicationDate) :: [] :: a.body.map (displayLine true))]
  · simp [cliPage, List.flatMap_map]
  · intro l hl
    rcases List.mem_cons.1 hl with rfl | hl
    · simp only [List.mem_append, not_or]
      exact ⟨⟨⟨by decide, actId_noBreak hid⟩, by decide⟩, hs⟩
    rcases List.mem_cons.1 hl with rfl | hl
    · simp only [List.mem_append, not_or]
      exact ⟨by decide, iso_noBreak (showDate_iso _)⟩
    rcases List.mem_cons.1 hl with rfl | hl
    · simp
    obtain ⟨x, hx, rfl⟩ := List.mem_map.1 hl
    exact displayLine_noBreak (h x hx)

example : Res.map linesOf (cliRawAct true (sampleRaw [boldLetter])) =
    .ok [str!"Act ID: 2022. évi I. törvény - a dolgokról", str!"Pub date: 2021-05-07", [], str!"<BOLD>a"] := by
  decide +kernel

end HunLaw.Props
