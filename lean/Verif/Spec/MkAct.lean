import Verif.Model.MkAct

/-! Independent specifications for C41 and C61-C62: acts in a gazette, dates. -/

set_option autoImplicit false

namespace HunLaw.Spec

/-! ### the acts section -/

/-- The heading of the section with acts. -/
def IsStart (l : Line) : Prop := l.isBold = true ∧ l.content = str!"II. Törvények"

/-- A heading of some later section. -/
def IsStop (l : Line) : Prop :=
  l.isBold = true ∧ ∃ p ∈ [str!"III. Kormányrendeletek", str!"IV. A Magyar Nemzeti Bank elnökének rendeletei",
    str!"V. A Kormány tagjainak rendeletei", str!"VI. Az Alkotmánybíróság határozatai",
    str!"VII. A Kúria határozatai", str!"IX. Határozatok Tára"], p <+: l.content

/-- A bold line with something like `2021. évi XX. törvény` in it. -/
def LooksLikeTitle (l : Line) : Prop :=
  l.isBold = true ∧ ∃ before digits c numeral c' after,
    l.content = before ++ digits ++ [c] ++ str!" évi " ++ numeral ++ [c'] ++ str!" törvény" ++ after ∧
    digits ≠ [] ∧ (∀ d ∈ digits, d ∈ str!"0123456789") ∧ c ≠ '\n' ∧
    numeral ≠ [] ∧ (∀ d ∈ numeral, d ∈ str!"IVXLC") ∧ c' ≠ '\n'

/-- After these lines of the gazette we are in the acts section: the last heading is that of the acts, or
there was no heading yet but a title of an act. -/
def InActs (lines : List Line) : Prop :=
  (∃ a m b, lines = a ++ m :: b ∧ IsStart m ∧ ∀ l ∈ b, ¬ IsStart l ∧ ¬ IsStop l) ∨
  ((∀ l ∈ lines, ¬ IsStart l ∧ ¬ IsStop l) ∧ ∃ l ∈ lines, LooksLikeTitle l)

open Classical in
/-- The lines of a page in the acts section. -/
noncomputable def actsLinesOfPage (before : List Line) : Page → List Line
  | [] => []
  | l :: ls =>
    (if ¬ IsStart l ∧ ¬ IsStop l ∧ InActs (before ++ [l]) then [l] else []) ++
      actsLinesOfPage (before ++ [l]) ls

open Classical in
/-- The lines of the acts section, with an empty line at the end of each of its pages. `before` are the
lines of the earlier pages. -/
noncomputable def actsLines (before : List Line) : List Page → List Line
  | [] => []
  | p :: ps =>
    actsLinesOfPage before p ++ (if InActs (before ++ p) then [Line.emptyLine] else []) ++
      actsLines (before ++ p) ps

/-! ### acts -/

/-- The line begins with `2010. évi XX. törvény`, the title of this act. -/
def TitleOf (l : Line) (id : ActId) : Prop :=
  ∃ a b c d x numeral y after,
    l.content = [a, b, c, d] ++ [x] ++ str!" évi " ++ numeral ++ [y] ++ str!" törvény" ++ after ∧
    a ∈ str!"12" ∧ b ∈ str!"09" ∧ c ∈ str!"0123456789" ∧ d ∈ str!"0123456789" ∧ x ≠ '\n' ∧ y ≠ '\n' ∧
    (∀ e ∈ numeral, e ∈ str!"IVXLC") ∧
    decInt id.year.val = [a, b, c, d] ∧ 0 ≤ id.number.val ∧ romanTo id.number.val.toNat = some numeral

/-- The lines an act was made from, with the lines before it that were skipped. -/
structure Region where
  skipped : List Line
  blank : Line
  title : Line
  subject : List Line
  body : List Line

/-- All lines of a region, in order. -/
def Region.lines (r : Region) : List Line := r.skipped ++ [r.blank, r.title] ++ r.subject ++ r.body

/-- The footnote `* A törvényt az Országgyűlés ... fogadta el.` is left out with the empty line after it,
or there is none. -/
def FooterRemoved (full kept : List Line) : Prop :=
  kept = full ∨ ∃ x b s b' y, full = x ++ b :: s :: b' :: y ∧ kept = x ++ b :: y ∧ x ≠ [] ∧
    b.isEmpty = true ∧ s.content.head? = some '*' ∧ b'.isEmpty = true

/-- The line with the titles of those who sign an act. -/
def IsSignature (l : Line) : Prop :=
  l.content = str!"köztársasági elnök az Országgyűlés elnöke" ∨
  l.content = str!"köztársasági elnök az Országgyűlés alelnöke" ∨
  l.content = str!"az Országgyűlés elnöke, az Országgyűlés alelnöke,"

/-- The region makes this act: the title gives the identifier, the lines up to the first one that ends with
an asterisk give the subject, and the lines after it up to the signatures give the body. -/
def IsAct (date : Date) (r : Region) (id : ActId) (subject : Str) (published : Date) (body : List Line) : Prop :=
  r.blank.isEmpty = true ∧ TitleOf r.title id ∧ Line.join r.subject = subject ++ ['*'] ∧
  (∀ p, p <+: r.subject → p ≠ r.subject → (Line.join p).getLast? ≠ some '*') ∧ published = date ∧
  ∃ kept b names signature, FooterRemoved r.body kept ∧ kept = body ++ [b, names, signature] ∧
    2 ≤ body.length ∧ b.isEmpty = true ∧
    IsSignature signature

/-- As `IsAct`, when nothing in the text of the act looks like its end or its footnote before these come: the
lines skipped have no titles, the signature does not occur earlier and no line begins with an asterisk before
the footnote. -/
def IsCleanAct (date : Date) (r : Region) (a : ActRawText) : Prop :=
  r.blank.isEmpty = true ∧ TitleOf r.title a.identifier ∧ Line.join r.subject = a.subject ++ ['*'] ∧
  (∀ p, p <+: r.subject → p ≠ r.subject → (Line.join p).getLast? ≠ some '*') ∧ a.publicationDate = date ∧
  (∀ l ∈ r.skipped, ∀ id, ¬ TitleOf l id) ∧ (∀ l ∈ r.body.dropLast, ¬ IsSignature l) ∧
  ∃ b names signature, 2 ≤ a.body.length ∧ b.isEmpty = true ∧ IsSignature signature ∧
    (((∀ l ∈ r.body, l.content.head? ≠ some '*') ∧ r.body = a.body ++ [b, names, signature]) ∨
     ∃ x e s e' y, r.body = x ++ e :: s :: e' :: y ∧ a.body ++ [b, names, signature] = x ++ e :: y ∧ x ≠ [] ∧
       y ≠ [] ∧ e.isEmpty = true ∧ s.content.head? = some '*' ∧ e'.isEmpty = true ∧
       ∀ l ∈ x, l.content.head? ≠ some '*')

/-- The empty line before the title is the first one, or the third, the fifth and so on. -/
def OddBlank (r : Region) : Prop :=
  ∃ s blanks, r.skipped = s ++ blanks ∧ (∀ l, s.getLast? = some l → l.isEmpty = false) ∧
    (∀ l ∈ blanks, l.isEmpty = true) ∧ blanks.length % 2 = 0

/-! ### dates -/

/-- The names of the months. -/
def monthNames : List Str :=
  [str!"január", str!"február", str!"március", str!"április", str!"május", str!"június", str!"július",
   str!"augusztus", str!"szeptember", str!"október", str!"november", str!"december"]

/-- Number of days of the months in common years. -/
def monthDays : List Nat := [31, 28, 31, 30, 31, 30, 31, 31, 30, 31, 30, 31]

/-- There is such a date in the Gregorian calendar. -/
def RealDate (d : Date) : Prop :=
  1 ≤ d.month ∧ d.month ≤ 12 ∧ 1 ≤ d.day ∧
  (d.day ≤ monthDays.getD (d.month - 1) 0 ∨
   d.month = 2 ∧ d.day = 29 ∧ 4 ∣ d.year ∧ (100 ∣ d.year → 400 ∣ d.year))

end HunLaw.Spec
