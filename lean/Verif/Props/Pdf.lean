import Mathlib.Tactic.Linarith
import Verif.Lemmas.PdfForms
import Verif.Props.PdfLines

/-! Property theorems about the rendering of PDF pages: C73-C81. -/

set_option autoImplicit false

namespace HunLaw.Props

open HunLaw HunLaw.Spec HunLaw.Pdf

/-! ### Sample files -/

/-- The printable codes of ASCII. -/
def asciiTable (code : Nat) : Option Char := if 32 ≤ code ∧ code < 127 then some (Char.ofNat code) else none

/-- A font with the given name, half a unit wide letters and WinAnsi encoding. -/
def sampleFont (name : Str) : FontObj := ⟨some fun _ => 500, false, some name, some ⟨.winAnsi asciiTable, []⟩, none⟩

/-- A regular and a bold font at different addresses, and an object. -/
def sampleResources : Resources where
  fonts name :=
    if name = str!"F1" then some ⟨1, sampleFont str!"Times-Roman"⟩
    else if name = str!"F2" then some ⟨2, sampleFont str!"Times-Bold"⟩ else none
  graphicsStates name := if name = str!"G2" then some (some (⟨2, sampleFont str!"Times-Bold"⟩, 10)) else none
  xobjects name := if name = str!"X1" then some 1 else none

/-- A crop box of 100 times 100. -/
def sampleCrop : CropBox := ⟨0, 0, 100, 100⟩

/-- A file without objects. -/
def noObjects : Objects := fun _ => none

/-- Text in two fonts, with a letter outside of the crop box. -/
def sampleOps : List Op :=
  [.beginText, .textFont str!"F1" 10, .moveTextPosition 20 50, .textDraw [65, 32, 66],
   .textFont str!"F2" 10, .textDraw [67], .moveTextPosition 0 (-20), .textDrawAdjusted [.text [68], .spacing (-9000), .text [69]],
   .endText]

def samplePdfPage : PdfPage := ⟨some sampleResources, some sampleOps⟩

/-- The characters collected from a page. -/
def pageChars (objects : Objects) (depth : Nat) (crop : CropBox) (page : PdfPage) : Res (List PChar) :=
  match renderPage objects depth crop (fun _ => none) page with
  | .ok p => .ok p.2
  | .err => .err
  | .panic => .panic

/-- The texts of the pages of a parsed file. -/
def pageTexts : Res (List (List Line)) → Option (List (List Str))
  | .ok r => some (r.map (·.map Line.content))
  | _ => none

/-- The characters collected, if there was no error. -/
def charsOf : Res Renderer → Option (List PChar)
  | .ok r => some r.collector.chars
  | _ => none

theorem charsOf_eq {x : Res Renderer} {l : List PChar} (h : charsOf x = some l) :
    ∃ r, x = .ok r ∧ r.collector.chars = l := by
  cases x with
  | ok r => exact ⟨r, rfl, Option.some.inj h⟩
  | err => cases h
  | panic => cases h

example : pageChars noObjects 5 sampleCrop samplePdfPage =
    .ok [⟨20, 50, 5, 5, false, 'A'⟩, ⟨30, 50, 5, 5, false, 'B'⟩, ⟨35, 50, 5, 5, true, 'C'⟩,
         ⟨20, 30, 5, 5, true, 'D'⟩] := by decide +kernel

/-! ### C73: what is collected -/

/-- Every character collected from a page is visible, inside of the crop box and repaired. -/
theorem C73_visible (objects : Objects) (depth : Nat) (crop : CropBox) (cache cache' : FontCache) (page : PdfPage)
    (chars : List PChar) (h : renderPage objects depth crop cache page = .ok (cache', chars)) :
    ∀ c ∈ chars, isWhitespace c.content = false ∧
      crop.left ≤ c.x ∧ c.x ≤ crop.right ∧ crop.bottom ≤ c.y ∧ c.y ≤ crop.top ∧
      c.content ∉ ['Õ', 'õ', 'Û', 'û'] := by
  obtain ⟨new, rfl⟩ := renderPage_seen h
  intro c hc
  simp only [seen, List.mem_filter, List.mem_map, Bool.and_eq_true, Bool.not_eq_true', decide_eq_true_eq] at hc
  obtain ⟨⟨d, -, rfl⟩, h1, h2⟩ := hc
  obtain ⟨a, b, e, f⟩ := repaired_ne d.content
  refine ⟨h1, h2.1, h2.2.1, h2.2.2.1, h2.2.2.2, ?_⟩
  simp [a, b, e, f]

/-- A parsed file has for every page its lines: the rows of visible characters inside of the crop box, from
top to bottom. -/
theorem C73_pages (S : Sorter) (hS : S.Sorts) (objects : Objects) (depth : Nat) (crop : CropBox)
    (pages : List (Option PdfPage)) (result : List (List Line))
    (h : parsePdf S objects depth crop pages = .ok result) :
    List.Forall₂ (fun page lines => ∃ p chars, page = some p ∧
      (∃ cache cache', renderPage objects depth crop cache p = .ok (cache', chars)) ∧
      (chars = [] → lines = [Line.emptyLine]) ∧
      (chars ≠ [] → ∃ rows : List (Rat × List PChar),
        (rows.flatMap (·.2)).Perm chars ∧ PageShows chars rows lines)) pages result := by
  unfold parsePdf at h
  generalize (fun _ => none : FontCache) = cache at h
  induction pages generalizing cache result with
  | nil => cases h; exact List.Forall₂.nil
  | cons page pages ih =>
    simp only [renderPages, Res.bind_eq_ok] at h
    obtain ⟨p, hp, ⟨cache', chars⟩, hr, rest, hrest, e⟩ := h
    cases e
    refine List.Forall₂.cons ⟨p, chars, ?_, ⟨cache, cache', hr⟩, ?_⟩ (ih _ _ hrest)
    · cases page with
      | none => cases hp
      | some q => cases hp; rfl
    · have hv : ∀ c ∈ chars, c.content ≠ ' ' := by
        intro c hc e
        have := (C73_visible _ _ _ _ _ _ _ hr c hc).1
        rw [e] at this
        exact absurd this (by decide)
      exact C53_rows S hS chars hv

example : ∃ result, parsePdf insertionSorter noObjects 5 sampleCrop [some samplePdfPage] = .ok result ∧
    result.map (·.map Line.content) = [[str!"A BC", [], str!"D"]] := by
  have h : ∀ x : Res (List (List Line)), pageTexts x = some [[str!"A BC", [], str!"D"]] → ∃ result, x = .ok result ∧ result.map (·.map Line.content) = [[str!"A BC", [], str!"D"]] := by
    intro x hx
    cases x with
    | ok r => exact ⟨r, rfl, Option.some.inj hx⟩
    | err => cases hx
    | panic => cases hx
  exact h _ (by decide +kernel)

/-- With the crop box of the gazette, what is kept of a page of size A4 (595 times 842 points) is all that is not in the
uppermost 90 points (an inch and a quarter), where the header of the page is. -/
theorem C73_gazette (x y : Rat) (hx : 0 ≤ x ∧ x ≤ 595) (hy : 0 ≤ y ∧ y ≤ 842) :
    CropBox.defaultMk.isInside x y = true ↔ 90 ≤ 842 - y := by
  obtain ⟨h1, h2⟩ := hx
  obtain ⟨h3, h4⟩ := hy
  simp only [CropBox.isInside, CropBox.defaultMk, Bool.and_eq_true, decide_eq_true_eq, ge_iff_le]
  constructor
  · rintro ⟨-, h⟩
    linarith
  · intro h
    exact ⟨⟨⟨decide_eq_true h1, by linarith⟩, decide_eq_true h3⟩, by linarith⟩

example : CropBox.defaultMk.isInside 300 752 = true ∧ CropBox.defaultMk.isInside 300 753 = false := by decide +kernel

/-- With the default crop box, nothing of such a page is left out. -/
theorem C73_default (x y : Rat) (hx : 0 ≤ x ∧ x ≤ 595) (hy : 0 ≤ y ∧ y ≤ 842) :
    CropBox.default.isInside x y = true := by
  obtain ⟨h1, h2⟩ := hx
  obtain ⟨h3, h4⟩ := hy
  simp only [CropBox.isInside, CropBox.default, Bool.and_eq_true, decide_eq_true_eq, ge_iff_le]
  exact ⟨⟨⟨decide_eq_true h1, by linarith⟩, decide_eq_true h3⟩, by linarith⟩

example : CropBox.default.isInside 595 842 = true ∧ CropBox.default.isInside 595 1001 = false := by decide +kernel

/-! ### C74: bold characters -/

/-- The full property: a character is bold exactly if the font in effect where it is drawn is named bold.
`pre` are the operations of the page before. -/
def C74_statement : Prop :=
  ∀ (res : Resources) (crop : CropBox) (depth : Nat) (pre : List Op) (op : Op) (r r' : Renderer),
    (∀ f g, Uses res f → Uses res g → f.address = g.address → f.font = g.font) →
    (∀ name, Op.xObject name ∉ op :: pre) →
    Renderer.run noObjects depth (.new (fun _ => none) (.new crop) (some res)) pre = .ok r →
    r.handleSimple op = .ok r' →
    ∃ new, r'.collector.chars = r.collector.chars ++ new ∧
      ∀ c ∈ new, (c.bold = true ↔ FontBold (fontAfter res pre))

/-- A regular font is set and saved, then text is drawn in a bold font; after the regular font is
restored, its text is still collected as bold. -/
def restoredOps : List Op :=
  [.textFont str!"F1" 10, .moveTextPosition 20 50, .save, .textFont str!"F2" 10, .textDraw [65], .restore]

theorem sampleResources_apart : ∀ f g, Uses sampleResources f → Uses sampleResources g →
    f.address = g.address → f.font = g.font := by
  have key : ∀ f, Uses sampleResources f →
      f = ⟨1, sampleFont str!"Times-Roman"⟩ ∨ f = ⟨2, sampleFont str!"Times-Bold"⟩ := by
    rintro f (⟨name, h⟩ | ⟨name, size, h⟩)
    · simp only [sampleResources] at h
      split at h
      · exact .inl (Option.some.inj h).symm
      · split at h
        · exact .inr (Option.some.inj h).symm
        · cases h
    · simp only [sampleResources] at h
      split at h
      · cases h; exact .inr rfl
      · cases h
  intro f g hf hg ha
  rcases key f hf with rfl | rfl <;> rcases key g hg with rfl | rfl
  · rfl
  · cases ha
  · cases ha
  · rfl

theorem C74_violated : ¬ C74_statement := by
  intro h
  have hrun : ∃ r r', Renderer.run noObjects 5 (.new (fun _ => none) (.new sampleCrop) (some sampleResources)) restoredOps = .ok r ∧
      r.handleSimple (.textDraw [66]) = .ok r' ∧
      r.collector.chars = [⟨20, 50, 5, 5, true, 'A'⟩] ∧
      r'.collector.chars = [⟨20, 50, 5, 5, true, 'A'⟩, ⟨20, 50, 5, 5, true, 'B'⟩] := by
    obtain ⟨r, h1, e1⟩ := charsOf_eq (x := Renderer.run noObjects 5
      (.new (fun _ => none) (.new sampleCrop) (some sampleResources)) restoredOps)
      (l := [⟨20, 50, 5, 5, true, 'A'⟩]) (by decide +kernel)
    obtain ⟨r', h2, e2⟩ := charsOf_eq (x := Renderer.run noObjects 5
      (.new (fun _ => none) (.new sampleCrop) (some sampleResources)) (restoredOps ++ [.textDraw [66]]))
      (l := [⟨20, 50, 5, 5, true, 'A'⟩, ⟨20, 50, 5, 5, true, 'B'⟩]) (by decide +kernel)
    refine ⟨r, r', h1, ?_, e1, e2⟩
    unfold Renderer.run at h1 h2
    rw [runWith_append, h1] at h2
    simp only [Res.bind_ok, Renderer.runWith, Res.bind_eq_ok] at h2
    obtain ⟨r2, h2, h3⟩ := h2
    cases h3
    exact h2
  obtain ⟨r, r', h1, h2, e1, e2⟩ := hrun
  obtain ⟨new, e, hb⟩ := h sampleResources sampleCrop 5 restoredOps (.textDraw [66]) r r' sampleResources_apart
    (by intro name; simp [restoredOps]) h1 h2
  rw [e1, e2] at e
  have hn : new = [⟨20, 50, 5, 5, true, 'B'⟩] := by
    simp only [List.cons_append, List.nil_append, List.cons.injEq, true_and] at e
    exact e.symm
  have hbold := (hb ⟨20, 50, 5, 5, true, 'B'⟩ (by rw [hn]; exact List.mem_singleton.2 rfl)).1 rfl
  obtain ⟨o, ho, n, hnm, hi⟩ := hbold
  have : fontAfter sampleResources restoredOps = some (sampleFont str!"Times-Roman") := rfl
  rw [this] at ho
  cases ho
  cases hnm
  revert hi
  decide

/-- Characters drawn by operations of a page, without forms, are bold exactly if the font in effect is named
bold, if restoring a saved state never changes whether the font is bold.
Missing: restoring changes the font back, but the renderer goes on with the boldness of the font before
that; forms, for which see `C74_forms_partial`. -/
theorem C74_bold_partial (res : Resources) (objects : Objects) (crop : CropBox) (depth : Nat) (pre : List Op)
    (op : Op) (r r' : Renderer)
    (hapart : ∀ f g, Uses res f → Uses res g → f.address = g.address → f.font = g.font)
    (hforms : ∀ name, Op.xObject name ∉ op :: pre)
    (hrestore : ∀ a b, pre ++ [op] = a ++ .restore :: b →
      (FontBold (fontAfter res a) ↔ FontBold (fontAfter res (a ++ [.restore]))))
    (h : Renderer.run objects depth (.new (fun _ => none) (.new crop) (some res)) pre = .ok r)
    (hop : r.handleSimple op = .ok r') :
    ∃ new, r'.collector.chars = r.collector.chars ++ new ∧
      ∀ c ∈ new, (c.bold = true ↔ FontBold (fontAfter res pre)) := by
  have hQ : Learns fun b _ o => b = true ↔ FontBold o := fun o f k hc => by
    show _ = true ↔ _
    rw [fontChanged_bold hc]; simp [FontBold]
  have h0 : Tracks (fun b _ o => b = true ↔ FontBold o) (Uses res) res (.new (fun _ => none) (.new crop) (some res)) (none, []) :=
    ⟨rfl, (fun a ff h => nomatch h), trivial, List.Forall₂.nil,
      ⟨(fun h => nomatch h), (fun ⟨_, h, _⟩ => nomatch h)⟩⟩
  have ht := run_tracks hQ hapart (fun f h => h) h0 (fun name hm => hforms name (List.mem_cons_of_mem _ hm))
    (fun a b e _ _ hb => hb.trans (hrestore a (b ++ [op]) (by rw [e]; simp))) h
  refine (handleSimple_tracks hQ hapart (fun f h => h) ht (fun name e => hforms name (by simp [e])) ?_ hop).2
  rintro rfl
  have := hrestore pre [] rfl
  unfold fontAfter at this
  rw [fontsAfter_append] at this
  exact fun _ _ hb => hb.trans this

/-- The sample page: the third text is drawn in the bold font. -/
example : fontAfter sampleResources (sampleOps.take 5) = some (sampleFont str!"Times-Bold") := rfl
example : ∀ a b, sampleOps = a ++ .restore :: b → False := by
  intro a b h
  have : Op.restore ∈ sampleOps := by rw [h]; simp
  simp [sampleOps] at this

/-! ### C75: pages and fonts -/

/-- The full property: the lines of a page are what is on this page, whatever other pages the file has. -/
def C75_statement : Prop :=
  ∀ (S : Sorter) (objects : Objects) (depth : Nat) (crop : CropBox) (pages : List (Option PdfPage))
    (result : List (List Line)), S.Sorts → parsePdf S objects depth crop pages = .ok result →
    List.Forall₂ (fun page lines => parsePdf S objects depth crop [page] = .ok [lines]) pages result

/-- A font in which the code of `A` is `B`. -/
def shiftedFont : FontObj :=
  ⟨some fun _ => 500, false, some str!"Times", some ⟨.winAnsi asciiTable, []⟩, some (some [(65, str!"B")])⟩

/-- A page with one letter in a font at the address 1. -/
def letterPage (f : FontObj) : PdfPage :=
  ⟨some ⟨fun name => if name = str!"F1" then some ⟨1, f⟩ else none, fun _ => none, fun _ => none⟩,
   some [.textFont str!"F1" 10, .moveTextPosition 20 50, .textDraw [65]]⟩

/-- If the memory of a font of the first page is used for a font of the second one, the second page is
read with the font of the first one. -/
theorem C75_violated : ¬ C75_statement := by
  intro h
  have h1 : pageTexts (parsePdf insertionSorter noObjects 5 sampleCrop
      [some (letterPage (sampleFont str!"Times")), some (letterPage shiftedFont)]) =
        some [[str!"A"], [str!"A"]] := by decide +kernel
  have h2 : pageTexts (parsePdf insertionSorter noObjects 5 sampleCrop [some (letterPage shiftedFont)]) =
        some [[str!"B"]] := by decide +kernel
  cases hp : parsePdf insertionSorter noObjects 5 sampleCrop
      [some (letterPage (sampleFont str!"Times")), some (letterPage shiftedFont)] with
  | err => rw [hp] at h1; cases h1
  | panic => rw [hp] at h1; cases h1
  | ok result =>
    have hf := h insertionSorter noObjects 5 sampleCrop _ _ insertionSorter_sorts hp
    rw [hp] at h1
    cases hf with
    | cons a hf =>
      cases hf with
      | cons b hf =>
        cases hf
        rw [b] at h2
        simp only [pageTexts, List.map_cons, List.map_nil, Option.some.injEq, List.cons.injEq] at h1 h2
        rw [h1.2.1] at h2
        revert h2
        decide

/-- If different fonts of the file are at different addresses, every page is read as if it were alone.
Missing: objects are not kept in memory after they are used, so addresses are used again. -/
theorem C75_pages_partial (S : Sorter) (objects : Objects) (depth : Nat) (crop : CropBox)
    (pages : List (Option PdfPage)) (result : List (List Line)) (hapart : FontsApart objects pages)
    (h : parsePdf S objects depth crop pages = .ok result) :
    List.Forall₂ (fun page lines => parsePdf S objects depth crop [page] = .ok [lines]) pages result := by
  have hforms : ∀ n res ops, objects n = some (.form (some res) ops) → ∀ f, Uses res f → FileUses objects pages f :=
    fun n res ops hn f hf => .inr ⟨n, res, ops, hn, hf⟩
  have key : ∀ (ps : List (Option PdfPage)) (cache : FontCache) (result : List (List Line)),
      (∀ p ∈ ps, p ∈ pages) → CacheOk (FileUses objects pages) cache →
      renderPages S objects depth crop cache ps = .ok result →
      List.Forall₂ (fun page lines => parsePdf S objects depth crop [page] = .ok [lines]) ps result := by
    intro ps
    induction ps with
    | nil => intro cache result _ _ h; cases h; exact List.Forall₂.nil
    | cons page ps ih =>
      intro cache result hmem hc h
      simp only [renderPages, Res.bind_eq_ok] at h
      obtain ⟨p, hp, ⟨cache', chars⟩, hr, rest, hrest, e⟩ := h
      cases e
      have hpage : page = some p := by
        cases page with
        | none => cases hp
        | some q => cases hp; rfl
      subst hpage
      have hin := hmem (some p) List.mem_cons_self
      have hu : ∀ res, p.resources = some res → ∀ f, Uses res f → FileUses objects pages f :=
        fun res hres f hf => .inl ⟨p, res, hin, hres, hf⟩
      have ha := renderPage_alike hapart hforms depth crop hc (c2 := fun _ => none) (fun a ff h => by cases h) p hu
      rw [hr] at ha
      have hself := renderPage_alike hapart hforms depth crop hc hc p hu
      rw [hr] at hself
      refine List.Forall₂.cons ?_ (ih cache' rest (fun q hq => hmem q (List.mem_cons_of_mem _ hq)) hself.2.1 hrest)
      unfold parsePdf
      simp only [renderPages, Res.ofOption, Res.bind_ok]
      cases hr2 : renderPage objects depth crop (fun _ => none) p with
      | err => rw [hr2] at ha; exact ha.elim
      | panic => rw [hr2] at ha; exact ha.elim
      | ok q =>
        rw [hr2] at ha
        simp only [Res.bind_ok]
        have := ha.1
        simp only at this
        rw [this]
  exact key pages _ _ (fun _ h => h) (fun a ff h => by cases h) h

/-- The same font at one address is fine. -/
example : FontsApart noObjects [some samplePdfPage, some samplePdfPage] := by
  have : ∀ f, FileUses noObjects [some samplePdfPage, some samplePdfPage] f → Uses sampleResources f := by
    rintro f (⟨page, res, hp, hr, hu⟩ | ⟨n, res, ops, hn, hu⟩)
    · simp only [List.mem_cons, List.not_mem_nil, or_false, or_self, Option.some.injEq] at hp
      subst hp
      cases hr
      exact hu
    · cases hn
  exact fun f g hf hg => sampleResources_apart f g (this f hf) (this g hg)

/-! ### C76, C77: texts of codes -/

/-- The full property: the map to Unicode of a font says what the text of a code is. -/
def C76_statement : Prop :=
  ∀ (o : FontObj) (f : FastFont) (code : Nat) (s : Str), UniqueEntries o → FastFont.convert o = .ok f →
    (unicodeEntries o).lookup code = some s → codeText (f.toUnicode code) = some s

/-- A font whose encoding has a glyph with an unknown name for the code 65, which the map to Unicode says
is an `A`. -/
def shadowedFont : FontObj :=
  ⟨some fun _ => 500, false, none, some ⟨.none, [(65, none)]⟩, some (some [(65, str!"A")])⟩

/-- The code is read as nothing. -/
theorem C76_violated : ¬ C76_statement := by
  intro h
  have h1 : (match FastFont.convert shadowedFont with
      | .ok f => codeText (f.toUnicode 65)
      | _ => none) = some [] := by decide +kernel
  cases hc : FastFont.convert shadowedFont with
  | err => rw [hc] at h1; cases h1
  | panic => rw [hc] at h1; cases h1
  | ok f =>
    rw [hc] at h1
    have := h shadowedFont f 65 str!"A" (by unfold UniqueEntries; decide) hc (by decide)
    simp only at h1
    rw [h1] at this
    revert this
    decide

theorem viewText_mapped {k : Nat} {s : Str} {v : Option Str × Char × Bool} (hs : s ≠ ['\x00'] ∨ 1000 < k)
    (hv : v.1 = none ∨ s.length ≠ 1 ∨ 1000 < k) : viewText k (mapped k s v) = some s := by
  unfold mapped
  split
  · rename_i c
    by_cases hk : k > 1000
    · simp [hk, viewText]
    · have h1 : v.1 = none := by
        rcases hv with h | h | h
        · exact h
        · exact absurd rfl h
        · exact absurd h hk
      have h2 : c ≠ '\x00' := by
        rcases hs with h | h
        · intro e; exact h (by rw [e])
        · exact absurd h hk
      simp [hk, viewText, h1, h2]
  · rfl

/-- The map to Unicode says what the text of a code is, if the encoding does not give the same code a
number of characters other than one. The character U+0000 cannot be mapped to.
Missing: a code of both, which has one character by the map but not by the differences. -/
theorem C76_unicode_partial (o : FontObj) (f : FastFont) (code : Nat) (s : Str) (hu : UniqueEntries o)
    (h : FastFont.convert o = .ok f) (hs : (unicodeEntries o).lookup code = some s) (h0 : s ≠ ['\x00'])
    (hd : s.length = 1 → ∀ e, o.encoding = some e → ∀ t, (differenceEntries e).lookup code = some t →
      t.length = 1) :
    codeText (f.toUnicode code) = some s := by
  rw [toUnicode_view]
  cases he : o.encoding with
  | none =>
    simp only [FastFont.convert, he, Res.bind_eq_ok] at h
    obtain ⟨_, _, _, h, _⟩ := h
    cases h
  | some e =>
    rw [convert_view h he hu code]
    simp only [hs]
    refine viewText_mapped (.inl h0) ?_
    by_cases hl : s.length = 1
    · by_cases hk : 1000 < code
      · exact .inr (.inr hk)
      · refine .inl ?_
        have hone : ∀ (t : Str) (v : Option Str × Char × Bool), t.length = 1 → v.1 = none → (mapped code t v).1 = none := by
          intro t v ht hv
          match t, ht with
          | [c], _ => simp [mapped, hk, hv]
        have hshort : ∀ t, shortText e.base code = some t → t.length = 1 := by
          intro t ht
          unfold shortText at ht
          split at ht
          · split at ht
            · simp only [Option.map_eq_some_iff] at ht
              obtain ⟨c, -, rfl⟩ := ht
              rfl
            · cases ht
          · split at ht
            · split at ht
              · cases ht; rfl
              · split at ht
                · cases ht; rfl
                · cases ht
            · cases ht
          · cases ht
        have h1 : (match shortText e.base code with
            | some s => mapped code s (noView false)
            | none => noView (isIdentityH e.base)).1 = none := by
          cases hb : shortText e.base code with
          | none => rfl
          | some t => exact hone t _ (hshort t hb) rfl
        cases hdl : (differenceEntries e).lookup code with
        | none => exact h1
        | some t => exact hone t _ (hd hl e he t hdl) h1
    · exact .inr (.inl hl)

/-- A ligature, by the map to Unicode. -/
def ligatureFont : FontObj :=
  ⟨some fun _ => 500, true, none, some ⟨.identityH, []⟩, some (some [(3, str!"fi"), (4, str!"A")])⟩

example : UniqueEntries ligatureFont ∧ (unicodeEntries ligatureFont).lookup 3 = some str!"fi" ∧
    (match FastFont.convert ligatureFont with
      | .ok f => (codeText (f.toUnicode 3), codeText (f.toUnicode 4), codeText (f.toUnicode 5))
      | _ => (none, none, none)) = (some str!"fi", some str!"A", some ['\x05']) := by
  refine ⟨?_, by decide, by decide +kernel⟩
  refine ⟨by decide, ?_⟩
  intro e he
  cases he
  decide

/-- The full property: codes that are not in the map to Unicode have the text which the encoding gives. -/
def C77_statement : Prop :=
  ∀ (o : FontObj) (f : FastFont) (code : Nat), UniqueEntries o → FastFont.convert o = .ok f →
    (unicodeEntries o).lookup code = none → codeText (f.toUnicode code) = fontText o code

/-- A font where the code 255 is `ÿ`. -/
def lastCodeFont : FontObj :=
  ⟨some fun _ => 500, false, none, some ⟨.winAnsi fun c => if c = 255 then some 'ÿ' else none, []⟩, none⟩

/-- The code 255 of base encodings is not read. -/
theorem C77_violated : ¬ C77_statement := by
  intro h
  have h1 : (match FastFont.convert lastCodeFont with
      | .ok f => codeText (f.toUnicode 255)
      | _ => some []) = none := by decide +kernel
  cases hc : FastFont.convert lastCodeFont with
  | err => rw [hc] at h1; cases h1
  | panic => rw [hc] at h1; cases h1
  | ok f =>
    rw [hc] at h1
    have := h lastCodeFont f 255 (by
      refine ⟨by decide, ?_⟩
      intro e he
      cases he
      decide) hc rfl
    simp only at h1
    rw [h1] at this
    revert this
    decide

/-- Codes other than 255 that are not in the map to Unicode have the text which the encoding gives, unless
it is U+0000.
Missing: the code 255 of base encodings. -/
theorem C77_encoding_partial (o : FontObj) (f : FastFont) (code : Nat) (hu : UniqueEntries o)
    (h : FastFont.convert o = .ok f) (hs : (unicodeEntries o).lookup code = none) (h255 : code ≠ 255)
    (h0 : fontText o code ≠ some ['\x00']) : codeText (f.toUnicode code) = fontText o code := by
  rw [toUnicode_view]
  unfold fontText at h0 ⊢
  cases he : o.encoding with
  | none =>
    simp only [FastFont.convert, he, Res.bind_eq_ok] at h
    obtain ⟨_, _, _, h, _⟩ := h
    cases h
  | some e =>
    rw [convert_view h he hu code]
    simp only [he, hs] at h0 ⊢
    cases hd : (differenceEntries e).lookup code with
    | some t =>
      simp only [hd] at h0 ⊢
      refine viewText_mapped (.inl fun e => h0 (by rw [e])) ?_
      by_cases hk : 1000 < code
      · exact .inr (.inr hk)
      · refine .inl ?_
        cases hb : shortText e.base code with
        | none => rfl
        | some s =>
          unfold shortText at hb
          split at hb
          · split at hb
            · simp only [Option.map_eq_some_iff] at hb
              obtain ⟨c, -, rfl⟩ := hb
              simp [mapped, hk, noView]
            · cases hb
          · split at hb
            · split at hb
              · cases hb; simp [mapped, hk, noView]
              · split at hb
                · cases hb; simp [mapped, hk, noView]
                · cases hb
            · cases hb
          · cases hb
    | none =>
      simp only [hd] at h0 ⊢
      have hlt : (code < 255) = (code < 256) := propext (by omega)
      cases hb : e.base with
      | table t =>
        rw [hb] at h0
        simp only [baseText, shortText, isIdentityH, hlt] at h0 ⊢
        by_cases hc : code < 256
        · simp only [hc, if_true] at h0 ⊢
          cases ht : t code with
          | none => rfl
          | some c =>
            simp only [ht, Option.map_some] at h0 ⊢
            exact viewText_mapped (.inl fun e => h0 (by rw [e])) (.inl rfl)
        · simp only [hc, if_false]
          rfl
      | winAnsi t =>
        rw [hb] at h0
        simp only [baseText, shortText, isIdentityH, hlt] at h0 ⊢
        by_cases hc : code < 256
        · simp only [hc, if_true] at h0 ⊢
          cases ht : t code with
          | none =>
            simp only
            by_cases h30 : 30 < code
            · simp only [h30, if_true]
              exact viewText_mapped (.inl (by decide)) (.inl rfl)
            · simp only [h30, if_false]
              rfl
          | some c =>
            simp only [ht] at h0 ⊢
            exact viewText_mapped (.inl fun e => h0 (by rw [e])) (.inl rfl)
        · simp only [hc, if_false]
          rfl
      | identityH =>
        simp only [baseText, shortText, isIdentityH, noView, viewText]
        simp
      | none => rfl
      | unsupported => rfl

example : (match FastFont.convert (sampleFont str!"Times") with
    | .ok f => [codeText (f.toUnicode 65), codeText (f.toUnicode 127), codeText (f.toUnicode 20)]
    | _ => []) = [some str!"A", some str!"•", none] ∧
    [fontText (sampleFont str!"Times") 65, fontText (sampleFont str!"Times") 127,
      fontText (sampleFont str!"Times") 20] = [some str!"A", some str!"•", none] := by
  decide +kernel

/-! ### C78: drawing objects -/

/-- The full property: drawing an object changes neither the text state nor the saved ones. -/
def C78_statement : Prop :=
  ∀ (objects : Objects) (depth : Nat) (r r' : Renderer) (name : Str),
    r.handleXObject objects depth name = .ok r' →
    r'.state = r.state ∧ r'.stack = r.stack ∧ r'.resources = r.resources

/-- A file where the object 1 is a form with the given operations. -/
def formObjects (ops : List Op) : Objects := fun n => if n = 1 then some (.form none (some ops)) else none

/-- A form that saves a state and does not restore it leaks its settings. -/
theorem C78_violated : ¬ C78_statement := by
  intro h
  have := h (formObjects [.leading 5, .save]) 1 (.new (fun _ => none) (.new sampleCrop) (some sampleResources)) _
    str!"X1" rfl
  have h2 := congrArg TextState.leading this.1
  revert h2
  decide +kernel

/-- Drawing an object changes neither the text state nor the saved ones nor the resources, if saves and
restores are balanced in the forms of the file.
Missing: forms where they are not. -/
theorem C78_forms_partial (objects : Objects) (depth : Nat) (r r' : Renderer) (name : Str)
    (hb : BalancedForms objects (BalancedSaves 0 0)) (h : r.handleXObject objects depth name = .ok r') :
    r'.state = r.state ∧ r'.stack = r.stack ∧ r'.resources = r.resources := handleXObject_same hb h

/-- A form that draws text between a save and a restore. -/
def textForm : List Op :=
  [.save, .textFont str!"F1" 10, .moveTextPosition 20 50, .textDraw [65], .restore, .leading 7]

example : BalancedForms (formObjects textForm) (BalancedSaves 0 0) := by
  intro n res ops h
  unfold formObjects at h
  split at h
  · cases h; exact ⟨by decide, rfl⟩
  · cases h

example : pageChars (formObjects textForm) 1 sampleCrop ⟨some sampleResources, some [.xObject str!"X1"]⟩ =
    .ok [⟨20, 50, 5, 5, false, 'A'⟩] := by decide +kernel

/-! ### C79: no crashes -/

/-- The full property: with enough stack, rendering a page of a file never crashes. -/
def C79_statement : Prop :=
  ∀ (objects : Objects) (crop : CropBox) (cache : FontCache) (page : PdfPage),
    ∃ depth, renderPage objects depth crop cache page ≠ .panic

theorem self_drawing (depth : Nat) (r : Renderer) (hr : r.resources = some sampleResources) :
    r.handleXObject (formObjects [.xObject str!"X1"]) depth str!"X1" = .panic := by
  have hf : ∀ r : Renderer, r.resources = some sampleResources →
      r.findObject (formObjects [.xObject str!"X1"]) str!"X1" = .ok (.form none (some [.xObject str!"X1"])) := by
    intro r hr
    simp only [Renderer.findObject, hr]
    rfl
  induction depth generalizing r with
  | zero => simp only [Renderer.handleXObject, hf r hr, Res.bind_ok]
  | succ depth ih =>
    simp only [Renderer.handleXObject, hf r hr, Res.bind_ok, Renderer.drawForm, Res.ofOption, Renderer.runWith,
      Renderer.handleOp]
    rw [ih (r.enterForm none) hr]
    rfl

/-- A form that draws itself makes the stack overflow, however large it is. -/
theorem C79_violated : ¬ C79_statement := by
  intro h
  obtain ⟨depth, h⟩ := h (formObjects [.xObject str!"X1"]) sampleCrop (fun _ => none)
    ⟨some sampleResources, some [.xObject str!"X1"]⟩
  apply h
  simp only [renderPage, Res.ofOption, Res.bind_ok, Renderer.run, Renderer.runWith, Renderer.handleOp]
  rw [self_drawing depth _ rfl]
  rfl

/-- Rendering a page does not crash if forms never draw themselves, not even through others, and the stack
is deep enough for the forms inside of each other.
Missing: files with forms that draw themselves. -/
theorem C79_no_crash_partial (objects : Objects) (rank : Nat → Nat) (depth : Nat) (crop : CropBox)
    (cache : FontCache) (page : PdfPage) (hrank : Ranked objects rank)
    (hd : ∀ res name n, page.resources = some res → res.xobjects name = some n → rank n < depth) :
    renderPage objects depth crop cache page ≠ .panic := by
  unfold renderPage
  refine bind_no_panic (ofOption_ne_panic _) fun ops _ => bind_no_panic ?_ fun r _ => by simp
  refine runWith_ne_panic (res := page.resources) (fun _ _ _ h => handleXObject_resources h) ?_ rfl
  intro r name hr _
  exact handleXObject_ne_panic hrank depth r name fun res m e hm => hd res name m (hr ▸ e) hm

example : Ranked (formObjects textForm) (fun _ => 0) := by
  intro n res ops h name hm
  unfold formObjects at h
  split at h
  · cases h; simp [textForm] at hm
  · cases h

/-! ### C80: replaced text -/

/-- Marked content is nested properly; `n` is how many are open. -/
def BalancedMarks : Nat → List Op → Prop
  | n, [] => n = 0
  | n, .beginMarkedContent _ _ :: ops => BalancedMarks (n + 1) ops
  | n, .endMarkedContent :: ops => 0 < n ∧ BalancedMarks (n - 1) ops
  | n, _ :: ops => BalancedMarks n ops

/-- The full property: where a span has a replacement text, the page has this text in place of what is
drawn in the span. -/
def C80_statement : Prop :=
  ∀ (objects : Objects) (depth : Nat) (r r' : Renderer) (text : Str) (ops : List Op),
    r.actual = none → BalancedMarks 0 ops → (∀ name, Op.xObject name ∉ ops) →
    r.run objects depth (.beginMarkedContent str!"/Span" (some text) :: (ops ++ [.endMarkedContent])) = .ok r' →
    r'.collector.chars = r.collector.chars ∨ ∃ x y width space bold,
      r'.collector.chars = r.collector.chars ++ seen r.collector.crop (evenly x y width space bold text)

/-- A span inside of a span. -/
def nestedSpans : List Op :=
  [.textFont str!"F1" 10, .beginMarkedContent str!"/Span" (some str!"b"), .textDraw [65], .endMarkedContent,
   .textDraw [66]]

/-- A span inside of a span ends the replacement of the outer one. -/
theorem C80_violated : ¬ C80_statement := by
  intro h
  obtain ⟨r', h1, h2⟩ := charsOf_eq (x := Renderer.run noObjects 5
      (.new (fun _ => none) (.new sampleCrop) (some sampleResources))
      (.beginMarkedContent str!"/Span" (some str!"z") :: (nestedSpans ++ [.endMarkedContent])))
      (l := [⟨0, 0, 5, 5, false, 'b'⟩, ⟨5, 0, 5, 5, false, 'B'⟩]) (by decide +kernel)
  have := h _ _ _ _ _ _ rfl (by refine ⟨by decide, rfl⟩) (by intro name; simp [nestedSpans]) h1
  rw [h2] at this
  rcases this with e | ⟨x, y, w, sp, b, e⟩
  · cases e
  · have hl := congrArg List.length e
    simp only [Renderer.new, Collector.new, List.nil_append, List.length_cons, List.length_nil] at hl
    have : (seen sampleCrop (evenly x y w sp b str!"z")).length ≤ 1 := by
      unfold seen
      exact (List.length_filter_le _ _).trans (by simp [evenly])
    omega

/-- Without marked content and objects inside of the span, the page gets the replacement text in place of
what is drawn: beginning where the first code is drawn, or not at all if nothing is drawn.
Missing: marked content and objects inside of the span. -/
theorem C80_replaced_partial (objects : Objects) (depth : Nat) (r r' : Renderer) (text : Str)
    (before : List Op) (bytes : List UInt8) (after : List Op)
    (hp : ∀ op ∈ before ++ after, isPlain op = true) (hd : ∀ op ∈ before, isDrawing op = false)
    (h : r.run objects depth (.beginMarkedContent str!"/Span" (some text) ::
      (before ++ .textDraw bytes :: (after ++ [.endMarkedContent]))) = .ok r') :
    ∃ r0 f, (r.beginMarked str!"/Span" (some text)).run objects depth before = .ok r0 ∧
      r0.state.font = some f ∧
      (Renderer.codes f.isCid bytes ≠ [] → ∃ width space bold,
        r'.collector.chars = r.collector.chars ++ seen r.collector.crop
          (evenly (place r0.state.textMatrix 0 r0.state.rise).1 (place r0.state.textMatrix 0 r0.state.rise).2
            width space bold text)) := by
  unfold Renderer.run at h
  simp only [Renderer.runWith, Renderer.handleOp, Renderer.handleSimple, Res.bind_ok] at h
  rw [runWith_append] at h
  simp only [Res.bind_eq_ok, Renderer.runWith] at h
  obtain ⟨r0, h0, r1, h1, h2⟩ := h
  rw [runWith_append] at h2
  simp only [Res.bind_eq_ok, Renderer.runWith] at h2
  obtain ⟨r2, h2, r3, h3, h4⟩ := h2
  cases h4
  have h1 : r0.renderText bytes = .ok r1 := h1
  have h3 : r2.endMarked = .ok r' := h3
  obtain ⟨q0, a0⟩ := runWith_quiet (fun op ho => hp op (List.mem_append_left _ ho)) hd h0
  have a0 : r0.actual = some ⟨text, none⟩ := a0
  have hf : ∃ f, r0.state.font = some f := by
    unfold Renderer.renderText at h1
    cases hs : r0.state.font with
    | none => rw [hs] at h1; cases h1
    | some f => exact ⟨f, rfl⟩
  obtain ⟨f, hf⟩ := hf
  refine ⟨r0, f, h0, hf, ?_⟩
  intro hc
  simp only [Renderer.renderText, hf, Res.ofOption, Res.bind_ok] at h1
  cases hcs : Renderer.codes f.isCid bytes with
  | nil => exact absurd hcs hc
  | cons c cs =>
    rw [hcs] at h1
    simp only [Renderer.renderCids, Res.bind_eq_ok] at h1
    obtain ⟨r01, e1, h1⟩ := h1
    obtain ⟨g, -, rfl⟩ := renderCid_actual a0 e1
    obtain ⟨q1, a1, ea1, o1⟩ := renderCids_actual rfl h1
    obtain ⟨q2, a2, ea2, o2⟩ := runWith_actual (fun op ho => hp op (List.mem_append_right _ ho)) ea1 h2
    have o := o1.trans o2
    obtain ⟨w, hw⟩ := o.2 _ rfl
    have ht : a2.text = text := o.1
    have hm : r2.marked = true :: r.marked := by
      rw [q2.marked, q1.marked]
      exact q0.marked
    have hchars : r2.collector.chars = r.collector.chars := by
      rw [q2.chars, q1.chars]
      exact q0.chars
    have hcrop : r2.collector.crop = r.collector.crop := by
      rw [q2.crop, q1.crop]
      exact q0.crop
    unfold Renderer.endMarked at h3
    rw [hm] at h3
    simp only [ea2, ActualText.finish, hw] at h3
    cases h3
    have hg := renderMultiple_gains r2.collector r0.state.renderingMatrix.m31 r0.state.renderingMatrix.m32 w
      r0.state.renderingMatrix.m11 a2.text
    refine ⟨w, r2.collector.widthOfSpace * r0.state.renderingMatrix.m11, r2.collector.fontIsBold, ?_⟩
    rw [← place_start, ← ht]
    show (r2.collector.renderMultiple _ _ _ _ _).chars = _
    rw [hg.eq, hchars, hcrop]

/-- A span where nothing is drawn adds nothing. -/
theorem C80_empty_partial (objects : Objects) (depth : Nat) (r r' : Renderer) (text : Str) (ops : List Op)
    (hp : ∀ op ∈ ops, isPlain op = true) (hd : ∀ op ∈ ops, isDrawing op = false)
    (h : r.run objects depth (.beginMarkedContent str!"/Span" (some text) :: (ops ++ [.endMarkedContent])) = .ok r') :
    r'.collector.chars = r.collector.chars := by
  unfold Renderer.run at h
  simp only [Renderer.runWith, Renderer.handleOp, Renderer.handleSimple, Res.bind_ok] at h
  rw [runWith_append] at h
  simp only [Res.bind_eq_ok, Renderer.runWith] at h
  obtain ⟨r0, h0, r1, h1, h2⟩ := h
  cases h2
  have h1 : r0.endMarked = .ok r' := h1
  obtain ⟨q0, a0⟩ := runWith_quiet hp hd h0
  have a0 : r0.actual = some ⟨text, none⟩ := a0
  have hm : r0.marked = true :: r.marked := q0.marked
  unfold Renderer.endMarked at h1
  rw [hm] at h1
  simp only [a0, ActualText.finish] at h1
  cases h1
  exact q0.chars

/-- The replacement text of one drawn text goes from where its first code is drawn to the end of its last
one. -/
theorem C80_width_partial (objects : Objects) (depth : Nat) (r r' : Renderer) (text : Str) (bytes : List UInt8)
    (f : FastFont) (first : Nat) (rest : List Nat) (hf : r.state.font = some f)
    (hc : Renderer.codes f.isCid bytes = first :: rest)
    (h : r.run objects depth [.beginMarkedContent str!"/Span" (some text), .textDraw bytes, .endMarkedContent] =
      .ok r') :
    ∃ x y width, (x, y) = place r.state.textMatrix 0 r.state.rise ∧
      x + width = (place r.state.textMatrix (((first :: rest).dropLast.map (advanceOf f r.state)).sum) r.state.rise).1 +
        f.widths ((first :: rest).getLast (by simp)) / 1000 *
          (r.state.horizontalScale * r.state.fontSize * r.state.textMatrix.m11) ∧
      r'.collector.chars = r.collector.chars ++ seen r.collector.crop (evenly x y width
        (r.collector.widthOfSpace * (r.state.horizontalScale * r.state.fontSize * r.state.textMatrix.m11))
        r.collector.fontIsBold text) := by
  unfold Renderer.run at h
  simp only [Renderer.runWith, Renderer.handleOp, Renderer.handleSimple, Res.bind_ok, Res.bind_eq_ok] at h
  obtain ⟨r1, h1, r2, h2, h3⟩ := h
  cases h3
  have hb : r.beginMarked str!"/Span" (some text) =
      { r with actual := some ⟨text, none⟩, marked := true :: r.marked } := rfl
  rw [hb] at h1
  simp only [Renderer.renderText, hf, Res.ofOption, Res.bind_ok, hc, Renderer.renderCids, Res.bind_eq_ok] at h1
  obtain ⟨r01, e1, h1⟩ := h1
  obtain ⟨g, hg, rfl⟩ := renderCid_actual rfl e1
  have : g = f := (Option.some.inj (hf.symm.trans hg)).symm
  subst this
  have hm := renderingMatrix_moved r.state 0
  rw [movedBy_zero] at hm
  have hadv : r.state.advanceByChar first = movedBy r.state (0 + advanceOf g r.state first) := by
    have := advanceByChar_moved hf 0 first
    rwa [movedBy_zero] at this
  have hm31 : r.state.renderingMatrix.m31 = (place r.state.textMatrix 0 r.state.rise).1 := by rw [← hm.2]
  obtain ⟨q, -⟩ := renderCids_actual rfl h1
  have hk := (renderCids_leaves h1)
  have hact := renderCids_replaced (s := r.state) (f := g) (d := 0 + advanceOf g r.state first)
    (a := (ActualText.renderCid ⟨text, none⟩ r.state g first).1)
    (p := ⟨r.state.renderingMatrix.m31, r.state.renderingMatrix.m32,
      r.state.renderingMatrix.m31 - r.state.renderingMatrix.m31 +
        g.widths first / 1000 * r.state.renderingMatrix.m11, r.state.renderingMatrix.m11⟩)
    hf hadv rfl rfl first (by simp only [add_sub_cancel_right, hm.1, hm31]) h1
  simp only [zero_add, sub_self] at hact
  have hmk : r1.marked = true :: r.marked := q.marked
  unfold Renderer.endMarked at h2
  rw [hmk] at h2
  simp only [hact, ActualText.finish] at h2
  cases h2
  have hgain := renderMultiple_gains r1.collector r.state.renderingMatrix.m31 r.state.renderingMatrix.m32
    ((place r.state.textMatrix (((first :: rest).dropLast.map (advanceOf g r.state)).sum) r.state.rise).1
        - r.state.renderingMatrix.m31 + g.widths ((first :: rest).getLast (by simp)) / 1000 *
          (r.state.horizontalScale * r.state.fontSize * r.state.textMatrix.m11))
    r.state.renderingMatrix.m11 text
  refine ⟨r.state.renderingMatrix.m31, r.state.renderingMatrix.m32,
    (place r.state.textMatrix (((first :: rest).dropLast.map (advanceOf g r.state)).sum) r.state.rise).1
        - r.state.renderingMatrix.m31 + g.widths ((first :: rest).getLast (by simp)) / 1000 *
          (r.state.horizontalScale * r.state.fontSize * r.state.textMatrix.m11), hm.2, ?_, ?_⟩
  rotate_left
  · show (r1.collector.renderMultiple _ _ _ _ text).chars = _
    have hc1 := renderCids_collector rfl h1
    simp only at hc1
    rw [hgain.eq, hc1, hm.1]
  · ring

example : pageChars noObjects 5 sampleCrop ⟨some sampleResources, some
    [.textFont str!"F1" 10, .moveTextPosition 20 50, .beginMarkedContent str!"/Span" (some str!"ffi"),
     .textDraw [65, 66], .textDraw [67], .endMarkedContent]⟩ =
    .ok [⟨20, 50, 5, 5, false, 'f'⟩, ⟨25, 50, 5, 5, false, 'f'⟩, ⟨30, 50, 5, 5, false, 'i'⟩] := by
  decide +kernel

/-! ### C81: positions of drawn text -/

/-- Drawing text adds what is seen of its characters where PDF says that they are, and moves the text
forward. -/
theorem C81_positions (r r' : Renderer) (f : FastFont) (bytes : List UInt8) (hf : r.state.font = some f)
    (ha : r.actual = none) (h : r.handleSimple (.textDraw bytes) = .ok r') :
    r'.collector.chars = r.collector.chars ++ seen r.collector.crop
      (drawnFrom f r.state r.collector.widthOfSpace r.collector.fontIsBold 0 (Renderer.codes f.isCid bytes)) ∧
    r'.state = { r.state with textMatrix := (Matrix.translation
      ((Renderer.codes f.isCid bytes).map (advanceOf f r.state)).sum 0).andThen r.state.textMatrix } := by
  have h : r.renderText bytes = .ok r' := h
  simp only [Renderer.renderText, hf, Res.ofOption, Res.bind_ok] at h
  obtain ⟨h1, h2⟩ := renderCids_drawn (s := r.state) (d := 0) hf ha (movedBy_zero _).symm h
  refine ⟨by rw [h1.eq], ?_⟩
  rw [h2]
  simp only [zero_add]
  rfl

/-- Drawing text fails exactly if no font is set or a code of it has no text in the font. -/
theorem C81_fails (r : Renderer) (f : FastFont) (bytes : List UInt8) (hf : r.state.font = some f)
    (ha : r.actual = none) :
    (∃ r', r.handleSimple (.textDraw bytes) = .ok r') ↔
      ∀ code ∈ Renderer.codes f.isCid bytes, codeText (f.toUnicode code) ≠ none := by
  show (∃ r', r.renderText bytes = .ok r') ↔ _
  simp only [Renderer.renderText, hf, Res.ofOption, Res.bind_ok]
  generalize Renderer.codes f.isCid bytes = cids
  induction cids generalizing r with
  | nil => simp [Renderer.renderCids]
  | cons c cids ih =>
    simp only [Renderer.renderCids, Renderer.renderCid, hf, ha, Res.ofOption, Res.bind_ok, Collector.renderCid]
    cases hu : f.toUnicode c with
    | unknown => simp [Collector.renderUnicode, codeText, hu]
    | char d =>
      simp only [Collector.renderUnicode, Res.bind_ok]
      refine Iff.trans (ih _ ?_ ?_) ?_
      · exact hf
      · rfl
      simp [hu, codeText]
    | string t =>
      simp only [Collector.renderUnicode, Res.bind_ok]
      refine Iff.trans (ih _ ?_ ?_) ?_
      · exact hf
      · rfl
      simp [hu, codeText]

/-- Codes of two bytes. -/
example : Renderer.codes true [1, 2, 3, 4, 5] = [258, 772] ∧ Renderer.codes false [1, 2, 3] = [1, 2, 3] := by
  decide

end HunLaw.Props
