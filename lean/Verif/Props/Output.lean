import Verif.Lemmas.OutputLayout
import Verif.Lemmas.OutputReady
import Verif.Props.BlockAmendment
import Verif.Props.Semantic

/-! Properties C52 and C82 to C86: the text output. -/

set_option autoImplicit false

namespace HunLaw.Props

open HunLaw Spec Semantic BlockAmend Output

/-! ### A wrapper

The theorems are about every function that wraps texts as `Wraps` tells. This is a simple one. -/

/-- A character at the beginning of the first line. -/
def onFirst (c : Char) : List Str → List Str
  | [] => [[c]]
  | l :: ls => (c :: l) :: ls

/-- A new line after `m` characters; there is room for `k` characters in the first line. -/
def wrapFrom (m : Nat) : Nat → Str → List Str
  | _, [] => [[]]
  | k, c :: cs =>
    if c = '\n' then [] :: wrapFrom m m cs
    else if k = 0 then [] :: onFirst c (wrapFrom m (m - 1) cs)
    else onFirst c (wrapFrom m (k - 1) cs)

/-- A new line after as many characters as there is room for. -/
def simpleWrap (t : Str) (n : Nat) : List Str := wrapFrom (max n 1) (max n 1) t

theorem wrapsTo_onFirst {c : Char} {t : Str} {ls : List Str} (h : WrapsTo t ls) : WrapsTo (c :: t) (onFirst c ls) := by
  cases h with
  | last l gap hg => exact .last (c :: l) gap hg
  | cons l gap rest ls hg h => exact .cons (c :: l) gap rest ls hg h

theorem wrapFrom_wraps (m : Nat) (k : Nat) (t : Str) : WrapsTo t (wrapFrom m k t) := by
  induction t generalizing k with
  | nil => exact .last [] [] (by simp)
  | cons c cs ih =>
    unfold wrapFrom
    split
    · rename_i hc
      subst hc
      exact .cons [] ['\n'] cs _ (by simp) (ih m)
    · split
      · exact .cons [] [] (c :: cs) _ (by simp) (wrapsTo_onFirst (ih _))
      · exact wrapsTo_onFirst (ih _)

theorem mem_onFirst {c : Char} {ls : List Str} {l : Str} (h : l ∈ onFirst c ls) :
    l = [c] ∨ (∃ x ∈ ls.head?, l = c :: x) ∨ l ∈ ls := by
  cases ls with
  | nil =>
    simp only [onFirst, List.mem_singleton] at h
    exact .inl h
  | cons x ls =>
    rcases List.mem_cons.1 h with h | h
    · exact .inr (.inl ⟨x, rfl, h⟩)
    · exact .inr (.inr (List.mem_cons_of_mem _ h))

theorem wrapFrom_noBreak (m : Nat) (k : Nat) (t : Str) : ∀ l ∈ wrapFrom m k t, '\n' ∉ l := by
  induction t generalizing k with
  | nil => simp [wrapFrom]
  | cons c cs ih =>
    have key : c ≠ '\n' → ∀ k, ∀ l ∈ onFirst c (wrapFrom m k cs), '\n' ∉ l := by
      intro hc k l hl
      rcases mem_onFirst hl with rfl | ⟨x, hx, rfl⟩ | hl
      · simpa using Ne.symm hc
      · simp only [List.mem_cons, not_or]
        exact ⟨Ne.symm hc, ih k x (List.mem_of_mem_head? hx)⟩
      · exact ih k l hl
    unfold wrapFrom
    split
    · intro l hl
      rcases List.mem_cons.1 hl with rfl | hl
      · simp
      · exact ih m l hl
    · rename_i hc
      split
      · intro l hl
        rcases List.mem_cons.1 hl with rfl | hl
        · simp
        · exact key hc _ l hl
      · exact key hc _

theorem wrapFrom_short {m : Nat} (hm : 1 ≤ m) (k : Nat) (t : Str) : ∃ l ls, wrapFrom m k t = l :: ls ∧ l.length ≤ k ∧
    ∀ x ∈ ls, x.length ≤ m := by
  induction t generalizing k with
  | nil => exact ⟨[], [], rfl, by simp, by simp⟩
  | cons c cs ih =>
    unfold wrapFrom
    split
    · obtain ⟨l, ls, h1, h2, h3⟩ := ih m
      refine ⟨[], _, rfl, by simp, ?_⟩
      rw [h1]
      intro x hx
      rcases List.mem_cons.1 hx with rfl | hx
      · exact h2
      · exact h3 x hx
    · split
      · obtain ⟨l, ls, h1, h2, h3⟩ := ih (m - 1)
        refine ⟨[], _, rfl, by simp, ?_⟩
        rw [h1]
        intro x hx
        rcases List.mem_cons.1 hx with rfl | hx
        · rw [List.length_cons]
          omega
        · exact h3 x hx
      · obtain ⟨l, ls, h1, h2, h3⟩ := ih (k - 1)
        refine ⟨c :: l, ls, by rw [h1]; rfl, ?_, h3⟩
        rw [List.length_cons]
        omega

theorem simpleWrap_wraps : Wraps simpleWrap where
  pieces t n := wrapFrom_wraps _ _ t
  noBreak t n := wrapFrom_noBreak _ _ t
  short t n _ := by
    obtain ⟨l, ls, h1, h2, h3⟩ := wrapFrom_short (m := max n 1) (by omega) (max n 1) t
    intro x hx
    unfold simpleWrap at hx
    rw [h1] at hx
    rcases List.mem_cons.1 hx with rfl | hx
    · exact h2
    · exact h3 x hx

/-! ### C52 -/

/-- C52: a text can be split at references which are in order and between characters of the text. -/
theorem C52_splits (text : Str) (refs : List OutgoingRef) (h : RangesInOrder text 0 (ranges refs)) :
    ∃ pieces, splitAtReferences text refs = .ok pieces :=
  splitFrom_inOrder (text := text) (n := 0) ⟨[], text, rfl, rfl⟩ h

/-- C52: whenever a text is split, the pieces are those of the text, and the references are the highlighted ones. -/
theorem C52_pieces (text : Str) (refs : List OutgoingRef) (pieces : List (Str × Bool))
    (h : splitAtReferences text refs = .ok pieces) :
    pieces.flatMap Prod.fst = text ∧ highlighted 0 pieces = ranges refs := by
  obtain ⟨⟨a, h2, h3⟩, h4⟩ := splitFrom_ok h
  have ha := cut_unique (a := []) (b := text) (c := a) (d := pieces.flatMap (·.1)) (by simpa using h2)
      (by simpa [byteLen] using h3.symm)
  exact ⟨ha.2.symm, h4⟩

/-- Two references in a text. -/
def twoReferences : List OutgoingRef := [⟨2, 6, ⟨some btkAct, none, none, none, none⟩⟩, ⟨11, 15, ⟨some ptkAct, none, none, none, none⟩⟩]

example : splitAtReferences str!"A Btk. és Ptk. szerint" twoReferences =
    .ok [(str!"A ", false), (str!"Btk.", true), (str!" és ", false), (str!"Ptk.", true), (str!" szerint", false)] := by
  decide +kernel

/-! ### C82 -/

/-- C82: the plain output of an act is its number, subject, preamble, and the numbers, titles and texts of all its
parts, in order, if spaces and line breaks are not looked at. -/
theorem C82_shows (w : Wrapper) (hw : Wraps w) (width : Nat) (a : Act Amendment) (out : Str)
    (h : cliAct w width false a = .ok out) : noBlanks out = noBlanks (actShown a) := by
  have := shown_act hw (c := false) (p := (Params.new width false).indented) rfl (fun h => by simp at h) h []
  simpa [strip] using this

/-! ### C83 -/

/-- C83: the coloured output is the plain one, if escape sequences, spaces and line breaks are not looked at. -/
theorem C83_colours (w : Wrapper) (hw : Wraps w) (width width' : Nat) (a : Act Amendment) (plain coloured : Str)
    (hesc : '\x1B' ∉ actShown a) (h1 : cliAct w width false a = .ok plain) (h2 : cliAct w width' true a = .ok coloured) :
    unescape false (noBlanks coloured) = noBlanks plain := by
  have e1 := C82_shows w hw width a plain h1
  have e2 := shown_act hw (c := true) (p := (Params.new width' true).indented) rfl (fun _ => hesc) h2 []
  rw [e1]
  simpa [strip, unescape] using e2

/-- What a converted act is printed as. -/
def printed (width : Nat) (colored : Bool) (ls : List Line) : Res Str := do
  let r ← convertText ls
  cliAct simpleWrap width colored r.1

/-- A part title, amendments, and an article with points. -/
def outputBody : List Line :=
  [sampleLine str!"ELSŐ RÉSZ" 0, sampleLine str!"ALAPOK" 0, sampleLine str!"" 0] ++ amendingBody ++
    [sampleLine str!"2. § A 2012. évi C. törvény (a továbbiakban: Btk.) szerint, és így tovább:" 0,
      sampleLine str!"a) egy, vagy" 0, sampleLine str!"b) kettő." 0]

example : (∃ out, printed 50 false outputBody = .ok out ∧ str!"     2022. évi I. törvény a dolgokról" <+: out) ∧
    ∃ out, printed 105 true outputBody = .ok out ∧ '\x1B' ∈ out := by
  have h1 : Res.map (fun out => List.isPrefixOf str!"     2022. évi I. törvény a dolgokról" out)
    (printed 50 false outputBody) = .ok true := by decide +kernel
  have h2 : Res.map (fun out => out.contains '\x1B') (printed 105 true outputBody) = .ok true := by decide +kernel
  obtain ⟨o1, h1, e1⟩ := map_ok.1 h1
  obtain ⟨o2, h2, e2⟩ := map_ok.1 h2
  exact ⟨⟨o1, h1, List.isPrefixOf_iff_prefix.1 e1⟩, o2, h2, by simpa using e2⟩

/-! ### C84 -/

/-- C84 in full: what the parser gives for the text of an act, with semantic information and amendments, can be
shown in lines of 50 characters or more. -/
def C84_statement : Prop :=
  ∀ (upper : Char → Bool) (raw : ActRawText) (a a' : Act Empty) (changed : Bool) (w : Wrapper) (width : Nat)
    (colored : Bool), parseActStructure upper raw = .ok a → addSemanticInfo a = (a', .ok changed) → Wraps w →
    1 ≤ raw.identifier.number.val → raw.identifier.number.val ≤ 3999 → 50 ≤ width →
    ∃ out, cliAct w width colored (BlockAmend.act upper a'.lift).1 = .ok out

/-- An act whose last text has no full stop at its end. -/
def unfinishedBody : List Line :=
  [sampleLine str!"1. § (1) A 2012. évi C. törvény (a továbbiakban: Btk.) szerint." 0,
    sampleLine str!"(2) E törvény alapja a Btk" 0]

/-- C84 is false: the reference in a text with no full stop may end after the text. -/
theorem C84_violated : ¬ C84_statement := by
  intro h
  have e : Res.map (fun a => ((addSemanticInfo a).2, Res.map (fun _ => ()) (cliAct simpleWrap 105 false
      (BlockAmend.act asciiUpper (addSemanticInfo a).1.lift).1)))
    (parseActStructure asciiUpper (sampleRaw unfinishedBody)) = .ok (.ok true, .panic) := by decide +kernel
  obtain ⟨a, ha, e⟩ := map_ok.1 e
  simp only [Prod.mk.injEq] at e
  obtain ⟨e1, e2⟩ := e
  obtain ⟨out, ho⟩ := h asciiUpper (sampleRaw unfinishedBody) a (addSemanticInfo a).1 true simpleWrap 105 false ha
    (by rw [← e1]) simpleWrap_wraps (by decide) (by decide) (by decide)
  rw [ho] at e2
  cases e2

theorem actId_display {i : ActId} (h1 : 1 ≤ i.number.val) (h2 : i.number.val ≤ 3999) : ∃ s, i.display = .ok s := by
  unfold ActId.display
  rw [if_pos (by omega)]
  obtain ⟨s, hs, -⟩ := roman_roundtrip (n := i.number.val.toNat) (by omega) (by omega)
  rw [hs]
  exact ⟨_, rfl⟩

theorem structure_fits {upper : Char → Bool} {raw : ActRawText} {a : Act Empty}
    (h : parseActStructure upper raw = .ok a) : (∀ c ∈ a.children, ActChildFits NoAmendmentFits c) ∧
      a.identifier = raw.identifier ∧ a.containedAbbreviations = [] := by
  simp only [parseActStructure, Res.bind_eq_ok] at h
  obtain ⟨⟨x, y⟩, hx, h⟩ := h
  cases h
  exact ⟨parseComplexBody_fits hx, rfl, rfl⟩

/-- C84: an act without semantic information can be shown. -/
theorem C84_structure (upper : Char → Bool) (raw : ActRawText) (a : Act Empty) (w : Wrapper) (width : Nat)
    (colored : Bool) (h : parseActStructure upper raw = .ok a) (h1 : 1 ≤ raw.identifier.number.val)
    (h2 : raw.identifier.number.val ≤ 3999) (hw : 50 ≤ width) : ∃ out, cliAct w width colored a.lift = .ok out := by
  obtain ⟨h3, h4, -⟩ := structure_fits h
  obtain ⟨id, hid⟩ := actId_display (i := a.lift.identifier) (by rw [Act.lift, h4]; exact h1)
    (by rw [Act.lift, h4]; exact h2)
  refine act_total (w := w) (p := (Params.new width colored).indented) ?_ hid ?_
  · simp only [Room, Params.new, Params.indented]
    omega
  · intro c hc
    obtain ⟨d, hd, rfl⟩ := List.mem_map.1 hc
    exact lift_child (h3 d hd)

theorem structural_unchanged {act act' : Act Empty} {changed : Bool} (h : addSemanticInfo act = (act', .ok changed))
    {e : StructuralElement} (he : .structuralElement e ∈ act'.children) : .structuralElement e ∈ act.children := by
  have hb := (C65_only_info act).1
  rw [h] at hb
  have hc : act'.children.map bareActChild = act.children.map bareActChild := congrArg Act.children hb
  have : ActChild.structuralElement e ∈ act'.children.map bareActChild := List.mem_map.2 ⟨_, he, rfl⟩
  rw [hc] at this
  obtain ⟨d, hd, hde⟩ := List.mem_map.1 this
  cases d with
  | structuralElement e' =>
    cases hde
    exact hd
  | subtitle s => cases hde
  | article a => cases hde

/-- C84, the part that holds: it can be shown if each of its texts is followed by something, or ends with a sentence,
or something is cut off its end before it is parsed, whether amendments could be converted or not.
Missing: texts with no wrap-up after them which end neither with a sentence nor with something that is cut off; for
these it is false (`C84_violated`). -/
theorem C84_prints_partial (upper : Char → Bool) (raw : ActRawText) (a a' : Act Empty) (changed : Bool) (w : Wrapper)
    (width : Nat) (colored : Bool) (h : parseActStructure upper raw = .ok a)
    (hi : addSemanticInfo a = (a', .ok changed)) (h1 : 1 ≤ raw.identifier.number.val)
    (h2 : raw.identifier.number.val ≤ 3999) (hw : 50 ≤ width)
    (ht : ∀ x ∈ actReadings a, x.1.after ≠ [] ∨ sentenceEnds (withoutConnectives x.1.text) = true ∨
      withoutConnectives x.1.text ≠ x.1.text) :
    ∃ out, cliAct w width colored (BlockAmend.act upper a'.lift).1 = .ok out := by
  obtain ⟨h3, h4, h5⟩ := structure_fits h
  have hid' : a'.identifier = a.identifier := by
    have hb := (C65_only_info a).1
    rw [hi] at hb
    have := congrArg Act.identifier hb
    exact this
  obtain ⟨id, hid⟩ := actId_display (i := (BlockAmend.act upper a'.lift).1.identifier)
    (by rw [BlockAmend.act, Act.lift, hid', h4]; exact h1) (by rw [BlockAmend.act, Act.lift, hid', h4]; exact h2)
  refine act_total (w := w) (p := (Params.new width colored).indented) ?_ hid (converted_fit ?_ ?_)
  · simp only [Room, Params.new, Params.indented]
    omega
  · intro c hc
    obtain ⟨d, hd, rfl⟩ := List.mem_map.1 hc
    refine lift_child (act_fit (fun e he => h3 _ (structural_unchanged hi he)) (fun x hx => ?_) d hd)
    refine (C46_ranges_partial a a' changed (by simp [h5]) hi x hx).2 ?_
    have hm : x.1 ∈ (actReadings a').map (·.1) := List.mem_map.2 ⟨x, hx, rfl⟩
    rw [readings_unchanged a a' changed hi] at hm
    obtain ⟨y, hy, hyx⟩ := List.mem_map.1 hm
    rw [← hyx]
    exact ht y hy
  · refine paragraphs_good fun x hx => ?_
    obtain ⟨c, hc, -⟩ := C47_context a a' changed hi
    exact readTexts_good hc x.2 (List.mem_map.2 ⟨x, hx, rfl⟩)

/-- The texts of `outputBody` all end so. -/
example : Res.map (fun a => (decide ((addSemanticInfo a).2 = .ok true), (actReadings a).all fun x =>
      !x.1.after.isEmpty || sentenceEnds (withoutConnectives x.1.text) || withoutConnectives x.1.text != x.1.text))
    (parseActStructure asciiUpper (sampleRaw outputBody)) = .ok (true, true) := by decide +kernel

/-- In lines of less than 50 characters an act may not be shown. -/
example : printed 10 false outputBody = .panic := by decide +kernel

/-! ### C85 -/

theorem layout_lines {F R : Str → Prop} {out : Str} (h : Layout F R out) :
    ∃ l ls, linesOf out = l :: ls ∧ out = (l :: ls).flatMap (· ++ ['\n']) ∧ F l ∧ ∀ x ∈ ls, R x := by
  obtain ⟨l, ls, rfl, h1, h2, h3, h4⟩ := h
  have e : l ++ ['\n'] ++ ls.flatMap (· ++ ['\n']) = (l :: ls).flatMap (· ++ ['\n']) := by simp
  rw [e]
  refine ⟨l, ls, ?_, rfl, h3, h4⟩
  refine linesOf_lines fun x hx => ?_
  rcases List.mem_cons.1 hx with rfl | hx
  · exact h1
  · exact h2 x hx

/-- C85: an act is shown in lines, each ended by a line break and each either empty or with five spaces at its
beginning. -/
theorem C85_lines (w : Wrapper) (hw : Wraps w) (width : Nat) (colored : Bool) (a : Act Amendment) (out : Str)
    (hsub : '\n' ∉ a.subject)
    (hq : ∀ x ∈ a.children, ActChildAll (fun _ _ => True) UnbrokenQuote
      (AmendmentAll (fun _ _ => True) UnbrokenQuote) x)
    (h : cliAct w width colored a = .ok out) :
    out = (linesOf out).flatMap (· ++ ['\n']) ∧ ∀ l ∈ linesOf out, Indented 5 l := by
  have := laid_act (fits := False) (fun _ _ h => h.elim) hw (Q := UnbrokenQuote) (fun q hq => ⟨hq, fun h => h.elim⟩)
    (p := (Params.new width colored).indented) rfl hsub (fun h => h.elim) hq (fun h => h.elim) h
  obtain ⟨l, ls, h1, h2, h3, h4⟩ := layout_lines this
  rw [h1]
  refine ⟨h2, fun x hx => ?_⟩
  rcases List.mem_cons.1 hx with rfl | hx
  · exact h3.1
  · exact (h4 x hx).1


/-- The first line begins with the indentation and the header, the others are deeper, but for the empty ones. -/
def HangsFrom (level deeper : Nat) (head out : Str) : Prop :=
  ∃ l ls, linesOf out = l :: ls ∧ out = (l :: ls).flatMap (· ++ ['\n']) ∧
    List.replicate (5 * level) ' ' ++ head <+: l ∧ ∀ x ∈ ls, Indented (5 * (level + deeper)) x

theorem hangsFrom_of {p : Params} {k : Nat} {head out : Str} (hp : p.indentNext = true) (h : Headed False k p head out) :
    HangsFrom p.level k head out := by
  obtain ⟨l, ls, h1, h2, h3, h4⟩ := layout_lines h
  refine ⟨l, ls, h1, h2, ?_, fun x hx => (h4 x hx).1⟩
  have := h3.2
  rw [HeadedBy, Params.indentation, if_pos hp, Nat.mul_comm] at this
  exact this

theorem alphabeticSubpoint_all (e : AlphabeticSubpoint) : AlphabeticSubpointAll (fun _ _ => True) e := by
  refine ⟨trivial, ?_⟩
  split <;> trivial

theorem numericSubpoint_all (e : NumericSubpoint) : NumericSubpointAll (fun _ _ => True) e := by
  refine ⟨trivial, ?_⟩
  split <;> trivial

theorem alphabeticPoint_all (e : AlphabeticPoint) : AlphabeticPointAll (fun _ _ => True) e := by
  refine ⟨trivial, ?_⟩
  split
  · trivial
  · rename_i c _ _
    cases c
    · exact fun x _ => alphabeticSubpoint_all x
    · exact fun x _ => numericSubpoint_all x

theorem numericPoint_all (e : NumericPoint) : NumericPointAll (fun _ _ => True) e := by
  refine ⟨trivial, ?_⟩
  split
  · trivial
  · rename_i c _ _
    cases c
    exact fun x _ => alphabeticSubpoint_all x

section

variable (w : Wrapper) (hw : Wraps w) (p : Params) (hp : p.indentNext = true) (out : Str)

include hw hp

/-- C85: the number of a subpoint is in front of its text, which is indented by one more level. -/
theorem C85_alphabetic_subpoint (e : AlphabeticSubpoint) (h : Output.alphabeticSubpoint w p e = .ok out) :
    HangsFrom p.level 1 (e.identifier.display ++ str!")") out :=
  hangsFrom_of hp (headed_alphabeticSubpoint (H := fun _ _ => True) (fun _ _ h => h.elim) hw p e out
    (alphabeticSubpoint_all e) (fun h => h.elim) h)

/-- C85 for numeric subpoints. -/
theorem C85_numeric_subpoint (e : NumericSubpoint) (h : Output.numericSubpoint w p e = .ok out) :
    HangsFrom p.level 1 (e.identifier.display ++ str!".") out :=
  hangsFrom_of hp (headed_numericSubpoint (H := fun _ _ => True) (fun _ _ h => h.elim) hw p e out
    (numericSubpoint_all e) (fun h => h.elim) h)

/-- C85 for points with letters. -/
theorem C85_alphabetic_point (e : AlphabeticPoint) (h : Output.alphabeticPoint w p e = .ok out) :
    HangsFrom p.level 1 (e.identifier.display ++ str!")") out :=
  hangsFrom_of hp (headed_alphabeticPoint (H := fun _ _ => True) (fun _ _ h => h.elim) hw p e out
    (alphabeticPoint_all e) (fun h => h.elim) h)

/-- C85 for points with numbers. -/
theorem C85_numeric_point (e : NumericPoint) (h : Output.numericPoint w p e = .ok out) :
    HangsFrom p.level 1 (e.identifier.display ++ str!".") out :=
  hangsFrom_of hp (headed_numericPoint (H := fun _ _ => True) (fun _ _ h => h.elim) hw p e out
    (numericPoint_all e) (fun h => h.elim) h)

/-- C85 for paragraphs. -/
theorem C85_paragraph (e : Paragraph Amendment)
    (hq : ParagraphAll (fun _ _ => True) UnbrokenQuote (AmendmentAll (fun _ _ => True) UnbrokenQuote) e)
    (h : Output.paragraph w (amendment w) p e = .ok out) : HangsFrom p.level 1 (paragraphNumber e.identifier) out :=
  hangsFrom_of hp (headed_paragraph (H := fun _ _ => True) (fun _ _ h => h.elim) hw
    (fun q hq => ⟨hq, fun h => h.elim⟩) (k := 6) (by decide) (g := amendmentShown)
    (fun q x s hP hc h => laid_amendment (fun _ _ h => h.elim) hw (fun q hq => ⟨hq, fun h => h.elim⟩) q x s hP hc h)
    p e out hq (fun h => h.elim) h)

/-- C85: the number of an article is in front of its text, which is indented by two more levels. -/
theorem C85_article (a : Article Amendment) (hc : p.colored = false)
    (hq : ArticleAll (fun _ _ => True) UnbrokenQuote (AmendmentAll (fun _ _ => True) UnbrokenQuote) a)
    (h : Output.article w (amendment w) p a = .ok out) :
    HangsFrom p.level 2 (a.identifier.display ++ str!". §") out := by
  have := hangsFrom_of hp (headed_article (H := fun _ _ => True) (fun _ _ h => h.elim) hw
    (fun q hq => ⟨hq, fun h => h.elim⟩) (k := 6) (by decide) (g := amendmentShown)
    (fun q x s hP hc h => laid_amendment (fun _ _ h => h.elim) hw (fun q hq => ⟨hq, fun h => h.elim⟩) q x s hP hc h)
    p a out hq (fun h => h.elim) h)
  rw [plain_colorize hc] at this
  obtain ⟨l, ls, h1, h2, h3, h4⟩ := this
  refine ⟨l, ls, h1, h2, List.IsPrefix.trans ?_ h3, h4⟩
  rw [List.prefix_append_right_inj, pad]
  exact List.prefix_append _ _

end


/-! ### C86 -/

/-- C86 in full: no line of the output is longer than the given width. -/
def C86_statement : Prop :=
  ∀ (w : Wrapper) (width : Nat) (a : Act Amendment) (out : Str), Wraps w → 50 < width → '\n' ∉ a.subject →
    cliAct w width false a = .ok out → ∀ l ∈ linesOf out, l.length ≤ width

/-- An act with a long title. -/
def longTitle : Act Amendment :=
  ⟨⟨⟨2022, by decide⟩, ⟨1, by decide⟩⟩, List.replicate 150 'a', [], ⟨2022, 1, 1⟩, [], []⟩

/-- C86 is false: the title of the act is in a single line. -/
theorem C86_violated : ¬ C86_statement := by
  intro h
  have e : Res.map (fun out => (linesOf out).all fun l => decide (l.length ≤ 105)) (cliAct simpleWrap 105 false longTitle) =
    .ok false := by decide +kernel
  obtain ⟨out, h1, h2⟩ := map_ok.1 e
  have h3 := h simpleWrap 105 longTitle out simpleWrap_wraps (by decide) (by decide) h1
  rw [List.all_eq_true.2 fun l hl => decide_eq_true (h3 l hl)] at h2
  cases h2

/-- C86, the part that holds: no line is longer than the width if the first line with the title fits, the numbers
of elements fit in their places, there are no quoted blocks, and there are no escape sequences.
Missing: acts with a long title, with numbers of more than ten characters for articles and five for others, or with
lines in quoted blocks, none of which are wrapped (`C86_violated`). -/
theorem C86_width_partial (w : Wrapper) (hw : Wraps w) (width : Nat) (a : Act Amendment) (out : Str)
    (hwidth : 50 < width) (hsub : '\n' ∉ a.subject) (hesc : '\x1B' ∉ actShown a)
    (hhead : ∀ id, a.identifier.display = .ok id → 5 + id.length + 1 + a.subject.length ≤ width)
    (hq : ∀ x ∈ a.children, ActChildAll (fun room s => s.length ≤ room) (fun q => q.lines = [])
      (AmendmentAll (fun room s => s.length ≤ room) (fun q => q.lines = [])) x)
    (h : cliAct w width false a = .ok out) : ∀ l ∈ linesOf out, l.length ≤ width := by
  have := laid_act (fits := True) (H := fun room s => s.length ≤ room) (fun _ _ _ h => h) hw
    (Q := fun q => q.lines = []) (fun q hq => ⟨by rw [UnbrokenQuote, hq]; simp, fun _ => hq⟩)
    (p := (Params.new width false).indented) rfl hsub (fun _ => hhead) hq
    (fun _ => ⟨rfl, by simp only [Wide, Params.new, Params.indented]; omega, hesc⟩) h
  obtain ⟨l, ls, h1, h2, h3, h4⟩ := layout_lines this
  rw [h1]
  intro x hx
  rcases List.mem_cons.1 hx with rfl | hx
  · exact h3.2 trivial
  · exact (h4 x hx).2 trivial


/-- An act with an amendment of two points and a title. -/
def shortAct : Act Amendment :=
  ⟨⟨⟨2022, by decide⟩, ⟨1, by decide⟩⟩, str!"a dolgokról", [], ⟨2022, 1, 1⟩, [],
    [.subtitle ⟨none, str!"Egyéb", none⟩,
      .article ⟨⟨none, .ofNum 3⟩, none,
        [⟨⟨none⟩, .children str!"A törvény új pontjai:"
          (.amendment (.block none (.alphabeticPoint
            [⟨.latin 0, .text str!"egy,", .default, none⟩, ⟨.latin 1, .text str!"kettő.", .default, none⟩]) none)) none, .default, none⟩], none⟩]⟩

theorem shortAct_fits : ∀ x ∈ shortAct.children, ActChildAll (fun room s => s.length ≤ room) (fun q => q.lines = [])
    (AmendmentAll (fun room s => s.length ≤ room) (fun q => q.lines = [])) x := by
  intro x hx
  simp only [shortAct, List.mem_cons, List.not_mem_nil, or_false] at hx
  rcases hx with rfl | rfl
  · trivial
  · refine ⟨by decide, fun y hy => ?_⟩
    simp only [List.mem_singleton] at hy
    subst hy
    refine ⟨by decide, fun z hz => ?_⟩
    simp only [List.mem_cons, List.not_mem_nil, or_false] at hz
    rcases hz with rfl | rfl <;> exact ⟨by decide, trivial⟩

example : ∃ out, cliAct simpleWrap 60 false shortAct = .ok out ∧ 10 ≤ (linesOf out).length ∧
    ∀ l ∈ linesOf out, l.length ≤ 60 := by
  have e : Res.map (fun out => decide (10 ≤ (linesOf out).length)) (cliAct simpleWrap 60 false shortAct) = .ok true := by
    decide +kernel
  obtain ⟨out, h1, h2⟩ := map_ok.1 e
  refine ⟨out, h1, by simpa using h2, C86_width_partial simpleWrap simpleWrap_wraps 60 shortAct out (by decide)
    (by decide) (by decide +kernel) (fun id h => ?_) shortAct_fits h1⟩
  have : shortAct.identifier.display = .ok str!"2022. évi I. törvény" := by decide +kernel
  rw [this] at h
  cases h
  decide


end HunLaw.Props
