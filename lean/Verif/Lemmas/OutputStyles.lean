import Verif.Spec.Styles
import Verif.Lemmas.Output

/-!
Lemmas for the styles of the text output.
-/

set_option autoImplicit false

namespace HunLaw.Output

open HunLaw HunLaw.Spec

/-! ### the characters are those which are shown -/

theorem inStyle_fst (style t : Str) : (inStyle style t).map Prod.fst = t := by
  simp [inStyle, Function.comp_def]

theorem textStyled_fst (i : SemanticInfo) (n : Nat) (t : Str) : (textStyled i n t).map Prod.fst = t := by
  induction t generalizing n with
  | nil => rfl
  | cons c t ih => simp [textStyled, ih]

theorem flatMap_fst {X : Type} {f : X → Cells} {g : X → Str} (h : ∀ x, (f x).map Prod.fst = g x) (l : List X) :
    (l.flatMap f).map Prod.fst = l.flatMap g := by
  induction l with
  | nil => rfl
  | cons x l ih => rw [List.flatMap_cons, List.flatMap_cons, List.map_append, h, ih]

theorem saeStyled_fst {I C : Type} {f : C → Cells} {g : C → Str} (h : ∀ x, (f x).map Prod.fst = g x) (head : Str) (e : SAE I C) :
    (saeStyled head f e).map Prod.fst = head ++ bodyShown g e.body := by
  unfold saeStyled bodyShown
  cases e.body <;> simp [inStyle_fst, textStyled_fst, h]

theorem alphabeticSubpointStyled_fst (e : AlphabeticSubpoint) : (alphabeticSubpointStyled e).map Prod.fst = alphabeticSubpointShown e :=
  saeStyled_fst (fun x => nomatch x) _ e

theorem numericSubpointStyled_fst (e : NumericSubpoint) : (numericSubpointStyled e).map Prod.fst = numericSubpointShown e :=
  saeStyled_fst (fun x => nomatch x) _ e

theorem alphabeticPointStyled_fst (e : AlphabeticPoint) : (alphabeticPointStyled e).map Prod.fst = alphabeticPointShown e := by
  refine saeStyled_fst (fun x => ?_) _ e
  cases x with
  | alphabeticSubpoint l => exact flatMap_fst alphabeticSubpointStyled_fst l
  | numericSubpoint l => exact flatMap_fst numericSubpointStyled_fst l

theorem numericPointStyled_fst (e : NumericPoint) : (numericPointStyled e).map Prod.fst = numericPointShown e := by
  refine saeStyled_fst (fun x => ?_) _ e
  cases x with
  | alphabeticSubpoint l => exact flatMap_fst alphabeticSubpointStyled_fst l

theorem paragraphStyled_fst {A : Type} {f : A → Cells} {g : A → Str} (h : ∀ x, (f x).map Prod.fst = g x) (e : Paragraph A) :
    (paragraphStyled f e).map Prod.fst = paragraphShown g e := by
  refine saeStyled_fst (fun x => ?_) _ e
  cases x with
  | alphabeticPoint l => exact flatMap_fst alphabeticPointStyled_fst l
  | numericPoint l => exact flatMap_fst numericPointStyled_fst l
  | quotedBlock l => exact flatMap_fst (fun q => inStyle_fst _ _) l
  | amendment a => exact h a

theorem actChildStyled_fst {A : Type} {f : A → Cells} {g : A → Str} (h : ∀ x, (f x).map Prod.fst = g x) (c : ActChild A) :
    (actChildStyled f c).map Prod.fst = actChildShown g c := by
  cases c with
  | structuralElement e => exact inStyle_fst _ _
  | subtitle s =>
    rcases s with ⟨_ | i, t⟩
    · exact inStyle_fst _ _
    · exact inStyle_fst _ _
  | article a => simp [actChildStyled, articleStyled, actChildShown, articleShown, inStyle_fst, flatMap_fst (paragraphStyled_fst h)]

theorem noAmendmentStyled_fst (x : Empty) : (noAmendmentStyled x).map Prod.fst = noAmendmentShown x := nomatch x

theorem amendmentStyled_fst (a : Amendment) : (amendmentStyled a).map Prod.fst = amendmentShown a := by
  cases a with
  | structural i l wu => simp [amendmentStyled, amendmentShown, inStyle_fst, flatMap_fst (actChildStyled_fst noAmendmentStyled_fst)]
  | block i c wu =>
    cases c <;> simp [amendmentStyled, amendmentShown, inStyle_fst, flatMap_fst (paragraphStyled_fst noAmendmentStyled_fst),
      flatMap_fst alphabeticPointStyled_fst, flatMap_fst numericPointStyled_fst, flatMap_fst alphabeticSubpointStyled_fst,
      flatMap_fst numericSubpointStyled_fst]

theorem actStyled_fst (a : Act Amendment) : (actStyled a).map Prod.fst = actShown a := by
  simp [actStyled, actShown, inStyle_fst, flatMap_fst (actChildStyled_fst amendmentStyled_fst)]
  rfl

/-! ### what is written -/

/-- The output shows the characters in their styles, up to blanks, whatever comes after it. -/
def Styled (out : Str) (l : Cells) : Prop :=
  ∀ s, cells none plainStyle (noBlanks out ++ s) = noBlankCells l ++ cells none plainStyle s

/-- There are no escape characters in it. -/
def NoEsc (l : Cells) : Prop := ∀ x ∈ l, x.1 ≠ '\x1B'

theorem noEsc_append {a b : Cells} : NoEsc (a ++ b) ↔ NoEsc a ∧ NoEsc b := by
  simp [NoEsc, or_imp, forall_and]

theorem noEsc_flatMap {X : Type} {f : X → Cells} {l : List X} (h : NoEsc (l.flatMap f)) : ∀ x ∈ l, NoEsc (f x) :=
  fun x hx y hy => h y (List.mem_flatMap.2 ⟨x, hx, hy⟩)

theorem noEsc_inStyle {style t : Str} (h : NoEsc (inStyle style t)) : '\x1B' ∉ t := by
  intro hm
  exact h ('\x1B', style) (List.mem_map.2 ⟨_, hm, rfl⟩) rfl

theorem noBlankCells_append (a b : Cells) : noBlankCells (a ++ b) = noBlankCells a ++ noBlankCells b := by
  simp [noBlankCells]

theorem noBlankCells_inStyle (style t : Str) : noBlankCells (inStyle style t) = inStyle style (noBlanks t) := by
  simp only [noBlankCells, inStyle, noBlanks, List.filter_map]
  rfl

theorem inStyle_append (style a b : Str) : inStyle style (a ++ b) = inStyle style a ++ inStyle style b := by
  simp [inStyle]

theorem Styled.nil : Styled [] [] := fun _ => rfl

theorem Styled.append {a b : Str} {t u : Cells} (h1 : Styled a t) (h2 : Styled b u) : Styled (a ++ b) (t ++ u) := by
  intro s
  rw [noBlanks_append, List.append_assoc, h1, h2, noBlankCells_append, List.append_assoc]

theorem Styled.congr {a b : Str} {t u : Cells} (h : Styled a t) (h1 : noBlanks b = noBlanks a) (h2 : noBlankCells u = noBlankCells t) :
    Styled b u := by
  intro s
  rw [h1, h2, h]

theorem Styled.left {a b : Str} {t : Cells} (h : Styled a t) (h1 : noBlanks b = noBlanks a) : Styled b t := h.congr h1 rfl

theorem cells_clean {t : Str} (h : '\x1B' ∉ t) (style s : Str) : cells none style (t ++ s) = inStyle style t ++ cells none style s := by
  induction t with
  | nil => rfl
  | cons x t ih =>
    simp only [List.mem_cons, not_or] at h
    rw [List.cons_append, cells, if_neg (fun e => h.1 e.symm), ih h.2]
    rfl

theorem noBlanks_clean {t : Str} (h : '\x1B' ∉ t) : '\x1B' ∉ noBlanks t := fun hm => h (List.mem_filter.1 hm).1

theorem Styled.self {t : Str} (h : '\x1B' ∉ t) : Styled t (inStyle plainStyle t) := by
  intro s
  rw [noBlankCells_inStyle, cells_clean (noBlanks_clean h)]

theorem cells_code {code : Str} (h : 'm' ∉ code ∧ '[' ∉ code) (done style s : Str) :
    cells (some done) style (code ++ 'm' :: s) = cells none (done ++ code) s := by
  induction code generalizing done with
  | nil => simp [cells]
  | cons x t ih =>
    simp only [List.mem_cons, not_or] at h
    rw [List.cons_append, cells, if_neg (fun e => h.1.1 e.symm), if_neg (fun e => h.2.1 e.symm), ih ⟨h.1.2, h.2.2⟩]
    simp

/-- A code of an escape sequence. -/
def StyleCode (code : Str) : Prop := ('m' ∉ code ∧ '[' ∉ code) ∧ noBlanks code = code

theorem Styled.colorize {p : Params} (hp : p.colored = true) {t code : Str} (hc : '\x1B' ∉ t) (h : StyleCode code) :
    Styled (p.colorize t code) (inStyle code t) := by
  intro s
  rw [Params.colorize, if_pos hp]
  rw [noBlanks_append, noBlanks_append, noBlanks_append, noBlanks_append, h.2]
  have e1 : noBlanks ['\x1B', '['] = ['\x1B', '['] := by decide
  have e2 : noBlanks ['m'] = ['m'] := by decide
  have e3 : noBlanks ['\x1B', '[', '0', 'm'] = ['\x1B', '[', '0', 'm'] := by decide
  rw [e1, e2, e3, noBlankCells_inStyle]
  simp only [List.append_assoc, List.cons_append, List.nil_append]
  rw [cells, if_pos rfl, cells, if_neg (by decide), if_pos rfl, cells_code h.1, cells_clean (noBlanks_clean hc)]
  simp [cells, plainStyle]

section

variable {w : Wrapper}

theorem styled_wrapped (hw : Wraps w) {p : Params} {t : Str} {u : Cells} {r : Str × Params}
    (h : p.wrapped w t = .ok r) (ht : Styled t u) : Styled r.1 u ∧ r.2 = p.nextLine := by
  obtain ⟨-, rfl⟩ := wrapped_ok hw h
  refine ⟨ht.left ?_, rfl⟩
  rw [noBlanks_lines, noBlanks_flatten (hw.pieces _ _)]

theorem styled_wrappedOpt (hw : Wraps w) {p : Params} {t : Option Str} {u : Cells} {r : Str × Params}
    (h : p.wrappedOpt w t = .ok r) (ht : Styled (t.getD []) u) : Styled r.1 u ∧ Same p r.2 := by
  cases t with
  | none =>
    simp only [Params.wrappedOpt, Res.ok.injEq] at h
    subst h
    exact ⟨ht, Same.refl p⟩
  | some t =>
    obtain ⟨h1, h2⟩ := styled_wrapped hw h ht
    exact ⟨h1, h2 ▸ same_nextLine p⟩

/-- All that is written for these in colours shows them. -/
def StyledBy {X : Type} (f : Params → X → Res Str) (g : X → Cells) : Prop :=
  ∀ p x s, p.colored = true → NoEsc (g x) → f p x = .ok s → Styled s (g x)

theorem styled_list {X : Type} {f : Params → X → Res Str} {g : X → Cells} (hf : StyledBy f g) :
    StyledBy (list f) (fun l => l.flatMap g) := by
  intro p l s hp hc h
  induction l generalizing p s with
  | nil =>
    simp only [list, Res.ok.injEq] at h
    subst h
    exact Styled.nil
  | cons x l ih =>
    simp only [list, Res.bind_eq_ok, Res.ok.injEq] at h
    obtain ⟨a, h1, b, h2, rfl⟩ := h
    simp only [List.flatMap_cons, noEsc_append] at hc ⊢
    exact (hf _ _ _ hp hc.1 h1).append (ih p.nextLine _ hp hc.2 h2)

theorem styled_flatMap {X : Type} {f : X → Str} {g : X → Cells} {l : List X} (h : ∀ x ∈ l, Styled (f x) (g x)) :
    Styled (l.flatMap f) (l.flatMap g) := by
  induction l with
  | nil => exact Styled.nil
  | cons x l ih =>
    rw [List.flatMap_cons, List.flatMap_cons]
    exact (h x (by simp)).append (ih fun y hy => h y (by simp [hy]))

/-- The style of the pieces of a text. -/
def pieceStyle (i : SemanticInfo) (b : Bool) : Str :=
  if b then referenceStyle else if i.specialPhrase = none then plainStyle else phraseStyle

theorem highlighted_from (l : List (Str × Bool)) (n : Nat) : ∀ r ∈ highlighted n l, n ≤ r.1 := by
  induction l generalizing n with
  | nil => intro r hr; cases hr
  | cons x l ih =>
    intro r hr
    rw [highlighted, List.mem_append] at hr
    rcases hr with hr | hr
    · split at hr
      · rw [List.mem_singleton] at hr; subst hr; exact Nat.le_refl _
      · cases hr
    · have := ih _ r hr
      omega

theorem textStyled_append (i : SemanticInfo) (a b : Str) (n : Nat) : textStyled i n (a ++ b) = textStyled i n a ++ textStyled i (n + byteLen a) b := by
  induction a generalizing n with
  | nil => simp [textStyled, byteLen]
  | cons c a ih => simp [textStyled, byteLen, ih, Nat.add_assoc]

theorem textStyled_same {i : SemanticInfo} {style : Str} (t : Str) (n : Nat) (h : ∀ k, n ≤ k → k < n + byteLen t → styleAt i k = style) :
    textStyled i n t = inStyle style t := by
  induction t generalizing n with
  | nil => rfl
  | cons c t ih =>
    have hc : 0 < utf8Len c := by unfold utf8Len; split <;> (try split) <;> (try split) <;> omega
    simp only [byteLen] at h
    rw [textStyled, h n (Nat.le_refl _) (by omega), ih _ fun k h1 h2 => h k (by omega) (by omega)]
    rfl

theorem pieces_styled {i : SemanticInfo} : ∀ (l : List (Str × Bool)) (n : Nat) (done : List (Nat × Nat)),
    ranges i.outgoingReferences = done ++ highlighted n l → (∀ r ∈ done, r.2 ≤ n) →
    textStyled i n (l.flatMap Prod.fst) = l.flatMap fun x => inStyle (pieceStyle i x.2) x.1
  | [], n, done, _, _ => rfl
  | (t, b) :: l, n, done, he, hd => by
    rw [List.flatMap_cons, List.flatMap_cons, textStyled_append]
    have hlater := highlighted_from l (n + byteLen t)
    congr 1
    · refine textStyled_same t n fun k h1 h2 => ?_
      unfold styleAt pieceStyle
      cases b with
      | true =>
        rw [if_pos]
        · rfl
        · rw [he]
          exact ⟨(n, n + byteLen t), by simp [highlighted], h1, h2⟩
      | false =>
        rw [if_neg]
        · rfl
        · rw [he]
          rintro ⟨r, hr, h3, h4⟩
          simp only [highlighted, Bool.false_eq_true, ↓reduceIte, List.nil_append, List.mem_append] at hr
          rcases hr with hr | hr
          · have := hd r hr; omega
          · have := hlater r hr; omega
    · refine pieces_styled l (n + byteLen t) (done ++ if b then [(n, n + byteLen t)] else []) ?_ ?_
      · rw [he, highlighted, List.append_assoc]
      · intro r hr
        rw [List.mem_append] at hr
        rcases hr with hr | hr
        · have := hd r hr; omega
        · split at hr
          · rw [List.mem_singleton] at hr; subst hr; exact Nat.le_refl _
          · cases hr

theorem styleCode_piece (i : SemanticInfo) (b : Bool) : StyleCode (pieceStyle i b) := by
  unfold pieceStyle
  split
  · exact ⟨by decide, by decide⟩
  · split <;> exact ⟨by decide, by decide⟩

theorem pieceStyle_eq (i : SemanticInfo) (b : Bool) : (if b then str!"36" else defaultColor i) = pieceStyle i b := by
  unfold pieceStyle defaultColor
  cases b with
  | true => rfl
  | false => cases i.specialPhrase <;> rfl

theorem styled_colorizeSae {p : Params} (hp : p.colored = true) {text t : Str} {i : SemanticInfo} (hc : NoEsc (textStyled i 0 text))
    (h : colorizeSae text p i = .ok t) : Styled t (textStyled i 0 text) := by
  simp only [colorizeSae, Res.bind_eq_ok, Res.ok.injEq] at h
  obtain ⟨pieces, h1, rfl⟩ := h
  obtain ⟨⟨a, h2, h3⟩, h4⟩ := splitFrom_ok h1
  have ha : a = [] := by
    have := cut_unique (a := []) (b := text) (c := a) (d := pieces.flatMap (·.1)) (by simpa using h2) (by simpa [byteLen] using h3.symm)
    exact this.1.symm
  subst ha
  simp only [List.nil_append] at h2
  rw [h2, pieces_styled pieces 0 [] h4.symm (by simp)] at hc ⊢
  refine styled_flatMap fun x hx => ?_
  rw [pieceStyle_eq]
  exact Styled.colorize hp (noEsc_inStyle (noEsc_flatMap hc x hx)) (styleCode_piece i x.2)

theorem styled_header {p : Params} {t : Str} {u : Cells} (h : Styled t u) : Styled (p.header t) u :=
  h.left (by rw [Params.header, noBlanks_append, noBlanks_indentation, List.nil_append])

theorem styled_sae (hw : Wraps w) {I C : Type} {children : Params → C → Res Str} {g : C → Cells} (hf : StyledBy children g) (head : Str) :
    ∀ (p : Params) (e : SAE I C) (s : Str), p.colored = true → NoEsc (saeStyled head g e) → sae w head children p e = .ok s →
      Styled s (saeStyled head g e) := by
  intro p e s hp hc h
  simp only [sae, Res.bind_eq_ok, Res.ok.injEq] at h
  obtain ⟨s', h1, rfl⟩ := h
  unfold saeStyled at hc ⊢
  rw [noEsc_append] at hc
  refine (styled_header ((Styled.self (noEsc_inStyle hc.1)).left (noBlanks_pad _ _))).append ?_
  replace hc := hc.2
  have hq : p.sameLine.indented.colored = true := hp
  generalize p.sameLine.indented = q at h1 hq
  cases hb : e.body with
  | text t =>
    rw [hb] at h1 hc
    simp only [body, Res.bind_eq_ok, Res.ok.injEq] at h1
    obtain ⟨t', h1, r, h2, rfl⟩ := h1
    exact (styled_wrapped hw h2 (styled_colorizeSae hq hc h1)).1
  | children intro x wrapUp =>
    rw [hb] at h1 hc
    simp only [body, Res.bind_eq_ok, Res.ok.injEq] at h1
    obtain ⟨t', h1, r, h2, s', h3, r2, h4, rfl⟩ := h1
    simp only [noEsc_append] at hc
    obtain ⟨h5, h6⟩ := styled_wrapped hw h2 (styled_colorizeSae hq hc.1.1 h1)
    rw [h6] at h3
    exact (h5.append (hf q.nextLine _ _ hq hc.1.2 h3)).append (styled_wrappedOpt hw h4 (Styled.self (noEsc_inStyle hc.2))).1

theorem styled_noChildren : StyledBy noChildren noChildrenStyled := fun _ x => nomatch x

theorem styled_alphabeticSubpoint (hw : Wraps w) : StyledBy (alphabeticSubpoint w) alphabeticSubpointStyled :=
  fun p e s hp hc h => styled_sae hw styled_noChildren _ p e s hp hc h

theorem styled_numericSubpoint (hw : Wraps w) : StyledBy (numericSubpoint w) numericSubpointStyled :=
  fun p e s hp hc h => styled_sae hw styled_noChildren _ p e s hp hc h

theorem styled_alphabeticPoint (hw : Wraps w) : StyledBy (alphabeticPoint w) alphabeticPointStyled := by
  intro p e s hp hc h
  refine styled_sae hw (fun p x s hp hc h => ?_) _ p e s hp hc h
  cases x with
  | alphabeticSubpoint l => exact styled_list (styled_alphabeticSubpoint hw) p l s hp hc h
  | numericSubpoint l => exact styled_list (styled_numericSubpoint hw) p l s hp hc h

theorem styled_numericPoint (hw : Wraps w) : StyledBy (numericPoint w) numericPointStyled := by
  intro p e s hp hc h
  refine styled_sae hw (fun p x s hp hc h => ?_) _ p e s hp hc h
  cases x with
  | alphabeticSubpoint l => exact styled_list (styled_alphabeticSubpoint hw) p l s hp hc h

theorem mark_clean : '\x1B' ∉ str!"„" ∧ '\x1B' ∉ str!"”" := by decide

theorem styled_quotedBlock (hw : Wraps w) : StyledBy (quotedBlock w) (fun q => inStyle plainStyle (quotedBlockShown q)) := by
  intro p q s _ hc h
  simp only [quotedBlock, Res.bind_eq_ok, Res.ok.injEq] at h
  obtain ⟨r0, h0, r1, h1, r2, h2, r3, h3, rfl⟩ := h
  simp only [quotedBlockShown, inStyle_append, noEsc_append] at hc ⊢
  obtain ⟨⟨⟨⟨c0, -⟩, c1⟩, -⟩, c3⟩ := hc
  exact ((((styled_wrappedOpt hw h0 (Styled.self (noEsc_inStyle c0))).1.append
    (styled_wrapped hw h1 (Styled.self mark_clean.1)).1).append
    ((Styled.self (noEsc_inStyle c1)).left (noBlanks_quotedLines _ _ _))).append
    (styled_wrapped hw h2 (Styled.self mark_clean.2)).1).append
    (styled_wrappedOpt hw h3 (Styled.self (noEsc_inStyle c3))).1

theorem styled_paragraph {A : Type} (hw : Wraps w) {f : Params → A → Res Str} {g : A → Cells} (hf : StyledBy f g) :
    StyledBy (paragraph w f) (paragraphStyled g) := by
  intro p e s hp hc h
  unfold paragraph at h
  rw [paragraphHeader_eq] at h
  refine styled_sae hw (fun p x s hp hc h => ?_) _ p e s hp hc h
  cases x with
  | alphabeticPoint l => exact styled_list (styled_alphabeticPoint hw) p l s hp hc h
  | numericPoint l => exact styled_list (styled_numericPoint hw) p l s hp hc h
  | quotedBlock l => exact styled_list (styled_quotedBlock hw) p l s hp hc h
  | amendment a => exact hf _ _ _ hp hc h

theorem styleCode_bold : StyleCode boldStyle := ⟨by decide, by decide⟩
theorem styleCode_italic : StyleCode italicStyle := ⟨by decide, by decide⟩

theorem styled_article {A : Type} (hw : Wraps w) {f : Params → A → Res Str} {g : A → Cells} (hf : StyledBy f g) :
    StyledBy (article w f) (articleStyled g) := by
  intro p a s hp hc h
  simp only [article, Res.bind_eq_ok, Res.ok.injEq] at h
  obtain ⟨r, h1, s', h2, rfl⟩ := h
  simp only [articleStyled, noEsc_append] at hc ⊢
  obtain ⟨⟨c0, c2⟩, c3⟩ := hc
  have e0 : Styled (p.header (p.colorize (pad 10 (a.identifier.display ++ str!". §")) bold))
      (inStyle boldStyle (a.identifier.display ++ str!". §")) := by
    refine styled_header ?_
    refine Styled.congr (a := p.colorize (pad 10 (a.identifier.display ++ str!". §")) boldStyle)
      (t := inStyle boldStyle (pad 10 (a.identifier.display ++ str!". §"))) (Styled.colorize hp ?_ styleCode_bold) rfl ?_
    · rw [pad, List.mem_append, not_or]
      exact ⟨noEsc_inStyle c0, fun hm => absurd (List.eq_of_mem_replicate hm) (by decide)⟩
    · rw [noBlankCells_inStyle, noBlankCells_inStyle, noBlanks_pad]
  have e1 : Styled ((articleTitle a.title).getD []) (inStyle plainStyle (inBrackets str!"[" str!"]" a.title)) := by
    cases ht : a.title with
    | none => exact Styled.nil
    | some t =>
      rw [ht] at c2
      refine (Styled.self (noEsc_inStyle c2)).left ?_
      simp only [articleTitle, Option.map_some, Option.getD_some, inBrackets]
      rw [noBlanks_append, noBlanks_append, noBlanks_append, noBlanks_append]
      rfl
  obtain ⟨e2, e3⟩ := styled_wrappedOpt hw h1 e1
  have e4 := styled_list (styled_paragraph hw hf) r.2 a.children s' (by rw [e3.2.2]; exact hp) c3 h2
  refine ((e0.append e2).append e4).left ?_
  rw [noBlanks_append]
  have : noBlanks (emptyEnd a.children) = [] := by
    unfold emptyEnd
    split <;> rfl
  rw [this, List.append_nil]

theorem styled_actChild {A : Type} (hw : Wraps w) {f : Params → A → Res Str} {g : A → Cells} (hf : StyledBy f g) :
    StyledBy (actChild w f) (actChildStyled g) := by
  intro p a s hp hc h
  cases a with
  | article a => exact styled_article hw hf p a s hp hc h
  | structuralElement e =>
    simp only [actChild, structuralElement, Res.bind_eq_ok, Res.ok.injEq] at h
    obtain ⟨hd, h0, r, h1, r2, h2, rfl⟩ := h
    have h0' : e.headerString = some hd := by
      cases he : e.headerString <;> rw [he] at h0 <;> simp [Res.ofOption] at h0
      rw [h0]
    simp only [actChildStyled, h0', Option.getD_some, inStyle_append, noEsc_append] at hc ⊢
    obtain ⟨e1, e2⟩ := styled_wrapped hw h1 (Styled.colorize (code := italicStyle) hp (noEsc_inStyle hc.1) styleCode_italic)
    refine e1.append (styled_wrappedOpt hw h2 ?_).1
    unfold nonEmpty
    cases ht : e.title with
    | nil => exact Styled.nil
    | cons x t =>
      rw [ht] at hc
      exact Styled.colorize (code := italicStyle) hp (noEsc_inStyle hc.2) styleCode_italic
  | subtitle t =>
    simp only [actChild, subtitle, Res.bind_eq_ok, Res.ok.injEq] at h
    obtain ⟨r, h1, rfl⟩ := h
    rcases t with ⟨_ | i, t, n⟩
    · exact (styled_wrapped hw h1 (Styled.colorize (code := boldStyle) hp (noEsc_inStyle hc) styleCode_bold)).1
    · simp only [actChildStyled, inStyle_append, noEsc_append] at hc ⊢
      refine (styled_wrapped hw h1 ((Styled.colorize (code := boldStyle) (t := subtitleText ⟨some i, t, n⟩) hp ?_ styleCode_bold).congr rfl ?_)).1
      · have h1 := noEsc_inStyle hc.1.1
        have h2 := noEsc_inStyle hc.2
        simp only [subtitleText, List.mem_append, not_or]
        exact ⟨⟨h1, by decide⟩, h2⟩
      · simp only [subtitleText, noBlankCells_append, noBlankCells_inStyle, inStyle_append]
        rfl

theorem styled_quoted {C : Type} (hw : Wraps w) {f : Params → C → Res Str} {g : C → Cells} (hf : StyledBy f g)
    (p : Params) (i : Option Str) (x : C) (wu : Option Str) (s : Str) (hp : p.colored = true)
    (hc : NoEsc (inStyle italicStyle (inBrackets str!"(" str!")" i) ++ inStyle plainStyle str!"„" ++ g x ++ inStyle plainStyle str!"”" ++
      inStyle italicStyle (inBrackets str!"(" str!")" wu)))
    (h : quoted w f p i x wu = .ok s) :
    Styled s (inStyle italicStyle (inBrackets str!"(" str!")" i) ++ inStyle plainStyle str!"„" ++ g x ++ inStyle plainStyle str!"”" ++
      inStyle italicStyle (inBrackets str!"(" str!")" wu)) := by
  simp only [quoted, Res.bind_eq_ok, Res.ok.injEq] at h
  obtain ⟨r0, h0, r1, h1, s', h4, r2, h2, r3, h3, rfl⟩ := h
  simp only [noEsc_append] at hc
  obtain ⟨⟨⟨⟨c0, -⟩, c1⟩, -⟩, c3⟩ := hc
  have e : ∀ {t : Option Str}, NoEsc (inStyle italicStyle (inBrackets str!"(" str!")" t)) →
      Styled ((bracketed p t).getD []) (inStyle italicStyle (inBrackets str!"(" str!")" t)) := by
    intro t ht
    cases t with
    | none => exact Styled.nil
    | some t => exact Styled.colorize (code := italicStyle) hp (noEsc_inStyle ht) styleCode_italic
  obtain ⟨e0, f0⟩ := styled_wrappedOpt hw h0 (e c0)
  obtain ⟨e1, f1⟩ := styled_wrapped hw h1 (Styled.self mark_clean.1)
  refine (((e0.append e1).append (hf _ _ _ ?_ c1 h4)).append
    (styled_wrapped hw h2 (Styled.self mark_clean.2)).1).append
    (styled_wrappedOpt hw h3 (e c3)).1
  rw [f1]
  exact f0.2.2.trans hp

theorem styled_noAmendment : StyledBy noAmendment noAmendmentStyled := fun _ x => nomatch x

theorem styled_amendment (hw : Wraps w) : StyledBy (amendment w) amendmentStyled := by
  intro p a s hp hc h
  cases a with
  | structural i l wu =>
    exact styled_quoted hw (f := list (actChild w noAmendment)) (g := fun l => l.flatMap (actChildStyled noAmendmentStyled))
      (styled_list (styled_actChild hw styled_noAmendment)) p i l wu s hp hc h
  | block i x wu =>
    refine styled_quoted hw (g := fun x => match x with
      | .paragraph l => l.flatMap (paragraphStyled noAmendmentStyled)
      | .alphabeticPoint l => l.flatMap alphabeticPointStyled
      | .numericPoint l => l.flatMap numericPointStyled
      | .alphabeticSubpoint l => l.flatMap alphabeticSubpointStyled
      | .numericSubpoint l => l.flatMap numericSubpointStyled) (fun p x s hp hc h => ?_) p i x wu s hp hc h
    cases x with
    | paragraph l => exact styled_list (styled_paragraph hw styled_noAmendment) p l s hp hc h
    | alphabeticPoint l => exact styled_list (styled_alphabeticPoint hw) p l s hp hc h
    | numericPoint l => exact styled_list (styled_numericPoint hw) p l s hp hc h
    | alphabeticSubpoint l => exact styled_list (styled_alphabeticSubpoint hw) p l s hp hc h
    | numericSubpoint l => exact styled_list (styled_numericSubpoint hw) p l s hp hc h

theorem styled_actChildren {A : Type} (hw : Wraps w) {f : Params → A → Res Str} {g : A → Cells} (hf : StyledBy f g)
    {p : Params} {b : Bool} {l : List (ActChild A)} {s : Str} (hp : p.colored = true)
    (hc : NoEsc (l.flatMap (actChildStyled g))) (h : actChildren w f p b l = .ok s) : Styled s (l.flatMap (actChildStyled g)) := by
  induction l generalizing b s with
  | nil =>
    simp only [actChildren, Res.ok.injEq] at h
    subst h
    exact Styled.nil
  | cons x l ih =>
    simp only [actChildren, Res.bind_eq_ok, Res.ok.injEq] at h
    obtain ⟨s1, h1, s2, h2, rfl⟩ := h
    rw [List.flatMap_cons, noEsc_append] at hc
    rw [List.flatMap_cons]
    refine ((styled_actChild hw hf p x s1 hp hc.1 h1).left ?_).append (ih hc.2 h2)
    rw [noBlanks_append]
    split <;> simp [noBlanks]

theorem styled_act (hw : Wraps w) {p : Params} {a : Act Amendment} {s : Str} (hp : p.colored = true)
    (hc : NoEsc (actStyled a)) (h : act w (amendment w) p a = .ok s) : Styled s (actStyled a) := by
  simp only [act, Res.bind_eq_ok, Res.ok.injEq] at h
  obtain ⟨i, h0, r, h1, s', h2, rfl⟩ := h
  simp only [actStyled, h0, inStyle_append, noEsc_append] at hc ⊢
  obtain ⟨⟨c0, c1, c2⟩, c3⟩ := hc
  have e0 : Styled (p.header (p.colorize i bold ++ str!" " ++ a.subject)) (inStyle boldStyle i ++ inStyle plainStyle a.subject) := by
    refine styled_header ?_
    refine ((Styled.colorize (code := boldStyle) hp (noEsc_inStyle c0) styleCode_bold).append (Styled.self (noEsc_inStyle c1))).left ?_
    simp only [noBlanks_append]
    rw [show noBlanks str!" " = [] by decide, List.append_nil]
    rfl
  have e1 := (styled_wrapped hw h1 (Styled.self (noEsc_inStyle c2))).1
  have e2 := styled_actChildren hw (styled_amendment hw) (p := p.nextLine) hp c3 h2
  rw [← List.append_assoc (inStyle boldStyle i)]
  refine ((e0.append e1).append e2).left ?_
  simp only [noBlanks_append]
  rw [show noBlanks ['\n', '\n'] = [] by decide, show noBlanks ['\n'] = [] by decide, List.append_nil, List.append_nil]

end

end HunLaw.Output
