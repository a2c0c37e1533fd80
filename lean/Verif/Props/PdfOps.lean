import Mathlib.Tactic.Linarith
import Verif.Props.Pdf

/-! More of the properties C80 and C81: marked content which replaces nothing, and the text operators. -/

set_option autoImplicit false

namespace HunLaw.Props

open HunLaw HunLaw.Spec HunLaw.Pdf

/-! ### C80: marked content without a replacement -/

/-- The same renderer with other marked content open. -/
def withMarks (m : List Bool) (r : Renderer) : Renderer := { r with marked := m }

theorem renderCid_withMarks (m : List Bool) (r : Renderer) (cid : Nat) :
    (withMarks m r).renderCid cid = (r.renderCid cid).map (withMarks m) := by
  unfold Renderer.renderCid
  rw [show (withMarks m r).state = r.state from rfl, show (withMarks m r).actual = r.actual from rfl,
    show (withMarks m r).collector = r.collector from rfl]
  cases r.state.font with
  | none => rfl
  | some f =>
    simp only [Res.ofOption, Res.bind_ok]
    cases r.actual with
    | some a => rfl
    | none =>
      simp only
      cases r.collector.renderCid r.state f cid <;> rfl

theorem renderCids_withMarks (m : List Bool) (r : Renderer) (l : List Nat) :
    (withMarks m r).renderCids l = (r.renderCids l).map (withMarks m) := by
  induction l generalizing r with
  | nil => rfl
  | cons c l ih =>
    simp only [Renderer.renderCids, renderCid_withMarks]
    cases r.renderCid c with
    | ok r => exact ih r
    | _ => rfl

theorem renderText_withMarks (m : List Bool) (r : Renderer) (bytes : List UInt8) :
    (withMarks m r).renderText bytes = (r.renderText bytes).map (withMarks m) := by
  unfold Renderer.renderText
  rw [show (withMarks m r).state = r.state from rfl]
  cases r.state.font with
  | none => rfl
  | some f => exact renderCids_withMarks ..

theorem drawAdjusted_withMarks (m : List Bool) (r : Renderer) (l : List Adjusted) :
    (withMarks m r).drawAdjusted l = (r.drawAdjusted l).map (withMarks m) := by
  induction l generalizing r with
  | nil => rfl
  | cons c l ih =>
    cases c with
    | text bytes =>
      simp only [Renderer.drawAdjusted, renderText_withMarks]
      cases r.renderText bytes with
      | ok r => exact ih r
      | _ => rfl
    | spacing d =>
      exact ih (r.withState (r.state.advance (-d * r.state.horizontalScale * r.state.fontSize / 1000)))

theorem setFont_withMarks (m : List Bool) (r : Renderer) (f : FontRef) (size : Rat) :
    (withMarks m r).setFont f size = (r.setFont f size).map (withMarks m) := by
  unfold Renderer.setFont
  rw [show (withMarks m r).cache = r.cache from rfl]
  cases r.cache.get f.address f.font <;> rfl

theorem handleSimple_withMarks {op : Op} (hp : isPlain op = true) (m : List Bool) (r : Renderer) :
    (withMarks m r).handleSimple op = (r.handleSimple op).map (withMarks m) := by
  cases op with
  | beginMarkedContent => cases hp
  | endMarkedContent => cases hp
  | xObject => cases hp
  | textDraw bytes => exact renderText_withMarks ..
  | textDrawAdjusted items => exact drawAdjusted_withMarks ..
  | restore =>
    simp only [Renderer.handleSimple, Renderer.restore]
    rw [show (withMarks m r).stack = r.stack from rfl]
    cases r.stack <;> rfl
  | graphicsState name =>
    simp only [Renderer.handleSimple, Renderer.graphicsState]
    rw [show (withMarks m r).resources = r.resources from rfl]
    cases r.resources with
    | none => rfl
    | some res =>
      simp only [Res.ofOption, Res.bind_ok]
      cases res.graphicsStates name with
      | none => rfl
      | some f =>
        cases f with
        | none => rfl
        | some f => exact setFont_withMarks ..
  | textFont name size =>
    simp only [Renderer.handleSimple, Renderer.textFont]
    rw [show (withMarks m r).resources = r.resources from rfl]
    cases r.resources with
    | none => rfl
    | some res =>
      simp only [Res.ofOption, Res.bind_ok]
      cases res.fonts name with
      | none => rfl
      | some f => exact setFont_withMarks ..
  | _ => rfl

theorem runWith_withMarks (x : Renderer → Str → Res Renderer) (m : List Bool) (ops : List Op)
    (hp : ∀ op ∈ ops, isPlain op = true) (r : Renderer) :
    (withMarks m r).runWith x ops = (r.runWith x ops).map (withMarks m) := by
  induction ops generalizing r with
  | nil => rfl
  | cons op ops ih =>
    have hop := hp op (List.mem_cons_self ..)
    have h1 : ∀ r : Renderer, r.handleOp x op = r.handleSimple op := by
      intro r; cases op <;> first | rfl | cases hop
    simp only [Renderer.runWith, h1, handleSimple_withMarks hop]
    cases r.handleSimple op with
    | ok r => exact ih (fun op h => hp op (List.mem_cons_of_mem _ h)) r
    | _ => rfl

theorem runWith_marks {x : Renderer → Str → Res Renderer} {ops : List Op} (hp : ∀ op ∈ ops, isPlain op = true)
    {r r' : Renderer} (h : r.runWith x ops = .ok r') : r'.marked = r.marked := by
  have := runWith_withMarks x r.marked ops hp r
  rw [show withMarks r.marked r = r from rfl, h] at this
  exact congrArg (fun y : Res Renderer => match y with | .ok r => r.marked | _ => []) this

/-- Marked content which is no span, or a span without a replacement text, is drawn as if it were not marked. -/
theorem C80_unmarked (objects : Objects) (depth : Nat) (r : Renderer) (tag : Str) (property : Option Str) (ops : List Op)
    (hp : ∀ op ∈ ops, isPlain op = true) (h : tag ≠ str!"/Span" ∨ property = none) :
    r.run objects depth (.beginMarkedContent tag property :: (ops ++ [.endMarkedContent])) = r.run objects depth ops := by
  unfold Renderer.run
  have hb : r.beginMarked tag property = withMarks (false :: r.marked) r := by
    unfold Renderer.beginMarked ActualText.fromBmcParams
    rcases h with h | h
    · rw [if_pos h]; rfl
    · subst h; by_cases ht : tag = str!"/Span" <;> simp [ht, withMarks]
  simp only [Renderer.runWith, Renderer.handleOp, Renderer.handleSimple, Res.bind_ok, hb]
  rw [runWith_append, runWith_withMarks _ _ _ hp]
  cases hr : r.runWith (Renderer.handleXObject objects depth) ops with
  | ok r' =>
    have := runWith_marks hp hr
    show (Renderer.endMarked (withMarks (false :: r.marked) r') >>= fun r => Res.ok r) = _
    simp only [Renderer.endMarked, withMarks, Res.bind_ok, ← this]
  | _ => rfl

example : pageChars noObjects 5 sampleCrop ⟨some sampleResources, some
    [.textFont str!"F1" 10, .beginMarkedContent str!"/P" (some str!"ffi"), .textDraw [65], .endMarkedContent]⟩ =
    .ok [⟨0, 0, 5, 5, false, 'A'⟩] := by decide +kernel

/-! ### C81: the text operators -/

/-- The line break `T*` moves down by the leading that is set (PDF 1.7, 9.4.2: the same as `0 -leading Td`). -/
theorem C81_newline (objects : Objects) (depth : Nat) (r : Renderer) (leading : Rat) (ops : List Op) :
    r.run objects depth (.leading leading :: .textNewline :: ops) =
      r.run objects depth (.leading leading :: .moveTextPosition 0 (-leading) :: ops) := rfl

/-- Matrices are put together in the order of PDF (1.7, 8.3.4): the first one is applied to the point first. -/
theorem C81_matrices (a b : Matrix) (x y : Rat) :
    place (a.andThen b) x y = place b (place a x y).1 (place a x y).2 := by
  simp only [place, Matrix.andThen, Prod.mk.injEq]
  constructor <;> ring

/-- A matrix is known from where it puts the points. -/
theorem place_injective {a b : Matrix} (h : ∀ x y, place a x y = place b x y) : a = b := by
  have h0 := h 0 0
  have h1 := h 1 0
  have h2 := h 0 1
  simp only [place, zero_mul, one_mul, add_zero, zero_add, Prod.mk.injEq] at h0 h1 h2
  cases a
  cases b
  simp only at h0 h1 h2
  simp only [Matrix.mk.injEq]
  refine ⟨?_, ?_, ?_, ?_, h0.1, h0.2⟩ <;> linarith [h0.1, h0.2, h1.1, h1.2, h2.1, h2.2]

/-- A point of the text is scaled, raised and then put on the page by the text matrix (PDF 1.7, 9.4.4); after text has been drawn,
it begins further by what was advanced. -/
theorem C81_rendering (s : TextState) (x y delta : Rat) :
    place s.renderingMatrix x y = place s.textMatrix (x * (s.horizontalScale * s.fontSize)) (y * s.fontSize + s.rise) ∧
    place (s.advance delta).textMatrix x y = place s.textMatrix (x + delta) y := by
  simp only [TextState.renderingMatrix, TextState.advance, C81_matrices]
  simp [place, Matrix.translation]

/-- A text matrix that turns the text. -/
example : place ((Matrix.mk 2 3 5 7 1 1).andThen ⟨0, 1, -1, 0, 10, 20⟩) 1 1 = (-1, 28) := by decide +kernel

/-- Moves add up, whatever is drawn between them: they are from the beginning of the line. -/
theorem C81_moves (objects : Objects) (depth : Nat) (r r1 r2 : Renderer) (f : FastFont) (x y a b : Rat)
    (bytes : List UInt8) (hf : r.state.font = some f) (ha : r.actual = none)
    (h1 : r.run objects depth [.moveTextPosition x y, .textDraw bytes, .moveTextPosition a b] = .ok r1)
    (h2 : r.run objects depth [.moveTextPosition (x + a) (y + b)] = .ok r2) : r1.state = r2.state := by
  unfold Renderer.run at h1 h2
  simp only [Renderer.runWith, Renderer.handleOp, Res.bind_eq_ok] at h1 h2
  obtain ⟨s1, e1, s2, e2, s3, e3, h1⟩ := h1
  obtain ⟨s4, e4, h2⟩ := h2
  cases h1
  cases h2
  cases e1
  have := (C81_positions _ s2 f bytes (by exact hf) (by exact ha) e2).2
  cases e3
  cases e4
  rw [this]
  simp only [Renderer.withState, TextState.setBothMatrices, Matrix.translation, Matrix.andThen]
  congr 1 <;> congr 1 <;> ring

/-- The text is scaled by percents: with `n Tz` the codes are drawn and moved as with the scale `n / 100`. -/
theorem C81_scaling (objects : Objects) (depth : Nat) (r r' : Renderer) (f : FastFont) (n : Rat) (bytes : List UInt8)
    (hf : r.state.font = some f) (ha : r.actual = none)
    (h : r.run objects depth [.textScaling n, .textDraw bytes] = .ok r') :
    r'.collector.chars = r.collector.chars ++ seen r.collector.crop
      (drawnFrom f { r.state with horizontalScale := n / 100 } r.collector.widthOfSpace r.collector.fontIsBold 0
        (Renderer.codes f.isCid bytes)) := by
  unfold Renderer.run at h
  simp only [Renderer.runWith, Renderer.handleOp, Res.bind_eq_ok] at h
  obtain ⟨r1, h1, r2, h2, h3⟩ := h
  cases h3
  cases h1
  have := (C81_positions _ r' f bytes (by exact hf) (by exact ha) h2).1
  rw [this]
  simp [Renderer.withState, div_eq_mul_inv]

/-- The codes of a font with codes of two bytes are big endian numbers, a byte too many is ignored; other fonts have
one code for each byte. -/
theorem C81_codes (l : List (UInt8 × UInt8)) (tail : List UInt8) (ht : tail.length ≤ 1) (bytes : List UInt8) :
    Renderer.codes true (l.flatMap (fun p => [p.1, p.2]) ++ tail) = l.map (fun p => 256 * p.1.toNat + p.2.toNat) ∧
      Renderer.codes false bytes = bytes.map UInt8.toNat := by
  constructor
  · induction l with
    | nil =>
      match tail, ht with
      | [], _ => rfl
      | [a], _ => rfl
    | cons p l ih => simp [Renderer.codes, ih, Nat.mul_comm]
  · induction bytes with
    | nil => rfl
    | cons a l ih => cases l <;> simp_all [Renderer.codes]

end HunLaw.Props
