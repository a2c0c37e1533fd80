import Verif.Lemmas.PdfRender

/-! Lemmas on forms and replaced text in PDF pages. -/

set_option autoImplicit false

namespace HunLaw.Pdf

open Spec

/-! ### Forms -/

theorem setFont_leaves {f : FontRef} {size : Rat} {r r' : Renderer} (h : r.setFont f size = .ok r') :
    r'.resources = r.resources ∧ r'.stack = r.stack ∧ r'.marked = r.marked ∧ r'.actual = r.actual := by
  simp only [Renderer.setFont, Res.bind_eq_ok] at h
  obtain ⟨p, -, h⟩ := h
  cases h
  exact ⟨rfl, rfl, rfl, rfl⟩

theorem textFont_leaves {name : Str} {size : Rat} {r r' : Renderer} (h : r.textFont name size = .ok r') :
    r'.resources = r.resources ∧ r'.stack = r.stack ∧ r'.marked = r.marked ∧ r'.actual = r.actual := by
  simp only [Renderer.textFont, Res.bind_eq_ok] at h
  obtain ⟨res, -, font, -, h⟩ := h
  exact setFont_leaves h

theorem graphicsState_leaves {name : Str} {r r' : Renderer} (h : r.graphicsState name = .ok r') :
    r'.resources = r.resources ∧ r'.stack = r.stack ∧ r'.marked = r.marked ∧ r'.actual = r.actual := by
  simp only [Renderer.graphicsState, Res.bind_eq_ok] at h
  obtain ⟨res, -, font, -, h⟩ := h
  cases font with
  | none => cases h; exact ⟨rfl, rfl, rfl, rfl⟩
  | some p => exact setFont_leaves h

theorem handleSimple_resources {op : Op} {r r' : Renderer} (h : r.handleSimple op = .ok r') :
    r'.resources = r.resources := by
  cases op with
  | textFont name size => exact (textFont_leaves h).1
  | graphicsState name => exact (graphicsState_leaves h).1
  | _ => exact (handleSimple_leaves rfl h).resources

/-- Operations other than saving, restoring and drawing objects leave the saved states alone. -/
theorem handleSimple_stack {op : Op} (h1 : op ≠ .save) (h2 : op ≠ .restore) {r r' : Renderer}
    (h : r.handleSimple op = .ok r') : r'.stack = r.stack := by
  cases op with
  | textFont name size => exact (textFont_leaves h).2.1
  | graphicsState name => exact (graphicsState_leaves h).2.1
  | textDraw bytes => exact (renderText_leaves h).2.2.1
  | textDrawAdjusted items => exact (drawAdjusted_leaves h).2.2.1
  | save => exact absurd rfl h1
  | restore => exact absurd rfl h2
  | beginMarkedContent tag property =>
    cases h
    unfold Renderer.beginMarked
    split <;> rfl
  | endMarkedContent =>
    simp only [Renderer.handleSimple, Renderer.endMarked] at h
    split at h
    · cases h
    · cases h; rfl
    · cases h; rfl
  | _ => cases h; rfl

theorem leaveForm_eq {saved : Option Resources} {r r' : Renderer} (h : r.leaveForm saved = .ok r') :
    r'.resources = saved ∧ r.stack = r'.state :: r'.stack := by
  simp only [Renderer.leaveForm, Res.bind_eq_ok, Renderer.restore] at h
  obtain ⟨r1, h1, h⟩ := h
  cases h
  split at h1
  · cases h1
  · rename_i s st hs
    cases h1
    exact ⟨rfl, hs⟩

theorem handleXObject_resources {objects : Objects} {depth : Nat} {r r' : Renderer} {name : Str}
    (h : r.handleXObject objects depth name = .ok r') : r'.resources = r.resources := by
  cases depth with
  | zero =>
    simp only [Renderer.handleXObject, Res.bind_eq_ok] at h
    obtain ⟨x, -, h⟩ := h
    cases x with
    | other => cases h; rfl
    | form => cases h
  | succ depth =>
    simp only [Renderer.handleXObject, Res.bind_eq_ok] at h
    obtain ⟨x, -, h⟩ := h
    cases x with
    | other => cases h; rfl
    | form res ops =>
      simp only [Renderer.drawForm, Res.bind_eq_ok] at h
      obtain ⟨inner, -, drawn, -, h2⟩ := h
      exact (leaveForm_eq h2).1

theorem handleOp_simple {x : Renderer → Str → Res Renderer} {r : Renderer} {op : Op}
    (hx : ∀ name, op ≠ .xObject name) : r.handleOp x op = r.handleSimple op := by
  cases op with
  | xObject name => exact absurd rfl (hx name)
  | _ => rfl

theorem runWith_stack {x : Renderer → Str → Res Renderer}
    (hx : ∀ r name r', x r name = .ok r' → r'.stack = r.stack) {ops : List Op} {n k : Nat}
    (hb : BalancedSaves n k ops) {r r' : Renderer} {tops base : List TextState} (hnk : n ≤ k)
    (hs : r.stack = tops ++ base) (hl : tops.length = k - n) (h : r.runWith x ops = .ok r') :
    r'.stack = base := by
  induction ops generalizing r k tops with
  | nil =>
    cases h
    have hb : k = n := hb
    have : tops = [] := List.length_eq_zero_iff.1 (by omega)
    rw [hs, this, List.nil_append]
  | cons op ops ih =>
    simp only [Renderer.runWith, Res.bind_eq_ok] at h
    obtain ⟨r1, h1, h2⟩ := h
    have keep : BalancedSaves n k ops → r1.stack = r.stack → r'.stack = base := fun a b =>
      ih a hnk (b.trans hs) hl h2
    have hst : op ≠ .save → op ≠ .restore → r.handleSimple op = .ok r1 → r1.stack = r.stack :=
      fun a b c => handleSimple_stack a b c
    cases op with
    | xObject name => exact keep hb (hx _ _ _ h1)
    | save =>
      cases h1
      refine ih (k := k + 1) (tops := r.state :: tops) hb (by omega) ?_ ?_ h2
      · simp [hs]
      · simp; omega
    | restore =>
      have hb : n < k ∧ BalancedSaves n (k - 1) ops := hb
      have h1 : r.restore = .ok r1 := h1
      cases tops with
      | nil => simp at hl; omega
      | cons t tops =>
        rw [List.cons_append] at hs
        simp only [Renderer.restore, hs] at h1
        cases h1
        exact ih (k := k - 1) (tops := tops) hb.2 (by omega) rfl (by simp at hl; omega) h2
    | _ => exact keep hb (hst (by simp) (by simp) h1)

theorem findObject_found {objects : Objects} {r : Renderer} {name : Str} {x : XObject}
    (h : r.findObject objects name = .ok x) :
    ∃ res n, r.resources = some res ∧ res.xobjects name = some n ∧ objects n = some x := by
  simp only [Renderer.findObject, Res.bind_eq_ok] at h
  obtain ⟨res, h1, n, h2, h3⟩ := h
  refine ⟨res, n, ?_, ?_, ?_⟩
  · cases hr : r.resources with
    | none => rw [hr] at h1; cases h1
    | some y => rw [hr] at h1; cases h1; rfl
  · cases hr : res.xobjects name with
    | none => rw [hr] at h2; cases h2
    | some y => rw [hr] at h2; cases h2; rfl
  · cases hr : objects n with
    | none => rw [hr] at h3; cases h3
    | some y => rw [hr] at h3; cases h3; rfl

theorem handleXObject_same {objects : Objects} (hb : BalancedForms objects (BalancedSaves 0 0)) {depth : Nat}
    {r r' : Renderer} {name : Str} (h : r.handleXObject objects depth name = .ok r') :
    r'.state = r.state ∧ r'.stack = r.stack ∧ r'.resources = r.resources := by
  induction depth generalizing r r' name with
  | zero =>
    simp only [Renderer.handleXObject, Res.bind_eq_ok] at h
    obtain ⟨x, -, h⟩ := h
    cases x with
    | other => cases h; exact ⟨rfl, rfl, rfl⟩
    | form => cases h
  | succ depth ih =>
    refine ⟨?_, ?_, handleXObject_resources h⟩ <;>
    · simp only [Renderer.handleXObject, Res.bind_eq_ok] at h
      obtain ⟨x, hx, h⟩ := h
      obtain ⟨_, n, -, -, hn⟩ := findObject_found hx
      cases x with
      | other => cases h; rfl
      | form res ops =>
        simp only [Renderer.drawForm, Res.bind_eq_ok] at h
        obtain ⟨inner, hi, drawn, h1, h2⟩ := h
        cases ops with
        | none => cases hi
        | some ops =>
          cases hi
          have := runWith_stack (fun _ _ _ h => (ih h).2.1) (hb n _ _ hn) (tops := []) (Nat.le_refl 0) rfl rfl h1
          have h3 := (leaveForm_eq h2).2
          rw [this] at h3
          simp only [Renderer.enterForm, List.cons.injEq] at h3
          first | exact h3.1.symm | exact h3.2.symm

/-! ### Nothing but forms inside of forms can crash -/

theorem ofOption_ne_panic {α : Type} (o : Option α) : Res.ofOption o ≠ .panic := by
  cases o <;> simp [Res.ofOption]

theorem bind_no_panic {α β : Type} {x : Res α} {f : α → Res β} (h1 : x ≠ .panic)
    (h2 : ∀ a, x = .ok a → f a ≠ .panic) : (x >>= f) ≠ .panic := by
  cases x with
  | ok a => exact h2 a rfl
  | err => simp
  | panic => exact absurd rfl h1

theorem convert_ne_panic (o : FontObj) : FastFont.convert o ≠ .panic := by
  unfold FastFont.convert FastFont.processEncoding
  refine bind_no_panic (ofOption_ne_panic _) fun w _ => bind_no_panic (ofOption_ne_panic _) fun e _ =>
    bind_no_panic (bind_no_panic ?_ fun f _ => by simp) fun f _ => ?_
  · unfold FastFont.processBaseEncoding
    split <;> simp
  · unfold FastFont.processUnicodeMap
    split <;> simp

theorem setFont_ne_panic (r : Renderer) (f : FontRef) (size : Rat) : r.setFont f size ≠ .panic := by
  unfold Renderer.setFont
  refine bind_no_panic ?_ fun p _ => by simp
  unfold FontCache.get
  split
  · simp
  · exact bind_no_panic (convert_ne_panic _) fun f _ => by simp

theorem renderCids_ne_panic (cids : List Nat) (r : Renderer) : r.renderCids cids ≠ .panic := by
  induction cids generalizing r with
  | nil => simp [Renderer.renderCids]
  | cons cid cids ih =>
    unfold Renderer.renderCids
    refine bind_no_panic ?_ fun r1 _ => ih r1
    unfold Renderer.renderCid
    refine bind_no_panic (ofOption_ne_panic _) fun f _ => ?_
    split
    · simp
    · refine bind_no_panic ?_ fun p _ => by simp
      unfold Collector.renderCid
      refine bind_no_panic ?_ fun k _ => by simp
      unfold Collector.renderUnicode
      split <;> simp

theorem renderText_ne_panic (bytes : List UInt8) (r : Renderer) : r.renderText bytes ≠ .panic := by
  unfold Renderer.renderText
  exact bind_no_panic (ofOption_ne_panic _) fun f _ => renderCids_ne_panic _ _

theorem drawAdjusted_ne_panic (items : List Adjusted) (r : Renderer) : r.drawAdjusted items ≠ .panic := by
  induction items generalizing r with
  | nil => simp [Renderer.drawAdjusted]
  | cons i items ih =>
    cases i with
    | text bytes =>
      simp only [Renderer.drawAdjusted]
      exact bind_no_panic (renderText_ne_panic _ _) fun r1 _ => ih r1
    | spacing delta =>
      simp only [Renderer.drawAdjusted]
      exact ih _

theorem restore_ne_panic (r : Renderer) : r.restore ≠ .panic := by
  unfold Renderer.restore
  split <;> simp

theorem handleSimple_ne_panic (r : Renderer) (op : Op) : r.handleSimple op ≠ .panic := by
  cases op with
  | textDraw bytes => exact renderText_ne_panic _ _
  | textDrawAdjusted items => exact drawAdjusted_ne_panic _ _
  | textFont name size =>
    simp only [Renderer.handleSimple, Renderer.textFont]
    exact bind_no_panic (ofOption_ne_panic _) fun _ _ => bind_no_panic (ofOption_ne_panic _) fun _ _ =>
      setFont_ne_panic _ _ _
  | graphicsState name =>
    simp only [Renderer.handleSimple, Renderer.graphicsState]
    refine bind_no_panic (ofOption_ne_panic _) fun _ _ => bind_no_panic (ofOption_ne_panic _) fun g _ => ?_
    cases g with
    | none => simp
    | some p => exact setFont_ne_panic _ _ _
  | restore => exact restore_ne_panic r
  | endMarkedContent =>
    simp only [Renderer.handleSimple, Renderer.endMarked]
    split <;> simp
  | _ => simp [Renderer.handleSimple]

theorem runWith_ne_panic {x : Renderer → Str → Res Renderer} {res : Option Resources}
    (hres : ∀ r name r', x r name = .ok r' → r'.resources = r.resources) {ops : List Op}
    (hx : ∀ r name, r.resources = res → Op.xObject name ∈ ops → x r name ≠ .panic) {r : Renderer}
    (hr : r.resources = res) : r.runWith x ops ≠ .panic := by
  induction ops generalizing r with
  | nil => simp [Renderer.runWith]
  | cons op ops ih =>
    unfold Renderer.runWith
    refine bind_no_panic ?_ fun r1 h1 => ih (fun r name h hm => hx r name h (List.mem_cons_of_mem _ hm)) ?_
    · by_cases ho : ∃ name, op = .xObject name
      · obtain ⟨name, rfl⟩ := ho
        exact hx r name hr List.mem_cons_self
      · rw [handleOp_simple fun name e => ho ⟨name, e⟩]
        exact handleSimple_ne_panic _ _
    · by_cases ho : ∃ name, op = .xObject name
      · obtain ⟨name, rfl⟩ := ho
        exact (hres _ _ _ h1).trans hr
      · rw [handleOp_simple fun name e => ho ⟨name, e⟩] at h1
        exact (handleSimple_resources h1).trans hr

theorem handleXObject_ne_panic {objects : Objects} {rank : Nat → Nat} (hrank : Ranked objects rank) (depth : Nat)
    (r : Renderer) (name : Str)
    (hd : ∀ res m, r.resources = some res → res.xobjects name = some m → rank m < depth) :
    r.handleXObject objects depth name ≠ .panic := by
  have hfind : ∀ r : Renderer, ∀ name, r.findObject objects name ≠ .panic := by
    intro r name
    unfold Renderer.findObject
    exact bind_no_panic (ofOption_ne_panic _) fun _ _ => bind_no_panic (ofOption_ne_panic _) fun _ _ =>
      ofOption_ne_panic _
  induction depth generalizing r name with
  | zero =>
    unfold Renderer.handleXObject
    refine bind_no_panic (hfind _ _) fun x hx => ?_
    obtain ⟨res, n, h1, h2, -⟩ := findObject_found hx
    exact absurd (hd _ _ h1 h2) (Nat.not_lt_zero _)
  | succ depth ih =>
    unfold Renderer.handleXObject
    refine bind_no_panic (hfind _ _) fun x hx => ?_
    obtain ⟨res, n, h1, h2, hn⟩ := findObject_found hx
    have hlt := hd _ _ h1 h2
    cases x with
    | other => simp
    | form own ops =>
      simp only [Renderer.drawForm]
      refine bind_no_panic (ofOption_ne_panic _) fun inner hi => ?_
      cases ops with
      | none => cases hi
      | some ops =>
        cases hi
        refine bind_no_panic ?_ fun drawn _ => ?_
        · refine runWith_ne_panic (fun _ _ _ h => handleXObject_resources h) ?_ rfl
          intro r' name' hr' hm
          obtain ⟨y, hy, hlow⟩ := hrank n _ _ hn name' hm
          subst hy
          refine ih r' name' ?_
          intro res' m e hm'
          rw [hr'] at e
          simp only [Renderer.enterForm, Option.some.injEq] at e
          subst e
          have := hlow m hm'
          omega
        · unfold Renderer.leaveForm
          exact bind_no_panic (restore_ne_panic _) fun _ _ => by simp

/-! ### Replaced text -/

/-- The operation neither begins nor ends marked content and draws no object. -/
def isPlain : Op → Bool
  | .beginMarkedContent _ _ => false
  | .endMarkedContent => false
  | .xObject _ => false
  | _ => true

/-- The operation draws text. -/
def isDrawing : Op → Bool
  | .textDraw _ => true
  | .textDrawAdjusted _ => true
  | _ => false

/-- What does not change while text is replaced. -/
structure Quiet (r r' : Renderer) : Prop where
  chars : r'.collector.chars = r.collector.chars
  crop : r'.collector.crop = r.collector.crop
  marked : r'.marked = r.marked

theorem Quiet.refl (r : Renderer) : Quiet r r := ⟨rfl, rfl, rfl⟩

theorem Quiet.trans {a b c : Renderer} (h1 : Quiet a b) (h2 : Quiet b c) : Quiet a c :=
  ⟨h2.chars.trans h1.chars, h2.crop.trans h1.crop, h2.marked.trans h1.marked⟩

/-- The replaced text goes on: the text and where it began stay. -/
def Onward (a a' : ActualText) : Prop :=
  a'.text = a.text ∧ ∀ p, a.params = some p →
    ∃ w, a'.params = some { p with width := w }

theorem Onward.refl (a : ActualText) : Onward a a := ⟨rfl, fun p h => ⟨p.width, by rw [h]⟩⟩

theorem Onward.trans {a b c : ActualText} (h1 : Onward a b) (h2 : Onward b c) : Onward a c := by
  refine ⟨h2.1.trans h1.1, fun p hp => ?_⟩
  obtain ⟨w, hw⟩ := h1.2 p hp
  obtain ⟨w', hw'⟩ := h2.2 _ hw
  exact ⟨w', hw'⟩

theorem renderCid_actual {r r' : Renderer} {a : ActualText} (ha : r.actual = some a) {cid : Nat}
    (h : r.renderCid cid = .ok r') :
    ∃ f, r.state.font = some f ∧ r' = { r with actual := some (a.renderCid r.state f cid).1,
                                               state := r.state.advanceByChar cid } := by
  simp only [Renderer.renderCid, Res.bind_eq_ok, ha] at h
  obtain ⟨f, hf, h⟩ := h
  refine ⟨f, ?_, ?_⟩
  · cases hs : r.state.font with
    | none => rw [hs] at hf; cases hf
    | some g => rw [hs] at hf; cases hf; rfl
  · cases h; rfl

theorem actual_onward (a : ActualText) (s : TextState) (f : FastFont) (cid : Nat) : Onward a (a.renderCid s f cid).1 := by
  refine ⟨rfl, fun p hp => ?_⟩
  unfold ActualText.renderCid
  rw [hp]
  exact ⟨_, rfl⟩

theorem renderCids_actual {cids : List Nat} {r r' : Renderer} {a : ActualText} (ha : r.actual = some a)
    (h : r.renderCids cids = .ok r') : Quiet r r' ∧ ∃ a', r'.actual = some a' ∧ Onward a a' := by
  induction cids generalizing r a with
  | nil => cases h; exact ⟨Quiet.refl _, a, ha, Onward.refl a⟩
  | cons cid cids ih =>
    simp only [Renderer.renderCids, Res.bind_eq_ok] at h
    obtain ⟨r1, h1, h2⟩ := h
    obtain ⟨f, -, rfl⟩ := renderCid_actual ha h1
    obtain ⟨q, a', e, o⟩ := ih rfl h2
    exact ⟨⟨q.chars, q.crop, q.marked⟩, a', e, (actual_onward ..).trans o⟩

theorem renderCids_collector {cids : List Nat} {r r' : Renderer} {a : ActualText} (ha : r.actual = some a)
    (h : r.renderCids cids = .ok r') : r'.collector = r.collector := by
  induction cids generalizing r a with
  | nil => cases h; rfl
  | cons cid cids ih =>
    simp only [Renderer.renderCids, Res.bind_eq_ok] at h
    obtain ⟨r1, h1, h2⟩ := h
    obtain ⟨f, -, rfl⟩ := renderCid_actual ha h1
    have := ih rfl h2
    exact this

theorem renderText_actual {bytes : List UInt8} {r r' : Renderer} {a : ActualText} (ha : r.actual = some a)
    (h : r.renderText bytes = .ok r') : Quiet r r' ∧ ∃ a', r'.actual = some a' ∧ Onward a a' := by
  simp only [Renderer.renderText, Res.bind_eq_ok] at h
  obtain ⟨f, -, h⟩ := h
  exact renderCids_actual ha h

theorem drawAdjusted_actual {items : List Adjusted} {r r' : Renderer} {a : ActualText} (ha : r.actual = some a)
    (h : r.drawAdjusted items = .ok r') : Quiet r r' ∧ ∃ a', r'.actual = some a' ∧ Onward a a' := by
  induction items generalizing r a with
  | nil => cases h; exact ⟨Quiet.refl _, a, ha, Onward.refl a⟩
  | cons i items ih =>
    cases i with
    | text bytes =>
      simp only [Renderer.drawAdjusted, Res.bind_eq_ok] at h
      obtain ⟨r1, h1, h2⟩ := h
      obtain ⟨q, a', e, o⟩ := renderText_actual ha h1
      obtain ⟨q', a'', e', o'⟩ := ih e h2
      exact ⟨q.trans q', a'', e', o.trans o'⟩
    | spacing delta =>
      simp only [Renderer.drawAdjusted] at h
      have := ih (r := r.withState (r.state.advance (-delta * r.state.horizontalScale * r.state.fontSize / 1000)))
        (a := a) ha h
      exact ⟨⟨this.1.chars, this.1.crop, this.1.marked⟩, this.2⟩

theorem setFont_quiet {f : FontRef} {size : Rat} {r r' : Renderer} (h : r.setFont f size = .ok r') :
    Quiet r r' := by
  simp only [Renderer.setFont, Res.bind_eq_ok] at h
  obtain ⟨p, -, h⟩ := h
  cases h
  exact ⟨rfl, rfl, rfl⟩

/-- Operations that draw nothing. -/
theorem handleSimple_quiet {op : Op} (hp : isPlain op = true) (hd : isDrawing op = false) {r r' : Renderer}
    (h : r.handleSimple op = .ok r') : Quiet r r' ∧ r'.actual = r.actual := by
  cases op with
  | beginMarkedContent => cases hp
  | endMarkedContent => cases hp
  | xObject => cases hp
  | textDraw => cases hd
  | textDrawAdjusted => cases hd
  | textFont name size =>
    refine ⟨?_, (textFont_leaves h).2.2.2⟩
    simp only [Renderer.handleSimple, Renderer.textFont, Res.bind_eq_ok] at h
    obtain ⟨res, -, font, -, h⟩ := h
    exact setFont_quiet h
  | graphicsState name =>
    refine ⟨?_, (graphicsState_leaves h).2.2.2⟩
    simp only [Renderer.handleSimple, Renderer.graphicsState, Res.bind_eq_ok] at h
    obtain ⟨res, -, font, -, h⟩ := h
    cases font with
    | none => cases h; exact Quiet.refl _
    | some p => exact setFont_quiet h
  | restore =>
    simp only [Renderer.handleSimple, Renderer.restore] at h
    split at h
    · cases h
    · cases h; exact ⟨⟨rfl, rfl, rfl⟩, rfl⟩
  | _ => cases h; exact ⟨⟨rfl, rfl, rfl⟩, rfl⟩

theorem isPlain_not_object {op : Op} (hp : isPlain op = true) : ∀ name, op ≠ .xObject name := by
  rintro name rfl
  cases hp

theorem runWith_quiet {x : Renderer → Str → Res Renderer} {ops : List Op}
    (hp : ∀ op ∈ ops, isPlain op = true) (hd : ∀ op ∈ ops, isDrawing op = false) {r r' : Renderer}
    (h : r.runWith x ops = .ok r') : Quiet r r' ∧ r'.actual = r.actual := by
  induction ops generalizing r with
  | nil => cases h; exact ⟨Quiet.refl _, rfl⟩
  | cons op ops ih =>
    simp only [Renderer.runWith, Res.bind_eq_ok] at h
    obtain ⟨r1, h1, h2⟩ := h
    have hop := hp op List.mem_cons_self
    rw [handleOp_simple (isPlain_not_object hop)] at h1
    obtain ⟨q, e⟩ := handleSimple_quiet hop (hd op List.mem_cons_self) h1
    obtain ⟨q', e'⟩ := ih (fun o ho => hp o (List.mem_cons_of_mem _ ho))
      (fun o ho => hd o (List.mem_cons_of_mem _ ho)) h2
    exact ⟨q.trans q', e'.trans e⟩

theorem handleSimple_actual {op : Op} (hp : isPlain op = true) {r r' : Renderer} {a : ActualText}
    (ha : r.actual = some a) (h : r.handleSimple op = .ok r') :
    Quiet r r' ∧ ∃ a', r'.actual = some a' ∧ Onward a a' := by
  by_cases hd : isDrawing op = true
  · cases op with
    | textDraw bytes => exact renderText_actual ha h
    | textDrawAdjusted items => exact drawAdjusted_actual ha h
    | _ => cases hd
  · obtain ⟨q, e⟩ := handleSimple_quiet hp (by simpa using hd) h
    exact ⟨q, a, e.trans ha, Onward.refl a⟩

theorem runWith_actual {x : Renderer → Str → Res Renderer} {ops : List Op}
    (hp : ∀ op ∈ ops, isPlain op = true) {r r' : Renderer} {a : ActualText} (ha : r.actual = some a)
    (h : r.runWith x ops = .ok r') : Quiet r r' ∧ ∃ a', r'.actual = some a' ∧ Onward a a' := by
  induction ops generalizing r a with
  | nil => cases h; exact ⟨Quiet.refl _, a, ha, Onward.refl a⟩
  | cons op ops ih =>
    simp only [Renderer.runWith, Res.bind_eq_ok] at h
    obtain ⟨r1, h1, h2⟩ := h
    have hop := hp op List.mem_cons_self
    rw [handleOp_simple (isPlain_not_object hop)] at h1
    obtain ⟨q, a', e, o⟩ := handleSimple_actual hop ha h1
    obtain ⟨q', a'', e', o'⟩ := ih (fun o ho => hp o (List.mem_cons_of_mem _ ho)) e h2
    exact ⟨q.trans q', a'', e', o.trans o'⟩

theorem runWith_append {x : Renderer → Str → Res Renderer} (a b : List Op) (r : Renderer) :
    r.runWith x (a ++ b) = (r.runWith x a >>= fun r => r.runWith x b) := by
  induction a generalizing r with
  | nil => rfl
  | cons op a ih =>
    simp only [List.cons_append, Renderer.runWith]
    cases r.handleOp x op with
    | ok r1 => exact ih r1
    | err => rfl
    | panic => rfl

theorem place_start (s : TextState) :
    (s.renderingMatrix.m31, s.renderingMatrix.m32) = place s.textMatrix 0 s.rise := by
  have := (renderingMatrix_moved s 0).2
  rwa [movedBy_zero] at this

/-- The replaced text after drawing codes. -/
theorem renderCids_replaced {cids : List Nat} {r r' : Renderer} {a : ActualText} {f : FastFont} {s : TextState}
    {d : Rat} {p : RenderParams} (hf : s.font = some f) (hs : r.state = movedBy s d) (ha : r.actual = some a)
    (hp : a.params = some p) (cid : Nat)
    (hw : p.width = (place s.textMatrix (d - advanceOf f s cid) s.rise).1 - p.x +
      f.widths cid / 1000 * (s.horizontalScale * s.fontSize * s.textMatrix.m11))
    (h : r.renderCids cids = .ok r') :
    r'.actual = some ⟨a.text, some { p with
      width := (place s.textMatrix (d - advanceOf f s cid + ((cid :: cids).dropLast.map (advanceOf f s)).sum) s.rise).1
        - p.x + f.widths ((cid :: cids).getLast (by simp)) / 1000 *
          (s.horizontalScale * s.fontSize * s.textMatrix.m11) }⟩ := by
  induction cids generalizing r a d p cid with
  | nil =>
    cases h
    rw [ha]
    obtain ⟨t, q⟩ := a
    simp only at hp
    subst hp
    simp only [List.dropLast_singleton, List.map_nil, List.sum_nil, add_zero, List.getLast_singleton]
    rw [← hw]
  | cons c cids ih =>
    simp only [Renderer.renderCids, Res.bind_eq_ok] at h
    obtain ⟨r1, h1, h2⟩ := h
    obtain ⟨g, hg, rfl⟩ := renderCid_actual ha h1
    have : g = f := by
      rw [hs] at hg
      have : some f = some g := hf.symm.trans hg
      exact (Option.some.inj this).symm
    subst this
    have hm := renderingMatrix_moved s d
    have hm31 : r.state.renderingMatrix.m31 = (place s.textMatrix d s.rise).1 := by rw [hs, ← hm.2]
    have hm11 : r.state.renderingMatrix.m11 = s.horizontalScale * s.fontSize * s.textMatrix.m11 := by
      rw [hs]; exact hm.1
    have hadv : r.state.advanceByChar c = movedBy s (d + advanceOf g s c) := by
      rw [hs, advanceByChar_moved hf]
    have := ih (d := d + advanceOf g s c) (cid := c)
      (p := { p with width := r.state.renderingMatrix.m31 - p.x + g.widths c / 1000 * r.state.renderingMatrix.m11 })
      hadv rfl (by unfold ActualText.renderCid; rw [hp]) (by
        simp only [hm31, hm11, add_sub_cancel_right]) h2
    rw [this]
    have hlast : (cid :: c :: cids).getLast (by simp) = (c :: cids).getLast (by simp) := by simp
    have hdrop : (cid :: c :: cids).dropLast = cid :: (c :: cids).dropLast := by simp
    rw [hlast, hdrop]
    simp only [List.map_cons, List.sum_cons, add_sub_cancel_right]
    have e : d - advanceOf g s cid + (advanceOf g s cid + ((c :: cids).dropLast.map (advanceOf g s)).sum) =
        d + ((c :: cids).dropLast.map (advanceOf g s)).sum := by ring
    rw [e]
    rfl

end HunLaw.Pdf
