import Verif.Props.Spaces
import Verif.Spec.Inline

/-! Property C124: forms are drawn as if they were written in place; with it C74 and C113 for pages with forms. -/

set_option autoImplicit false

namespace HunLaw.Props

open HunLaw HunLaw.Pdf Spec

/-- The renderer with other resources. -/
def withRes (x : Option Resources) (r : Renderer) : Renderer := { r with resources := x }

theorem renderCid_withRes (r : Renderer) (x : Option Resources) (cid : Nat) :
    (withRes x r).renderCid cid = (r.renderCid cid).map (withRes x) := by
  unfold Renderer.renderCid withRes
  simp only
  cases r.state.font with
  | none => rfl
  | some f =>
    simp only [Res.ofOption, Res.bind_ok]
    cases r.actual with
    | some a => rfl
    | none =>
      simp only
      cases r.collector.renderCid r.state f cid <;> rfl

theorem renderCids_withRes (cids : List Nat) (r : Renderer) (x : Option Resources) :
    (withRes x r).renderCids cids = (r.renderCids cids).map (withRes x) := by
  induction cids generalizing r with
  | nil => rfl
  | cons cid cids ih =>
    simp only [Renderer.renderCids, renderCid_withRes]
    cases r.renderCid cid with
    | ok r1 => exact ih r1
    | err => rfl
    | panic => rfl

theorem renderText_withRes (bytes : List UInt8) (r : Renderer) (x : Option Resources) :
    (withRes x r).renderText bytes = (r.renderText bytes).map (withRes x) := by
  unfold Renderer.renderText
  have : (withRes x r).state = r.state := rfl
  rw [this]
  cases r.state.font with
  | none => rfl
  | some f => exact renderCids_withRes ..

theorem drawAdjusted_withRes (items : List Adjusted) (r : Renderer) (x : Option Resources) :
    (withRes x r).drawAdjusted items = (r.drawAdjusted items).map (withRes x) := by
  induction items generalizing r with
  | nil => rfl
  | cons i items ih =>
    cases i with
    | text bytes =>
      simp only [Renderer.drawAdjusted, renderText_withRes]
      cases r.renderText bytes with
      | ok r1 => exact ih r1
      | err => rfl
      | panic => rfl
    | spacing delta =>
      simp only [Renderer.drawAdjusted]
      exact ih (r.withState (r.state.advance (-delta * r.state.horizontalScale * r.state.fontSize / 1000)))

theorem restore_withRes (r : Renderer) (x : Option Resources) : (withRes x r).restore = r.restore.map (withRes x) := by
  simp only [Renderer.restore]
  have : (withRes x r).stack = r.stack := rfl
  rw [this]
  cases r.stack <;> rfl

theorem setFont_withRes (r : Renderer) (x : Option Resources) (f : FontRef) (size : Rat) :
    (withRes x r).setFont f size = (r.setFont f size).map (withRes x) := by
  simp only [Renderer.setFont]
  have : (withRes x r).cache = r.cache := rfl
  rw [this]
  cases r.cache.get f.address f.font <;> rfl

theorem handleSimple_withRes {op : Op} (ho : ¬ NamesResource op) (r : Renderer) (x : Option Resources) :
    (withRes x r).handleSimple op = (r.handleSimple op).map (withRes x) := by
  cases op with
  | textFont => exact absurd trivial ho
  | graphicsState => exact absurd trivial ho
  | xObject => exact absurd trivial ho
  | textDraw bytes => exact renderText_withRes ..
  | textDrawAdjusted items => exact drawAdjusted_withRes ..
  | beginMarkedContent tag property =>
    simp only [Renderer.handleSimple, Renderer.beginMarked]
    cases ActualText.fromBmcParams tag property <;> rfl
  | endMarkedContent =>
    simp only [Renderer.handleSimple, Renderer.endMarked]
    have : (withRes x r).marked = r.marked := rfl
    rw [this]
    cases r.marked with
    | nil => rfl
    | cons b m => cases b <;> rfl
  | restore => exact restore_withRes ..
  | _ => rfl

theorem textFont_withRes {r : Renderer} {res : Option Resources} {flat : Resources} {name name' : Str} {size : Rat}
    (hr : r.resources = res) (h : res.bind (·.fonts name) = flat.fonts name') :
    (withRes (some flat) r).textFont name' size = (r.textFont name size).map (withRes (some flat)) := by
  simp only [Renderer.textFont]
  have e : (withRes (some flat) r).resources = some flat := rfl
  rw [e, hr]
  simp only [Res.ofOption, Res.bind_ok, ← h]
  cases res with
  | none => rfl
  | some res =>
    simp only [Option.bind_some, Res.bind_ok]
    cases res.fonts name with
    | none => rfl
    | some f => exact setFont_withRes ..

theorem graphicsState_withRes {r : Renderer} {res : Option Resources} {flat : Resources} {name name' : Str}
    (hr : r.resources = res) (h : res.bind (·.graphicsStates name) = flat.graphicsStates name') :
    (withRes (some flat) r).graphicsState name' = (r.graphicsState name).map (withRes (some flat)) := by
  simp only [Renderer.graphicsState]
  have e : (withRes (some flat) r).resources = some flat := rfl
  rw [e, hr]
  simp only [Res.ofOption, Res.bind_ok, ← h]
  cases res with
  | none => rfl
  | some res =>
    simp only [Option.bind_some, Res.bind_ok]
    cases res.graphicsStates name with
    | none => rfl
    | some f =>
      simp only [Res.bind_ok]
      cases f with
      | none => rfl
      | some p => exact setFont_withRes ..

theorem findObject_named {r : Renderer} {objects : Objects} {name : Str} {x : XObject}
    (h : objectNamed objects r.resources name = some x) : r.findObject objects name = .ok x := by
  simp only [objectNamed, Option.bind_eq_some_iff] at h
  obtain ⟨res, h1, n, h2, h3⟩ := h
  simp only [Renderer.findObject, h1, Res.ofOption, Res.bind_ok, h2, h3]

theorem named_findObject {r : Renderer} {objects : Objects} {name : Str} {x : XObject}
    (h : r.findObject objects name = .ok x) : objectNamed objects r.resources name = some x := by
  obtain ⟨res, n, h1, h2, h3⟩ := findObject_found h
  simp only [objectNamed, h1, Option.bind_some, h2, h3]

theorem enterForm_withRes (r : Renderer) (own : Option Resources) (x : Option Resources) :
    withRes x (r.enterForm own) = { withRes x r with stack := r.state :: r.stack } := rfl

theorem enterForm_resources (r : Renderer) (own : Option Resources) : (r.enterForm own).resources = own.or r.resources := by
  cases own <;> rfl

theorem map_bind' {α β γ : Type} (x : Res α) (f : α → β) (g : β → Res γ) : (x.map f >>= g) = (x >>= fun a => g (f a)) := by
  cases x <;> rfl

theorem bind_map' {α β γ : Type} (x : Res α) (f : α → Res β) (g : β → γ) : (x >>= f).map g = (x >>= fun a => (f a).map g) := by
  cases x <;> rfl

theorem run_inPlace {objects : Objects} {flat : Resources} {d : Nat} {res : Option Resources} {ops ops' : List Op}
    (h : WrittenInPlace objects flat d res ops ops') : ∀ {depth : Nat} {r : Renderer} (x : Renderer → Str → Res Renderer),
    d ≤ depth → r.resources = res →
    (withRes (some flat) r).runWith x ops' =
      (r.runWith (Renderer.handleXObject objects depth) ops).map (withRes (some flat)) := by
  induction h with
  | nil => intros; rfl
  | @same d res op ops ops' ho _ ih =>
    intro depth r x hd hr
    have hx : ∀ name, op ≠ .xObject name := by rintro name rfl; exact ho trivial
    simp only [Renderer.runWith, handleOp_simple hx, handleSimple_withRes ho]
    cases h1 : r.handleSimple op with
    | ok r1 => exact ih x hd ((handleSimple_resources h1).trans hr)
    | err => rfl
    | panic => rfl
  | @font d res name name' size ops ops' hf _ ih =>
    intro depth r x hd hr
    simp only [Renderer.runWith, Renderer.handleOp, Renderer.handleSimple, textFont_withRes hr hf]
    cases h1 : r.textFont name size with
    | ok r1 => exact ih x hd ((textFont_leaves h1).1.trans hr)
    | err => rfl
    | panic => rfl
  | @graphics d res name name' ops ops' hf _ ih =>
    intro depth r x hd hr
    simp only [Renderer.runWith, Renderer.handleOp, Renderer.handleSimple, graphicsState_withRes hr hf]
    cases h1 : r.graphicsState name with
    | ok r1 => exact ih x hd ((graphicsState_leaves h1).1.trans hr)
    | err => rfl
    | panic => rfl
  | @picture d res name ops ops' ho _ ih =>
    intro depth r x hd hr
    subst hr
    have : Renderer.handleXObject objects depth r name = .ok r := by
      cases depth <;> simp only [Renderer.handleXObject, findObject_named ho, Res.bind_ok]
    simp only [Renderer.runWith, Renderer.handleOp, this, Res.bind_ok]
    exact ih x hd rfl
  | @form d res own name inner inner' ops ops' ho _ _ ihi ih =>
    intro depth r x hd hr
    subst hr
    obtain ⟨depth, rfl⟩ : ∃ k, depth = k + 1 := ⟨depth - 1, by omega⟩
    have hin := ihi (r := r.enterForm own) x (Nat.le_of_succ_le_succ hd) (enterForm_resources r own)
    simp only [List.cons_append, Renderer.runWith, Renderer.handleOp, Renderer.handleSimple, Res.bind_ok, runWith_append,
      Renderer.handleXObject, findObject_named ho, Renderer.drawForm, Res.ofOption]
    rw [show ({ withRes (some flat) r with stack := (withRes (some flat) r).state :: (withRes (some flat) r).stack } : Renderer) =
      withRes (some flat) (r.enterForm own) from rfl, hin, map_bind']
    cases (r.enterForm own).runWith (Renderer.handleXObject objects depth) inner with
    | err => rfl
    | panic => rfl
    | ok drawn =>
      simp only [Res.bind_ok, restore_withRes, Renderer.leaveForm]
      cases drawn.restore with
      | err => rfl
      | panic => rfl
      | ok back => exact ih (r := withRes r.resources back) x hd rfl

/-- C124: a page gives the same characters, the same fonts to keep, and the same errors as the page where the forms are
written in place. -/
theorem C124_in_place (objects objects' : Objects) (depth depth' d : Nat) (crop : CropBox) (cache : FontCache)
    (res : Option Resources) (flat : Resources) (ops ops' : List Op)
    (h : WrittenInPlace objects flat d res ops ops') (hd : d ≤ depth) :
    renderPage objects depth crop cache ⟨res, some ops⟩ = renderPage objects' depth' crop cache ⟨some flat, some ops'⟩ := by
  have := run_inPlace h (r := .new cache (.new crop) res) (Renderer.handleXObject objects' depth') hd rfl
  simp only [renderPage, Res.ofOption, Res.bind_ok, Renderer.run]
  rw [show Renderer.new cache (.new crop) (some flat) = withRes (some flat) (.new cache (.new crop) res) from rfl, this, map_bind']
  rfl

/-! ### every page that can be drawn can be written in place -/

/-- A name in the resources where those of the page and of all forms are together. -/
def placedName (k : Nat) (name : Str) : Str := List.replicate k 'x' ++ 'p' :: name

/-- The resources of the page (0) or of a form. -/
def resourcesAt (objects : Objects) (page : Option Resources) : Nat → Option Resources
  | 0 => page
  | n + 1 => match objects n with
    | some (.form own _) => own
    | _ => none

def placeOf (s : Str) : Nat := (s.takeWhile (· == 'x')).length

/-- The resources of the page and of all forms together. -/
def together (objects : Objects) (page : Option Resources) : Resources where
  fonts s := (resourcesAt objects page (placeOf s)).bind (·.fonts (s.drop (placeOf s + 1)))
  graphicsStates s := (resourcesAt objects page (placeOf s)).bind (·.graphicsStates (s.drop (placeOf s + 1)))
  xobjects _ := none

theorem placeOf_placedName (k : Nat) (name : Str) : placeOf (placedName k name) = k := by
  unfold placeOf placedName
  rw [List.takeWhile_append_of_pos (by intro a ha; simp [List.eq_of_mem_replicate ha])]
  simp

theorem drop_placedName (k : Nat) (name : Str) : (placedName k name).drop (k + 1) = name := by
  unfold placedName
  rw [← List.drop_drop, List.drop_left' (by simp)]
  rfl

theorem exists_inPlace {objects : Objects} {page : Option Resources} (depth : Nat) :
    ∀ (ops : List Op) (r r' : Renderer) (k : Nat), r.resources = resourcesAt objects page k →
      r.runWith (Renderer.handleXObject objects depth) ops = .ok r' →
      ∃ ops', WrittenInPlace objects (together objects page) depth r.resources ops ops' ∧ ∀ name, Op.xObject name ∉ ops' := by
  induction depth with
  | zero =>
    intro ops
    induction ops with
    | nil => intro r r' k _ _; exact ⟨[], .nil, by simp⟩
    | cons op ops ih =>
      intro r r' k hk h
      simp only [Renderer.runWith, Res.bind_eq_ok] at h
      obtain ⟨r1, h1, h2⟩ := h
      by_cases hx : ∃ name, op = .xObject name
      · obtain ⟨name, rfl⟩ := hx
        simp only [Renderer.handleOp, Renderer.handleXObject, Res.bind_eq_ok] at h1
        obtain ⟨x, h3, h4⟩ := h1
        cases x with
        | form => cases h4
        | other =>
          cases h4
          obtain ⟨ops', h5, h6⟩ := ih r r' k hk h2
          exact ⟨ops', .picture (named_findObject h3) h5, h6⟩
      · push Not at hx
        rw [handleOp_simple hx] at h1
        obtain ⟨ops', h5, h6⟩ := ih r1 r' k ((handleSimple_resources h1).trans hk) h2
        rw [handleSimple_resources h1] at h5
        exact simple_inPlace hx hk h5 h6
  | succ depth ihd =>
    intro ops
    induction ops with
    | nil => intro r r' k _ _; exact ⟨[], .nil, by simp⟩
    | cons op ops ih =>
      intro r r' k hk h
      simp only [Renderer.runWith, Res.bind_eq_ok] at h
      obtain ⟨r1, h1, h2⟩ := h
      by_cases hx : ∃ name, op = .xObject name
      · obtain ⟨name, rfl⟩ := hx
        simp only [Renderer.handleOp, Renderer.handleXObject, Res.bind_eq_ok] at h1
        obtain ⟨x, h3, h4⟩ := h1
        cases x with
        | form own contents =>
          simp only [Renderer.drawForm, Res.bind_eq_ok] at h4
          obtain ⟨inner, h5, drawn, h7, h8⟩ := h4
          have h5 : contents = some inner := by
            cases contents with
            | none => cases h5
            | some c => cases h5; rfl
          subst h5
          obtain ⟨k', hk'⟩ : ∃ k', (r.enterForm own).resources = resourcesAt objects page k' := by
            cases own with
            | none => exact ⟨k, hk⟩
            | some own =>
              obtain ⟨_, n, -, -, hn⟩ := findObject_found h3
              exact ⟨n + 1, by simp [resourcesAt, hn, Renderer.enterForm]⟩
          obtain ⟨inner', h9, h10⟩ := ihd inner _ _ k' hk' h7
          have hr1 := (leaveForm_eq h8).1
          obtain ⟨ops', h11, h12⟩ := ih r1 r' k (hr1.trans hk) h2
          rw [hr1] at h11
          rw [enterForm_resources] at h9
          refine ⟨_, .form (named_findObject h3) h9 h11, ?_⟩
          intro name hm
          simp only [List.cons_append, List.mem_cons, List.mem_append, reduceCtorEq, false_or] at hm
          exact hm.elim (h10 name) (h12 name)
        | other =>
          cases h4
          obtain ⟨ops', h5, h6⟩ := ih r r' k hk h2
          exact ⟨ops', .picture (named_findObject h3) h5, h6⟩
      · push Not at hx
        rw [handleOp_simple hx] at h1
        obtain ⟨ops', h5, h6⟩ := ih r1 r' k ((handleSimple_resources h1).trans hk) h2
        rw [handleSimple_resources h1] at h5
        exact simple_inPlace hx hk h5 h6
where
  simple_inPlace {objects : Objects} {page res : Option Resources} {d k : Nat} {op : Op} {ops ops' : List Op}
      (hx : ∀ name, op ≠ .xObject name) (hk : res = resourcesAt objects page k)
      (h : WrittenInPlace objects (together objects page) d res ops ops') (hn : ∀ name, Op.xObject name ∉ ops') :
      ∃ ops', WrittenInPlace objects (together objects page) d res (op :: ops) ops' ∧ ∀ name, Op.xObject name ∉ ops' := by
    have cons : ∀ o : Op, (∀ name, o ≠ .xObject name) → ∀ name, Op.xObject name ∉ o :: ops' := by
      intro o ho name hm
      rcases List.mem_cons.1 hm with e | hm
      · exact ho name e.symm
      · exact hn name hm
    by_cases hr : NamesResource op
    · cases op with
      | textFont name size =>
        refine ⟨.textFont (placedName k name) size :: ops', .font ?_ h, cons _ (by simp)⟩
        simp only [together, placeOf_placedName, drop_placedName, hk]
      | graphicsState name =>
        refine ⟨.graphicsState (placedName k name) :: ops', .graphics ?_ h, cons _ (by simp)⟩
        simp only [together, placeOf_placedName, drop_placedName, hk]
      | xObject name => exact absurd rfl (hx name)
      | _ => exact hr.elim
    · exact ⟨op :: ops', .same hr h, cons op hx⟩

/-- C124: every page which is rendered without an error can be written without drawing objects. -/
theorem C124_can_be_written (objects : Objects) (depth : Nat) (crop : CropBox) (cache : FontCache) (res : Option Resources)
    (ops : List Op) (result : FontCache × List PChar)
    (h : renderPage objects depth crop cache ⟨res, some ops⟩ = .ok result) :
    ∃ flat ops', WrittenInPlace objects flat depth res ops ops' ∧ (∀ name, Op.xObject name ∉ ops') ∧
      renderPage noObjects 0 crop cache ⟨some flat, some ops'⟩ = .ok result := by
  have h' := h
  simp only [renderPage, Res.ofOption, Res.bind_ok, Res.bind_eq_ok] at h
  obtain ⟨r, hr, -⟩ := h
  obtain ⟨ops', h1, h2⟩ := exists_inPlace (page := res) depth ops _ r 0 rfl hr
  exact ⟨_, ops', h1, h2, by rw [← h', C124_in_place objects noObjects depth 0 depth crop cache res _ ops ops' h1 le_rfl]⟩

/-! ### C74 and C113 with forms -/

theorem inPlace_noObject {objects : Objects} {flat : Resources} {d : Nat} {res : Option Resources} {ops ops' : List Op}
    (h : WrittenInPlace objects flat d res ops ops') : ∀ name, Op.xObject name ∉ ops' := by
  induction h with
  | nil => simp
  | @same d res op ops ops' ho _ ih =>
    intro name hm
    rcases List.mem_cons.1 hm with e | hm
    · exact ho (e ▸ trivial)
    · exact ih name hm
  | font _ _ ih => intro name hm; exact ih name (by simpa using hm)
  | graphics _ _ ih => intro name hm; exact ih name (by simpa using hm)
  | picture _ _ ih => exact ih
  | form _ _ _ ihi ih =>
    intro name hm
    simp only [List.cons_append, List.mem_cons, List.mem_append, reduceCtorEq, false_or] at hm
    exact hm.elim (ihi name) (ih name)

theorem run_grows {U : FontRef → Prop} (hU : ∀ f g, U f → U g → f.address = g.address → f.font = g.font) {res : Resources}
    (hres : ∀ f, Uses res f → U f) {x : Renderer → Str → Res Renderer} (ops : List Op) :
    ∀ {r r' : Renderer} {p : Option FontObj × List (Option FontObj)}, Tracks (fun _ _ _ => True) U res r p →
      (∀ name, Op.xObject name ∉ ops) → r.runWith x ops = .ok r' → ∃ new, r'.collector.chars = r.collector.chars ++ new := by
  induction ops with
  | nil => intro r r' p _ _ h; cases h; exact ⟨[], by simp⟩
  | cons op ops ih =>
    intro r r' p ht hx h
    simp only [Renderer.runWith, Res.bind_eq_ok] at h
    obtain ⟨r1, h1, h2⟩ := h
    have hop : ∀ name, op ≠ .xObject name := fun name e => hx name (by simp [e])
    rw [handleOp_simple hop] at h1
    obtain ⟨ht1, new, e, -⟩ := handleSimple_tracks (fun _ _ _ _ => trivial) hU hres ht hop (fun _ _ _ _ => trivial) h1
    obtain ⟨new', e'⟩ := ih ht1 (fun name hm => hx name (List.mem_cons_of_mem _ hm)) h2
    exact ⟨new ++ new', by rw [e', e, List.append_assoc]⟩

/-- What a page has drawn, up to an operation of it written in place and with it. -/
theorem inPlace_split {objects : Objects} {depth d : Nat} {crop : CropBox} {res : Option Resources} {flat : Resources}
    {ops pre post : List Op} {op : Op} {cache : FontCache} {chars : List PChar}
    (hw : WrittenInPlace objects flat d res ops (pre ++ op :: post)) (hd : d ≤ depth)
    (hapart : ∀ f g, Uses flat f → Uses flat g → f.address = g.address → f.font = g.font)
    (h : renderPage objects depth crop (fun _ => none) ⟨res, some ops⟩ = .ok (cache, chars)) :
    ∃ r r', Renderer.run noObjects 0 (.new (fun _ => none) (.new crop) (some flat)) pre = .ok r ∧
      r.handleSimple op = .ok r' ∧ ∃ after, chars = r'.collector.chars ++ after := by
  have hx := inPlace_noObject hw
  rw [C124_in_place objects noObjects depth 0 d crop _ res flat ops _ hw hd] at h
  simp only [renderPage, Res.ofOption, Res.bind_ok, Res.bind_eq_ok, Renderer.run, runWith_append, Renderer.runWith] at h
  obtain ⟨r2, ⟨r, h1, r', h2, h3⟩, h4⟩ := h
  rw [handleOp_simple (fun name e => hx name (by simp [e]))] at h2
  have h0 : Tracks (fun _ _ _ => True) (Uses flat) flat
      (.new (fun _ => none) (.new crop) (some flat)) (none, []) :=
    ⟨rfl, (fun a ff h => nomatch h), trivial, List.Forall₂.nil, trivial⟩
  have ht := run_tracks (fun _ _ _ _ => trivial) hapart (fun f h => h) h0
    (fun name hm => hx name (List.mem_append_left _ hm)) (fun _ _ _ _ _ _ => trivial) h1
  have ht' := (handleSimple_tracks (fun _ _ _ _ => trivial) hapart (fun f h => h) ht
    (fun name e => hx name (by simp [e])) (fun _ _ _ _ => trivial) h2).1
  obtain ⟨after, ha⟩ := run_grows hapart (fun f h => h) post ht' (fun name hm => hx name (by simp [hm])) h3
  cases h4
  exact ⟨r, r', h1, h2, after, ha⟩

/-- C74 for pages with forms: with the forms written in place, the characters an operation draws are bold exactly if the font
in effect there is named bold, if restoring a saved state, and the end of a form, never change whether the font is bold.
Missing: where they do, see `C74_violated`. -/
theorem C74_forms_partial (objects : Objects) (depth d : Nat) (crop : CropBox) (res : Option Resources) (flat : Resources)
    (ops pre post : List Op) (op : Op) (cache : FontCache) (chars : List PChar)
    (hw : WrittenInPlace objects flat d res ops (pre ++ op :: post)) (hd : d ≤ depth)
    (hapart : ∀ f g, Uses flat f → Uses flat g → f.address = g.address → f.font = g.font)
    (hrestore : ∀ a b, pre ++ [op] = a ++ .restore :: b →
      (FontBold (fontAfter flat a) ↔ FontBold (fontAfter flat (a ++ [.restore]))))
    (h : renderPage objects depth crop (fun _ => none) ⟨res, some ops⟩ = .ok (cache, chars)) :
    ∃ before new after, chars = before ++ new ++ after ∧
      pageChars noObjects 0 crop ⟨some flat, some pre⟩ = .ok before ∧
      pageChars noObjects 0 crop ⟨some flat, some (pre ++ [op])⟩ = .ok (before ++ new) ∧
      ∀ c ∈ new, (c.bold = true ↔ FontBold (fontAfter flat pre)) := by
  have hx := inPlace_noObject hw
  obtain ⟨r, r', h1, h2, after, ha⟩ := inPlace_split hw hd hapart h
  have hx' : ∀ name, Op.xObject name ∉ op :: pre := by
    intro name hm
    apply hx name
    simp only [List.mem_cons, List.mem_append] at hm ⊢
    tauto
  obtain ⟨new, e, hb⟩ := C74_bold_partial flat noObjects crop 0 pre op r r' hapart hx' hrestore h1 h2
  refine ⟨r.collector.chars, new, after, by rw [ha, e], ?_, ?_, hb⟩
  · simp only [pageChars, renderPage, Res.ofOption, Res.bind_ok, h1]
  · have h1' : (Renderer.new (fun _ => none) (.new crop) (some flat)).runWith (Renderer.handleXObject noObjects 0) pre = .ok r := h1
    have h2' : r.handleOp (Renderer.handleXObject noObjects 0) op = .ok r' := by
      rw [handleOp_simple (fun name e => hx' name (by rw [e]; exact List.mem_cons_self)), h2]
    simp only [pageChars, renderPage, Res.ofOption, Res.bind_ok, Renderer.run, runWith_append, h1', Renderer.runWith, h2', e]

/-- C113 for pages with forms: with the forms written in place, the characters of a text have the width of the space of the
font in effect there, at the scale of the text, if restoring a saved state, and the end of a form, never change how wide the
space is.
Missing: where they do, see `C113_violated`; texts in marked content with a replacement text. -/
theorem C113_forms_partial (objects : Objects) (depth d : Nat) (crop : CropBox) (res : Option Resources) (flat : Resources)
    (ops pre post : List Op) (bytes : List UInt8) (cache : FontCache) (chars : List PChar)
    (hw : WrittenInPlace objects flat d res ops (pre ++ .textDraw bytes :: post)) (hd : d ≤ depth)
    (hapart : ∀ f g, Uses flat f → Uses flat g → f.address = g.address → f.font = g.font)
    (hrestore : ∀ a b, pre = a ++ .restore :: b → KeepsSpace flat a)
    (hactual : ∀ r, Renderer.run noObjects 0 (.new (fun _ => none) (.new crop) (some flat)) pre = .ok r → r.actual = none)
    (h : renderPage objects depth crop (fun _ => none) ⟨res, some ops⟩ = .ok (cache, chars)) :
    ∃ r o w new after, Renderer.run noObjects 0 (.new (fun _ => none) (.new crop) (some flat)) pre = .ok r ∧
      fontAfter flat pre = some o ∧ SpaceOf o w ∧ chars = r.collector.chars ++ new ++ after ∧
      pageChars noObjects 0 crop ⟨some flat, some (pre ++ [.textDraw bytes])⟩ = .ok (r.collector.chars ++ new) ∧
      ∀ c ∈ new, c.widthOfSpace = w * (r.state.horizontalScale * r.state.fontSize * r.state.textMatrix.m11) := by
  have hx := inPlace_noObject hw
  obtain ⟨r, r', h1, h2, after, ha⟩ := inPlace_split hw hd hapart h
  obtain ⟨o, w, new, ho, hw', e, hb⟩ := C113_gaps_partial flat noObjects crop 0 pre bytes r r' hapart
    (fun name hm => hx name (List.mem_append_left _ hm)) (hactual r h1) hrestore h1 h2
  refine ⟨r, o, w, new, after, h1, ho, hw', by rw [ha, e], ?_, hb⟩
  have h1' : (Renderer.new (fun _ => none) (.new crop) (some flat)).runWith (Renderer.handleXObject noObjects 0) pre = .ok r := h1
  have h2' : r.renderText bytes = .ok r' := h2
  simp only [pageChars, renderPage, Res.ofOption, Res.bind_ok, Renderer.run, runWith_append, h1', Renderer.runWith,
    Renderer.handleOp, Renderer.handleSimple, h2', e]

/-! ### an example -/

/-- A page draws `textForm`, then a text; in place, the text of the form is between a save and a restore. -/
theorem sample_inPlace : WrittenInPlace (formObjects textForm) sampleResources 1 (some sampleResources)
    [.textFont str!"F1" 10, .xObject str!"X1", .moveTextPosition 20 30, .textDraw [66]]
    [.textFont str!"F1" 10, .save, .save, .textFont str!"F1" 10, .moveTextPosition 20 50, .textDraw [65], .restore, .leading 7,
      .restore, .moveTextPosition 20 30, .textDraw [66]] :=
  .font rfl (.form (inner := textForm) (own := none) rfl
    (.same (fun h => h) (.font rfl (.same (fun h => h) (.same (fun h => h) (.same (fun h => h) (.same (fun h => h) .nil))))))
    (.same (fun h => h) (.same (fun h => h) .nil)))

example : pageChars (formObjects textForm) 1 sampleCrop ⟨some sampleResources,
    some [.textFont str!"F1" 10, .xObject str!"X1", .moveTextPosition 20 30, .textDraw [66]]⟩ =
    .ok [⟨20, 50, 5, 5, false, 'A'⟩, ⟨20, 30, 5, 5, false, 'B'⟩] := by decide +kernel

/-- The conditions of `C74_forms_partial` are met by this page for its last text. -/
example : ∀ a b, [Op.textFont str!"F1" 10, .save, .save, .textFont str!"F1" 10, .moveTextPosition 20 50, .textDraw [65], .restore,
    .leading 7, .restore, .moveTextPosition 20 30] ++ [.textDraw [66]] = a ++ .restore :: b →
    (FontBold (fontAfter sampleResources a) ↔ FontBold (fontAfter sampleResources (a ++ [.restore]))) := by
  intro a b e
  rcases a with _ | ⟨x1, _ | ⟨x2, _ | ⟨x3, _ | ⟨x4, _ | ⟨x5, _ | ⟨x6, _ | ⟨x7, _ | ⟨x8, _ | ⟨x9, _ | ⟨x10, _ | ⟨x11, a⟩⟩⟩⟩⟩⟩⟩⟩⟩⟩⟩ <;>
    simp at e
  · obtain ⟨rfl, rfl, rfl, rfl, rfl, rfl, -⟩ := e
    exact Iff.rfl
  · obtain ⟨rfl, rfl, rfl, rfl, rfl, rfl, rfl, rfl, -⟩ := e
    exact Iff.rfl

end HunLaw.Props
