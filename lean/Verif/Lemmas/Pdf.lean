import Verif.Spec.Pdf
import Verif.Lemmas.Line

/-! Lemmas on rendering PDF pages. -/

set_option autoImplicit false

namespace HunLaw.Pdf

open Spec

/-! ### Collecting -/

/-- The collector gets what is seen of the characters, and stays as it is otherwise. -/
structure Gains (k k' : Collector) (new : List PChar) : Prop where
  eq : k' = { k with chars := k.chars ++ seen k.crop new }

theorem seen_append (b : CropBox) (x y : List PChar) : seen b (x ++ y) = seen b x ++ seen b y := by
  simp [seen]

theorem Gains.trans {k k' k'' : Collector} {x y : List PChar} (h1 : Gains k k' x) (h2 : Gains k' k'' y) :
    Gains k k'' (x ++ y) := by
  obtain ⟨h1⟩ := h1
  obtain ⟨h2⟩ := h2
  subst h1; subst h2
  exact ⟨by simp [seen_append]⟩

theorem Gains.refl (k : Collector) : Gains k k [] := ⟨by simp [seen]⟩

theorem fixQuirks_eq (c : Char) : fixQuirks c = repaired c := by
  unfold fixQuirks repaired
  split
  · rename_i h; subst h; rfl
  · split
    · rename_i h; subst h; rfl
    · split
      · rename_i h; subst h; rfl
      · split
        · rename_i h; subst h; rfl
        · split <;> simp_all

theorem isInside_eq (b : CropBox) (x y : Rat) : b.isInside x y = decide (Within b x y) := by
  rw [Bool.eq_iff_iff, decide_eq_true_iff]
  simp [CropBox.isInside, Within, and_assoc]

theorem renderCharacter_gains (k : Collector) (x y w sc : Rat) (c : Char) :
    Gains k (k.renderCharacter x y w sc c) [⟨x, y, w, k.widthOfSpace * sc, k.fontIsBold, c⟩] := by
  refine ⟨?_⟩
  unfold Collector.renderCharacter seen
  simp only [fixQuirks_eq, isInside_eq, List.map_cons, List.map_nil, List.filter_cons, List.filter_nil]
  split <;> simp

theorem renderFrom_nil (k : Collector) (x y step sc : Rat) (i : Nat) : k.renderFrom x y step sc i [] = k := by
  unfold Collector.renderFrom
  rw [List.zipIdx_nil, List.foldl_nil]

theorem renderFrom_cons (k : Collector) (x y step sc : Rat) (i : Nat) (c : Char) (cs : Str) :
    k.renderFrom x y step sc i (c :: cs) =
      (k.renderCharacter (x + i * step) y step sc c).renderFrom x y step sc (i + 1) cs := by
  unfold Collector.renderFrom
  rw [List.zipIdx_cons, List.foldl_cons]

theorem renderFrom_gains (k : Collector) (x y step sc : Rat) (i : Nat) (s : Str) :
    Gains k (k.renderFrom x y step sc i s)
      ((s.zipIdx i).map fun p => ⟨x + p.2 * step, y, step, k.widthOfSpace * sc, k.fontIsBold, p.1⟩) := by
  induction s generalizing k i with
  | nil =>
    rw [renderFrom_nil, List.zipIdx_nil, List.map_nil]
    exact Gains.refl k
  | cons c cs ih =>
    rw [renderFrom_cons, List.zipIdx_cons, List.map_cons]
    have h1 := renderCharacter_gains k (x + i * step) y step sc c
    have h2 := ih (k.renderCharacter (x + i * step) y step sc c) (i + 1)
    have e1 : (k.renderCharacter (x + i * step) y step sc c).widthOfSpace = k.widthOfSpace := by
      rw [h1.eq]
    have e2 : (k.renderCharacter (x + i * step) y step sc c).fontIsBold = k.fontIsBold := by rw [h1.eq]
    rw [e1, e2] at h2
    have h3 := h1.trans h2
    rw [List.singleton_append] at h3
    exact h3

theorem renderMultiple_gains (k : Collector) (x y w sc : Rat) (s : Str) :
    Gains k (k.renderMultiple x y w sc s) (evenly x y w (k.widthOfSpace * sc) k.fontIsBold s) :=
  renderFrom_gains k x y (w / s.length) sc 0 s

theorem evenly_one (x y w sp : Rat) (b : Bool) (c : Char) : evenly x y w sp b [c] = [⟨x, y, w, sp, b, c⟩] := by
  simp [evenly]

theorem renderUnicode_gains {k k' : Collector} {m : Matrix} {w0 : Rat} {u : ToUnicode}
    (h : k.renderUnicode m w0 u = .ok k') :
    ∃ t, codeText u = some t ∧
      Gains k k' (evenly m.m31 m.m32 (w0 * m.m11) (k.widthOfSpace * m.m11) k.fontIsBold t) := by
  cases u with
  | unknown => cases h
  | char c =>
    cases h
    exact ⟨[c], rfl, by rw [evenly_one]; exact renderCharacter_gains ..⟩
  | string s =>
    cases h
    exact ⟨s, rfl, renderMultiple_gains ..⟩

/-! ### Positions -/

theorem translation_translation (a b : Rat) (m : Matrix) :
    (Matrix.translation a 0).andThen ((Matrix.translation b 0).andThen m) =
      (Matrix.translation (a + b) 0).andThen m := by
  simp only [Matrix.translation, Matrix.andThen, Matrix.mk.injEq]
  refine ⟨?_, ?_, ?_, ?_, ?_, ?_⟩ <;> ring

theorem translation_zero (m : Matrix) : (Matrix.translation 0 0).andThen m = m := by
  simp [Matrix.translation, Matrix.andThen]

/-- The state after the text has moved forward by `d`. -/
def movedBy (s : TextState) (d : Rat) : TextState := s.advance d

theorem movedBy_zero (s : TextState) : movedBy s 0 = s := by
  simp [movedBy, TextState.advance, translation_zero]

theorem advanceByChar_moved {s : TextState} {f : FastFont} (hf : s.font = some f) (d : Rat) (cid : Nat) :
    (movedBy s d).advanceByChar cid = movedBy s (d + advanceOf f s cid) := by
  unfold movedBy TextState.advanceByChar TextState.advance advanceOf
  simp only [hf]
  rw [translation_translation]
  congr 3
  ring

theorem renderingMatrix_moved (s : TextState) (d : Rat) :
    (movedBy s d).renderingMatrix.m11 = s.horizontalScale * s.fontSize * s.textMatrix.m11 ∧
    ((movedBy s d).renderingMatrix.m31, (movedBy s d).renderingMatrix.m32) =
      place s.textMatrix d s.rise := by
  simp only [movedBy, TextState.advance, TextState.renderingMatrix, Matrix.andThen, Matrix.translation,
    place, Prod.mk.injEq]
  refine ⟨?_, ?_, ?_⟩ <;> ring

/-- Drawing codes outside of replaced text. -/
theorem renderCids_drawn {r r' : Renderer} {f : FastFont} {s : TextState} {d : Rat} {cids : List Nat}
    (hf : s.font = some f) (ha : r.actual = none) (hs : r.state = movedBy s d)
    (h : r.renderCids cids = .ok r') :
    Gains r.collector r'.collector
      (drawnFrom f s r.collector.widthOfSpace r.collector.fontIsBold d cids) ∧
    r' = { r with collector := r'.collector,
                  state := movedBy s (d + (cids.map (advanceOf f s)).sum) } := by
  induction cids generalizing r d with
  | nil =>
    cases h
    refine ⟨Gains.refl _, ?_⟩
    simp only [List.map_nil, List.sum_nil, add_zero, ← hs]
  | cons cid cids ih =>
    simp only [Renderer.renderCids, Res.bind_eq_ok] at h
    obtain ⟨r1, h1, h2⟩ := h
    have hfont : r.state.font = some f := by rw [hs]; exact hf
    simp only [Renderer.renderCid, hfont, Res.ofOption, Res.bind_ok, ha, Res.bind_eq_ok,
      Collector.renderCid] at h1
    obtain ⟨⟨k1, s1⟩, ⟨k2, hk, e⟩, h1⟩ := h1
    cases e
    cases h1
    obtain ⟨t, ht, hg⟩ := renderUnicode_gains hk
    have hm := renderingMatrix_moved s d
    have hm31 : r.state.renderingMatrix.m31 = (place s.textMatrix d s.rise).1 := by
      rw [hs, ← hm.2]
    have hm32 : r.state.renderingMatrix.m32 = (place s.textMatrix d s.rise).2 := by
      rw [hs, ← hm.2]
    have hm11 : r.state.renderingMatrix.m11 = s.horizontalScale * s.fontSize * s.textMatrix.m11 := by
      rw [hs]; exact hm.1
    rw [hm31, hm32, hm11] at hg
    have hadv : r.state.advanceByChar cid = movedBy s (d + advanceOf f s cid) := by
      rw [hs, advanceByChar_moved hf]
    obtain ⟨i1, i2⟩ := ih (r := { r with collector := k1, state := r.state.advanceByChar cid })
      (d := d + advanceOf f s cid) ha hadv (by rw [ha]; exact h2)
    have e1 : k1.widthOfSpace = r.collector.widthOfSpace := by rw [hg.eq]
    have e2 : k1.fontIsBold = r.collector.fontIsBold := by rw [hg.eq]
    simp only [e1, e2] at i1
    refine ⟨?_, ?_⟩
    · simp only [drawnFrom, ht, Option.getD_some]
      exact hg.trans i1
    · rw [i2]
      simp only [List.map_cons, List.sum_cons, add_assoc]

/-! ### Relations between the states before and after -/

/-- A relation that holds for the simple operations and for entering and leaving forms holds for
everything that is drawn. -/
theorem runWith_rel {R : Renderer → Renderer → Prop} {xobject : Renderer → Str → Res Renderer}
    (refl : ∀ r, R r r) (trans : ∀ a b c, R a b → R b c → R a c)
    (simple : ∀ r op r', r.handleSimple op = .ok r' → R r r')
    (hx : ∀ r name r', xobject r name = .ok r' → R r r') {ops : List Op} {r r' : Renderer}
    (h : r.runWith xobject ops = .ok r') : R r r' := by
  induction ops generalizing r with
  | nil => cases h; exact refl _
  | cons op ops ih =>
    simp only [Renderer.runWith, Res.bind_eq_ok] at h
    obtain ⟨r1, h1, h2⟩ := h
    refine trans _ _ _ ?_ (ih h2)
    have hs := simple r op r1
    cases op with
    | xObject name => exact hx _ _ _ h1
    | _ => exact hs h1

theorem handleXObject_rel {R : Renderer → Renderer → Prop} {objects : Objects}
    (refl : ∀ r, R r r) (trans : ∀ a b c, R a b → R b c → R a c)
    (simple : ∀ r op r', r.handleSimple op = .ok r' → R r r')
    (enter : ∀ r res, R r (r.enterForm res))
    (leave : ∀ r saved r', r.leaveForm saved = .ok r' → R r r') {depth : Nat} {r r' : Renderer} {name : Str}
    (h : r.handleXObject objects depth name = .ok r') : R r r' := by
  induction depth generalizing r r' name with
  | zero =>
    simp only [Renderer.handleXObject, Res.bind_eq_ok] at h
    obtain ⟨x, -, h⟩ := h
    cases x with
    | other => cases h; exact refl _
    | form => cases h
  | succ depth ih =>
    simp only [Renderer.handleXObject, Res.bind_eq_ok] at h
    obtain ⟨x, -, h⟩ := h
    cases x with
    | other => cases h; exact refl _
    | form res ops =>
      simp only [Renderer.drawForm, Res.bind_eq_ok] at h
      obtain ⟨inner, -, drawn, h1, h2⟩ := h
      exact trans _ _ _ (enter r res)
        (trans _ _ _ (runWith_rel refl trans simple (fun _ _ _ h => ih h) h1) (leave _ _ _ h2))

theorem run_rel {R : Renderer → Renderer → Prop} {objects : Objects}
    (refl : ∀ r, R r r) (trans : ∀ a b c, R a b → R b c → R a c)
    (simple : ∀ r op r', r.handleSimple op = .ok r' → R r r')
    (enter : ∀ r res, R r (r.enterForm res))
    (leave : ∀ r saved r', r.leaveForm saved = .ok r' → R r r') {depth : Nat} {r r' : Renderer}
    {ops : List Op} (h : r.run objects depth ops = .ok r') : R r r' :=
  runWith_rel refl trans simple (fun _ _ _ h => handleXObject_rel refl trans simple enter leave h) h

/-! ### Everything collected is visible -/

/-- The collector gets some characters which are seen. -/
def Sees (k k' : Collector) : Prop := ∃ new, k'.chars = k.chars ++ seen k.crop new ∧ k'.crop = k.crop

theorem Sees.refl (k : Collector) : Sees k k := ⟨[], by simp [seen], rfl⟩

theorem Sees.trans {a b c : Collector} (h1 : Sees a b) (h2 : Sees b c) : Sees a c := by
  obtain ⟨n1, e1, c1⟩ := h1
  obtain ⟨n2, e2, c2⟩ := h2
  exact ⟨n1 ++ n2, by rw [e2, e1, c1, seen_append, List.append_assoc], c2.trans c1⟩

theorem Gains.sees {k k' : Collector} {new : List PChar} (h : Gains k k' new) : Sees k k' :=
  ⟨new, by rw [h.eq], by rw [h.eq]⟩

theorem renderCid_sees {r r' : Renderer} {cid : Nat} (h : r.renderCid cid = .ok r') :
    Sees r.collector r'.collector := by
  simp only [Renderer.renderCid, Res.bind_eq_ok] at h
  obtain ⟨f, -, h⟩ := h
  cases ha : r.actual with
  | some a => simp only [ha] at h; cases h; exact Sees.refl _
  | none =>
    simp only [ha, Res.bind_eq_ok, Collector.renderCid] at h
    obtain ⟨p, ⟨k, hk, e⟩, h⟩ := h
    cases e
    cases h
    obtain ⟨t, -, hg⟩ := renderUnicode_gains hk
    exact hg.sees

theorem renderCids_sees {cids : List Nat} {r r' : Renderer} (h : r.renderCids cids = .ok r') :
    Sees r.collector r'.collector := by
  induction cids generalizing r with
  | nil => cases h; exact Sees.refl _
  | cons cid cids ih =>
    simp only [Renderer.renderCids, Res.bind_eq_ok] at h
    obtain ⟨r1, h1, h2⟩ := h
    exact (renderCid_sees h1).trans (ih h2)

theorem renderText_sees {bytes : List UInt8} {r r' : Renderer} (h : r.renderText bytes = .ok r') :
    Sees r.collector r'.collector := by
  simp only [Renderer.renderText, Res.bind_eq_ok] at h
  obtain ⟨f, -, h⟩ := h
  exact renderCids_sees h

theorem drawAdjusted_sees {items : List Adjusted} {r r' : Renderer} (h : r.drawAdjusted items = .ok r') :
    Sees r.collector r'.collector := by
  induction items generalizing r with
  | nil => cases h; exact Sees.refl _
  | cons i items ih =>
    cases i with
    | text bytes =>
      simp only [Renderer.drawAdjusted, Res.bind_eq_ok] at h
      obtain ⟨r1, h1, h2⟩ := h
      exact (renderText_sees h1).trans (ih h2)
    | spacing delta =>
      simp only [Renderer.drawAdjusted] at h
      have := ih h
      exact this

theorem setFont_sees {f : FontRef} {size : Rat} {r r' : Renderer} (h : r.setFont f size = .ok r') :
    Sees r.collector r'.collector := by
  simp only [Renderer.setFont, Res.bind_eq_ok] at h
  obtain ⟨p, -, h⟩ := h
  cases h
  exact ⟨[], by simp [seen, Collector.fontChanged], rfl⟩

theorem handleSimple_sees {op : Op} {r r' : Renderer} (h : r.handleSimple op = .ok r') :
    Sees r.collector r'.collector := by
  cases op with
  | beginMarkedContent tag property =>
    cases h
    unfold Renderer.beginMarked
    split <;> exact Sees.refl _
  | endMarkedContent =>
    simp only [Renderer.handleSimple, Renderer.endMarked] at h
    split at h
    · cases h
    · cases h; exact Sees.refl _
    · cases h
      show Sees _ (match r.actual with | some a => a.finish r.collector | none => r.collector)
      split
      · unfold ActualText.finish
        split
        · exact (renderMultiple_gains ..).sees
        · exact Sees.refl _
      · exact Sees.refl _
  | save => cases h; exact Sees.refl _
  | restore =>
    simp only [Renderer.handleSimple, Renderer.restore] at h
    split at h
    · cases h
    · cases h; exact Sees.refl _
  | graphicsState name =>
    simp only [Renderer.handleSimple, Renderer.graphicsState, Res.bind_eq_ok] at h
    obtain ⟨res, -, font, -, h⟩ := h
    split at h
    · exact setFont_sees h
    · cases h; exact Sees.refl _
  | textFont name size =>
    simp only [Renderer.handleSimple, Renderer.textFont, Res.bind_eq_ok] at h
    obtain ⟨res, -, font, -, h⟩ := h
    exact setFont_sees h
  | textDraw bytes => exact renderText_sees h
  | textDrawAdjusted items => exact drawAdjusted_sees h
  | _ => cases h; exact Sees.refl _

theorem restore_sees {r r' : Renderer} (h : r.restore = .ok r') : r'.collector = r.collector := by
  unfold Renderer.restore at h
  split at h
  · cases h
  · cases h; rfl

theorem leaveForm_sees {saved : Option Resources} {r r' : Renderer} (h : r.leaveForm saved = .ok r') :
    r'.collector = r.collector := by
  simp only [Renderer.leaveForm, Res.bind_eq_ok] at h
  obtain ⟨r1, h1, h⟩ := h
  cases h
  have := restore_sees h1
  exact this

theorem run_sees {objects : Objects} {depth : Nat} {ops : List Op} {r r' : Renderer}
    (h : r.run objects depth ops = .ok r') : Sees r.collector r'.collector :=
  run_rel (R := fun a b => Sees a.collector b.collector) (fun _ => Sees.refl _)
    (fun _ _ _ h1 h2 => h1.trans h2) (fun _ _ _ h => handleSimple_sees h) (fun _ _ => Sees.refl _)
    (fun _ _ _ h => by rw [leaveForm_sees h]; exact Sees.refl _) h

theorem repaired_ne (c : Char) : repaired c ≠ 'Õ' ∧ repaired c ≠ 'õ' ∧ repaired c ≠ 'Û' ∧ repaired c ≠ 'û' := by
  unfold repaired
  split <;> simp_all

theorem renderPage_seen {objects : Objects} {depth : Nat} {crop : CropBox} {cache cache' : FontCache}
    {page : PdfPage} {chars : List PChar} (h : renderPage objects depth crop cache page = .ok (cache', chars)) :
    ∃ new, chars = seen crop new := by
  simp only [renderPage, Res.bind_eq_ok] at h
  obtain ⟨ops, -, r, h1, h⟩ := h
  cases h
  obtain ⟨new, e, -⟩ := run_sees h1
  exact ⟨new, by rw [e]; rfl⟩

/-! ### The texts of codes -/

/-- What a font says of one code: its string, its character and whether codes are characters. -/
def view (f : FastFont) (k : Nat) : Option Str × Char × Bool := (f.smap k, f.cmap[k]?.getD '\x00', f.isIdentity)

/-- The effect of a mapping on its code. -/
def mapped (k : Nat) (s : Str) (v : Option Str × Char × Bool) : Option Str × Char × Bool :=
  match s with
  | [c] => if k > 1000 then (some s, v.2.1, v.2.2) else (v.1, c, v.2.2)
  | _ => (some s, v.2.1, v.2.2)

/-- The text of a code from what the font says of it. -/
def viewText (k : Nat) (v : Option Str × Char × Bool) : Option Str :=
  match v.1 with
  | some s => some s
  | none =>
    if v.2.1 ≠ '\x00' then some [v.2.1]
    else if v.2.2 = true ∧ k.isValidChar then some [Char.ofNat k] else none

theorem toUnicode_view (f : FastFont) (k : Nat) : codeText (f.toUnicode k) = viewText k (view f k) := by
  unfold FastFont.toUnicode viewText view FastFont.charFromU32
  cases f.smap k with
  | some s => rfl
  | none =>
    by_cases hv : k.isValidChar
    · have h : (if k.isValidChar then some (Char.ofNat k) else none) = some (Char.ofNat k) := if_pos hv
      rw [h]
      cases f.cmap[k]? with
      | none => cases f.isIdentity <;> simp [codeText, hv]
      | some c =>
        by_cases hc : c = '\x00'
        · cases f.isIdentity <;> simp [codeText, hc, hv]
        · simp [hc, codeText]
    · have h : (if k.isValidChar then some (Char.ofNat k) else none) = none := if_neg hv
      rw [h]
      cases f.cmap[k]? with
      | none => cases f.isIdentity <;> simp [codeText, hv]
      | some c =>
        by_cases hc : c = '\x00'
        · cases f.isIdentity <;> simp [codeText, hc, hv]
        · simp [hc, codeText]

theorem setChar_get (l : List Char) (cid k : Nat) (c : Char) :
    (setChar l cid c)[k]?.getD '\x00' = if k = cid then c else l[k]?.getD '\x00' := by
  unfold setChar
  by_cases h : l.length ≤ cid
  · simp only [h, if_true]
    rw [List.getElem?_set]
    by_cases hk : k = cid
    · subst hk
      rw [if_pos rfl, if_pos rfl, if_pos (by simp; omega)]
      rfl
    · rw [if_neg (Ne.symm hk), if_neg hk]
      by_cases hl : k < l.length
      · rw [List.getElem?_append_left hl]
      · rw [List.getElem?_append_right (by omega), List.getElem?_replicate]
        rw [List.getElem?_eq_none (by omega)]
        split <;> rfl
  · simp only [h, if_false]
    rw [List.getElem?_set]
    by_cases hk : k = cid
    · subst hk
      rw [if_pos rfl, if_pos rfl, if_pos (by omega)]
      rfl
    · rw [if_neg (Ne.symm hk), if_neg hk]

theorem addMapping_view (f : FastFont) (cid k : Nat) (s : Str) :
    view (f.addMapping cid s) k = if k = cid then mapped k s (view f k) else view f k := by
  unfold FastFont.addMapping view mapped
  split
  · rename_i c
    by_cases h1 : cid > 1000
    · simp only [h1, if_true]
      by_cases hk : k = cid
      · subst hk; simp [h1]
      · simp [hk]
    · simp only [h1, if_false, setChar_get]
      by_cases hk : k = cid
      · subst hk; simp [h1]
      · simp [hk]
  · by_cases hk : k = cid
    · subst hk; simp
    · simp [hk]

theorem addAll_view (f : FastFont) (ms : List (Nat × Str)) (k : Nat) (hn : (ms.map (·.1)).Nodup) :
    view (f.addAll ms) k = match ms.lookup k with
      | some s => mapped k s (view f k)
      | none => view f k := by
  induction ms generalizing f with
  | nil => rfl
  | cons m ms ih =>
    obtain ⟨cid, s⟩ := m
    simp only [List.map_cons, List.nodup_cons] at hn
    have h := ih (f.addMapping cid s) hn.2
    rw [addMapping_view] at h
    show view ((f.addMapping cid s).addAll ms) k = _
    rw [h]
    by_cases hk : k = cid
    · subst hk
      have hnone : ms.lookup k = none := by
        rw [List.lookup_eq_none_iff]
        intro p hp
        have : p.1 ≠ k := fun e => hn.1 (e ▸ List.mem_map_of_mem hp)
        simpa using fun e => this e.symm
      simp [List.lookup_cons, hnone]
    · simp only [hk, if_false]
      rw [List.lookup_cons]
      have : (k == cid) = false := by simpa using hk
      rw [this]

theorem addAll_keeps (f : FastFont) (ms : List (Nat × Str)) :
    (f.addAll ms).widths = f.widths ∧ (f.addAll ms).name = f.name ∧ (f.addAll ms).isCid = f.isCid := by
  unfold FastFont.addAll
  induction ms generalizing f with
  | nil => exact ⟨rfl, rfl, rfl⟩
  | cons m ms ih =>
    have h := ih (f.addMapping m.1 m.2)
    have h2 : (f.addMapping m.1 m.2).widths = f.widths ∧ (f.addMapping m.1 m.2).name = f.name ∧
        (f.addMapping m.1 m.2).isCid = f.isCid := by
      unfold FastFont.addMapping
      split
      · split <;> exact ⟨rfl, rfl, rfl⟩
      · exact ⟨rfl, rfl, rfl⟩
    rw [List.foldl_cons, h.1, h.2.1, h.2.2]
    exact h2

theorem lookup_filterMap (g : Nat → Option Str) (l : List Nat) (k : Nat) :
    (l.filterMap fun c => (g c).map fun s => (c, s)).lookup k = if k ∈ l then g k else none := by
  induction l with
  | nil => rfl
  | cons a l ih =>
    rw [List.filterMap_cons]
    by_cases hk : k = a
    · subst hk
      cases hg : g k with
      | none => simp [ih, hg]
      | some s => simp [List.lookup_cons]
    · have hb : (k == a) = false := by simpa using hk
      cases hg : g a with
      | none => simp [ih, hk]
      | some s => simp [List.lookup_cons, hb, ih, hk]

theorem nodup_filterMap (g : Nat → Option Str) (n : Nat) :
    (((List.range n).filterMap fun c => (g c).map fun s => (c, s)).map (·.1)).Nodup := by
  have : (((List.range n).filterMap fun c => (g c).map fun s => (c, s)).map (·.1)).Sublist (List.range n) := by
    generalize List.range n = l
    induction l with
    | nil => exact List.Sublist.slnil
    | cons a l ih =>
      rw [List.filterMap_cons]
      cases g a with
      | none => exact ih.cons _
      | some s => exact ih.cons_cons _
  exact this.nodup List.nodup_range

/-- The base encodings, as far as they are used: codes below 255. -/
def shortText (b : BaseEncoding) (code : Nat) : Option Str :=
  match b with
  | .table t => if code < 255 then (t code).map fun c => [c] else none
  | .winAnsi t =>
    if code < 255 then
      match t code with
      | some c => some [c]
      | none => if 30 < code then some ['•'] else none
    else none
  | _ => none

/-- The view of a code that has no mapping. -/
def noView (i : Bool) : Option Str × Char × Bool := (none, '\x00', i)

def isIdentityH : BaseEncoding → Bool
  | .identityH => true
  | _ => false

theorem processBase_view {f f' : FastFont} {b : BaseEncoding} {k : Nat} (hv : view f k = noView false)
    (h : f.processBaseEncoding b = .ok f') :
    view f' k = match shortText b k with
      | some s => mapped k s (noView false)
      | none => noView (isIdentityH b) := by
  have key : ∀ g : Nat → Option Str, ∀ ms, ms = ((List.range 255).filterMap fun c => (g c).map fun s => (c, s)) →
      view (f.addAll ms) k = match (if k < 255 then g k else none) with
        | some s => mapped k s (noView false)
        | none => noView false := by
    rintro g _ rfl
    rw [addAll_view _ _ _ (nodup_filterMap g 255), lookup_filterMap, hv]
    simp only [List.mem_range]
  cases b with
  | table t =>
    cases h
    exact key (fun c => (t c).map fun d => [d]) _ (by
      congr 1
      funext cid
      cases t cid <;> rfl)
  | winAnsi t =>
    cases h
    exact key (fun c => match t c with
      | some d => some [d]
      | none => if 30 < c then some ['•'] else none) _ (by
      congr 1
      funext cid
      cases ht : t cid with
      | some c => simp
      | none => by_cases hc : cid > 30 <;> simp [hc])
  | identityH =>
    cases h
    have := hv
    simp only [view, noView, Prod.mk.injEq] at this
    show (f.smap k, f.cmap[k]?.getD '\x00', true) = (none, '\x00', true)
    rw [this.1, this.2.1]
  | none => cases h; exact hv
  | unsupported => cases h

/-- What is known of a code after reading the font. -/
theorem convert_view {o : FontObj} {f : FastFont} {e : Encoding} (h : FastFont.convert o = .ok f)
    (he : o.encoding = some e) (hu : UniqueEntries o) (k : Nat) :
    view f k =
      let v1 := match shortText e.base k with
        | some s => mapped k s (noView false)
        | none => noView (isIdentityH e.base)
      let v2 := match (differenceEntries e).lookup k with
        | some s => mapped k s v1
        | none => v1
      match (unicodeEntries o).lookup k with
        | some s => mapped k s v2
        | none => v2 := by
  simp only [FastFont.convert, he, Res.bind_eq_ok, FastFont.processEncoding] at h
  obtain ⟨w, -, enc, henc, f2, ⟨f1, h1, h2⟩, h3⟩ := h
  cases henc
  cases h2
  have v1 := processBase_view (k := k) (by rfl) h1
  have v2 := addAll_view f1 (differenceEntries e) k (by
    unfold differenceEntries
    rw [List.map_map]
    exact hu.2 e he)
  rw [v1] at v2
  simp only
  rw [← v2]
  cases ht : o.toUnicode with
  | none =>
    simp only [ht, FastFont.processUnicodeMap] at h3
    cases h3
    simp only [unicodeEntries, ht, List.lookup_nil]
    rfl
  | some m =>
    cases m with
    | none => simp only [ht, FastFont.processUnicodeMap] at h3; cases h3
    | some m =>
      simp only [ht, FastFont.processUnicodeMap] at h3
      cases h3
      have := addAll_view (f1.addAll (differenceEntries e)) m k (by
        have := hu.1
        simpa only [unicodeEntries, ht] using this)
      simp only [unicodeEntries, ht]
      exact this

end HunLaw.Pdf
