import Verif.Props.Pdf
import Verif.Spec.Spaces

/-! Property C113: gaps between words are measured by the font in effect. -/

set_option autoImplicit false

namespace HunLaw.Props

open HunLaw HunLaw.Pdf Spec

/-- The full property: every character of a drawn text is collected with the width of the space of the font in effect,
at the scale of the text. `pre` are the operations of the page before. -/
def C113_statement : Prop :=
  ∀ (res : Resources) (crop : CropBox) (depth : Nat) (pre : List Op) (bytes : List UInt8) (r r' : Renderer),
    (∀ f g, Uses res f → Uses res g → f.address = g.address → f.font = g.font) →
    (∀ name, Op.xObject name ∉ pre) → r.actual = none →
    Renderer.run noObjects depth (.new (fun _ => none) (.new crop) (some res)) pre = .ok r →
    r.handleSimple (.textDraw bytes) = .ok r' →
    ∃ o w new, fontAfter res pre = some o ∧ SpaceOf o w ∧ r'.collector.chars = r.collector.chars ++ new ∧
      ∀ c ∈ new, c.widthOfSpace = w * (r.state.horizontalScale * r.state.fontSize * r.state.textMatrix.m11)

theorem evenly_space {b : CropBox} {x y w sp : Rat} {bold : Bool} {t : Str} {c : PChar}
    (h : c ∈ seen b (evenly x y w sp bold t)) : c.widthOfSpace = sp := by
  simp only [seen, evenly, List.mem_filter, List.mem_map] at h
  obtain ⟨⟨d, ⟨q, hq, hd⟩, rfl⟩, -⟩ := h
  rw [← hd]

theorem drawn_space {b : CropBox} {f : FastFont} {s : TextState} {sp : Rat} {bold : Bool} {d : Rat} {l : List Nat} {c : PChar}
    (h : c ∈ seen b (drawnFrom f s sp bold d l)) : c.widthOfSpace = sp * (s.horizontalScale * s.fontSize * s.textMatrix.m11) := by
  induction l generalizing d with
  | nil => simp [drawnFrom, seen] at h
  | cons code l ih =>
    rw [drawnFrom, seen_append] at h
    rcases List.mem_append.1 h with h | h
    · exact evenly_space h
    · exact ih h

theorem learns_space : Learns fun _ w o => ∀ f, o = some f → SpaceOf f w := by
  rintro o f k hc g e
  cases e
  refine ⟨f.widths, (convert_keeps hc).1, ?_⟩
  show _ ∨ _
  simp only [Collector.fontChanged]
  have h1 : f.widths 32 / 1000 = 0 ↔ f.widths 32 = 0 := by
    rw [div_eq_zero_iff]; norm_num
  have h2 : f.widths 32 / 1000 = 1 ↔ f.widths 32 = 1000 := by
    rw [div_eq_one_iff_eq (by norm_num)]
  simp only [h1, h2]
  by_cases h : f.widths 32 = 0 ∨ f.widths 32 = 1000
  · exact .inl ⟨h, by rw [if_pos h]⟩
  · rw [if_neg h]
    push Not at h
    exact .inr ⟨h.1, h.2, rfl⟩

/-- C113: the characters of a text drawn by a page, without forms, have the width of the space of the font in effect, at
the scale of the text, if restoring a saved state never changes how wide the space is.
Missing: restoring changes the font back, but the renderer goes on with the space of the font before that, see
`C113_violated`; forms, for which see `C113_forms_partial`. -/
theorem C113_gaps_partial (res : Resources) (objects : Objects) (crop : CropBox) (depth : Nat) (pre : List Op)
    (bytes : List UInt8) (r r' : Renderer)
    (hapart : ∀ f g, Uses res f → Uses res g → f.address = g.address → f.font = g.font)
    (hforms : ∀ name, Op.xObject name ∉ pre) (hactual : r.actual = none)
    (hrestore : ∀ a b, pre = a ++ .restore :: b → KeepsSpace res a)
    (h : Renderer.run objects depth (.new (fun _ => none) (.new crop) (some res)) pre = .ok r)
    (hop : r.handleSimple (.textDraw bytes) = .ok r') :
    ∃ o w new, fontAfter res pre = some o ∧ SpaceOf o w ∧ r'.collector.chars = r.collector.chars ++ new ∧
      ∀ c ∈ new, c.widthOfSpace = w * (r.state.horizontalScale * r.state.fontSize * r.state.textMatrix.m11) := by
  have h0 : Tracks (fun _ w o => ∀ f, o = some f → SpaceOf f w) (Uses res) res
      (.new (fun _ => none) (.new crop) (some res)) (none, []) :=
    ⟨rfl, (fun a ff h => nomatch h), trivial, List.Forall₂.nil, fun f h => nomatch h⟩
  have ht := run_tracks learns_space hapart (fun f h => h) h0 hforms (fun a b e _ w hb f hf => by
    rcases hrestore a b e with h | ⟨f', g, h1, h2, h3⟩
    · have h : (fontsAfter res (none, []) (a ++ [.restore])).1 = none := h
      rw [h] at hf; cases hf
    · have h2 : (fontsAfter res (none, []) (a ++ [.restore])).1 = some g := h2
      rw [h2] at hf; cases hf
      exact h3 w (hb f' h1)) h
  obtain ⟨f, hf⟩ : ∃ f, r.state.font = some f := by
    have h : r.renderText bytes = .ok r' := hop
    simp only [Renderer.renderText, Res.bind_eq_ok] at h
    obtain ⟨f, hf, -⟩ := h
    cases hs : r.state.font with
    | none => rw [hs] at hf; cases hf
    | some f => exact ⟨f, rfl⟩
  have hm := ht.font
  rw [hf] at hm
  cases ho : fontAfter res pre with
  | none =>
    have ho : (fontsAfter res (none, []) pre).1 = none := ho
    rw [ho] at hm
    exact hm.elim
  | some o => exact ⟨o, _, _, rfl, ht.known o ho, (C81_positions r r' f bytes hf hactual hop).1, fun c hc => drawn_space hc⟩

/-! ### an example -/

/-- Two fonts with spaces of different widths. -/
def spaceFont (w : Rat) : FontObj :=
  ⟨some fun c => if c = 32 then w else 500, false, some str!"Times", some ⟨.winAnsi asciiTable, []⟩, none⟩

def spaceResources : Resources where
  fonts name := if name = str!"F1" then some ⟨1, spaceFont 300⟩ else if name = str!"F2" then some ⟨2, spaceFont 600⟩ else none
  graphicsStates _ := none
  xobjects _ := none

theorem spaceResources_apart : ∀ f g, Uses spaceResources f → Uses spaceResources g →
    f.address = g.address → f.font = g.font := by
  have key : ∀ f, Uses spaceResources f → f = ⟨1, spaceFont 300⟩ ∨ f = ⟨2, spaceFont 600⟩ := by
    rintro f (⟨name, h⟩ | ⟨name, size, h⟩)
    · simp only [spaceResources] at h
      split at h
      · exact .inl (Option.some.inj h).symm
      · split at h
        · exact .inr (Option.some.inj h).symm
        · cases h
    · cases h
  intro f g hf hg ha
  rcases key f hf with rfl | rfl <;> rcases key g hg with rfl | rfl
  · rfl
  · cases ha
  · cases ha
  · rfl

/-- After the font with the narrow space is restored, the wide space of the other one is still used. -/
theorem C113_violated : ¬ C113_statement := by
  intro h
  have hrun : ∃ r r', Renderer.run noObjects 5 (.new (fun _ => none) (.new sampleCrop) (some spaceResources)) restoredOps = .ok r ∧
      r.handleSimple (.textDraw [66]) = .ok r' ∧
      r.collector.chars = [⟨20, 50, 5, 6, false, 'A'⟩] ∧
      r'.collector.chars = [⟨20, 50, 5, 6, false, 'A'⟩, ⟨20, 50, 5, 6, false, 'B'⟩] ∧
      r.actual = none ∧ r.state.horizontalScale * r.state.fontSize * r.state.textMatrix.m11 = 10 := by
    obtain ⟨r, h1, e1⟩ := charsOf_eq (x := Renderer.run noObjects 5
      (.new (fun _ => none) (.new sampleCrop) (some spaceResources)) restoredOps)
      (l := [⟨20, 50, 5, 6, false, 'A'⟩]) (by decide +kernel)
    obtain ⟨r', h2, e2⟩ := charsOf_eq (x := Renderer.run noObjects 5
      (.new (fun _ => none) (.new sampleCrop) (some spaceResources)) (restoredOps ++ [.textDraw [66]]))
      (l := [⟨20, 50, 5, 6, false, 'A'⟩, ⟨20, 50, 5, 6, false, 'B'⟩]) (by decide +kernel)
    have h3 : (match Renderer.run noObjects 5 (.new (fun _ => none) (.new sampleCrop) (some spaceResources)) restoredOps with
      | .ok r => some (decide (r.actual = none ∧ r.state.horizontalScale * r.state.fontSize * r.state.textMatrix.m11 = 10))
      | _ => none) = some true := by decide +kernel
    rw [h1] at h3
    have h3 := of_decide_eq_true (Option.some.inj h3)
    refine ⟨r, r', h1, ?_, e1, e2, h3.1, h3.2⟩
    unfold Renderer.run at h1 h2
    rw [runWith_append, h1] at h2
    simp only [Res.bind_ok, Renderer.runWith, Res.bind_eq_ok] at h2
    obtain ⟨r2, h2, h3⟩ := h2
    cases h3
    exact h2
  obtain ⟨r, r', h1, h2, e1, e2, ha, hs⟩ := hrun
  obtain ⟨o, w, new, ho, ⟨widths, hw, hsp⟩, e, hb⟩ := h spaceResources sampleCrop 5 restoredOps [66] r r' spaceResources_apart
    (by intro name; simp [restoredOps]) ha h1 h2
  rw [e1, e2] at e
  have hn : new = [⟨20, 50, 5, 6, false, 'B'⟩] := by
    simp only [List.cons_append, List.nil_append, List.cons.injEq, true_and] at e
    exact e.symm
  have hc := hb ⟨20, 50, 5, 6, false, 'B'⟩ (by rw [hn]; exact List.mem_singleton.2 rfl)
  rw [hs] at hc
  have ho' : fontAfter spaceResources restoredOps = some (spaceFont 300) := rfl
  rw [ho'] at ho
  cases ho
  cases hw
  norm_num at hsp hc
  rw [hsp] at hc
  norm_num at hc

/-- The conditions of the theorem are met by a page where a font is set between a save and a restore, and it gives the width
of the space of that font. -/
example : (∀ a b, [Op.save, .textFont str!"F2" 10, .restore, .textFont str!"F1" 10] = a ++ .restore :: b → KeepsSpace spaceResources a) ∧
    fontAfter spaceResources [Op.save, .textFont str!"F2" 10, .restore, .textFont str!"F1" 10] = some (spaceFont 300) ∧
    SpaceOf (spaceFont 300) (3 / 10) := by
  refine ⟨fun a b e => .inl ?_, rfl, _, rfl, .inr ⟨by simp, by simp, by norm_num⟩⟩
  rcases a with _ | ⟨x, _ | ⟨y, _ | ⟨z, _ | ⟨u, a⟩⟩⟩⟩ <;> simp at e
  obtain ⟨rfl, rfl, -⟩ := e
  rfl

end HunLaw.Props
