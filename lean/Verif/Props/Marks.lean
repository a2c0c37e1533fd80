import Verif.Props.Inline
import Verif.Props.PdfOps
import Verif.Spec.Marks

/-! More of the property C80: marked content and objects inside of spans. -/

set_option autoImplicit false

namespace HunLaw.Props

open HunLaw HunLaw.Spec HunLaw.Pdf

theorem isPlain_unmarked {op : Op} : isPlain op = true ↔ Unmarked op := by cases op <;> simp [isPlain, Unmarked]

theorem beginMarked_not {tag : Str} {property : Option Str} (h : ¬ Replaces tag property) (r : Renderer) :
    r.beginMarked tag property = withMarks (false :: r.marked) r := by
  unfold Renderer.beginMarked ActualText.fromBmcParams
  by_cases ht : tag = str!"/Span"
  · have hp : property = none := by
      cases property with
      | none => rfl
      | some t => exact absurd ⟨ht, by simp⟩ h
    subst hp
    rw [if_neg (by simpa using ht)]
    rfl
  · rw [if_pos ht]
    rfl

theorem beginMarked_span {tag : Str} {property : Option Str} (h : Replaces tag property) :
    ∃ text, property = some text ∧ ∀ r : Renderer,
      r.beginMarked tag property = withMarks (true :: r.marked) { r with actual := some ⟨text, none⟩ } := by
  obtain ⟨rfl, hp⟩ := h
  cases property with
  | none => exact absurd rfl hp
  | some t => exact ⟨t, rfl, fun r => rfl⟩

/-- What is between properly nested marks does not see the marks around it, and leaves them alone. -/
theorem run_withMarks {x : Renderer → Str → Res Renderer} {ops ops' : List Op} (h : MarksDropped ops ops') :
    (∀ (m : List Bool) (r : Renderer), (withMarks m r).runWith x ops' = (r.runWith x ops').map (withMarks m)) ∧
      ∀ r : Renderer, r.runWith x ops = r.runWith x ops' := by
  have keeps : ∀ {ops' : List Op},
      (∀ (m : List Bool) (r : Renderer), (withMarks m r).runWith x ops' = (r.runWith x ops').map (withMarks m)) →
      ∀ {r r' : Renderer}, r.runWith x ops' = .ok r' → r'.marked = r.marked := by
    intro ops' h r r' e
    have := h r.marked r
    rw [show withMarks r.marked r = r from rfl, e] at this
    exact congrArg (fun y : Res Renderer => match y with | .ok r => r.marked | _ => []) this
  induction h with
  | nil => exact ⟨fun _ _ => rfl, fun _ => rfl⟩
  | @same op ops ops' ho _ ih =>
    have hop := isPlain_unmarked.2 ho
    have h1 : ∀ r : Renderer, r.handleOp x op = r.handleSimple op := by
      intro r; cases op <;> first | rfl | cases hop
    refine ⟨fun m r => ?_, fun r => ?_⟩
    · simp only [Renderer.runWith, h1, handleSimple_withMarks hop]
      cases r.handleSimple op with
      | ok r => exact ih.1 m r
      | _ => rfl
    · simp only [Renderer.runWith, h1, ih.2]
  | @mark tag property inner inner' ops ops' hr _ _ ih1 ih2 =>
    refine ⟨fun m r => ?_, fun r => ?_⟩
    · rw [runWith_append, runWith_append, ih1.1]
      cases r.runWith x inner' with
      | ok r => exact ih2.1 m r
      | _ => rfl
    · simp only [Renderer.runWith, Renderer.handleOp, Renderer.handleSimple, Res.bind_ok, beginMarked_not hr]
      rw [runWith_append, runWith_append, ih1.2, ih1.1]
      cases e : r.runWith x inner' with
      | ok r' =>
        have hk := keeps ih1.1 e
        show (Renderer.endMarked (withMarks (false :: r.marked) r') >>= fun r => r.runWith x ops) = _
        simp only [Renderer.endMarked, withMarks, Res.bind_ok, ← hk]
        exact ih2.2 r'
      | _ => rfl
  | @span tag property inner inner' ops ops' hr _ _ ih1 ih2 =>
    obtain ⟨text, rfl, hb⟩ := beginMarked_span hr
    refine ⟨fun m r => ?_, fun r => ?_⟩
    · simp only [Renderer.runWith, Renderer.handleOp, Renderer.handleSimple, Res.bind_ok, hb]
      rw [runWith_append, runWith_append, ih1.1, ih1.1]
      have e1 : ({ withMarks m r with actual := some ⟨text, none⟩ } : Renderer) =
          withMarks m { r with actual := some ⟨text, none⟩ } := rfl
      rw [e1, ih1.1]
      cases e : ({ r with actual := some ⟨text, none⟩ } : Renderer).runWith x inner' with
      | ok r' =>
        show (Renderer.endMarked (withMarks (true :: m) r') >>= fun r => r.runWith x ops') =
          (Renderer.endMarked (withMarks (true :: r.marked) r') >>= fun r => r.runWith x ops').map (withMarks m)
        simp only [Renderer.endMarked, withMarks, Res.bind_ok]
        rw [← ih2.1]
        rfl
      | _ => rfl
    · simp only [Renderer.runWith, Renderer.handleOp, Renderer.handleSimple, Res.bind_ok]
      rw [runWith_append, runWith_append, ih1.2]
      cases (r.beginMarked tag (some text)).runWith x inner' with
      | ok r' =>
        simp only [Res.bind_ok, Renderer.runWith, Renderer.handleOp, Renderer.handleSimple]
        cases r'.endMarked with
        | ok r'' => exact ih2.2 r''
        | _ => rfl
      | _ => rfl

/-- C80: marked content which replaces nothing is drawn as if it were not marked, at any depth, inside of spans and around
them. -/
theorem C80_marks (objects : Objects) (depth : Nat) (r : Renderer) (ops ops' : List Op) (h : MarksDropped ops ops') :
    r.run objects depth ops = r.run objects depth ops' := (run_withMarks h).2 r

theorem balancedMarks_append : ∀ (i j : List Op) (a b : Nat), BalancedMarks a i → BalancedMarks b j →
    BalancedMarks (a + b) (i ++ j)
  | [], j, a, b, hi, hj => by
    have : a = 0 := hi
    subst this
    simpa using hj
  | op :: i, j, a, b, hi, hj => by
    cases op with
    | beginMarkedContent t p =>
      have := balancedMarks_append i j (a + 1) b hi hj
      rw [show a + 1 + b = a + b + 1 by omega] at this
      exact this
    | endMarkedContent =>
      obtain ⟨h1, h2⟩ := hi
      have := balancedMarks_append i j (a - 1) b h2 hj
      rw [show a - 1 + b = a + b - 1 by omega] at this
      exact ⟨by omega, this⟩
    | _ => exact balancedMarks_append i j a b hi hj

theorem balancedMarks_split (k : Nat) : ∀ (ops : List Op) (n : Nat), ops.length ≤ k → BalancedMarks (n + 1) ops →
    ∃ inner rest, ops = inner ++ .endMarkedContent :: rest ∧ BalancedMarks 0 inner ∧ BalancedMarks n rest := by
  induction k with
  | zero =>
    intro ops n hk h
    cases ops with
    | nil => exact absurd h (by simp [BalancedMarks])
    | cons op ops => simp at hk
  | succ k ih =>
    intro ops n hk h
    cases ops with
    | nil => exact absurd h (by simp [BalancedMarks])
    | cons op ops =>
      simp only [List.length_cons] at hk
      have plain : BalancedMarks (n + 1) ops → (∀ l, BalancedMarks 0 l → BalancedMarks 0 (op :: l)) →
          ∃ inner rest, op :: ops = inner ++ .endMarkedContent :: rest ∧ BalancedMarks 0 inner ∧ BalancedMarks n rest := by
        intro h h'
        obtain ⟨inner, rest, rfl, h1, h2⟩ := ih ops n (by omega) h
        exact ⟨op :: inner, rest, rfl, h' _ h1, h2⟩
      cases op with
      | beginMarkedContent t p =>
        obtain ⟨i1, r1, rfl, h1, h2⟩ := ih ops (n + 1) (by omega) h
        obtain ⟨i2, r2, rfl, h3, h4⟩ := ih r1 n (by simp at hk; omega) h2
        refine ⟨.beginMarkedContent t p :: (i1 ++ .endMarkedContent :: i2), r2, by simp, ?_, h4⟩
        have := balancedMarks_append i1 (.endMarkedContent :: i2) 0 1 h1 ⟨by omega, h3⟩
        exact this
      | endMarkedContent => exact ⟨[], ops, rfl, rfl, h.2⟩
      | _ => exact plain h fun _ h => h

/-- C80: such marks can be dropped from all operations with properly nested marks and without objects. -/
theorem C80_marks_exist (ops : List Op) (hb : BalancedMarks 0 ops) (hx : ∀ name, Op.xObject name ∉ ops) :
    ∃ ops', MarksDropped ops ops' ∧ ∀ op ∈ ops', op ∈ ops := by
  have key : ∀ (k : Nat) (ops : List Op), ops.length ≤ k → BalancedMarks 0 ops → (∀ name, Op.xObject name ∉ ops) →
      ∃ ops', MarksDropped ops ops' ∧ ∀ op ∈ ops', op ∈ ops := by
    intro k
    induction k with
    | zero =>
      intro ops hk _ _
      have : ops = [] := List.length_eq_zero_iff.1 (by omega)
      subst this
      exact ⟨[], .nil, by simp⟩
    | succ k ih =>
      intro ops hk hb hx
      cases ops with
      | nil => exact ⟨[], .nil, by simp⟩
      | cons op ops =>
        simp only [List.length_cons] at hk
        have plain : Unmarked op → BalancedMarks 0 ops → ∃ ops', MarksDropped (op :: ops) ops' ∧ ∀ o ∈ ops', o ∈ op :: ops := by
          intro ho hb
          obtain ⟨ops', h1, h2⟩ := ih ops (by omega) hb (fun name h => hx name (List.mem_cons_of_mem _ h))
          refine ⟨op :: ops', .same ho h1, fun o hm => ?_⟩
          rcases List.mem_cons.1 hm with rfl | hm
          · simp
          · exact List.mem_cons_of_mem _ (h2 o hm)
        cases op with
        | xObject name => exact absurd (List.mem_cons_self ..) (hx name)
        | endMarkedContent => exact absurd hb.1 (by omega)
        | beginMarkedContent t p =>
          obtain ⟨inner, rest, rfl, h1, h2⟩ := balancedMarks_split _ ops 0 (Nat.le_refl _) hb
          simp only [List.length_append, List.length_cons] at hk
          obtain ⟨i', hi1, hi2⟩ := ih inner (by omega) h1 (fun name h => hx name (by simp [h]))
          obtain ⟨r', hr1, hr2⟩ := ih rest (by omega) h2 (fun name h => hx name (by simp [h]))
          by_cases hrep : Replaces t p
          · refine ⟨_, .span hrep hi1 hr1, fun o hm => ?_⟩
            simp only [List.mem_cons, List.mem_append] at hm ⊢
            rcases hm with rfl | hm | rfl | hm
            · simp
            · simp [hi2 o hm]
            · simp
            · simp [hr2 o hm]
          · refine ⟨_, .mark hrep hi1 hr1, fun o hm => ?_⟩
            simp only [List.mem_cons, List.mem_append] at hm ⊢
            rcases hm with hm | hm
            · simp [hi2 o hm]
            · simp [hr2 o hm]
        | _ => exact plain trivial hb
  exact key _ ops (Nat.le_refl _) hb hx

/-- Without replacements there are no marks left. -/
theorem marksDropped_plain {ops ops' : List Op} (h : MarksDropped ops ops')
    (hn : ∀ tag property, Op.beginMarkedContent tag property ∈ ops → ¬ Replaces tag property) : ∀ op ∈ ops', isPlain op = true := by
  induction h with
  | nil => simp
  | @same op ops ops' ho _ ih =>
    intro o hm
    rcases List.mem_cons.1 hm with rfl | hm
    · exact isPlain_unmarked.2 ho
    · exact ih (fun t p h => hn t p (List.mem_cons_of_mem _ h)) o hm
  | mark hr _ _ ih1 ih2 =>
    intro o hm
    rcases List.mem_append.1 hm with hm | hm
    · exact ih1 (fun t p h => hn t p (by simp [h])) o hm
    · exact ih2 (fun t p h => hn t p (by simp [h])) o hm
  | span hr _ _ _ _ => exact absurd hr (hn _ _ (by simp))

/-- C80: a span with a replacement text gives this text once in place of what is drawn in it, or nothing, if there is other
marked content in it, but no span with a replacement of its own. Missing: spans with a replacement inside of each other, for
which it is false (C80_violated). Objects are in C80_forms_partial, the place of the text in C80_replaced_partial with
C80_marks. -/
theorem C80_marked_partial (objects : Objects) (depth : Nat) (r r' : Renderer) (text : Str) (ops : List Op)
    (hb : BalancedMarks 0 ops) (hx : ∀ name, Op.xObject name ∉ ops)
    (hn : ∀ tag property, Op.beginMarkedContent tag property ∈ ops → ¬ Replaces tag property)
    (h : r.run objects depth (.beginMarkedContent str!"/Span" (some text) :: (ops ++ [.endMarkedContent])) = .ok r') :
    r'.collector.chars = r.collector.chars ∨ ∃ x y width space bold,
      r'.collector.chars = r.collector.chars ++ seen r.collector.crop (evenly x y width space bold text) := by
  obtain ⟨ops', hd, -⟩ := C80_marks_exist ops hb hx
  have hp := marksDropped_plain hd hn
  have hspan : MarksDropped (.beginMarkedContent str!"/Span" (some text) :: (ops ++ [.endMarkedContent]))
      (.beginMarkedContent str!"/Span" (some text) :: (ops' ++ [.endMarkedContent])) :=
    .span ⟨rfl, by simp⟩ hd .nil
  rw [C80_marks objects depth r _ _ hspan] at h
  unfold Renderer.run at h
  simp only [Renderer.runWith, Renderer.handleOp, Renderer.handleSimple, Res.bind_ok] at h
  rw [runWith_append] at h
  simp only [Res.bind_eq_ok, Renderer.runWith] at h
  obtain ⟨r0, h0, r1, h1, h2⟩ := h
  cases h2
  have h1 : r0.endMarked = .ok r' := h1
  obtain ⟨q, a, ha, o⟩ := runWith_actual (a := ⟨text, none⟩) hp rfl h0
  have hm : r0.marked = true :: r.marked := q.marked
  have ht : a.text = text := o.1
  unfold Renderer.endMarked at h1
  rw [hm] at h1
  simp only [ha, ActualText.finish] at h1
  cases hpar : a.params with
  | none =>
    rw [hpar] at h1
    cases h1
    exact Or.inl q.chars
  | some p =>
    rw [hpar] at h1
    cases h1
    have hg := renderMultiple_gains r0.collector p.x p.y p.width p.scaling a.text
    refine Or.inr ⟨p.x, p.y, p.width, r0.collector.widthOfSpace * p.scaling, r0.collector.fontIsBold, ?_⟩
    show (r0.collector.renderMultiple _ _ _ _ _).chars = _
    rw [hg.eq, ht, q.chars, q.crop]
    rfl

/-- C80: pages with forms and marked content of any nesting are drawn like the page with the forms written in place and without
the marks that replace nothing; in what is left, the only marked content is spans with a replacement. -/
theorem C80_forms_partial (objects : Objects) (depth d : Nat) (crop : CropBox) (cache : FontCache) (res : Option Resources)
    (flat : Resources) (ops ops' : List Op) (hw : WrittenInPlace objects flat d res ops ops') (hd : d ≤ depth)
    (hb : BalancedMarks 0 ops') :
    ∃ left, MarksDropped ops' left ∧ (∀ tag property, Op.beginMarkedContent tag property ∈ left → Replaces tag property) ∧
      renderPage objects depth crop cache ⟨res, some ops⟩ = renderPage noObjects 0 crop cache ⟨some flat, some left⟩ := by
  obtain ⟨left, h1, -⟩ := C80_marks_exist ops' hb (inPlace_noObject hw)
  refine ⟨left, h1, ?_, ?_⟩
  · clear hb hw
    induction h1 with
    | nil => simp
    | @same op _ _ ho _ ih =>
      intro t p hm
      rcases List.mem_cons.1 hm with e | hm
      · subst e; exact absurd ho (by simp [Unmarked])
      · exact ih t p hm
    | mark _ _ _ ih1 ih2 =>
      intro t p hm
      rcases List.mem_append.1 hm with hm | hm
      · exact ih1 t p hm
      · exact ih2 t p hm
    | span hr _ _ ih1 ih2 =>
      intro t p hm
      simp only [List.mem_cons, List.mem_append, Op.beginMarkedContent.injEq, reduceCtorEq, false_or] at hm
      rcases hm with ⟨rfl, rfl⟩ | hm | hm
      · exact hr
      · exact ih1 t p hm
      · exact ih2 t p hm
  · rw [C124_in_place objects noObjects depth 0 d crop cache res flat ops ops' hw hd]
    simp only [renderPage, Res.ofOption, Res.bind_ok, C80_marks noObjects 0 _ _ _ h1]

/-- Marked content inside of a span with a replacement. -/
example : pageChars noObjects 5 sampleCrop ⟨some sampleResources, some
    [.textFont str!"F1" 10, .moveTextPosition 20 50, .beginMarkedContent str!"/Span" (some str!"ffi"),
     .beginMarkedContent str!"/Span" none, .textDraw [65, 66], .endMarkedContent, .textDraw [67], .endMarkedContent]⟩ =
    .ok [⟨20, 50, 5, 5, false, 'f'⟩, ⟨25, 50, 5, 5, false, 'f'⟩, ⟨30, 50, 5, 5, false, 'i'⟩] := by
  decide +kernel

end HunLaw.Props
