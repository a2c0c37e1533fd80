import Verif.Lemmas.Pdf
import Verif.Model.Sae

/-! Lemmas on running the operations of a page: fonts, forms and replaced text. -/

set_option autoImplicit false

namespace HunLaw.Pdf

open Spec

/-! ### Fonts do not matter by their addresses -/

/-- The two outcomes are of the same kind, and the results are related. -/
def ResRel {α β : Type} (R : α → β → Prop) : Res α → Res β → Prop
  | .ok a, .ok b => R a b
  | .err, .err => True
  | .panic, .panic => True
  | _, _ => False

theorem ResRel.bind {α β γ δ : Type} {R : α → β → Prop} {S : γ → δ → Prop} {a : Res α} {b : Res β}
    {f : α → Res γ} {g : β → Res δ} (h : ResRel R a b) (hf : ∀ x y, R x y → ResRel S (f x) (g y)) :
    ResRel S (a >>= f) (b >>= g) := by
  cases a <;> cases b <;> first | exact hf _ _ h | exact h.elim | trivial

theorem ResRel.ofOption {α : Type} {R : α → α → Prop} (o : Option α) (h : ∀ x, o = some x → R x x) :
    ResRel R (Res.ofOption o) (Res.ofOption o) := by
  cases o with
  | none => trivial
  | some x => exact h x rfl

/-- What the cache has is right for the fonts `U` of the file. -/
def CacheOk (U : FontRef → Prop) (cache : FontCache) : Prop :=
  ∀ a ff, cache a = some ff → ∃ f, U f ∧ f.address = a ∧ FastFont.convert f.font = .ok ff

theorem get_ok {U : FontRef → Prop} (hU : ∀ f g, U f → U g → f.address = g.address → f.font = g.font)
    {cache : FontCache} (hc : CacheOk U cache) {f : FontRef} (hf : U f) :
    ResRel (fun p ff => p.2 = ff ∧ CacheOk U p.1) (cache.get f.address f.font) (FastFont.convert f.font) := by
  unfold FontCache.get
  cases h : cache f.address with
  | some ff =>
    obtain ⟨g, hg, ha, hcv⟩ := hc _ _ h
    rw [hU f g hf hg ha.symm, hcv]
    exact ⟨rfl, hc⟩
  | none =>
    cases hcv : FastFont.convert f.font with
    | err => trivial
    | panic => trivial
    | ok ff =>
      refine ⟨rfl, ?_⟩
      intro a gg hg
      simp only at hg
      split at hg
      · rename_i ha
        cases hg
        exact ⟨f, hf, ha.symm, hcv⟩
      · exact hc _ _ hg

/-- The same except for the font cache. -/
def withCache (r : Renderer) (c : FontCache) : Renderer := { r with cache := c }

/-- Both caches are right and the rest is the same. -/
structure Alike (U : FontRef → Prop) (a b : Renderer) : Prop where
  same : b = withCache a b.cache
  left : CacheOk U a.cache
  right : CacheOk U b.cache
  uses : ∀ res, a.resources = some res → ∀ f, Uses res f → U f

theorem renderCid_withCache (r : Renderer) (c : FontCache) (cid : Nat) :
    (withCache r c).renderCid cid = (r.renderCid cid).map (withCache · c) := by
  unfold Renderer.renderCid withCache
  simp only
  cases r.state.font with
  | none => rfl
  | some f =>
    simp only [Res.ofOption, Res.bind_ok]
    cases r.actual with
    | some a => rfl
    | none =>
      simp only
      cases r.collector.renderCid r.state f cid <;> rfl

theorem renderCids_withCache (cids : List Nat) (r : Renderer) (c : FontCache) :
    (withCache r c).renderCids cids = (r.renderCids cids).map (withCache · c) := by
  induction cids generalizing r with
  | nil => rfl
  | cons cid cids ih =>
    simp only [Renderer.renderCids, renderCid_withCache]
    cases r.renderCid cid with
    | ok r1 => exact ih r1
    | err => rfl
    | panic => rfl

theorem renderText_withCache (bytes : List UInt8) (r : Renderer) (c : FontCache) :
    (withCache r c).renderText bytes = (r.renderText bytes).map (withCache · c) := by
  unfold Renderer.renderText
  have : (withCache r c).state = r.state := rfl
  rw [this]
  cases r.state.font with
  | none => rfl
  | some f => exact renderCids_withCache ..

theorem drawAdjusted_withCache (items : List Adjusted) (r : Renderer) (c : FontCache) :
    (withCache r c).drawAdjusted items = (r.drawAdjusted items).map (withCache · c) := by
  induction items generalizing r with
  | nil => rfl
  | cons i items ih =>
    cases i with
    | text bytes =>
      simp only [Renderer.drawAdjusted, renderText_withCache]
      cases r.renderText bytes with
      | ok r1 => exact ih r1
      | err => rfl
      | panic => rfl
    | spacing delta =>
      simp only [Renderer.drawAdjusted]
      exact ih (r.withState (r.state.advance (-delta * r.state.horizontalScale * r.state.fontSize / 1000)))

/-- The operation may set a font. -/
def setsFont : Op → Bool
  | .textFont _ _ => true
  | .graphicsState _ => true
  | _ => false

theorem handleSimple_withCache {op : Op} (ho : setsFont op = false) (r : Renderer) (c : FontCache) :
    (withCache r c).handleSimple op = (r.handleSimple op).map (withCache · c) := by
  cases op with
  | textFont => cases ho
  | graphicsState => cases ho
  | textDraw bytes => exact renderText_withCache ..
  | textDrawAdjusted items => exact drawAdjusted_withCache ..
  | beginMarkedContent tag property =>
    simp only [Renderer.handleSimple, Renderer.beginMarked]
    cases ActualText.fromBmcParams tag property <;> rfl
  | endMarkedContent =>
    simp only [Renderer.handleSimple, Renderer.endMarked]
    have : (withCache r c).marked = r.marked := rfl
    rw [this]
    cases r.marked with
    | nil => rfl
    | cons b m => cases b <;> rfl
  | restore =>
    simp only [Renderer.handleSimple, Renderer.restore]
    have : (withCache r c).stack = r.stack := rfl
    rw [this]
    cases r.stack <;> rfl
  | _ => rfl

/-- What simple operations that set no font leave alone. -/
structure Leaves (r r' : Renderer) : Prop where
  cache : r'.cache = r.cache
  resources : r'.resources = r.resources

theorem renderCid_leaves {r r' : Renderer} {cid : Nat} (h : r.renderCid cid = .ok r') :
    Leaves r r' ∧ r'.state.font = r.state.font ∧ r'.stack = r.stack ∧ r'.marked = r.marked := by
  simp only [Renderer.renderCid, Res.bind_eq_ok] at h
  obtain ⟨f, -, h⟩ := h
  cases ha : r.actual with
  | some a => simp only [ha] at h; cases h; exact ⟨⟨rfl, rfl⟩, rfl, rfl, rfl⟩
  | none =>
    simp only [ha, Res.bind_eq_ok, Collector.renderCid] at h
    obtain ⟨p, ⟨k, hk, e⟩, h⟩ := h
    cases e
    cases h
    exact ⟨⟨rfl, rfl⟩, rfl, rfl, rfl⟩

theorem renderCids_leaves {cids : List Nat} {r r' : Renderer} (h : r.renderCids cids = .ok r') :
    Leaves r r' ∧ r'.state.font = r.state.font ∧ r'.stack = r.stack ∧ r'.marked = r.marked := by
  induction cids generalizing r with
  | nil => cases h; exact ⟨⟨rfl, rfl⟩, rfl, rfl, rfl⟩
  | cons cid cids ih =>
    simp only [Renderer.renderCids, Res.bind_eq_ok] at h
    obtain ⟨r1, h1, h2⟩ := h
    obtain ⟨⟨a1, a2⟩, a3, a4, a5⟩ := renderCid_leaves h1
    obtain ⟨⟨b1, b2⟩, b3, b4, b5⟩ := ih h2
    exact ⟨⟨b1.trans a1, b2.trans a2⟩, b3.trans a3, b4.trans a4, b5.trans a5⟩

theorem renderText_leaves {bytes : List UInt8} {r r' : Renderer} (h : r.renderText bytes = .ok r') :
    Leaves r r' ∧ r'.state.font = r.state.font ∧ r'.stack = r.stack ∧ r'.marked = r.marked := by
  simp only [Renderer.renderText, Res.bind_eq_ok] at h
  obtain ⟨f, -, h⟩ := h
  exact renderCids_leaves h

theorem drawAdjusted_leaves {items : List Adjusted} {r r' : Renderer} (h : r.drawAdjusted items = .ok r') :
    Leaves r r' ∧ r'.state.font = r.state.font ∧ r'.stack = r.stack ∧ r'.marked = r.marked := by
  induction items generalizing r with
  | nil => cases h; exact ⟨⟨rfl, rfl⟩, rfl, rfl, rfl⟩
  | cons i items ih =>
    cases i with
    | text bytes =>
      simp only [Renderer.drawAdjusted, Res.bind_eq_ok] at h
      obtain ⟨r1, h1, h2⟩ := h
      obtain ⟨⟨a1, a2⟩, a3, a4, a5⟩ := renderText_leaves h1
      obtain ⟨⟨b1, b2⟩, b3, b4, b5⟩ := ih h2
      exact ⟨⟨b1.trans a1, b2.trans a2⟩, b3.trans a3, b4.trans a4, b5.trans a5⟩
    | spacing delta =>
      simp only [Renderer.drawAdjusted] at h
      obtain ⟨⟨b1, b2⟩, b3, b4, b5⟩ := ih h
      exact ⟨⟨b1, b2⟩, b3, b4, b5⟩

theorem handleSimple_leaves {op : Op} (ho : setsFont op = false) {r r' : Renderer}
    (h : r.handleSimple op = .ok r') : Leaves r r' := by
  cases op with
  | textFont => cases ho
  | graphicsState => cases ho
  | textDraw bytes => exact (renderText_leaves h).1
  | textDrawAdjusted items => exact (drawAdjusted_leaves h).1
  | beginMarkedContent tag property =>
    cases h
    unfold Renderer.beginMarked
    split <;> exact ⟨rfl, rfl⟩
  | endMarkedContent =>
    simp only [Renderer.handleSimple, Renderer.endMarked] at h
    split at h
    · cases h
    · cases h; exact ⟨rfl, rfl⟩
    · cases h; exact ⟨rfl, rfl⟩
  | restore =>
    simp only [Renderer.handleSimple, Renderer.restore] at h
    split at h
    · cases h
    · cases h; exact ⟨rfl, rfl⟩
  | _ => cases h; exact ⟨rfl, rfl⟩

section alike
variable {U : FontRef → Prop} (hU : ∀ f g, U f → U g → f.address = g.address → f.font = g.font)
include hU

theorem setFont_alike {a b : Renderer} (h : Alike U a b) {f : FontRef} (hf : U f) (size : Rat) :
    ResRel (Alike U) (a.setFont f size) (b.setFont f size) := by
  have ha := get_ok hU h.left hf
  have hb := get_ok hU h.right hf
  unfold Renderer.setFont
  rw [h.same]
  refine ResRel.bind (R := fun p q => p.2 = q.2 ∧ CacheOk U p.1 ∧ CacheOk U q.1) ?_ ?_
  · show ResRel _ (a.cache.get f.address f.font) (b.cache.get f.address f.font)
    generalize a.cache.get f.address f.font = x at ha
    generalize b.cache.get f.address f.font = y at hb
    generalize FastFont.convert f.font = z at ha hb
    cases x <;> cases y <;> cases z <;> simp only [ResRel] at * <;> try trivial
    exact ⟨ha.1.trans hb.1.symm, ha.2, hb.2⟩
  · rintro ⟨c1, f1⟩ ⟨c2, f2⟩ ⟨e, h1, h2⟩
    simp only at e
    subst e
    exact ⟨rfl, h1, h2, h.uses⟩

theorem handleSimple_alike {a b : Renderer} (h : Alike U a b) (op : Op) :
    ResRel (Alike U) (a.handleSimple op) (b.handleSimple op) := by
  have hres : b.resources = a.resources := by rw [h.same]; rfl
  by_cases ho : setsFont op = true
  · cases op with
    | textFont name size =>
      simp only [Renderer.handleSimple, Renderer.textFont, hres]
      refine ResRel.bind (R := fun x y => x = y ∧ a.resources = some x)
        (ResRel.ofOption _ fun x hx => ⟨rfl, hx⟩) ?_
      rintro res _ ⟨rfl, hr⟩
      refine ResRel.bind (R := fun x y => x = y ∧ res.fonts name = some x)
        (ResRel.ofOption _ fun x hx => ⟨rfl, hx⟩) ?_
      rintro f _ ⟨rfl, hf⟩
      exact setFont_alike hU h (h.uses _ hr _ (.inl ⟨name, hf⟩)) size
    | graphicsState name =>
      simp only [Renderer.handleSimple, Renderer.graphicsState, hres]
      refine ResRel.bind (R := fun x y => x = y ∧ a.resources = some x)
        (ResRel.ofOption _ fun x hx => ⟨rfl, hx⟩) ?_
      rintro res _ ⟨rfl, hr⟩
      refine ResRel.bind (R := fun x y => x = y ∧ res.graphicsStates name = some x)
        (ResRel.ofOption _ fun x hx => ⟨rfl, hx⟩) ?_
      rintro g _ ⟨rfl, hg⟩
      cases g with
      | none => exact h
      | some p => exact setFont_alike hU h (h.uses _ hr _ (.inr ⟨name, p.2, hg⟩)) p.2
    | _ => cases ho
  · have ho : setsFont op = false := by simpa using ho
    have hb := handleSimple_withCache ho a b.cache
    rw [← h.same] at hb
    rw [hb]
    cases hs : a.handleSimple op with
    | err => trivial
    | panic => trivial
    | ok r =>
      have hl := handleSimple_leaves ho hs
      exact ⟨rfl, by rw [hl.cache]; exact h.left, h.right, by rw [hl.resources]; exact h.uses⟩

theorem runWith_alike {x : Renderer → Str → Res Renderer}
    (hx : ∀ a b name, Alike U a b → ResRel (Alike U) (x a name) (x b name)) (ops : List Op) {a b : Renderer}
    (h : Alike U a b) : ResRel (Alike U) (a.runWith x ops) (b.runWith x ops) := by
  induction ops generalizing a b with
  | nil => exact h
  | cons op ops ih =>
    simp only [Renderer.runWith]
    refine ResRel.bind (R := Alike U) ?_ fun _ _ h => ih h
    have hs := handleSimple_alike hU h op
    cases op with
    | xObject name => exact hx _ _ _ h
    | _ => exact hs

omit hU in
theorem restore_alike {a b : Renderer} (h : Alike U a b) : ResRel (Alike U) a.restore b.restore := by
  have hb := h.same
  unfold Renderer.restore
  have hst : b.stack = a.stack := by rw [hb]; rfl
  rw [hst]
  cases a.stack with
  | nil => trivial
  | cons s st => exact ⟨by rw [hb]; rfl, h.left, h.right, h.uses⟩

theorem handleXObject_alike {objects : Objects}
    (hforms : ∀ n res ops, objects n = some (.form (some res) ops) → ∀ f, Uses res f → U f) (depth : Nat)
    {a b : Renderer} (h : Alike U a b) (name : Str) :
    ResRel (Alike U) (a.handleXObject objects depth name) (b.handleXObject objects depth name) := by
  have hfind : ∀ {a b : Renderer}, Alike U a b → b.findObject objects name = a.findObject objects name := by
    intro a b h
    unfold Renderer.findObject
    rw [h.same]
    rfl
  have hfound : ∀ {a : Renderer} {x}, a.findObject objects name = .ok x → ∃ n, objects n = some x := by
    intro a x hx
    simp only [Renderer.findObject, Res.bind_eq_ok] at hx
    obtain ⟨_, _, n, _, hx⟩ := hx
    cases ho : objects n with
    | none => rw [ho] at hx; cases hx
    | some y => rw [ho] at hx; cases hx; exact ⟨n, ho⟩
  induction depth generalizing a b name with
  | zero =>
    simp only [Renderer.handleXObject, hfind h]
    cases a.findObject objects name with
    | err => trivial
    | panic => trivial
    | ok x => cases x with
      | other => exact h
      | form => trivial
  | succ depth ih =>
    simp only [Renderer.handleXObject, hfind h]
    cases hf : a.findObject objects name with
    | err => trivial
    | panic => trivial
    | ok x =>
      obtain ⟨n, hn⟩ := hfound hf
      cases x with
      | other => exact h
      | form res ops =>
        simp only [Res.bind_ok, Renderer.drawForm]
        cases ops with
        | none => trivial
        | some ops =>
          simp only [Res.ofOption, Res.bind_ok]
          have hb := h.same
          have hres : b.resources = a.resources := by rw [hb]; rfl
          have henter : Alike U (a.enterForm res) (b.enterForm res) := by
            refine ⟨by rw [hb]; rfl, h.left, h.right, ?_⟩
            intro x hx f hxf
            cases res with
            | none => exact h.uses x hx f hxf
            | some y =>
              simp only [Renderer.enterForm, Option.some.injEq] at hx
              subst hx
              exact hforms n _ _ hn f hxf
          refine ResRel.bind (runWith_alike hU (fun a b name h => ?_) ops henter) ?_
          · refine ih h name ?_ ?_
            · intro a b h
              unfold Renderer.findObject
              rw [h.same]
              rfl
            · intro a x hx
              simp only [Renderer.findObject, Res.bind_eq_ok] at hx
              obtain ⟨_, _, n, _, hx⟩ := hx
              cases ho : objects n with
              | none => rw [ho] at hx; cases hx
              | some y => rw [ho] at hx; cases hx; exact ⟨n, ho⟩
          · intro x y hxy
            unfold Renderer.leaveForm
            refine ResRel.bind (restore_alike hxy) fun u v huv => ?_
            rw [hres]
            exact ⟨by rw [huv.same]; rfl, huv.left, huv.right, h.uses⟩

theorem renderPage_alike {objects : Objects}
    (hforms : ∀ n res ops, objects n = some (.form (some res) ops) → ∀ f, Uses res f → U f) (depth : Nat)
    (crop : CropBox) {c1 c2 : FontCache} (h1 : CacheOk U c1) (h2 : CacheOk U c2) (page : PdfPage)
    (hp : ∀ res, page.resources = some res → ∀ f, Uses res f → U f) :
    ResRel (fun p q => p.2 = q.2 ∧ CacheOk U p.1 ∧ CacheOk U q.1) (renderPage objects depth crop c1 page)
      (renderPage objects depth crop c2 page) := by
  unfold renderPage
  cases page.ops with
  | none => trivial
  | some ops =>
    simp only [Res.ofOption, Res.bind_ok]
    refine ResRel.bind (runWith_alike hU (fun a b name h => handleXObject_alike hU hforms depth h name) ops
      (a := .new c1 (.new crop) page.resources) (b := .new c2 (.new crop) page.resources)
      ⟨rfl, h1, h2, hp⟩) ?_
    intro x y h
    exact ⟨by rw [h.same]; rfl, h.left, h.right⟩

end alike

/-! ### Bold fonts -/

theorem startsWith_isPrefix (s p : Str) : startsWith s p = true ↔ p <+: s := by
  induction p generalizing s with
  | nil => cases s <;> simp [startsWith]
  | cons c p ih =>
    cases s with
    | nil => simp [startsWith]
    | cons d s =>
      rw [startsWith, Bool.and_eq_true, ih, List.cons_prefix_cons]
      simp only [decide_eq_true_eq]
      exact and_congr_left fun _ => eq_comm

theorem containsStr_iff (s p : Str) : containsStr s p = true ↔ p <:+: s := by
  induction s with
  | nil => cases p <;> simp [containsStr]
  | cons c s ih =>
    rw [containsStr, Bool.or_eq_true, ih, startsWith_isPrefix, List.infix_cons_iff]

theorem processBase_keeps {f f' : FastFont} {b : BaseEncoding} (h : f.processBaseEncoding b = .ok f') :
    f'.widths = f.widths ∧ f'.name = f.name ∧ f'.isCid = f.isCid := by
  cases b with
  | table t => cases h; exact addAll_keeps ..
  | winAnsi t => cases h; exact addAll_keeps ..
  | identityH => cases h; exact ⟨rfl, rfl, rfl⟩
  | none => cases h; exact ⟨rfl, rfl, rfl⟩
  | unsupported => cases h

theorem convert_keeps {o : FontObj} {f : FastFont} (h : FastFont.convert o = .ok f) :
    o.widths = some f.widths ∧ f.name = o.name ∧ f.isCid = o.isCid := by
  simp only [FastFont.convert, Res.bind_eq_ok, FastFont.processEncoding] at h
  obtain ⟨w, hw, enc, henc, f2, ⟨f1, h1, h2⟩, h3⟩ := h
  cases h2
  have k1 := processBase_keeps h1
  have k2 := addAll_keeps f1 (enc.differences.map fun d => (d.1, d.2.getD []))
  have k3 : f.widths = (f1.addAll (enc.differences.map fun d => (d.1, d.2.getD []))).widths ∧
      f.name = (f1.addAll (enc.differences.map fun d => (d.1, d.2.getD []))).name ∧
      f.isCid = (f1.addAll (enc.differences.map fun d => (d.1, d.2.getD []))).isCid := by
    unfold FastFont.processUnicodeMap at h3
    split at h3
    · cases h3; exact ⟨rfl, rfl, rfl⟩
    · cases h3
    · cases h3; exact addAll_keeps ..
  have hw : o.widths = some w := by
    cases ho : o.widths with
    | none => rw [ho] at hw; cases hw
    | some x => rw [ho] at hw; cases hw; rfl
  refine ⟨?_, ?_, ?_⟩
  · rw [hw, k3.1, k2.1, k1.1]
  · rw [k3.2.1, k2.2.1, k1.2.1]
  · rw [k3.2.2, k2.2.2, k1.2.2]

theorem fontChanged_bold {o : FontObj} {f : FastFont} (h : FastFont.convert o = .ok f) (k : Collector) :
    (k.fontChanged f).fontIsBold = true ↔ NamedBold o.name := by
  have hn := (convert_keeps h).2.1
  simp only [Collector.fontChanged, hn, NamedBold]
  cases o.name with
  | none => simp
  | some n => simp [containsStr_iff]

/-- A font of the file and what was made of it. -/
def Made : Option FastFont → Option FontObj → Prop
  | none, none => True
  | some ff, some o => FastFont.convert o = .ok ff
  | _, _ => False

/-- The fonts in effect and saved are those of the specification, and what the collector knows about the one in effect
(whether it is bold, and the width of its space) is right. -/
structure Tracks (Q : Bool → Rat → Option FontObj → Prop) (U : FontRef → Prop) (res : Resources) (r : Renderer)
    (p : Option FontObj × List (Option FontObj)) : Prop where
  resources : r.resources = some res
  cache : CacheOk U r.cache
  font : Made r.state.font p.1
  saved : List.Forall₂ (fun (s : TextState) o => Made s.font o) r.stack p.2
  known : Q r.collector.fontIsBold r.collector.widthOfSpace p.1

theorem renderCid_bold {r r' : Renderer} {cid : Nat} (h : r.renderCid cid = .ok r') :
    (r'.collector.fontIsBold = r.collector.fontIsBold ∧ r'.collector.widthOfSpace = r.collector.widthOfSpace) ∧
    ∃ new, r'.collector.chars = r.collector.chars ++ new ∧ ∀ c ∈ new, c.bold = r.collector.fontIsBold := by
  simp only [Renderer.renderCid, Res.bind_eq_ok] at h
  obtain ⟨f, -, h⟩ := h
  cases ha : r.actual with
  | some a => simp only [ha] at h; cases h; exact ⟨⟨rfl, rfl⟩, [], by simp, by simp⟩
  | none =>
    simp only [ha, Res.bind_eq_ok, Collector.renderCid] at h
    obtain ⟨p, ⟨k, hk, e⟩, h⟩ := h
    cases e
    cases h
    obtain ⟨t, -, hg⟩ := renderUnicode_gains hk
    refine ⟨by rw [hg.eq]; exact ⟨rfl, rfl⟩, _, by rw [hg.eq], ?_⟩
    intro c hc
    simp only [seen, evenly, List.mem_filter, List.mem_map] at hc
    obtain ⟨⟨d, ⟨q, hq, hd⟩, rfl⟩, -⟩ := hc
    rw [← hd]

/-- New characters are as bold as the collector's font, which stays. -/
def BoldAs (k k' : Collector) : Prop :=
  (k'.fontIsBold = k.fontIsBold ∧ k'.widthOfSpace = k.widthOfSpace) ∧ ∃ new, k'.chars = k.chars ++ new ∧ ∀ c ∈ new, c.bold = k.fontIsBold

theorem BoldAs.refl (k : Collector) : BoldAs k k := ⟨⟨rfl, rfl⟩, [], by simp, by simp⟩

theorem BoldAs.trans {a b c : Collector} (h1 : BoldAs a b) (h2 : BoldAs b c) : BoldAs a c := by
  obtain ⟨f1, n1, e1, a1⟩ := h1
  obtain ⟨f2, n2, e2, a2⟩ := h2
  refine ⟨⟨f2.1.trans f1.1, f2.2.trans f1.2⟩, n1 ++ n2, by rw [e2, e1, List.append_assoc], ?_⟩
  intro x hx
  rcases List.mem_append.1 hx with hx | hx
  · exact a1 x hx
  · rw [a2 x hx, f1.1]

theorem evenly_bold {b : CropBox} {x y w sp : Rat} {bold : Bool} {t : Str} {c : PChar}
    (h : c ∈ seen b (evenly x y w sp bold t)) : c.bold = bold := by
  simp only [seen, evenly, List.mem_filter, List.mem_map] at h
  obtain ⟨⟨d, ⟨q, hq, hd⟩, rfl⟩, -⟩ := h
  rw [← hd]

theorem renderMultiple_bold (k : Collector) (x y w sc : Rat) (s : Str) : BoldAs k (k.renderMultiple x y w sc s) := by
  have hg := renderMultiple_gains k x y w sc s
  refine ⟨by rw [hg.eq]; exact ⟨rfl, rfl⟩, _, by rw [hg.eq], ?_⟩
  intro c hc
  exact evenly_bold hc

theorem renderCids_bold {cids : List Nat} {r r' : Renderer} (h : r.renderCids cids = .ok r') :
    BoldAs r.collector r'.collector := by
  induction cids generalizing r with
  | nil => cases h; exact BoldAs.refl _
  | cons cid cids ih =>
    simp only [Renderer.renderCids, Res.bind_eq_ok] at h
    obtain ⟨r1, h1, h2⟩ := h
    exact BoldAs.trans (renderCid_bold h1) (ih h2)

theorem renderText_bold {bytes : List UInt8} {r r' : Renderer} (h : r.renderText bytes = .ok r') :
    BoldAs r.collector r'.collector := by
  simp only [Renderer.renderText, Res.bind_eq_ok] at h
  obtain ⟨f, -, h⟩ := h
  exact renderCids_bold h

theorem drawAdjusted_bold {items : List Adjusted} {r r' : Renderer} (h : r.drawAdjusted items = .ok r') :
    BoldAs r.collector r'.collector := by
  induction items generalizing r with
  | nil => cases h; exact BoldAs.refl _
  | cons i items ih =>
    cases i with
    | text bytes =>
      simp only [Renderer.drawAdjusted, Res.bind_eq_ok] at h
      obtain ⟨r1, h1, h2⟩ := h
      exact (renderText_bold h1).trans (ih h2)
    | spacing delta =>
      simp only [Renderer.drawAdjusted] at h
      have := ih h
      exact this

theorem endMarked_bold {r r' : Renderer} (h : r.endMarked = .ok r') : BoldAs r.collector r'.collector := by
  simp only [Renderer.endMarked] at h
  split at h
  · cases h
  · cases h; exact BoldAs.refl _
  · cases h
    show BoldAs _ (match r.actual with | some a => a.finish r.collector | none => r.collector)
    split
    · unfold ActualText.finish
      split
      · exact renderMultiple_bold ..
      · exact BoldAs.refl _
    · exact BoldAs.refl _

/-- Simple operations that set no font. -/
theorem handleSimple_bold {op : Op} (ho : setsFont op = false) {r r' : Renderer}
    (h : r.handleSimple op = .ok r') : BoldAs r.collector r'.collector := by
  cases op with
  | textFont => cases ho
  | graphicsState => cases ho
  | textDraw bytes => exact renderText_bold h
  | textDrawAdjusted items => exact drawAdjusted_bold h
  | endMarkedContent => exact endMarked_bold h
  | beginMarkedContent tag property =>
    cases h
    unfold Renderer.beginMarked
    split <;> exact BoldAs.refl _
  | restore => rw [restore_sees h]; exact BoldAs.refl _
  | _ => cases h; exact BoldAs.refl _

/-- What the collector learns from a font. -/
def Learns (Q : Bool → Rat → Option FontObj → Prop) : Prop :=
  ∀ (o : FontObj) (f : FastFont) (k : Collector), FastFont.convert o = .ok f →
    Q (k.fontChanged f).fontIsBold (k.fontChanged f).widthOfSpace (some o)

theorem setFont_tracks {Q : Bool → Rat → Option FontObj → Prop} (hQ : Learns Q) {U : FontRef → Prop} (hU : ∀ f g, U f → U g → f.address = g.address → f.font = g.font)
    {res : Resources} {r r' : Renderer} {p : Option FontObj × List (Option FontObj)} (ht : Tracks Q U res r p)
    {f : FontRef} (hf : U f) {size : Rat} (h : r.setFont f size = .ok r') :
    Tracks Q U res r' (some f.font, p.2) ∧ r'.collector.chars = r.collector.chars := by
  simp only [Renderer.setFont, Res.bind_eq_ok] at h
  obtain ⟨⟨c, ff⟩, hg, h⟩ := h
  cases h
  have := get_ok hU ht.cache hf
  rw [hg] at this
  cases hc : FastFont.convert f.font with
  | err => rw [hc] at this; exact this.elim
  | panic => rw [hc] at this; exact this.elim
  | ok gg =>
    rw [hc] at this
    obtain ⟨e, hok⟩ := this
    simp only at e
    subst e
    exact ⟨⟨ht.resources, hok, hc, ht.saved, hQ _ _ _ hc⟩, rfl⟩

/-- One simple operation: the fonts stay tracked, and what it draws is as bold as the font before it. -/
theorem handleSimple_tracks {Q : Bool → Rat → Option FontObj → Prop} (hQ : Learns Q) {U : FontRef → Prop}
    (hU : ∀ f g, U f → U g → f.address = g.address → f.font = g.font) {res : Resources}
    (hres : ∀ f, Uses res f → U f) {r r' : Renderer} {p : Option FontObj × List (Option FontObj)}
    (ht : Tracks Q U res r p) {op : Op} (hx : ∀ name, op ≠ .xObject name)
    (hr : op = .restore → ∀ b w, Q b w p.1 → Q b w (fontsAfter res p [op]).1)
    (h : r.handleSimple op = .ok r') :
    Tracks Q U res r' (fontsAfter res p [op]) ∧
      ∃ new, r'.collector.chars = r.collector.chars ++ new ∧ ∀ c ∈ new, Q c.bold r.collector.widthOfSpace p.1 := by
  obtain ⟨font, saved⟩ := p
  by_cases ho : setsFont op = true
  · cases op with
    | textFont name size =>
      simp only [Renderer.handleSimple, Renderer.textFont, ht.resources, Res.ofOption, Res.bind_ok,
        Res.bind_eq_ok] at h
      obtain ⟨f, hf, h⟩ := h
      cases hn : res.fonts name with
      | none => rw [hn] at hf; cases hf
      | some g =>
        rw [hn] at hf
        cases hf
        obtain ⟨h1, h2⟩ := setFont_tracks hQ hU ht (hres _ (.inl ⟨name, hn⟩)) h
        refine ⟨?_, [], by simp [h2], by simp⟩
        simpa [fontsAfter, hn] using h1
    | graphicsState name =>
      simp only [Renderer.handleSimple, Renderer.graphicsState, ht.resources, Res.ofOption, Res.bind_ok,
        Res.bind_eq_ok] at h
      obtain ⟨g, hg, h⟩ := h
      cases hn : res.graphicsStates name with
      | none => rw [hn] at hg; cases hg
      | some g' =>
        rw [hn] at hg
        cases hg
        cases g with
        | none =>
          cases h
          refine ⟨?_, [], by simp, by simp⟩
          simpa [fontsAfter, hn] using ht
        | some q =>
          obtain ⟨f, size⟩ := q
          obtain ⟨h1, h2⟩ := setFont_tracks hQ hU ht (hres _ (.inr ⟨name, size, hn⟩)) h
          refine ⟨?_, [], by simp [h2], by simp⟩
          simpa [fontsAfter, hn] using h1
    | _ => cases ho
  · have ho : setsFont op = false := by simpa using ho
    have hl := handleSimple_leaves ho h
    obtain ⟨hb, new, e, hnew⟩ := handleSimple_bold ho h
    have hbold : Q r'.collector.fontIsBold r'.collector.widthOfSpace font := by rw [hb.1, hb.2]; exact ht.known
    refine ⟨?_, new, e, fun c hc => by rw [hnew c hc]; exact ht.known⟩
    have hres' : r'.resources = some res := hl.resources.trans ht.resources
    have hcache : CacheOk U r'.cache := by rw [hl.cache]; exact ht.cache
    have keep : r'.state.font = r.state.font → r'.stack = r.stack → Tracks Q U res r' (font, saved) :=
      fun a b => ⟨hres', hcache, by rw [a]; exact ht.font, by rw [b]; exact ht.saved, hbold⟩
    cases op with
    | xObject name => exact absurd rfl (hx name)
    | textFont => cases ho
    | graphicsState => cases ho
    | textDraw bytes => exact keep (renderText_leaves h).2.1 (renderText_leaves h).2.2.1
    | textDrawAdjusted items => exact keep (drawAdjusted_leaves h).2.1 (drawAdjusted_leaves h).2.2.1
    | save =>
      cases h
      exact ⟨hres', hcache, ht.font, List.Forall₂.cons ht.font ht.saved, hbold⟩
    | restore =>
      have hsaved := ht.saved
      simp only [Renderer.handleSimple, Renderer.restore] at h
      cases hst : r.stack with
      | nil => rw [hst] at h; cases h
      | cons s st =>
        rw [hst] at h hsaved
        cases h
        cases saved with
        | nil => cases hsaved
        | cons o os =>
          cases hsaved with
          | cons h1 h2 => exact ⟨hres', hcache, h1, h2, hr rfl _ _ hbold⟩
    | beginMarkedContent tag property =>
      cases h
      unfold Renderer.beginMarked at keep ⊢
      split at keep <;> exact keep rfl rfl
    | endMarkedContent =>
      simp only [Renderer.handleSimple, Renderer.endMarked] at h
      split at h
      · cases h
      · cases h; exact keep rfl rfl
      · cases h; exact keep rfl rfl
    | _ => cases h; exact keep rfl rfl

theorem fontsAfter_append (res : Resources) (p : Option FontObj × List (Option FontObj)) (a b : List Op) :
    fontsAfter res p (a ++ b) = fontsAfter res (fontsAfter res p a) b := by
  induction a generalizing p with
  | nil => simp [fontsAfter]
  | cons op a ih =>
    obtain ⟨font, saved⟩ := p
    simp only [List.cons_append, fontsAfter]
    exact ih _

theorem run_tracks {Q : Bool → Rat → Option FontObj → Prop} (hQ : Learns Q) {U : FontRef → Prop} (hU : ∀ f g, U f → U g → f.address = g.address → f.font = g.font)
    {res : Resources} (hres : ∀ f, Uses res f → U f) {x : Renderer → Str → Res Renderer} {ops : List Op}
    {r r' : Renderer} {p : Option FontObj × List (Option FontObj)} (ht : Tracks Q U res r p)
    (hx : ∀ name, Op.xObject name ∉ ops)
    (hr : ∀ a b, ops = a ++ .restore :: b →
      ∀ b w, Q b w (fontsAfter res p a).1 → Q b w (fontsAfter res p (a ++ [.restore])).1)
    (h : r.runWith x ops = .ok r') : Tracks Q U res r' (fontsAfter res p ops) := by
  induction ops generalizing r p with
  | nil => cases h; simpa [fontsAfter] using ht
  | cons op ops ih =>
    simp only [Renderer.runWith, Res.bind_eq_ok] at h
    obtain ⟨r1, h1, h2⟩ := h
    have hx1 : ∀ name, op ≠ .xObject name := fun name e => hx name (by simp [e])
    have h1 : r.handleSimple op = .ok r1 := by
      cases op with
      | xObject name => exact absurd rfl (hx1 name)
      | _ => exact h1
    have ht1 := (handleSimple_tracks hQ hU hres ht hx1 (by
      rintro rfl
      have := hr [] ops rfl
      simpa [fontsAfter] using this) h1).1
    have := ih ht1 (fun name hm => hx name (List.mem_cons_of_mem _ hm)) (by
      intro a b e
      have := hr (op :: a) b (by rw [e]; rfl)
      rw [← fontsAfter_append, ← fontsAfter_append]
      simpa using this) h2
    rwa [← fontsAfter_append] at this

end HunLaw.Pdf
