import Verif.Lemmas.OutputFits
import Verif.Props.Semantic

/-!
What the parser, the annotator and the converter of amendments give can be shown, as far as the references are in
their texts.
-/

set_option autoImplicit false

namespace HunLaw.Output

open HunLaw.Spec HunLaw.Semantic HunLaw.BlockAmend

/-! ### Phrases -/

theorem structuralId_good {x : Grammar.StructuralId} {e : StructuralRefParent} (h : convertStructuralId x = some e) :
    GoodPlace e.toElement := by
  cases x with
  | chapter s =>
    simp only [convertStructuralId, Option.bind_eq_bind, Option.bind_eq_some_iff, Option.some.injEq] at h
    obtain ⟨i, h, rfl⟩ := h
    exact ⟨s, h⟩
  | part s =>
    simp only [convertStructuralId, Option.bind_eq_bind, Option.bind_eq_some_iff, Option.some.injEq] at h
    obtain ⟨i, h, rfl⟩ := h
    exact ⟨s, h⟩
  | title s =>
    simp only [convertStructuralId, Option.bind_eq_bind, Option.bind_eq_some_iff, Option.some.injEq] at h
    obtain ⟨i, h, rfl⟩ := h
    exact ⟨s, h⟩
  | subtitleTitle s =>
    simp only [convertStructuralId, Option.some.injEq] at h
    subst h
    trivial
  | subtitle x =>
    cases x <;>
      simp only [convertStructuralId, convertSubtitlePart, Option.bind_eq_bind, Option.bind_eq_some_iff,
        Option.some.injEq] at h
    · obtain ⟨i, -, rfl⟩ := h
      trivial
    · obtain ⟨i, -, j, -, rfl⟩ := h
      trivial

theorem phrase_good {c : Cache} {root : Grammar.Root} {p : Option SpecialPhrase}
    (h : extractSpecialPhrase c root = some p) : GoodPhrase p := by
  cases root with
  | simple x =>
    simp only [extractSpecialPhrase, Option.some.injEq] at h
    subst h
    trivial
  | blockAmendment x =>
    simp only [extractSpecialPhrase, convertBlockAmendment, Option.bind_eq_bind, Option.bind_eq_some_iff,
      Option.some.injEq] at h
    obtain ⟨_, ⟨_, -, _, -, h⟩, rfl⟩ := h
    unfold blockAmendmentPhrase at h
    split at h
    · simp only [Option.bind_eq_bind, Option.bind_eq_some_iff, Option.some.injEq] at h
      obtain ⟨_, -, rfl⟩ := h
      intro h
      cases h
    · cases h
      trivial
  | blockAmendmentStructural x =>
    simp only [extractSpecialPhrase, convertStructuralBlockAmendment, convertStructural, Option.bind_eq_bind,
      Option.bind_eq_some_iff, Option.some.injEq] at h
    obtain ⟨_, ⟨_, -, _, -, _, ⟨_, -, e, he, rfl⟩, r, hr, rfl⟩, rfl⟩ := h
    intro _
    have : r.element = e.toElement := by
      unfold withBook at hr
      split at hr
      · cases hr
        rfl
      · simp only [Option.bind_eq_bind, Option.bind_eq_some_iff, Option.some.injEq] at hr
        obtain ⟨_, -, rfl⟩ := hr
        rfl
    rw [this]
    exact structuralId_good he
  | blockAmendmentWithSubtitle x =>
    simp only [extractSpecialPhrase, convertSubtitleBlockAmendment, Option.bind_eq_bind, Option.bind_eq_some_iff,
      Option.some.injEq] at h
    obtain ⟨_, ⟨_, -, _, -, _, -, rfl⟩, rfl⟩ := h
    intro h
    cases h
  | enforcementDate x =>
    simp only [extractSpecialPhrase, Option.bind_eq_bind, Option.bind_eq_some_iff, Option.some.injEq] at h
    obtain ⟨_, -, rfl⟩ := h
    trivial
  | repeal x =>
    simp only [extractSpecialPhrase, Option.bind_eq_bind, Option.bind_eq_some_iff, Option.some.injEq] at h
    obtain ⟨q, h, rfl⟩ := h
    unfold convertRepeal at h
    split at h <;>
      · simp only [Option.bind_eq_bind, Option.bind_eq_some_iff, Option.some.injEq] at h
        obtain ⟨_, -, rfl⟩ := h
        trivial
  | textAmendment x =>
    simp only [extractSpecialPhrase, Option.bind_eq_bind, Option.bind_eq_some_iff, Option.some.injEq] at h
    obtain ⟨_, -, rfl⟩ := h
    trivial

theorem readText_good {c : Cache} {r : Spec.Reading} {x : SemanticInfo × Cache} (h : readText c r = some x) :
    GoodPhrase x.1.specialPhrase := by
  simp only [readText_eq, Option.bind_eq_bind, Option.bind_eq_some_iff, Option.some.injEq] at h
  obtain ⟨_, -, _, -, _, -, p, hp, rfl⟩ := h
  have := phrase_good hp
  simp only
  split
  · rcases p with _ | p
    · trivial
    · cases p <;> first | trivial | exact this
  · exact this

theorem readTexts_good {l : List Spec.Reading} : ∀ {c c' : Cache} {i : List SemanticInfo},
    readTexts c l = some (i, c') → ∀ x ∈ i, GoodPhrase x.specialPhrase := by
  induction l with
  | nil =>
    intro c c' i h
    cases h
    simp
  | cons r l ih =>
    intro c c' i h
    simp only [readTexts, Option.bind_eq_bind, Option.bind_eq_some_iff, Option.some.injEq, Prod.mk.injEq] at h
    obtain ⟨x, hx, y, hy, rfl, rfl⟩ := h
    intro z hz
    rcases List.mem_cons.1 hz with rfl | hz
    · exact readText_good hx
    · exact ih hy z hz

/-! ### References -/

/-- The references are in the text they are about. -/
def GoodReading (x : Spec.Reading × SemanticInfo) : Prop :=
  RangesInOrder x.1.text 0 (ranges x.2.outgoingReferences)

theorem element_fit {I C : Type} {inner : List Ancestor → C → List (Spec.Reading × SemanticInfo)} {P : C → Prop}
    (hP : ∀ l c, (∀ x ∈ inner l c, GoodReading x) → P c) {l : List Ancestor} {e : SAE I C}
    (h : ∀ x ∈ elementReadings inner l e, GoodReading x) : ReferencesFit e P := by
  unfold elementReadings at h
  unfold ReferencesFit
  split at h
  · rename_i hb
    rw [hb]
    exact h _ (List.mem_singleton_self _)
  · rename_i hb
    rw [hb]
    exact ⟨h _ (List.mem_cons_self ..), hP _ _ fun x hx => h x (List.mem_cons_of_mem _ hx)⟩

theorem elements_fit {I C : Type} {inner : List Ancestor → C → List (Spec.Reading × SemanticInfo)} {P : C → Prop}
    (hP : ∀ l c, (∀ x ∈ inner l c, GoodReading x) → P c) {l : List Ancestor} {es : List (SAE I C)}
    (h : ∀ x ∈ es.flatMap (elementReadings inner l), GoodReading x) : ∀ e ∈ es, ReferencesFit e P :=
  fun e he => element_fit hP (l := l) fun x hx => h x (List.mem_flatMap.2 ⟨e, he, hx⟩)

theorem alphabeticPoint_fit (l : List Ancestor) (c : AlphabeticPointChildren)
    (h : ∀ x ∈ alphabeticPointReadings l c, GoodReading x) : AlphabeticPointChildrenFit c := by
  cases c with
  | alphabeticSubpoint es => exact elements_fit (P := fun _ => True) (fun _ _ _ => trivial) h
  | numericSubpoint es => exact elements_fit (P := fun _ => True) (fun _ _ _ => trivial) h

theorem numericPoint_fit (l : List Ancestor) (c : NumericPointChildren)
    (h : ∀ x ∈ numericPointReadings l c, GoodReading x) : NumericPointChildrenFit c := by
  cases c with
  | alphabeticSubpoint es => exact elements_fit (P := fun _ => True) (fun _ _ _ => trivial) h

theorem paragraph_fit (l : List Ancestor) (c : ParagraphChildren Empty)
    (h : ∀ x ∈ paragraphReadings l c, GoodReading x) : ParagraphChildrenFit NoAmendmentFits c := by
  cases c with
  | alphabeticPoint es => exact elements_fit alphabeticPoint_fit h
  | numericPoint es => exact elements_fit numericPoint_fit h
  | quotedBlock _ => trivial
  | amendment a => exact nomatch a

theorem act_fit {a : Act Empty} (hs : ∀ e, .structuralElement e ∈ a.children → e.headerString ≠ none)
    (h : ∀ x ∈ actReadings a, GoodReading x) : ∀ c ∈ a.children, ActChildFits NoAmendmentFits c := by
  intro c hc
  cases c with
  | structuralElement e => exact hs e hc
  | subtitle s => trivial
  | article x =>
    refine elements_fit paragraph_fit (l := []) fun y hy => h y ?_
    refine List.mem_flatMap.2 ⟨x, ?_, hy⟩
    unfold Act.articles
    exact List.mem_filterMap.2 ⟨_, hc, rfl⟩

/-! ### The result of the parser as an act that may have amendments -/

theorem lift_paragraph {p : Paragraph Empty} (h : ParagraphFits NoAmendmentFits p) :
    ParagraphFits AmendmentFits p.lift := by
  rcases p with ⟨id, body, info, change⟩
  cases body with
  | text t => exact h
  | children i c w =>
    refine ⟨h.1, ?_⟩
    have h2 := h.2
    cases c with
    | alphabeticPoint l => exact h2
    | numericPoint l => exact h2
    | quotedBlock l => trivial
    | amendment a => exact nomatch a

theorem lift_child {c : ActChild Empty} (h : ActChildFits NoAmendmentFits c) : ActChildFits AmendmentFits c.lift := by
  cases c with
  | structuralElement e => exact h
  | subtitle s => trivial
  | article a =>
    intro p hp
    obtain ⟨q, hq, rfl⟩ := List.mem_map.1 hp
    exact lift_paragraph (h q hq)

/-! ### Amendments -/

theorem article_fit {upper : Char → Bool} {a : Article Amendment}
    (h : ∀ p ∈ a.children, ParagraphFits AmendmentFits p ∧ GoodPhrase p.semanticInfo.specialPhrase) :
    ∀ p ∈ (BlockAmend.article upper a).1.children, ParagraphFits AmendmentFits p := by
  intro p hp
  obtain ⟨q, hq, rfl | rfl⟩ := mem_tryForEach hp
  · exact (h _ hq).1
  · exact paragraph_fits (h q hq).1 (h q hq).2

theorem converted_fit {upper : Char → Bool} {a : Act Amendment}
    (h : ∀ c ∈ a.children, ActChildFits AmendmentFits c)
    (hp : ∀ x ∈ a.articles, ∀ p ∈ x.children, GoodPhrase p.semanticInfo.specialPhrase) :
    ∀ c ∈ (BlockAmend.act upper a).1.children, ActChildFits AmendmentFits c := by
  intro c hc
  obtain ⟨d, hd, rfl | rfl⟩ := mem_tryForEach hc
  · exact h _ hd
  · have := h d hd
    cases d with
    | structuralElement e => exact this
    | subtitle s => trivial
    | article x =>
      refine article_fit fun p hx => ⟨this p hx, hp x ?_ p hx⟩
      unfold Act.articles
      exact List.mem_filterMap.2 ⟨_, hd, rfl⟩

theorem paragraphs_good {a : Act Empty} (h : ∀ x ∈ actReadings a, GoodPhrase x.2.specialPhrase) :
    ∀ x ∈ a.lift.articles, ∀ p ∈ x.children, GoodPhrase p.semanticInfo.specialPhrase := by
  intro x hx p hp
  unfold Act.articles Act.lift at hx
  obtain ⟨c, hc, h1⟩ := List.mem_filterMap.1 hx
  obtain ⟨d, hd, rfl⟩ := List.mem_map.1 hc
  cases d with
  | structuralElement e => cases h1
  | subtitle s => cases h1
  | article y =>
    cases h1
    obtain ⟨q, hq, rfl⟩ := List.mem_map.1 hp
    have hy : ∀ z ∈ elementReadings paragraphReadings [] q, GoodPhrase z.2.specialPhrase := fun z hz =>
      h z (List.mem_flatMap.2 ⟨y, List.mem_filterMap.2 ⟨_, hd, rfl⟩, List.mem_flatMap.2 ⟨q, hq, hz⟩⟩)
    unfold elementReadings at hy
    split at hy
    · exact hy _ (List.mem_singleton_self _)
    · exact hy _ (List.mem_cons_self ..)

end HunLaw.Output
