import Verif.Lemmas.Output
import Verif.Lemmas.BlockAmendment
import Verif.Lemmas.MkAct
import Verif.Props.Identifiers
import Verif.Props.Structure

/-!
Lemmas about what the parser gives: new elements have no references, and headers can be written out.
-/

set_option autoImplicit false

namespace HunLaw.Output

open HunLaw HunLaw.Spec

section
variable {I C : Type} {P : C → Prop}

theorem fits_default {id : I} {b : SAEBody C} (h : match b with | .text _ => True | .children _ c _ => P c) :
    ReferencesFit (SAE.mk id b .default none) P := by
  unfold ReferencesFit
  cases b with
  | text t => exact trivial
  | children i c w => exact ⟨trivial, h⟩

theorem parseFrom_fits {p : SAEParser I C}
    (hp : ∀ id prev ls params ex, p.tryExtractChildren id prev ls params = .ok ex → P ex.elements)
    (id : I) (context : ParsingContext) (mode : WrapUpMode) (body : List Line) (ls : List Line) :
    ∀ (q : QuoteCheck) (prev : Option Line) (intro : Str) (r : ParseResult I C),
      p.parseFrom id context mode body q prev intro ls = .ok r → ReferencesFit r.element P := by
  induction ls with
  | nil =>
    intro q prev intro r h
    simp only [SAEParser.parseFrom, Res.bind_eq_ok, Res.ok.injEq] at h
    obtain ⟨-, -, rfl⟩ := h
    unfold SAEParser.withoutChildren
    split
    · split <;> exact fits_default trivial
    · exact fits_default trivial
  | cons l ls ih =>
    intro q prev intro r h
    simp only [SAEParser.parseFrom, Res.bind_eq_ok] at h
    obtain ⟨q', -, h⟩ := h
    split at h
    · exact ih _ _ _ _ h
    · split at h
      · rename_i ex hex
        simp only [Res.ok.injEq] at h
        subst h
        unfold SAEParser.withChildren
        split <;> exact fits_default (hp _ _ _ _ _ hex)
      · exact ih _ _ _ _ h
      · cases h

variable [DecidableEq I] [IdentifierCommon I]

theorem extractLast_fits {p : SAEParser I C}
    (hp : ∀ id prev ls params ex, p.tryExtractChildren id prev ls params = .ok ex → P ex.elements)
    {params : SAEParams} {headerIndent : Rat} {elements : List (SAE I C)} {id : I} {body : List Line}
    {r : Extracted (List (SAE I C))} (he : ∀ e ∈ elements, ReferencesFit e P)
    (h : p.extractLast params headerIndent elements id body = .ok r) : ∀ e ∈ r.elements, ReferencesFit e P := by
  have key : ∀ (last : SAE I C), ReferencesFit last P → ∀ e ∈ elements ++ [last], ReferencesFit e P := by
    intro last hl e hm
    rcases List.mem_append.1 hm with hm | hm
    · exact he e hm
    · rw [List.mem_singleton.1 hm]
      exact hl
  unfold SAEParser.extractLast at h
  split at h
  · split at h
    · split at h <;> simp only [Res.bind_eq_ok, Res.ok.injEq] at h <;> obtain ⟨last, h1, rfl⟩ := h <;>
        exact key _ (parseFrom_fits hp _ _ _ _ _ _ _ _ _ h1)
    · simp only [Res.bind_eq_ok] at h
      obtain ⟨last, h1, h⟩ := h
      simp only [Res.ok.injEq] at h
      subst h
      exact key _ (parseFrom_fits hp _ _ _ _ _ _ _ _ _ h1)
  · simp only [Res.bind_eq_ok, Res.ok.injEq] at h
    obtain ⟨last, h1, rfl⟩ := h
    exact key _ (parseFrom_fits hp _ _ _ _ _ _ _ _ _ h1)

theorem extractFrom_fits {p : SAEParser I C}
    (hp : ∀ id prev ls params ex, p.tryExtractChildren id prev ls params = .ok ex → P ex.elements)
    {params : SAEParams} {headerIndent : Rat} (ls : List Line) : ∀ (q : QuoteCheck) (elements : List (SAE I C)) (id : I)
    (body : List Line) (r : Extracted (List (SAE I C))), (∀ e ∈ elements, ReferencesFit e P) →
    p.extractFrom params headerIndent q elements id body ls = .ok r → ∀ e ∈ r.elements, ReferencesFit e P := by
  induction ls with
  | nil =>
    intro q elements id body r he h
    simp only [SAEParser.extractFrom, SAEParser.extractEnd, Res.bind_eq_ok] at h
    obtain ⟨-, -, r', h1, h2⟩ := h
    split at h2
    · cases h2
    · simp only [Res.ok.injEq] at h2
      subst h2
      exact extractLast_fits hp he h1
  | cons l ls ih =>
    intro q elements id body r he h
    simp only [SAEParser.extractFrom, Res.bind_eq_ok] at h
    obtain ⟨q', -, x, -, h⟩ := h
    split at h
    · simp only [Res.bind_eq_ok] at h
      obtain ⟨e, h1, h⟩ := h
      refine ih _ _ _ _ _ (fun e' hm => ?_) h
      rcases List.mem_append.1 hm with hm | hm
      · exact he e' hm
      · rw [List.mem_singleton.1 hm]
        exact parseFrom_fits hp _ _ _ _ _ _ _ _ _ h1
    · exact ih _ _ _ _ _ he h

theorem extractMultiple_fits {p : SAEParser I C}
    (hp : ∀ id prev ls params ex, p.tryExtractChildren id prev ls params = .ok ex → P ex.elements)
    {ls : List Line} {params : SAEParams} {expected : Option I} {r : Extracted (List (SAE I C))}
    (h : p.extractMultiple ls params expected = .ok r) : ∀ e ∈ r.elements, ReferencesFit e P := by
  unfold SAEParser.extractMultiple at h
  split at h
  · cases h
  · simp only [Res.bind_eq_ok] at h
    obtain ⟨x, -, h⟩ := h
    split at h
    · cases h
    · split at h
      · simp only [Res.bind_eq_ok] at h
        obtain ⟨q, -, h⟩ := h
        exact extractFrom_fits hp _ _ _ _ _ _ (by simp) h
      · cases h

end

theorem map_extracted {X Y : Type} {f : X → Y} {x : Res (Extracted X)} {r : Extracted Y}
    (h : Res.map (Extracted.map f) x = .ok r) : ∃ e, x = .ok e ∧ r.elements = f e.elements := by
  cases x with
  | ok e =>
    simp only [Res.map, Res.ok.injEq] at h
    exact ⟨e, rfl, by rw [← h]; rfl⟩
  | err => simp [Res.map] at h
  | panic => simp [Res.map] at h

theorem orElse_ok {X : Type} {x : Res X} {f : Unit → Res X} {r : X} (h : x.orElse f = .ok r) : x = .ok r ∨ f () = .ok r := by
  cases x with
  | ok e => exact .inl h
  | err => exact .inr h
  | panic => simp [Res.orElse] at h

theorem alphabeticSubpointParser_fits (pfx : Option HunChar) :
    ∀ id prev ls params ex, (alphabeticSubpointParser pfx).tryExtractChildren id prev ls params = .ok ex →
      (fun _ => True) ex.elements := fun _ _ _ _ _ _ => trivial

theorem numericSubpointParser_fits :
    ∀ id prev ls params ex, numericSubpointParser.tryExtractChildren id prev ls params = .ok ex →
      (fun _ => True) ex.elements := fun _ _ _ _ _ _ => trivial

theorem alphabeticPointParser_fits :
    ∀ id prev ls params ex, alphabeticPointParser.tryExtractChildren id prev ls params = .ok ex →
      AlphabeticPointChildrenFit ex.elements := by
  intro id prev ls params ex h
  simp only [alphabeticPointParser] at h
  rcases orElse_ok h with h | h
  · obtain ⟨e, h1, h2⟩ := map_extracted h
    rw [h2]
    exact extractMultiple_fits numericSubpointParser_fits h1
  · obtain ⟨e, h1, h2⟩ := map_extracted h
    rw [h2]
    exact extractMultiple_fits (alphabeticSubpointParser_fits _) h1

theorem numericPointParser_fits :
    ∀ id prev ls params ex, numericPointParser.tryExtractChildren id prev ls params = .ok ex →
      NumericPointChildrenFit ex.elements := by
  intro id prev ls params ex h
  simp only [numericPointParser] at h
  obtain ⟨e, h1, h2⟩ := map_extracted h
  rw [h2]
  exact extractMultiple_fits (alphabeticSubpointParser_fits _) h1

theorem paragraphParser_fits :
    ∀ id prev ls params ex, paragraphParser.tryExtractChildren id prev ls params = .ok ex →
      ParagraphChildrenFit NoAmendmentFits ex.elements := by
  intro id prev ls params ex h
  simp only [paragraphParser] at h
  rcases orElse_ok h with h | h
  · rcases orElse_ok h with h | h
    · obtain ⟨e, h1, h2⟩ := map_extracted h
      rw [h2]
      trivial
    · obtain ⟨e, h1, h2⟩ := map_extracted h
      rw [h2]
      exact extractMultiple_fits numericPointParser_fits h1
  · obtain ⟨e, h1, h2⟩ := map_extracted h
    rw [h2]
    exact extractMultiple_fits alphabeticPointParser_fits h1

theorem article_fits {p : ArticleParser} {a : Article Empty} (h : p.finish = .ok a) :
    ∀ x ∈ a.children, ParagraphFits NoAmendmentFits x := by
  simp only [ArticleParser.finish, Res.bind_eq_ok, Res.ok.injEq] at h
  obtain ⟨x, -, ls, -, c, h1, rfl⟩ := h
  unfold ArticleParser.paragraphs at h1
  split at h1
  · rename_i ex hex
    split at h1
    · cases h1
    · simp only [Res.ok.injEq] at h1
      subst h1
      exact extractMultiple_fits paragraphParser_fits hex
  · cases h1
  · simp only [Res.bind_eq_ok, Res.ok.injEq] at h1
    obtain ⟨r, h2, rfl⟩ := h1
    intro x hx
    rw [List.mem_singleton.1 hx]
    exact parseFrom_fits paragraphParser_fits _ _ _ _ _ _ _ _ _ h2

/-! ### headers -/

theorem hunEntries_range : ∀ e ∈ hunEntries, e.2 ≤ 100 := by decide +kernel

theorem lookup_mem {X : Type} {l : List (Str × X)} {s : Str} {x : X} (h : l.lookup s = some x) : (s, x) ∈ l := by
  induction l with
  | nil => simp at h
  | cons e l ih =>
    rw [List.lookup_cons] at h
    split at h
    · rename_i he
      simp only [Option.some.injEq] at h
      subst h
      have : s = e.1 := by simpa using he
      rw [this]
      simp
    · exact List.mem_cons_of_mem _ (ih h)

theorem hunNumeric_header {s : Str} {id : NumericId} (h : hunNumeric s = some id) : id.toHungarian ≠ none := by
  unfold hunNumeric at h
  split at h
  · rename_i n hn
    split at h
    · simp only [Option.some.injEq] at h
      subst h
      have hr := hunEntries_range _ (lookup_mem hn)
      simp only [NumericId.toHungarian, NumericId.ofNum, ne_eq, Option.map_eq_none_iff]
      rw [Props.C13_ordinal_range]
      simp only at hr
      omega
    · cases h
  · cases h

theorem fromRoman_header {s : Str} {id : NumericId} (h : NumericId.fromRoman s = some id) : id.toRoman ≠ none := by
  unfold NumericId.fromRoman at h
  split at h
  · split at h
    · rename_i n hn
      split at h
      · simp only [Option.some.injEq] at h
        subst h
        simp only [NumericId.toRoman, ne_eq, Option.map_eq_none_iff]
        rw [romanFrom_to hn]
        simp
      · cases h
    · cases h
  · cases h

theorem parseIdentifier_header {t : SEType} {s : Str} {id : NumericId} (h : t.parseIdentifier s = some id)
    (title : Str) (change : Option LastChange) : (StructuralElement.mk id title t change).headerString ≠ none := by
  unfold SEType.parseIdentifier at h
  unfold StructuralElement.headerString
  cases t with
  | book =>
    simp only at h ⊢
    rw [ne_eq, Option.map_eq_none_iff]
    exact hunNumeric_header h
  | part sp =>
    cases sp with
    | false =>
      simp only at h ⊢
      rw [ne_eq, Option.map_eq_none_iff]
      exact hunNumeric_header h
    | true =>
      simp only at h ⊢
      unfold specialPart at h
      split at h
      · cases h; simp
      · split at h
        · cases h
          simp only [ne_eq]
          split <;> simp
        · split at h
          · cases h
            simp only [ne_eq]
            split
            · simp
            · split <;> simp
          · cases h
  | title =>
    simp only at h ⊢
    rw [ne_eq, Option.map_eq_none_iff]
    exact fromRoman_header h
  | chapter =>
    simp only at h ⊢
    rw [ne_eq, Option.map_eq_none_iff]
    exact fromRoman_header h

theorem tryCreate_header {t : SEType} {l : Line} {e : StructuralElement} (h : t.tryCreate l = some e) :
    ∃ s, t.parseIdentifier s = some e.identifier ∧ e.elementType = t := by
  unfold SEType.tryCreate at h
  split at h
  · cases h
  · split at h
    · cases h
    · rename_i s _
      simp only [Option.map_eq_some_iff] at h
      obtain ⟨id, h1, rfl⟩ := h
      exact ⟨_, h1, rfl⟩

/-- The identifier is one that the header of such an element can have. -/
def GoodElement (e : StructuralElement) : Prop := ∃ s, e.elementType.parseIdentifier s = some e.identifier

theorem GoodElement.header {e : StructuralElement} (h : GoodElement e) : e.headerString ≠ none := by
  obtain ⟨s, h⟩ := h
  exact parseIdentifier_header h e.title e.lastChange

def GoodState : ParseState → Prop
  | .structuralElement e => GoodElement e
  | _ => True

theorem finish_fits {s : ParseState} (hs : GoodState s) {c : Option (ActChild Empty)} (h : s.finish = .ok c) :
    ∀ x ∈ c, ActChildFits NoAmendmentFits x := by
  cases s with
  | preamble =>
    simp only [ParseState.finish, Res.ok.injEq] at h
    subst h
    simp
  | article p =>
    simp only [ParseState.finish] at h
    obtain ⟨a, h1, rfl⟩ := map_ok.1 h
    intro x hx
    simp only [Option.mem_def, Option.some.injEq] at hx
    subst hx
    exact article_fits h1
  | subtitle t =>
    simp only [ParseState.finish, Res.ok.injEq] at h
    subst h
    intro x hx
    simp only [Option.mem_def, Option.some.injEq] at hx
    subst hx
    trivial
  | structuralElement e =>
    simp only [ParseState.finish, Res.ok.injEq] at h
    subst h
    intro x hx
    simp only [Option.mem_def, Option.some.injEq] at hx
    subst hx
    exact GoodElement.header hs

theorem feedLine_good {s : ParseState} (hs : GoodState s) (l : Line) (t : Str) : GoodState (s.feedLine l t).1 := by
  cases s <;> exact hs

theorem newStateIn_good {upper : Char → Bool} {q : QuoteCheck} {f : ArticleFactory} {l : Line} {b : Bool}
    {context : ParsingContext} {s : ParseState} {f' : ArticleFactory}
    (h : newStateIn upper q f l b context = .ok (some (s, f'))) : GoodState s := by
  unfold newStateIn at h
  split at h
  · simp at h
  · unfold newState at h
    split at h
    · rename_i e he
      simp only [Res.ok.injEq, Option.some.injEq, Prod.mk.injEq] at h
      obtain ⟨rfl, -⟩ := h
      obtain ⟨t, -, ht⟩ := List.exists_of_findSome?_eq_some he
      obtain ⟨s, h1, h2⟩ := tryCreate_header ht
      exact ⟨s, by rw [h2]; exact h1⟩
    · split at h
      · simp only [Res.ok.injEq, Option.some.injEq, Prod.mk.injEq] at h
        obtain ⟨rfl, -⟩ := h
        trivial
      · split at h
        · simp only [Res.ok.injEq, Option.some.injEq, Prod.mk.injEq] at h
          obtain ⟨rfl, -⟩ := h
          trivial
        · simp at h
        · cases h

theorem complexFrom_fits {upper : Char → Bool} {context : ParsingContext} (ls : List Line) :
    ∀ (q : QuoteCheck) (f : ArticleFactory) (b : Bool) (s : ParseState) (pre : Str) (cs : List (ActChild Empty))
      (r : Str × List (ActChild Empty)), GoodState s → (∀ c ∈ cs, ActChildFits NoAmendmentFits c) →
      complexFrom upper context q f b s pre cs ls = .ok r → ∀ c ∈ r.2, ActChildFits NoAmendmentFits c := by
  induction ls with
  | nil =>
    intro q f b s pre cs r hs hcs h
    simp only [complexFrom, Res.bind_eq_ok] at h
    obtain ⟨-, -, x, hx, h⟩ := h
    split at h
    · cases h
    · simp only [Res.ok.injEq] at h
      subst h
      intro c hc
      rcases List.mem_append.1 hc with hc | hc
      · exact hcs c hc
      · rw [List.mem_singleton.1 hc]
        exact finish_fits hs hx _ rfl
  | cons l ls ih =>
    intro q f b s pre cs r hs hcs h
    simp only [complexFrom, Res.bind_eq_ok] at h
    obtain ⟨q', -, x, hx, h⟩ := h
    split at h
    · simp only [Res.bind_eq_ok] at h
      obtain ⟨c, h1, h⟩ := h
      refine ih _ _ _ _ _ _ _ (newStateIn_good hx) ?_ h
      intro y hy
      cases c with
      | none => exact hcs y hy
      | some c =>
        rcases List.mem_append.1 hy with hy | hy
        · exact hcs y hy
        · rw [List.mem_singleton.1 hy]
          exact finish_fits hs h1 _ rfl
    · exact ih _ _ _ _ _ _ _ (feedLine_good hs l pre) hcs h

theorem parseComplexBody_fits {upper : Char → Bool} {context : ParsingContext} {ls : List Line}
    {r : Str × List (ActChild Empty)} (h : parseComplexBody upper ls context = .ok r) :
    ∀ c ∈ r.2, ActChildFits NoAmendmentFits c := by
  simp only [parseComplexBody, Res.bind_eq_ok] at h
  obtain ⟨x, hx, h⟩ := h
  split at h
  · cases h
  · split at h
    · cases h
    · simp only [Res.ok.injEq] at h
      subst h
      exact complexFrom_fits _ _ _ _ .preamble _ _ _ trivial (by simp) hx

/-! ### amendments -/

open BlockAmend

theorem articlesFrom_fits (ls : List Line) : ∀ (f : ArticleFactory) (p : ArticleParser) (result r : List (ActChild Empty)),
    (∀ c ∈ result, ActChildFits NoAmendmentFits c) → articlesFrom f p result ls = .ok r →
    ∀ c ∈ r, ActChildFits NoAmendmentFits c := by
  have key : ∀ (result : List (ActChild Empty)) (a : Article Empty) (p : ArticleParser),
      (∀ c ∈ result, ActChildFits NoAmendmentFits c) → p.finish = .ok a →
      ∀ c ∈ result ++ [.article a], ActChildFits NoAmendmentFits c := by
    intro result a p hr ha c hc
    rcases List.mem_append.1 hc with hc | hc
    · exact hr c hc
    · rw [List.mem_singleton.1 hc]
      exact article_fits ha
  induction ls with
  | nil =>
    intro f p result r hr h
    simp only [articlesFrom, Res.bind_eq_ok, Res.ok.injEq] at h
    obtain ⟨a, ha, rfl⟩ := h
    exact key result a p hr ha
  | cons l ls ih =>
    intro f p result r hr h
    simp only [articlesFrom] at h
    split at h
    · simp only [Res.bind_eq_ok] at h
      obtain ⟨a, ha, h⟩ := h
      exact ih _ _ _ _ (key result a p hr ha) h
    · exact ih _ _ _ _ hr h
    · cases h

/-- The number of a part, title or chapter is one that its header can have. -/
def GoodPlace : StructuralRefElement → Prop
  | .part id => ∃ s, (SEType.part false).parseIdentifier s = some id
  | .title id => ∃ s, SEType.title.parseIdentifier s = some id
  | .chapter id => ∃ s, SEType.chapter.parseIdentifier s = some id
  | _ => True

theorem feedLines_good {ls : List Line} {e : StructuralElement} (h : GoodElement e) :
    GoodElement (ls.foldl StructuralElement.feedLine e) := by
  induction ls generalizing e with
  | nil => exact h
  | cons l ls ih => exact ih h

theorem structural_fits {upper : Char → Bool} {position : StructuralRef} {ls : List Line} {r : List (ActChild Empty)}
    (hp : position.titleOnly = true → GoodPlace position.element)
    (h : structural upper position ls = .ok r) : ∀ c ∈ r, ActChildFits NoAmendmentFits c := by
  unfold structural at h
  split at h
  · unfold articles at h
    split at h
    · cases h
    · simp only [Res.bind_eq_ok] at h
      obtain ⟨x, -, h⟩ := h
      exact (articlesFrom_fits _ _ _ _ _ (by simp) h)
  · split at h
    · simp only [titleOnly, Res.bind_eq_ok, Res.ok.injEq] at h
      obtain ⟨c, hc, rfl⟩ := h
      have hse : ∀ id t, (∃ s, SEType.parseIdentifier t s = some id) → titleOnlySe id t ls = .ok c →
          ∀ x ∈ [c], ActChildFits NoAmendmentFits x := by
        intro id t hid h x hx
        rw [List.mem_singleton.1 hx]
        unfold titleOnlySe at h
        split at h
        · cases h
        · simp only [Res.ok.injEq] at h
          rw [← h]
          refine (feedLines_good ?_).header
          unfold titleStart
          split
          · rename_i ht
            obtain ⟨s, h1, h2⟩ := tryCreate_header ht
            exact ⟨s, by rw [h2]; exact h1⟩
          · exact hid
      have hsub : subtitleOnlySe upper ls = .ok c → ∀ x ∈ [c], ActChildFits NoAmendmentFits x := by
        intro h
        unfold subtitleOnlySe at h
        split at h
        · cases h
        · simp only [Res.bind_eq_ok, Res.ok.injEq] at h
          obtain ⟨s, -, rfl⟩ := h
          intro x hx
          rw [List.mem_singleton.1 hx]
          trivial
      rename_i htitle
      have hgood := hp htitle
      unfold titleOnlyChild at hc
      split at hc <;> rename_i he <;> first | cases hc | exact hsub hc | (rw [he] at hgood; exact hse _ _ hgood hc)
    · obtain ⟨x, hx, rfl⟩ := map_ok.1 h
      exact parseComplexBody_fits hx

theorem simple_fits {position : Ref} {ls : List Line} {r : BlockAmendmentChildren} (h : simple position ls = .ok r)
    (i wu : Option Str) : AmendmentFits (.block i r wu) := by
  have key : ∀ {I C : Type} [DecidableEq I] [IdentifierCommon I] {P : C → Prop} {p : SAEParser I C}
      (_ : ∀ id prev ls params ex, p.tryExtractChildren id prev ls params = .ok ex → P ex.elements)
      {ls : List Line} {first : I} {es : List (SAE I C)}, BlockAmend.elements p ls first = .ok es →
      ∀ e ∈ es, ReferencesFit e P := by
    intro I C _ _ P p hp ls first es h
    obtain ⟨x, hx, rfl⟩ := map_ok.1 h
    exact extractMultiple_fits hp hx
  unfold simple at h
  split at h
  · cases h
  · split at h
    · obtain ⟨x, hx, rfl⟩ := map_ok.1 h
      simp only [BlockAmend.paragraphs, Res.bind_eq_ok] at hx
      obtain ⟨a, -, ls', -, hx⟩ := hx
      exact key paragraphParser_fits hx
    · obtain ⟨x, hx, rfl⟩ := map_ok.1 h
      exact key numericPointParser_fits hx
    · obtain ⟨x, hx, rfl⟩ := map_ok.1 h
      exact key alphabeticPointParser_fits hx
    · obtain ⟨x, hx, rfl⟩ := map_ok.1 h
      exact key numericSubpointParser_fits hx
    · obtain ⟨x, hx, rfl⟩ := map_ok.1 h
      exact key (alphabeticSubpointParser_fits _) hx
    all_goals cases h

/-- A phrase about a title has the number of a part, title or chapter that can be shown. -/
def GoodPhrase : Option SpecialPhrase → Prop
  | some (.structuralBlockAmendment p _) => p.titleOnly = true → GoodPlace p.element
  | _ => True

theorem paragraph_fits {upper : Char → Bool} {p : Paragraph Amendment} (hp : ParagraphFits AmendmentFits p)
    (h : GoodPhrase p.semanticInfo.specialPhrase) : ParagraphFits AmendmentFits (BlockAmend.paragraph upper p).1 := by
  unfold BlockAmend.paragraph
  rcases p with ⟨id, body, info, change⟩
  cases body with
  | text t => exact hp
  | children i c w =>
    simp only at h ⊢
    unfold ParagraphFits ReferencesFit at hp ⊢
    simp only at hp ⊢
    refine ⟨hp.1, ?_⟩
    have h2 := hp.2
    revert h2
    cases c with
    | alphabeticPoint l => exact fun h => h
    | numericPoint l => exact fun h => h
    | amendment a => exact fun h => h
    | quotedBlock l =>
      rcases l with _ | ⟨b, _ | ⟨b', l⟩⟩
      · exact fun h => h
      · unfold BlockAmend.children
        simp only
        unfold BlockAmend.block
        split
        · split
          · rename_i hs
            exact fun _ => simple_fits hs b.intro b.wrapUp
          · exact fun _ => trivial
          · exact fun _ => trivial
        · rename_i hph
          rw [hph] at h
          split
          · rename_i hs
            exact fun _ => structural_fits h hs
          · exact fun _ => trivial
          · exact fun _ => trivial
        · exact fun _ => trivial
      · exact fun h => h

theorem mem_tryForEach {X : Type} {f : X → X × Res Unit} {l : List X} {y : X} (h : y ∈ (tryForEach f l).1) :
    ∃ x ∈ l, y = x ∨ y = (f x).1 := by
  induction l with
  | nil => simp [tryForEach] at h
  | cons x l ih =>
    unfold tryForEach at h
    split at h
    · rename_i x' hx
      rcases List.mem_cons.1 h with rfl | h
      · exact ⟨x, by simp, .inr (by rw [hx])⟩
      · obtain ⟨z, hz, h⟩ := ih h
        exact ⟨z, by simp [hz], h⟩
    · rename_i x' r _ hx
      rcases List.mem_cons.1 h with rfl | h
      · exact ⟨x, by simp, .inr (by rw [hx])⟩
      · exact ⟨y, by simp [h], .inl rfl⟩

end HunLaw.Output
