import Verif.Lemmas.Serde
import Verif.Lemmas.OutputReady
import Verif.Props.Amendments

/-!
The acts which the parser, the annotator and the converter of amendments give are proper: they can be stored and
read again.
-/

set_option autoImplicit false

namespace HunLaw.Serde

open HunLaw HunLaw.Spec HunLaw.Output HunLaw.Semantic

/-! ### The parser -/

section
variable {I C : Type} {okId : I → Prop} {P : C → Prop}

theorem new_proper {id : I} {b : SAEBody C} (hi : okId id) (h : ∀ i c w, b = .children i c w → P c) :
    ProperSae okId P (SAE.mk id b .default none) := ⟨hi, h, properInfo_default, fun _ h => nomatch h⟩

theorem text_proper {id : I} {t : Str} (hi : okId id) : ProperSae okId P (SAE.mk id (.text t) .default none) :=
  new_proper hi fun _ _ _ h => nomatch h

theorem children_proper {id : I} {i : Str} {c : C} {w : Option Str} (hi : okId id) (hc : P c) :
    ProperSae okId P (SAE.mk id (.children i c w) .default none) :=
  new_proper hi fun _ _ _ h => by cases h; exact hc

theorem parseFrom_proper {p : SAEParser I C}
    (hp : ∀ id prev ls params ex, p.tryExtractChildren id prev ls params = .ok ex → P ex.elements)
    {id : I} (hid : okId id) (context : ParsingContext) (mode : WrapUpMode) (body : List Line) (ls : List Line) :
    ∀ (q : QuoteCheck) (prev : Option Line) (intro : Str) (r : ParseResult I C),
      p.parseFrom id context mode body q prev intro ls = .ok r → ProperSae okId P r.element := by
  induction ls with
  | nil =>
    intro q prev intro r h
    simp only [SAEParser.parseFrom, Res.bind_eq_ok, Res.ok.injEq] at h
    obtain ⟨-, -, rfl⟩ := h
    unfold SAEParser.withoutChildren
    split
    · split <;> exact text_proper hid
    · exact text_proper hid
  | cons l ls ih =>
    intro q prev intro r h
    simp only [SAEParser.parseFrom, Res.bind_eq_ok] at h
    obtain ⟨q', -, h⟩ := h
    split at h
    · exact ih _ _ _ _ h
    · split at h
      · rename_i ex hex
        simp only [Res.ok.injEq] at h
        subst h
        unfold SAEParser.withChildren
        split <;> exact children_proper hid (hp _ _ _ _ _ hex)
      · exact ih _ _ _ _ h
      · cases h

variable [DecidableEq I] [IdentifierCommon I]

theorem snoc_proper {elements : List (SAE I C)} {last : SAE I C} (he : ∀ e ∈ elements, ProperSae okId P e)
    (hl : ProperSae okId P last) : ∀ e ∈ elements ++ [last], ProperSae okId P e := by
  intro e hm
  rcases List.mem_append.1 hm with hm | hm
  · exact he e hm
  · rw [List.mem_singleton.1 hm]
    exact hl

theorem extractLast_proper {p : SAEParser I C}
    (hp : ∀ id prev ls params ex, p.tryExtractChildren id prev ls params = .ok ex → P ex.elements)
    {params : SAEParams} {headerIndent : Rat} {elements : List (SAE I C)} {id : I} (hid : okId id) {body : List Line}
    {r : Extracted (List (SAE I C))} (he : ∀ e ∈ elements, ProperSae okId P e)
    (h : p.extractLast params headerIndent elements id body = .ok r) : ∀ e ∈ r.elements, ProperSae okId P e := by
  unfold SAEParser.extractLast at h
  split at h
  · split at h
    · split at h <;> simp only [Res.bind_eq_ok, Res.ok.injEq] at h <;> obtain ⟨last, h1, rfl⟩ := h <;>
        exact snoc_proper he (parseFrom_proper hp hid _ _ _ _ _ _ _ _ h1)
    · simp only [Res.bind_eq_ok] at h
      obtain ⟨last, h1, h⟩ := h
      simp only [Res.ok.injEq] at h
      subst h
      exact snoc_proper he (parseFrom_proper hp hid _ _ _ _ _ _ _ _ h1)
  · simp only [Res.bind_eq_ok, Res.ok.injEq] at h
    obtain ⟨last, h1, rfl⟩ := h
    exact snoc_proper he (parseFrom_proper hp hid _ _ _ _ _ _ _ _ h1)

theorem nextHeader_proper {p : SAEParser I C} (hh : ∀ l id rest, p.parseHeader l = .ok (some (id, rest)) → okId id)
    {q : QuoteCheck} {last id : I} {headerIndent : Rat} {l rest : Line}
    (h : p.nextHeader q last headerIndent l = .ok (some (id, rest))) : okId id := by
  unfold SAEParser.nextHeader at h
  split at h
  · simp at h
  · unfold SAEParser.parseAndCheckHeader at h
    split at h
    · simp only [Res.bind_eq_ok] at h
      obtain ⟨x, hx, h⟩ := h
      split at h
      · split at h
        · simp only [Res.ok.injEq, Option.some.injEq, Prod.mk.injEq] at h
          obtain ⟨rfl, rfl⟩ := h
          exact hh _ _ _ hx
        · simp at h
      · simp at h
    · simp at h

theorem extractFrom_proper {p : SAEParser I C}
    (hp : ∀ id prev ls params ex, p.tryExtractChildren id prev ls params = .ok ex → P ex.elements)
    (hh : ∀ l id rest, p.parseHeader l = .ok (some (id, rest)) → okId id)
    {params : SAEParams} {headerIndent : Rat} (ls : List Line) : ∀ (q : QuoteCheck) (elements : List (SAE I C)) (id : I)
    (body : List Line) (r : Extracted (List (SAE I C))), okId id → (∀ e ∈ elements, ProperSae okId P e) →
    p.extractFrom params headerIndent q elements id body ls = .ok r → ∀ e ∈ r.elements, ProperSae okId P e := by
  induction ls with
  | nil =>
    intro q elements id body r hid he h
    simp only [SAEParser.extractFrom, SAEParser.extractEnd, Res.bind_eq_ok] at h
    obtain ⟨-, -, r', h1, h2⟩ := h
    split at h2
    · cases h2
    · simp only [Res.ok.injEq] at h2
      subst h2
      exact extractLast_proper hp hid he h1
  | cons l ls ih =>
    intro q elements id body r hid he h
    simp only [SAEParser.extractFrom, Res.bind_eq_ok] at h
    obtain ⟨q', -, x, hx, h⟩ := h
    split at h
    · simp only [Res.bind_eq_ok] at h
      obtain ⟨e, h1, h⟩ := h
      exact ih _ _ _ _ _ (nextHeader_proper hh hx)
        (snoc_proper he (parseFrom_proper hp hid _ _ _ _ _ _ _ _ h1)) h
    · exact ih _ _ _ _ _ hid he h

theorem extractMultiple_proper {p : SAEParser I C}
    (hp : ∀ id prev ls params ex, p.tryExtractChildren id prev ls params = .ok ex → P ex.elements)
    (hh : ∀ l id rest, p.parseHeader l = .ok (some (id, rest)) → okId id)
    {ls : List Line} {params : SAEParams} {expected : Option I} {r : Extracted (List (SAE I C))}
    (h : p.extractMultiple ls params expected = .ok r) : ∀ e ∈ r.elements, ProperSae okId P e := by
  unfold SAEParser.extractMultiple at h
  split at h
  · cases h
  · simp only [Res.bind_eq_ok] at h
    obtain ⟨x, hx, h⟩ := h
    split at h
    · cases h
    · split at h
      · simp only [Res.bind_eq_ok] at h
        obtain ⟨q, -, h⟩ := h
        exact extractFrom_proper hp hh _ _ _ _ _ _ (hh _ _ _ hx) (by simp) h
      · cases h

end

theorem parseHeader_from {T : Type} {parse : Str → Option T} {re : Re} {last : Nat} {blacklist : List Str}
    {l rest : Line} {id : T} (h : l.parseHeader parse re last blacklist = .ok (some (id, rest))) :
    ∃ s, parse s = some id := by
  unfold Line.parseHeader at h
  split at h
  · simp at h
  · split at h
    · cases h
    · split at h
      · simp at h
      · rename_i x hx
        split at h
        · cases h
        · simp only [Res.bind_eq_ok] at h
          obtain ⟨y, -, h⟩ := h
          split at h
          · simp at h
          · simp only [Res.ok.injEq, Option.some.injEq, Prod.mk.injEq] at h
            obtain ⟨rfl, rfl⟩ := h
            exact ⟨_, hx⟩

theorem plainPrefixed_parse {s : Str} {p : PrefixedId} (h : PrefixedId.parse s = some p) : PlainPrefixed p :=
  ⟨(Props.C09_prefixed_parse_plain s p h).1, (Props.C09_prefixed_parse_plain s p h).2.1⟩

theorem prefixedHeader_plain (pfx : Option HunChar) : ∀ (l : Line) (id : PrefixedId) (rest : Line),
    (alphabeticSubpointParser pfx).parseHeader l = .ok (some (id, rest)) → PlainPrefixed id := by
  intro l id rest h
  simp only [alphabeticSubpointParser, parsePrefixedHeader, Res.bind_eq_ok] at h
  obtain ⟨x, hx, h⟩ := h
  split at h
  · simp at h
  · split at h
    · simp only [Res.ok.injEq, Option.some.injEq, Prod.mk.injEq] at h
      obtain ⟨rfl, rfl⟩ := h
      obtain ⟨s, hs⟩ := parseHeader_from hx
      exact plainPrefixed_parse hs
    · simp at h

section
variable {ls : List Line} {params : SAEParams}

theorem alphabeticSubpoints_proper {pfx : Option HunChar} {expected : Option PrefixedId}
    {r : Extracted (List AlphabeticSubpoint)}
    (h : (alphabeticSubpointParser pfx).extractMultiple ls params expected = .ok r) :
    ∀ e ∈ r.elements, ProperAlphabeticSubpoint e :=
  extractMultiple_proper (fun _ _ _ _ _ _ => trivial) (prefixedHeader_plain pfx) h

theorem numericSubpoints_proper {expected : Option NumericId} {r : Extracted (List NumericSubpoint)}
    (h : numericSubpointParser.extractMultiple ls params expected = .ok r) :
    ∀ e ∈ r.elements, ProperNumericSubpoint e :=
  extractMultiple_proper (fun _ _ _ _ _ _ => trivial) (fun _ _ _ _ => trivial) h

theorem alphabeticPoints_proper {expected : Option HunChar} {r : Extracted (List AlphabeticPoint)}
    (h : alphabeticPointParser.extractMultiple ls params expected = .ok r) :
    ∀ e ∈ r.elements, ProperAlphabeticPoint e := by
  refine extractMultiple_proper ?_ (fun _ _ _ _ => trivial) h
  intro id prev ls params ex h
  simp only [alphabeticPointParser] at h
  rcases Output.orElse_ok h with h | h
  · obtain ⟨e, h1, h2⟩ := map_extracted h
    rw [h2]
    exact numericSubpoints_proper h1
  · obtain ⟨e, h1, h2⟩ := map_extracted h
    rw [h2]
    exact alphabeticSubpoints_proper h1

theorem numericPoints_proper {expected : Option NumericId} {r : Extracted (List NumericPoint)}
    (h : numericPointParser.extractMultiple ls params expected = .ok r) :
    ∀ e ∈ r.elements, ProperNumericPoint e := by
  refine extractMultiple_proper ?_ (fun _ _ _ _ => trivial) h
  intro id prev ls params ex h
  simp only [numericPointParser] at h
  obtain ⟨e, h1, h2⟩ := map_extracted h
  rw [h2]
  exact alphabeticSubpoints_proper h1

/-- What is in a paragraph of the parser. -/
def ProperParagraphChildren {A : Type} (ok : A → Prop) : ParagraphChildren A → Prop
  | .alphabeticPoint l => ∀ e ∈ l, ProperAlphabeticPoint e
  | .numericPoint l => ∀ e ∈ l, ProperNumericPoint e
  | .quotedBlock _ => True
  | .amendment a => ok a

theorem properParagraph_iff {A : Type} {ok : A → Prop} {p : Paragraph A} :
    ProperParagraph ok p ↔ ProperSae (fun _ => True) (ProperParagraphChildren ok) p := by
  unfold ProperParagraph ProperSae
  constructor <;> rintro ⟨h1, h2, h3⟩ <;> refine ⟨h1, fun i c w hb => ?_, h3⟩ <;> have := h2 i c w hb <;>
    cases c <;> exact this

theorem paragraphParser_proper : ∀ id prev ls params ex, paragraphParser.tryExtractChildren id prev ls params = .ok ex →
    ProperParagraphChildren (fun _ => True) ex.elements := by
  intro id prev ls params ex h
  simp only [paragraphParser] at h
  rcases Output.orElse_ok h with h | h
  · rcases Output.orElse_ok h with h | h
    · obtain ⟨e, h1, h2⟩ := map_extracted h
      rw [h2]
      trivial
    · obtain ⟨e, h1, h2⟩ := map_extracted h
      rw [h2]
      exact numericPoints_proper h1
  · obtain ⟨e, h1, h2⟩ := map_extracted h
    rw [h2]
    exact alphabeticPoints_proper h1

theorem paragraphs_proper {expected : Option ParagraphId} {r : Extracted (List (Paragraph Empty))}
    (h : paragraphParser.extractMultiple ls params expected = .ok r) :
    ∀ e ∈ r.elements, ProperParagraph (fun _ => True) e := fun e he =>
  properParagraph_iff.2 (extractMultiple_proper paragraphParser_proper (fun _ _ _ _ => trivial) h e he)

end

/-- An article or another child of an act as the parser gives it. -/
abbrev ProperParsed : ActChild Empty → Prop := ProperChild fun _ => True

theorem article_proper {p : ArticleParser} {a : Article Empty} (h : p.finish = .ok a) : ProperParsed (.article a) := by
  simp only [ArticleParser.finish, Res.bind_eq_ok, Res.ok.injEq] at h
  obtain ⟨x, -, ls, -, c, h1, rfl⟩ := h
  refine ⟨?_, fun _ h => nomatch h⟩
  unfold ArticleParser.paragraphs at h1
  split at h1
  · rename_i ex hex
    split at h1
    · cases h1
    · simp only [Res.ok.injEq] at h1
      subst h1
      exact paragraphs_proper hex
  · cases h1
  · simp only [Res.bind_eq_ok, Res.ok.injEq] at h1
    obtain ⟨r, h2, rfl⟩ := h1
    intro x hx
    rw [List.mem_singleton.1 hx]
    exact properParagraph_iff.2 (parseFrom_proper paragraphParser_proper trivial _ _ _ _ _ _ _ _ h2)

/-- There is no note about the last change in what is being read. -/
def NoChange : ParseState → Prop
  | .subtitle s => s.lastChange = none
  | .structuralElement e => e.lastChange = none
  | _ => True

theorem noChange_feedLine {s : ParseState} (h : NoChange s) (l : Line) (pre : Str) :
    NoChange (s.feedLine l pre).1 := by
  cases s <;> exact h

theorem newStateIn_noChange {upper : Char → Bool} {q : QuoteCheck} {f f' : ArticleFactory} {l : Line} {b : Bool}
    {context : ParsingContext} {s : ParseState} (h : newStateIn upper q f l b context = .ok (some (s, f'))) :
    NoChange s := by
  unfold newStateIn newState at h
  split at h
  · cases h
  · split at h
    · rename_i e he
      cases h
      exact (findSE_some he).2.2
    · split at h
      · rename_i s hs
        cases h
        exact ((subtitleTryCreate_iff _ _ _ _ _).1 hs).2
      · split at h <;> cases h
        trivial

theorem finish_proper {s : ParseState} (hs : NoChange s) {c : Option (ActChild Empty)} (h : s.finish = .ok c) :
    ∀ x ∈ c, ProperParsed x := by
  intro x hx
  cases s with
  | preamble =>
    simp only [ParseState.finish, Res.ok.injEq] at h
    subst h
    simp at hx
  | article p =>
    simp only [ParseState.finish] at h
    obtain ⟨a, h1, rfl⟩ := map_ok.1 h
    simp only [Option.mem_def, Option.some.injEq] at hx
    subst hx
    exact article_proper h1
  | subtitle t =>
    simp only [ParseState.finish, Res.ok.injEq] at h
    subst h
    simp only [Option.mem_def, Option.some.injEq] at hx
    subst hx
    intro x hx
    rw [show _ = none from hs] at hx
    cases hx
  | structuralElement e =>
    simp only [ParseState.finish, Res.ok.injEq] at h
    subst h
    simp only [Option.mem_def, Option.some.injEq] at hx
    subst hx
    intro x hx
    rw [show _ = none from hs] at hx
    cases hx

theorem complexFrom_proper {upper : Char → Bool} {context : ParsingContext} (ls : List Line) :
    ∀ (q : QuoteCheck) (f : ArticleFactory) (b : Bool) (s : ParseState) (pre : Str) (cs : List (ActChild Empty))
      (r : Str × List (ActChild Empty)), NoChange s → (∀ c ∈ cs, ProperParsed c) →
      complexFrom upper context q f b s pre cs ls = .ok r → ∀ c ∈ r.2, ProperParsed c := by
  induction ls with
  | nil =>
    intro q f b s pre cs r hs hcs h
    simp only [complexFrom, Res.bind_eq_ok] at h
    obtain ⟨-, -, x, hx, h⟩ := h
    split at h
    · cases h
    · simp only [Res.ok.injEq] at h
      subst h
      intro c hc
      rcases List.mem_append.1 hc with hc | hc
      · exact hcs c hc
      · rw [List.mem_singleton.1 hc]
        exact finish_proper hs hx _ rfl
  | cons l ls ih =>
    intro q f b s pre cs r hs hcs h
    simp only [complexFrom, Res.bind_eq_ok] at h
    obtain ⟨q', -, x, hx, h⟩ := h
    split at h
    · simp only [Res.bind_eq_ok] at h
      obtain ⟨c, h1, h⟩ := h
      refine ih _ _ _ _ _ _ _ (newStateIn_noChange hx) ?_ h
      intro y hy
      cases c with
      | none => exact hcs y hy
      | some c =>
        rcases List.mem_append.1 hy with hy | hy
        · exact hcs y hy
        · rw [List.mem_singleton.1 hy]
          exact finish_proper hs h1 _ rfl
    · exact ih _ _ _ _ _ _ _ (noChange_feedLine hs _ _) hcs h

theorem parseComplexBody_proper {upper : Char → Bool} {context : ParsingContext} {ls : List Line}
    {r : Str × List (ActChild Empty)} (h : parseComplexBody upper ls context = .ok r) : ∀ c ∈ r.2, ProperParsed c := by
  simp only [parseComplexBody, Res.bind_eq_ok] at h
  obtain ⟨x, hx, h⟩ := h
  split at h
  · cases h
  · split at h
    · cases h
    · simp only [Res.ok.injEq] at h
      subst h
      exact complexFrom_proper _ _ _ _ .preamble _ _ _ trivial (by simp) hx

/-! ### Amendments -/

open BlockAmend

theorem articlesFrom_proper (ls : List Line) : ∀ (f : ArticleFactory) (p : ArticleParser)
    (result r : List (ActChild Empty)), (∀ c ∈ result, ProperParsed c) → articlesFrom f p result ls = .ok r →
    ∀ c ∈ r, ProperParsed c := by
  have key : ∀ (result : List (ActChild Empty)) (a : Article Empty) (p : ArticleParser),
      (∀ c ∈ result, ProperParsed c) → p.finish = .ok a → ∀ c ∈ result ++ [.article a], ProperParsed c := by
    intro result a p hr ha c hc
    rcases List.mem_append.1 hc with hc | hc
    · exact hr c hc
    · rw [List.mem_singleton.1 hc]
      exact article_proper ha
  induction ls with
  | nil =>
    intro f p result r hr h
    simp only [articlesFrom, Res.bind_eq_ok, Res.ok.injEq] at h
    obtain ⟨a, ha, rfl⟩ := h
    exact key result a p hr ha
  | cons l ls ih =>
    intro f p result r hr h
    simp only [articlesFrom] at h
    split at h
    · simp only [Res.bind_eq_ok] at h
      obtain ⟨a, ha, h⟩ := h
      exact ih _ _ _ _ (key result a p hr ha) h
    · exact ih _ _ _ _ hr h
    · cases h

theorem foldl_element_change (ls : List Line) (e : StructuralElement) :
    (ls.foldl StructuralElement.feedLine e).lastChange = e.lastChange := by
  induction ls generalizing e with
  | nil => rfl
  | cons l ls ih => exact ih _

theorem foldl_subtitle_change (ls : List Line) (e : Subtitle) :
    (ls.foldl Subtitle.feedLine e).lastChange = e.lastChange := by
  induction ls generalizing e with
  | nil => rfl
  | cons l ls ih => exact ih _

theorem structural_proper {upper : Char → Bool} {position : StructuralRef} {ls : List Line} {r : List (ActChild Empty)}
    (h : structural upper position ls = .ok r) : ∀ c ∈ r, ProperParsed c := by
  unfold structural at h
  split at h
  · unfold articles at h
    split at h
    · cases h
    · simp only [Res.bind_eq_ok] at h
      obtain ⟨x, -, h⟩ := h
      exact (articlesFrom_proper _ _ _ _ _ (by simp) h)
  · split at h
    · simp only [titleOnly, Res.bind_eq_ok, Res.ok.injEq] at h
      obtain ⟨c, hc, rfl⟩ := h
      have hse : ∀ id t, titleOnlySe id t ls = .ok c → ∀ x ∈ [c], ProperParsed x := by
        intro id t h x hx
        rw [List.mem_singleton.1 hx]
        unfold titleOnlySe at h
        split at h
        · cases h
        · simp only [Res.ok.injEq] at h
          rw [← h]
          intro x hx
          rw [foldl_element_change] at hx
          unfold titleStart at hx
          split at hx
          · rename_i e he
            rw [((SEType.tryCreate_iff _ _ _).1 he).2.2.2] at hx
            cases hx
          · cases hx
      have hsub : subtitleOnlySe upper ls = .ok c → ∀ x ∈ [c], ProperParsed x := by
        intro h
        unfold subtitleOnlySe at h
        split at h
        · cases h
        · simp only [Res.bind_eq_ok, Res.ok.injEq] at h
          obtain ⟨s, hs, rfl⟩ := h
          intro x hx
          rw [List.mem_singleton.1 hx]
          intro y hy
          rw [foldl_subtitle_change] at hy
          unfold Res.ofOption at hs
          split at hs
          · rename_i s' hs'
            cases hs
            rw [((subtitleTryCreate_iff _ _ _ _ _).1 hs').2] at hy
            cases hy
          · cases hs
      unfold titleOnlyChild at hc
      split at hc <;> first | cases hc | exact hsub hc | exact hse _ _ hc
    · obtain ⟨x, hx, rfl⟩ := map_ok.1 h
      exact parseComplexBody_proper hx

theorem simple_proper {position : Ref} {ls : List Line} {r : BlockAmendmentChildren} (h : simple position ls = .ok r)
    (i wu : Option Str) : ProperAmendment (.block i r wu) := by
  unfold simple at h
  split at h
  · cases h
  · split at h
    · obtain ⟨x, hx, rfl⟩ := map_ok.1 h
      simp only [BlockAmend.paragraphs, Res.bind_eq_ok] at hx
      obtain ⟨a, -, ls', -, hx⟩ := hx
      obtain ⟨y, hy, rfl⟩ := map_ok.1 hx
      exact paragraphs_proper hy
    · obtain ⟨x, hx, rfl⟩ := map_ok.1 h
      obtain ⟨y, hy, rfl⟩ := map_ok.1 hx
      exact numericPoints_proper hy
    · obtain ⟨x, hx, rfl⟩ := map_ok.1 h
      obtain ⟨y, hy, rfl⟩ := map_ok.1 hx
      exact alphabeticPoints_proper hy
    · obtain ⟨x, hx, rfl⟩ := map_ok.1 h
      obtain ⟨y, hy, rfl⟩ := map_ok.1 hx
      exact numericSubpoints_proper hy
    · obtain ⟨x, hx, rfl⟩ := map_ok.1 h
      obtain ⟨y, hy, rfl⟩ := map_ok.1 hx
      exact alphabeticSubpoints_proper hy
    all_goals cases h

theorem paragraph_proper {upper : Char → Bool} {p : Paragraph Amendment} (hp : ProperParagraph ProperAmendment p) :
    ProperParagraph ProperAmendment (BlockAmend.paragraph upper p).1 := by
  rw [properParagraph_iff] at hp ⊢
  unfold BlockAmend.paragraph
  rcases p with ⟨id, body, info, change⟩
  obtain ⟨h1, h2, h3⟩ := hp
  cases body with
  | text t => exact ⟨h1, h2, h3⟩
  | children i c w =>
    refine ⟨h1, ?_, h3⟩
    intro i' c' w' hb
    cases hb
    have hc := h2 _ _ _ rfl
    revert hc
    cases c with
    | alphabeticPoint l => exact fun h => h
    | numericPoint l => exact fun h => h
    | amendment a => exact fun h => h
    | quotedBlock l =>
      rcases l with _ | ⟨b, _ | ⟨b', l⟩⟩
      · exact fun h => h
      · unfold BlockAmend.children
        simp only
        unfold BlockAmend.block
        split
        · split
          · rename_i hs
            exact fun _ => simple_proper hs b.intro b.wrapUp
          · exact fun _ => trivial
          · exact fun _ => trivial
        · split
          · rename_i hs
            exact fun _ => structural_proper hs
          · exact fun _ => trivial
          · exact fun _ => trivial
        · exact fun _ => trivial
      · exact fun h => h

theorem converted_proper {upper : Char → Bool} {a : Act Amendment} (h : ∀ c ∈ a.children, ProperChild ProperAmendment c) :
    ∀ c ∈ (BlockAmend.act upper a).1.children, ProperChild ProperAmendment c := by
  intro c hc
  obtain ⟨d, hd, rfl | rfl⟩ := mem_tryForEach hc
  · exact h _ hd
  · have := h d hd
    cases d with
    | structuralElement e => exact this
    | subtitle s => exact this
    | article x =>
      refine ⟨?_, this.2⟩
      intro p hp
      obtain ⟨q, hq, rfl | rfl⟩ := mem_tryForEach hp
      · exact this.1 _ hq
      · exact paragraph_proper (this.1 q hq)

theorem lift_proper {c : ActChild Empty} (h : ProperParsed c) : ProperChild ProperAmendment c.lift := by
  cases c with
  | structuralElement e => exact h
  | subtitle s => exact h
  | article a =>
    refine ⟨?_, h.2⟩
    intro p hp
    obtain ⟨q, hq, rfl⟩ := List.mem_map.1 hp
    have := properParagraph_iff.1 (h.1 q hq)
    rw [properParagraph_iff]
    rcases q with ⟨id, body, info, change⟩
    obtain ⟨h1, h2, h3⟩ := this
    refine ⟨h1, ?_, h3⟩
    intro i c w hb
    cases body with
    | text t => cases hb
    | children i' c' w' =>
      have hc := h2 _ _ _ rfl
      cases hb
      cases c' with
      | alphabeticPoint l => exact hc
      | numericPoint l => exact hc
      | quotedBlock l => trivial
      | amendment a => exact nomatch a

/-! ### Semantic information -/

/-- What was recorded is proper and what is being built has plain letters. -/
def GoodBuilder (b : Builder) : Prop := PlainSubpoint b.ref ∧ ∀ o ∈ b.result, ProperRef o.reference

def Keeps {X : Type} (f : X → Builder → Option Builder) : Prop :=
  ∀ x b b', GoodBuilder b → f x b = some b' → GoodBuilder b'

theorem good_new : GoodBuilder Builder.new :=
  ⟨fun s h => by simp [Builder.new, Ref.empty] at h, by simp [Builder.new]⟩

theorem good_record {b b' : Builder} (hb : GoodBuilder b) (h : b.recordOne = some b') : GoodBuilder b' := by
  unfold Builder.recordOne at h
  split at h
  · rename_i s r hs hr
    simp only [Option.some.injEq] at h
    subst h
    obtain ⟨rfl, hw⟩ := Ref.tryFrom_eq_some.1 hr
    refine ⟨hb.1, fun o ho => ?_⟩
    rcases List.mem_append.1 ho with ho | ho
    · exact hb.2 o ho
    · rw [List.mem_singleton.1 ho]
      exact ⟨hw, hb.1⟩
  · cases h

theorem good_set {b : Builder} (hb : GoodBuilder b) (p : Grammar.Pos) {set : Ref → Ref} (h : PlainSubpoint (set b.ref)) :
    GoodBuilder (b.setPart p set) := ⟨h, hb.2⟩

theorem keeps_opt {X : Type} {f : X → Builder → Option Builder} (hf : Keeps f) : Keeps (Builder.feedOpt f) := by
  intro x b b' hb h
  cases x with
  | none => cases h; exact hb
  | some x => exact hf x b b' hb h

theorem keeps_more {X : Type} {f : X → Builder → Option Builder} (hf : Keeps f) : Keeps (Builder.feedMore f) := by
  intro l
  induction l with
  | nil => intro b b' hb h; cases h; exact hb
  | cons x l ih =>
    intro b b' hb h
    simp only [Builder.feedMore, Option.bind_eq_bind, Option.bind_eq_some_iff] at h
    obtain ⟨b1, h1, b2, h2, h⟩ := h
    exact ih _ _ (hf _ _ _ (good_record hb h1) h2) h

theorem keeps_list {X : Type} {f : X → Builder → Option Builder} (hf : Keeps f) : Keeps (Builder.feedList f) := by
  intro l b b' hb h
  cases l with
  | nil => cases h; exact hb
  | cons x l =>
    simp only [Builder.feedList, Option.bind_eq_bind, Option.bind_eq_some_iff] at h
    obtain ⟨b1, h1, h⟩ := h
    exact keeps_more hf _ _ _ (hf _ _ _ hb h1) h

theorem keeps_all {X : Type} {f : X → Builder → Option Builder} (hf : Keeps f) : Keeps (Builder.feedAll f) := by
  intro l
  induction l with
  | nil => intro b b' hb h; cases h; exact hb
  | cons x l ih =>
    intro b b' hb h
    simp only [Builder.feedAll, Option.bind_eq_bind, Option.bind_eq_some_iff] at h
    obtain ⟨b1, h1, h⟩ := h
    exact ih _ _ (hf _ _ _ hb h1) h

theorem plain_none {r : Ref} (h : r.subpoint = none) : PlainSubpoint r := fun s hs => by rw [h] at hs; cases hs

theorem keeps_part {α : Type} {parse : Str → Option α} {set : Ref → IdRange α → Ref}
    (h : ∀ x r y, partRange parse x = some r → PlainSubpoint (set y r)) : Keeps (Builder.feedPart parse set) := by
  intro x b b' hb h'
  simp only [Builder.feedPart, Option.bind_eq_bind, Option.bind_eq_some_iff, Option.some.injEq] at h'
  obtain ⟨r, hr, rfl⟩ := h'
  exact good_set hb _ (h _ r b.ref hr)

theorem keeps_paragraph : Keeps Builder.feedParagraph := keeps_part fun _ _ _ _ => plain_none rfl
theorem keeps_numericPoint : Keeps Builder.feedNumericPoint := keeps_part fun _ _ _ _ => plain_none rfl
theorem keeps_alphabeticPoint : Keeps Builder.feedAlphabeticPoint := keeps_part fun _ _ _ _ => plain_none rfl

theorem keeps_numericSubpoint : Keeps Builder.feedNumericSubpoint :=
  keeps_part fun _ _ _ _ s hs => by simp [Ref.setSubpoint] at hs

theorem keeps_alphabeticSubpoint : Keeps Builder.feedAlphabeticSubpoint := by
  refine keeps_part fun x r y h s hs => ?_
  simp only [Ref.setSubpoint, Option.some.injEq, RefPartSubpoint.alphabetic.injEq] at hs
  subst hs
  cases x with
  | single t =>
    simp only [partRange, Option.bind_eq_bind, Option.bind_eq_some_iff, Option.some.injEq] at h
    obtain ⟨a, ha, rfl⟩ := h
    exact ⟨plainPrefixed_parse ha, plainPrefixed_parse ha⟩
  | range t u =>
    simp only [partRange, Option.bind_eq_bind, Option.bind_eq_some_iff, Option.some.injEq] at h
    obtain ⟨a, ha, b, hb, rfl⟩ := h
    exact ⟨plainPrefixed_parse ha, plainPrefixed_parse hb⟩

theorem keeps_article : Keeps Builder.feedArticle := by
  intro x b b' hb h
  simp only [Builder.feedArticle, Option.bind_eq_bind, Option.bind_eq_some_iff, Option.some.injEq] at h
  obtain ⟨r, -, rfl⟩ := h
  exact good_set hb _ (plain_none rfl)

theorem keeps_act (c : Cache) : Keeps (Builder.feedAct c) := by
  intro x b b' hb h
  cases x <;>
    · simp only [Builder.feedAct, Option.bind_eq_bind, Option.bind_eq_some_iff] at h
      obtain ⟨a, -, h⟩ := h
      exact good_record (good_set hb _ (plain_none rfl)) h

theorem keeps_finish {b b' : Builder} {p : Grammar.Pos} (hb : GoodBuilder b) (h : b.finish p = some b') :
    GoodBuilder b' := good_record (b := { b with fin := p.fin }) hb h

theorem keeps_reference : Keeps Builder.feedReference := by
  intro x b b' hb h
  simp only [Builder.feedReference, Option.bind_eq_bind, Option.bind_eq_some_iff] at h
  obtain ⟨b1, h1, b2, h2, b3, h3, b4, h4, b5, h5, b6, h6, h⟩ := h
  have g1 := keeps_opt (keeps_list keeps_article) _ _ _ hb h1
  have g2 := keeps_opt (keeps_list keeps_paragraph) _ _ _ g1 h2
  have g3 := keeps_opt (keeps_list keeps_numericPoint) _ _ _ g2 h3
  have g4 := keeps_opt (keeps_list keeps_alphabeticPoint) _ _ _ g3 h4
  have g5 := keeps_opt (keeps_list keeps_numericSubpoint) _ _ _ g4 h5
  have g6 := keeps_opt (keeps_list keeps_alphabeticSubpoint) _ _ _ g5 h6
  exact keeps_finish g6 h

theorem keeps_insertion : Keeps Builder.feedInsertion := by
  intro x b b' hb h
  simp only [Builder.feedInsertion, Option.bind_eq_bind, Option.bind_eq_some_iff] at h
  obtain ⟨b1, h1, b2, h2, b3, h3, b4, h4, b5, h5, b6, h6, h⟩ := h
  have g1 := keeps_list (keeps_list keeps_article) _ _ _ hb h1
  have g2 := keeps_opt (keeps_list keeps_paragraph) _ _ _ g1 h2
  have g3 := keeps_opt (keeps_list keeps_numericPoint) _ _ _ g2 h3
  have g4 := keeps_opt (keeps_list keeps_alphabeticPoint) _ _ _ g3 h4
  have g5 := keeps_opt (keeps_list keeps_numericSubpoint) _ _ _ g4 h5
  have g6 := keeps_opt (keeps_list keeps_alphabeticSubpoint) _ _ _ g5 h6
  exact keeps_finish g6 h

theorem keeps_singleArticle : Keeps Builder.feedSingleArticle := by
  intro x b b' hb h
  simp only [Builder.feedSingleArticle, Option.bind_eq_bind, Option.bind_eq_some_iff] at h
  obtain ⟨r, -, h⟩ := h
  exact good_record (good_set hb _ (plain_none rfl)) h

theorem keeps_relative : Keeps Builder.feedArticleRelative := by
  intro x b b' hb h
  cases x <;> exact keeps_singleArticle _ _ _ hb h

theorem keeps_text : Keeps Builder.feedText := by
  intro x b b' hb h
  unfold Builder.feedText at h
  split at h
  · cases h; exact hb
  · exact keeps_relative _ _ _ hb h
  · exact keeps_singleArticle _ _ _ hb h
  · cases h; exact hb
  · exact keeps_reference _ _ _ hb h
  · cases h; exact hb

theorem keeps_enforcement : Keeps Builder.feedEnforcement := by
  intro x b b' hb h
  unfold Builder.feedEnforcement at h
  split at h
  · exact keeps_reference _ _ _ hb h
  · cases h; exact hb

/-- All references are proper. -/
def GoodRefs (l : List OutgoingRef) : Prop := ∀ o ∈ l, ProperRef o.reference

theorem blockAmendmentRefs_good {c : Cache} {x : Grammar.BlockAmendment} {l : List OutgoingRef}
    (h : blockAmendmentRefs c x = some l) : GoodRefs l := by
  simp only [blockAmendmentRefs, Option.bind_eq_bind, Option.bind_eq_some_iff, Option.some.injEq] at h
  obtain ⟨b1, h1, b2, h2, b3, h3, rfl⟩ := h
  have g1 := keeps_act c _ _ _ good_new h1
  have g2 := keeps_opt keeps_reference _ _ _ g1 h2
  exact (keeps_opt keeps_insertion _ _ _ g2 h3).2

theorem enforcementRefs_good {x : Grammar.GEnforcementDate} {l : List OutgoingRef}
    (h : enforcementRefs x = some l) : GoodRefs l := by
  simp only [enforcementRefs, Option.bind_eq_bind, Option.bind_eq_some_iff, Option.some.injEq] at h
  obtain ⟨b1, h1, rfl⟩ := h
  exact (keeps_all keeps_enforcement _ _ _ good_new h1).2

theorem compoundRefs_good {c : Cache} {x : Grammar.CompoundReference} {l : List OutgoingRef}
    (h : compoundRefs c x = some l) : GoodRefs l := by
  simp only [compoundRefs, Option.bind_eq_bind, Option.bind_eq_some_iff, Option.some.injEq] at h
  obtain ⟨b1, h1, b2, h2, rfl⟩ := h
  exact (keeps_all keeps_reference _ _ _ (keeps_opt (keeps_act c) _ _ _ good_new h1) h2).2

theorem outgoingRefs_good {c : Cache} {root : Grammar.Root} {l : List OutgoingRef}
    (h : outgoingRefs c root = some l) : GoodRefs l := by
  cases root with
  | blockAmendment x => exact blockAmendmentRefs_good h
  | blockAmendmentStructural x =>
    simp only [outgoingRefs, structuralAmendmentRefs, Option.bind_eq_bind, Option.bind_eq_some_iff,
      Option.some.injEq] at h
    obtain ⟨b1, h1, rfl⟩ := h
    exact (keeps_act c _ _ _ good_new h1).2
  | blockAmendmentWithSubtitle x =>
    simp only [outgoingRefs, subtitleAmendmentRefs, Option.bind_eq_bind, Option.bind_eq_some_iff,
      Option.some.injEq] at h
    obtain ⟨b1, h1, b2, h2, b3, h3, rfl⟩ := h
    have g1 := keeps_act c _ _ _ good_new h1
    have g2 := keeps_opt keeps_relative _ _ _ g1 h2
    exact (keeps_opt keeps_singleArticle _ _ _ g2 h3).2
  | enforcementDate x => exact enforcementRefs_good h
  | simple x =>
    simp only [outgoingRefs, Option.some.injEq] at h
    subst h
    intro o ho
    obtain ⟨e, -, ho⟩ := List.mem_flatMap.1 ho
    unfold expressionRefs at ho
    split at ho
    · rename_i r
      rcases hr : compoundRefs c r with _ | l <;> rw [hr] at ho
      · simp at ho
      · exact compoundRefs_good hr o ho
    · simp at ho
  | repeal x =>
    simp only [outgoingRefs, repealRefs, Option.bind_eq_bind, Option.bind_eq_some_iff, Option.some.injEq] at h
    obtain ⟨b1, h1, b2, h2, rfl⟩ := h
    exact (keeps_all keeps_text _ _ _ (keeps_act c _ _ _ good_new h1) h2).2
  | textAmendment x =>
    simp only [outgoingRefs, textAmendmentRefs, Option.bind_eq_bind, Option.bind_eq_some_iff, Option.some.injEq] at h
    obtain ⟨b1, h1, b2, h2, rfl⟩ := h
    exact (keeps_all keeps_text _ _ _ (keeps_act c _ _ _ good_new h1) h2).2

/-! ### Phrases -/

theorem amendedPositions_proper {l : List OutgoingRef} (h : GoodRefs l) : ∀ r ∈ amendedPositions l, ProperRef r := by
  intro r hr
  obtain ⟨o, ho, rfl⟩ := List.mem_map.1 (List.mem_of_mem_filter hr)
  exact h o ho

theorem coveringRange_proper {l : List Ref} {r : Ref} (hl : ∀ x ∈ l, ProperRef x) (h : coveringRange l = some r) :
    ProperRef r := by
  obtain ⟨-, ⟨x, hx, e1⟩, y, hy, e2⟩ := coveringRange_spec h
  refine ⟨?_, ?_⟩
  · obtain ⟨f, -, h⟩ := bind_some_split h
    obtain ⟨e, -, h⟩ := bind_some_split h
    exact Ref.wf_makeRange h
  · intro s hs
    have f1 : x.firstInRange.subpoint = some (.alphabetic (.single s.start)) := by
      rw [← e1]
      simp [Ref.firstInRange, hs, RefPartSubpoint.first, IdRange.first]
    have f2 : y.lastInRange.subpoint = some (.alphabetic (.single s.fin)) := by
      rw [← e2]
      simp [Ref.lastInRange, hs, RefPartSubpoint.last, IdRange.last]
    constructor
    · simp only [Ref.firstInRange, Option.map_eq_some_iff] at f1
      obtain ⟨t, ht, ht'⟩ := f1
      cases t with
      | numeric t => simp [RefPartSubpoint.first] at ht'
      | alphabetic t =>
        simp only [RefPartSubpoint.first, RefPartSubpoint.alphabetic.injEq, IdRange.single, IdRange.mk.injEq] at ht'
        rw [← ht'.1]
        exact ((hl x hx).2 t ht).1
    · simp only [Ref.lastInRange, Option.map_eq_some_iff] at f2
      obtain ⟨t, ht, ht'⟩ := f2
      cases t with
      | numeric t => simp [RefPartSubpoint.last] at ht'
      | alphabetic t =>
        simp only [RefPartSubpoint.last, RefPartSubpoint.alphabetic.injEq, IdRange.single, IdRange.mk.injEq] at ht'
        rw [← ht'.1]
        exact ((hl y hy).2 t ht).2

theorem convertDate_proper {g : Grammar.GDate} {d : Date} (h : convertDate g = some d) : ProperDate d := by
  obtain ⟨y, -, h⟩ := bind_some_split h
  obtain ⟨m, -, h⟩ := bind_some_split h
  obtain ⟨n, -, h⟩ := bind_some_split h
  unfold calendarDate at h
  split at h
  · rename_i hy
    obtain ⟨rfl, h'⟩ := (Props.ofYmd_iff _ _ _ _).1 h
    exact ⟨h', hy.1, hy.2⟩
  · cases h

theorem when_proper {x : Grammar.EnforcementWhen} {d : Date} (h : convertWhen x = some (.date d)) : ProperDate d := by
  unfold convertWhen at h
  split at h
  · cases h
  · obtain ⟨_, -, h⟩ := bind_some_split h; cases h
  · obtain ⟨_, h5, h⟩ := bind_some_split h
    cases h
    exact convertDate_proper h5
  · obtain ⟨_, -, h⟩ := bind_some_split h
    obtain ⟨_, -, h⟩ := bind_some_split h; cases h

/-- The references of text amendments. -/
def GoodTexts (l : List TextAmendmentRef) : Prop :=
  (∀ r p, .sae r p ∈ l → ProperRef r) ∧ ∀ r, .articleTitle r ∈ l → ProperRef r

theorem taken_proper {b : Builder} (hb : GoodBuilder b) : ∀ r ∈ taken b, ProperRef r :=
  amendedPositions_proper hb.2

theorem good_cleared {b : Builder} (hb : GoodBuilder b) : GoodBuilder b.cleared :=
  ⟨hb.1, by simp [Builder.cleared]⟩

theorem textReference_good {act : ActId} {x : Grammar.TextReference} {b : Builder}
    {r : List TextAmendmentRef × Builder} (hb : GoodBuilder b) (h : convertTextReference act x b = some r) :
    GoodTexts r.1 ∧ GoodBuilder r.2 := by
  cases x with
  | structural parent child =>
    simp only [convertTextReference, Option.bind_eq_bind, Option.bind_eq_some_iff, Option.some.injEq] at h
    obtain ⟨y, -, rfl⟩ := h
    exact ⟨⟨by simp, by simp⟩, hb⟩
  | articleTitle a =>
    simp only [convertTextReference, Option.bind_eq_bind, Option.bind_eq_some_iff, Option.some.injEq] at h
    obtain ⟨b1, h1, rfl⟩ := h
    have g := keeps_singleArticle _ _ _ hb h1
    refine ⟨⟨by simp, fun r hr => ?_⟩, good_cleared g⟩
    obtain ⟨y, hy, hr⟩ := List.mem_map.1 hr
    cases hr
    exact taken_proper g _ hy
  | subtitles l =>
    simp only [convertTextReference, Option.bind_eq_bind, Option.bind_eq_some_iff, Option.some.injEq] at h
    obtain ⟨y, -, rfl⟩ := h
    exact ⟨⟨by simp, by simp⟩, hb⟩
  | reference y t =>
    simp only [convertTextReference, Option.bind_eq_bind, Option.bind_eq_some_iff, Option.some.injEq] at h
    obtain ⟨b1, h1, rfl⟩ := h
    have g := keeps_reference _ _ _ hb h1
    refine ⟨⟨fun r p hr => ?_, by simp⟩, good_cleared g⟩
    obtain ⟨y, hy, hr⟩ := List.mem_map.1 hr
    cases hr
    exact taken_proper g _ hy
  | attachment =>
    simp only [convertTextReference, Option.some.injEq] at h
    subst h
    exact ⟨⟨by simp, by simp⟩, hb⟩

theorem goodTexts_append {l m : List TextAmendmentRef} (h1 : GoodTexts l) (h2 : GoodTexts m) : GoodTexts (l ++ m) := by
  refine ⟨fun r p h => ?_, fun r h => ?_⟩
  · rcases List.mem_append.1 h with h | h
    · exact h1.1 r p h
    · exact h2.1 r p h
  · rcases List.mem_append.1 h with h | h
    · exact h1.2 r h
    · exact h2.2 r h

theorem textLoop_good {act : ActId} (l : List Grammar.TextReference) : ∀ (b : Builder) (r : List TextAmendmentRef),
    GoodBuilder b → convertTextLoop act l b = some r → GoodTexts r := by
  induction l with
  | nil =>
    intro b r _ h
    cases h
    exact ⟨by simp, by simp⟩
  | cons x l ih =>
    intro b r hb h
    simp only [convertTextLoop, Option.bind_eq_bind, Option.bind_eq_some_iff, Option.some.injEq] at h
    obtain ⟨y, hy, z, hz, rfl⟩ := h
    obtain ⟨g1, g2⟩ := textReference_good hb hy
    exact goodTexts_append g1 (ih _ _ g2 hz)

theorem textReferences_good {c : Cache} {a : Grammar.ActReference} {l : List Grammar.TextReference}
    {r : List TextAmendmentRef} (h : convertTextReferences c a l = some r) : GoodTexts r := by
  simp only [convertTextReferences, Option.bind_eq_bind, Option.bind_eq_some_iff] at h
  obtain ⟨act, -, b, hb, h⟩ := h
  exact textLoop_good l b r (keeps_act c _ _ _ good_new hb) h

theorem textAmendments_proper {X : Type} {refs : List TextAmendmentRef} (h : GoodTexts refs) {l : List X} {f g : X → Str} :
    ProperPhrase (.textAmendment (refs.flatMap fun r => l.map fun p => ⟨r, f p, g p⟩)) := by
  intro a ha
  obtain ⟨r, hr, ha⟩ := List.mem_flatMap.1 ha
  obtain ⟨p, -, rfl⟩ := List.mem_map.1 ha
  simp only
  refine ⟨fun r' p' he => h.1 r' p' (he ▸ hr), fun r' he => h.2 r' (he ▸ hr)⟩

theorem ofAct_proper (a : ActId) : ProperRef (Ref.ofAct a) :=
  ⟨(Ref.tryFrom_eq_some.1 (show Ref.tryFrom (Ref.ofAct a) = some (Ref.ofAct a) from rfl)).2, plain_none rfl⟩

theorem elementRepeal_proper {c : Cache} {x : Grammar.GRepeal} {l : List RepealRef}
    (h : convertElementRepeal c x = some l) : ∀ r, .reference r ∈ l → ProperRef r := by
  simp only [convertElementRepeal, Option.bind_eq_bind, Option.bind_eq_some_iff, Option.some.injEq] at h
  obtain ⟨refs, h1, m, h2, w, h3, rfl⟩ := h
  have g := textReferences_good h1
  intro r hr
  rcases List.mem_append.1 hr with hr | hr
  · obtain ⟨t, ht, hr⟩ := mapM_mem h2 _ hr
    unfold convertRepealRef at hr
    split at hr
    · split at hr
      · cases hr
        exact g.1 _ _ ht
      · cases hr
    · cases hr
    · cases hr
  · unfold wholeAct at h3
    split at h3
    · simp only [Option.bind_eq_bind, Option.bind_eq_some_iff, Option.some.injEq] at h3
      obtain ⟨a, -, rfl⟩ := h3
      simp only [List.mem_singleton, RepealRef.reference.injEq] at hr
      subst hr
      exact ofAct_proper a
    · cases h3
      simp at hr

theorem phrase_proper {c : Cache} {root : Grammar.Root} {p : Option SpecialPhrase}
    (h : extractSpecialPhrase c root = some p) : ∀ q, p = some q → ProperPhrase q := by
  rintro q rfl
  cases root with
  | simple x => simp [extractSpecialPhrase] at h
  | blockAmendment x =>
    simp only [extractSpecialPhrase, convertBlockAmendment, Option.bind_eq_bind, Option.bind_eq_some_iff,
      Option.some.injEq] at h
    obtain ⟨_, ⟨refs, h1, position, h2, h⟩, rfl⟩ := h
    have g := coveringRange_proper (amendedPositions_proper (blockAmendmentRefs_good h1)) h2
    unfold blockAmendmentPhrase at h
    split at h
    · simp only [Option.bind_eq_bind, Option.bind_eq_some_iff, Option.some.injEq] at h
      obtain ⟨_, -, rfl⟩ := h
      trivial
    · cases h
      exact g
  | blockAmendmentStructural x =>
    simp only [extractSpecialPhrase, convertStructuralBlockAmendment, Option.bind_eq_bind, Option.bind_eq_some_iff,
      Option.some.injEq] at h
    obtain ⟨_, ⟨_, -, _, -, _, -, r, hr, rfl⟩, rfl⟩ := h
    trivial
  | blockAmendmentWithSubtitle x =>
    simp only [extractSpecialPhrase, convertSubtitleBlockAmendment, Option.bind_eq_bind, Option.bind_eq_some_iff,
      Option.some.injEq] at h
    obtain ⟨_, ⟨_, -, _, -, _, -, rfl⟩, rfl⟩ := h
    trivial
  | enforcementDate x =>
    simp only [extractSpecialPhrase, convertEnforcementDate, Option.bind_eq_bind, Option.bind_eq_some_iff,
      Option.some.injEq] at h
    obtain ⟨_, ⟨refs, h1, _, -, date, h2, rep, h3, rfl⟩, rfl⟩ := h
    refine ⟨fun r hr => ?_, fun d hd => ?_, fun d hd => ?_⟩
    · obtain ⟨o, ho, rfl⟩ := List.mem_map.1 hr
      exact enforcementRefs_good h1 o ho
    · simp only at hd
      subst hd
      exact when_proper h2
    · simp only at hd
      subst hd
      unfold convertDate? at h3
      split at h3
      · cases h3
      · obtain ⟨_, h5, h3⟩ := bind_some_split h3
        cases h3
        exact convertDate_proper h5
  | repeal x =>
    simp only [extractSpecialPhrase, Option.bind_eq_bind, Option.bind_eq_some_iff, Option.some.injEq] at h
    obtain ⟨q', h, rfl⟩ := h
    unfold convertRepeal at h
    split at h
    · simp only [Option.bind_eq_bind, Option.bind_eq_some_iff, Option.some.injEq] at h
      obtain ⟨l, hl, rfl⟩ := h
      exact elementRepeal_proper hl
    · simp only [convertTextRepeal, Option.bind_eq_bind, Option.bind_eq_some_iff, Option.some.injEq] at h
      obtain ⟨l, ⟨_, -, refs, hr, rfl⟩, rfl⟩ := h
      exact textAmendments_proper (f := fun t => t) (g := fun _ => []) (textReferences_good hr)
  | textAmendment x =>
    simp only [extractSpecialPhrase, convertTextAmendment, Option.bind_eq_bind, Option.bind_eq_some_iff,
      Option.some.injEq] at h
    obtain ⟨l, ⟨_, -, refs, hr, rfl⟩, rfl⟩ := h
    exact textAmendments_proper (f := Prod.fst) (g := Prod.snd) (textReferences_good hr)

theorem introPhrase_from {p : Option SpecialPhrase} {q : SpecialPhrase} (h : introPhrase p = some q) : p = some q := by
  unfold introPhrase at h
  split at h <;> simp_all

theorem readText_proper {c : Cache} {r : Spec.Reading} {x : SemanticInfo × Cache} (h : readText c r = some x) :
    ProperInfo x.1 := by
  simp only [readText_eq, Option.bind_eq_bind, Option.bind_eq_some_iff, Option.some.injEq] at h
  obtain ⟨root, -, new, -, refs, hr, p, hp, rfl⟩ := h
  refine ⟨?_, mapCollect_proper new, ?_⟩
  · intro o ho
    simp only [ownReferences, List.mem_map, List.mem_filter] at ho
    obtain ⟨o', ⟨ho', -⟩, rfl⟩ := ho
    exact outgoingRefs_good hr o' ho'
  · intro q hq
    refine phrase_proper hp q ?_
    simp only at hq
    split at hq
    · exact introPhrase_from hq
    · exact hq

theorem readTexts_proper {l : List Spec.Reading} : ∀ {c c' : Cache} {i : List SemanticInfo},
    readTexts c l = some (i, c') → ∀ x ∈ i, ProperInfo x := by
  induction l with
  | nil =>
    intro c c' i h
    cases h
    simp
  | cons r l ih =>
    intro c c' i h
    simp only [readTexts, Option.bind_eq_bind, Option.bind_eq_some_iff, Option.some.injEq, Prod.mk.injEq] at h
    obtain ⟨x, hx, y, hy, rfl, rfl⟩ := h
    intro z hz
    rcases List.mem_cons.1 hz with rfl | hz
    · exact readText_proper hx
    · exact ih hy z hz

theorem readTexts_increasing {l : List Spec.Reading} : ∀ {c c' : Cache} {i : List SemanticInfo},
    readTexts c l = some (i, c') → Increasing c.allAbbreviations → Increasing c'.allAbbreviations := by
  induction l with
  | nil =>
    intro c c' i h
    cases h
    exact id
  | cons r l ih =>
    intro c c' i h hc
    simp only [readTexts, Option.bind_eq_bind, Option.bind_eq_some_iff, Option.some.injEq, Prod.mk.injEq] at h
    obtain ⟨x, hx, y, hy, rfl, rfl⟩ := h
    refine ih hy ?_
    simp only [readText_eq, Option.bind_eq_bind, Option.bind_eq_some_iff, Option.some.injEq] at hx
    obtain ⟨root, -, new, -, refs, -, p, -, rfl⟩ := hx
    exact addMultiple_increasing c new hc

/-! ### Acts with semantic information -/

theorem sae_bare {I C : Type} {okId : I → Prop} {P : C → Prop} {f : C → C}
    {inner : List Ancestor → C → List (Spec.Reading × SemanticInfo)}
    (hP : ∀ l c, P (f c) → (∀ x ∈ inner l c, ProperInfo x.2) → P c) {l : List Ancestor} {e : SAE I C}
    (hb : ProperSae okId P (bareSae f e)) (h : ∀ x ∈ elementReadings inner l e, ProperInfo x.2) :
    ProperSae okId P e := by
  unfold elementReadings at h
  refine ⟨hb.1, ?_, ?_, hb.2.2.2⟩
  · intro i c w hc
    rw [hc] at h
    refine hP _ c (hb.2.1 i (f c) w ?_) fun x hx => h x (List.mem_cons_of_mem _ hx)
    unfold bareSae
    rw [hc]
    rfl
  · split at h
    · exact h _ (List.mem_singleton_self _)
    · exact h _ (List.mem_cons_self ..)

theorem list_bare {I C : Type} {okId : I → Prop} {P : C → Prop} {f : C → C}
    {inner : List Ancestor → C → List (Spec.Reading × SemanticInfo)}
    (hP : ∀ l c, P (f c) → (∀ x ∈ inner l c, ProperInfo x.2) → P c) {l : List Ancestor} {es : List (SAE I C)}
    (hb : ∀ e ∈ es.map (bareSae f), ProperSae okId P e)
    (h : ∀ x ∈ es.flatMap (elementReadings inner l), ProperInfo x.2) : ∀ e ∈ es, ProperSae okId P e :=
  fun e he => sae_bare hP (hb _ (List.mem_map.2 ⟨e, he, rfl⟩)) fun x hx => h x (List.mem_flatMap.2 ⟨e, he, hx⟩)

theorem paragraphChildren_bare (l : List Ancestor) (c : ParagraphChildren Empty)
    (hb : ProperParagraphChildren (fun _ => True) (bareParagraphChildren c))
    (h : ∀ x ∈ paragraphReadings l c, ProperInfo x.2) : ProperParagraphChildren (fun _ => True) c := by
  cases c with
  | alphabeticPoint es =>
    refine list_bare ?_ hb h
    intro l c hb h
    cases c with
    | alphabeticSubpoint es => exact list_bare (P := fun _ => True) (fun _ _ _ _ => trivial) hb h
    | numericSubpoint es => exact list_bare (P := fun _ => True) (fun _ _ _ _ => trivial) hb h
  | numericPoint es =>
    refine list_bare ?_ hb h
    intro l c hb h
    cases c with
    | alphabeticSubpoint es => exact list_bare (P := fun _ => True) (fun _ _ _ _ => trivial) hb h
  | quotedBlock _ => trivial
  | amendment a => exact nomatch a

theorem act_bare_proper {a : Act Empty} (hb : ∀ c ∈ (bareAct a).children, ProperParsed c)
    (h : ∀ x ∈ actReadings a, ProperInfo x.2) : ∀ c ∈ a.children, ProperParsed c := by
  intro c hc
  have hb' := hb (bareActChild c) (List.mem_map.2 ⟨c, hc, rfl⟩)
  cases c with
  | structuralElement e => exact hb'
  | subtitle s => exact hb'
  | article x =>
    refine ⟨?_, hb'.2⟩
    intro p hp
    rw [properParagraph_iff]
    refine sae_bare (l := []) paragraphChildren_bare
      (properParagraph_iff.1 (hb'.1 _ (List.mem_map.2 ⟨p, hp, rfl⟩))) fun y hy => h y ?_
    refine List.mem_flatMap.2 ⟨x, ?_, List.mem_flatMap.2 ⟨p, hp, hy⟩⟩
    unfold Act.articles
    exact List.mem_filterMap.2 ⟨_, hc, rfl⟩

theorem bare_proper {c : ActChild Empty} (h : ProperParsed c) : ProperParsed (bareActChild c) := by
  have key : ∀ {I C : Type} {okId : I → Prop} {P : C → Prop} {f : C → C} (_ : ∀ c, P c → P (f c)) {e : SAE I C},
      ProperSae okId P e → ProperSae okId P (bareSae f e) := by
    rintro I C okId P f hf ⟨id, body, info, change⟩ ⟨h1, h2, h3⟩
    refine ⟨h1, ?_, properInfo_default, h3.2⟩
    intro i c w hb
    cases body with
    | text t => cases hb
    | children i' c' w' =>
      cases hb
      exact hf _ (h2 _ _ _ rfl)
  have keys : ∀ {I C : Type} {okId : I → Prop} {P : C → Prop} {f : C → C} (_ : ∀ c, P c → P (f c)) {l : List (SAE I C)},
      (∀ e ∈ l, ProperSae okId P e) → ∀ e ∈ l.map (bareSae f), ProperSae okId P e := by
    intro I C okId P f hf l h e he
    obtain ⟨d, hd, rfl⟩ := List.mem_map.1 he
    exact key hf (h d hd)
  cases c with
  | structuralElement e => exact h
  | subtitle s => exact h
  | article x =>
    refine ⟨?_, h.2⟩
    intro p hp
    obtain ⟨q, hq, rfl⟩ := List.mem_map.1 hp
    rw [properParagraph_iff]
    refine key ?_ (properParagraph_iff.1 (h.1 q hq))
    intro c hc
    cases c with
    | alphabeticPoint es =>
      refine keys ?_ hc
      intro c hc
      cases c with
      | alphabeticSubpoint es => exact keys (P := fun _ => True) (fun _ _ => trivial) hc
      | numericSubpoint es => exact keys (P := fun _ => True) (fun _ _ => trivial) hc
    | numericPoint es =>
      refine keys ?_ hc
      intro c hc
      cases c with
      | alphabeticSubpoint es => exact keys (P := fun _ => True) (fun _ _ => trivial) hc
    | quotedBlock _ => trivial
    | amendment a => exact nomatch a

end HunLaw.Serde
