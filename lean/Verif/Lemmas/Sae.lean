import Verif.Model.ActParser
import Verif.Spec.Structure
import Verif.Props.Line

/-! Lemmas on the text of parsed elements. -/

set_option autoImplicit false
set_option linter.unusedSectionVars false

namespace HunLaw

open HunLaw.Spec

theorem noSpaces_append (a b : Str) : noSpaces (a ++ b) = noSpaces a ++ noSpaces b := by simp [noSpaces]
@[simp] theorem noSpaces_nil : noSpaces [] = [] := rfl

theorem noSpaces_of_not_mem {s : Str} (h : ' ' ∉ s) : noSpaces s = s := by
  unfold noSpaces
  rw [List.filter_eq_self]
  intro c hc
  simpa using fun hh : c = ' ' => h (hh ▸ hc)

theorem noSpaces_appendTo (l : Line) (s : Str) : noSpaces (l.appendTo s) = noSpaces s ++ noSpaces l.content := by
  unfold Line.appendTo
  simp only [noSpaces_append]
  congr 1
  have : ∀ b : Bool, noSpaces (if b = true then s ++ [' '] else s) = noSpaces s := by
    intro b; cases b <;> simp [noSpaces]
  exact this _

theorem noSpaces_join_from (ls : List Line) (s : Str) :
    noSpaces (ls.foldl (fun s l => l.appendTo s) s) = noSpaces s ++ noSpaces (allText ls) := by
  induction ls generalizing s with
  | nil => simp [allText]
  | cons l ls ih => rw [List.foldl_cons, ih, noSpaces_appendTo]; simp [allText, noSpaces_append]

theorem noSpaces_join (ls : List Line) : noSpaces (Line.join ls) = noSpaces (allText ls) := by
  unfold Line.join; rw [noSpaces_join_from]; rfl

theorem allText_append (a b : List Line) : allText (a ++ b) = allText a ++ allText b := by simp [allText]
theorem allText_cons (a : Line) (b : List Line) : allText (a :: b) = a.content ++ allText b := by simp [allText]
@[simp] theorem allText_nil : allText [] = [] := rfl

theorem content_of_isEmpty {l : Line} (h : l.isEmpty = true) : l.content = [] := by
  unfold Line.isEmpty at h; unfold Line.content
  rw [List.isEmpty_iff] at h; simp [h]

namespace SAEParser
variable {I C : Type} [DecidableEq I] [IdentifierCommon I]

theorem noSpaces_keepWrapUp (w : Option Str) (ls : List Line) :
    noSpaces ((keepWrapUp w ls).getD []) = noSpaces (w.getD []) ++ noSpaces (allText ls) := by
  induction ls generalizing w with
  | nil => simp [keepWrapUp]
  | cons l ls ih =>
    cases w with
    | none => simp [keepWrapUp, ih, allText_cons, noSpaces_append]
    | some w => simp [keepWrapUp, ih, allText_cons, noSpaces_append, noSpaces_appendTo]

/-- What is needed of a parser to keep the text. -/
structure KeepsText (p : SAEParser I C) (mark : I → Str → Prop) (ct : C → Str → Prop) : Prop where
  header : ∀ l id rest, p.parseHeader l = .ok (some (id, rest)) →
    ∃ h, mark id h ∧ noSpaces l.content = h ++ noSpaces rest.content
  children : ∀ id prev ls params ex, p.tryExtractChildren id prev ls params = .ok ex →
    ∃ t, ct ex.elements t ∧
      noSpaces (allText ls) = t ++ noSpaces (ex.parentWrapUp.getD []) ++ noSpaces (allText ex.restOfWrapUp)

theorem withChildren_text {ct : C → Str → Prop} {id : I} {mode : WrapUpMode}
    {intro t : Str} {ex : Extracted C} (h : ct ex.elements t) :
    ∃ b, BodyText ct (withChildren id mode intro ex).element.body b ∧
      noSpaces intro ++ (t ++ noSpaces (ex.parentWrapUp.getD []) ++ noSpaces (allText ex.restOfWrapUp)) =
        b ++ noSpaces (allText (withChildren id mode intro ex).restOfWrapUp) := by
  cases mode with
  | keepIt => exact ⟨_, ⟨t, h, rfl⟩, by simp [withChildren, noSpaces_keepWrapUp]⟩
  | giveIt => exact ⟨_, ⟨t, h, rfl⟩, by simp [withChildren]⟩

theorem parseFrom_text {p : SAEParser I C} {mark : I → Str → Prop} {ct : C → Str → Prop}
    (hp : KeepsText p mark ct) {id : I} {context : ParsingContext} {mode : WrapUpMode} {body : List Line}
    (ls : List Line) : ∀ {q : QuoteCheck} {prev : Option Line} {intro : Str} {r : ParseResult I C},
    noSpaces (allText body) = noSpaces intro ++ noSpaces (allText ls) →
    parseFrom p id context mode body q prev intro ls = .ok r →
    ∃ b, BodyText ct r.element.body b ∧
      noSpaces (allText body) = b ++ noSpaces (allText r.restOfWrapUp) := by
  induction ls with
  | nil =>
    intro q prev intro r hb h
    unfold parseFrom at h
    rw [Res.bind_eq_ok] at h
    obtain ⟨_, _, h⟩ := h
    simp only [Res.ok.injEq] at h
    subst h
    simp only [allText_nil, noSpaces_nil, List.append_nil] at hb
    unfold withoutChildren
    split
    · split
      · rename_i i _
        refine ⟨_, rfl, ?_⟩
        rw [noSpaces_join, ← noSpaces_append, ← allText_append, List.take_append_drop]
      · exact ⟨_, rfl, by simpa using hb⟩
    · exact ⟨_, rfl, by simpa using hb⟩
  | cons l ls ih =>
    intro q prev intro r hb h
    have hb' : noSpaces (allText body) = noSpaces (l.appendTo intro) ++ noSpaces (allText ls) := by
      rw [hb, noSpaces_appendTo, allText_cons, noSpaces_append, List.append_assoc]
    unfold parseFrom at h
    rw [Res.bind_eq_ok] at h
    obtain ⟨q', _, h⟩ := h
    simp only at h
    split at h
    · exact ih hb' h
    · cases hc : p.tryExtractChildren id prev (l :: ls) (.childrenDefault context) with
      | ok ex =>
        rw [hc] at h
        simp only [Res.ok.injEq] at h
        subst h
        obtain ⟨t, ht, he⟩ := hp.children _ _ _ _ _ hc
        rw [hb, he]
        exact withChildren_text ht
      | err => rw [hc] at h; exact ih hb' h
      | panic => rw [hc] at h; simp at h

theorem parse_text {p : SAEParser I C} {mark : I → Str → Prop} {ct : C → Str → Prop}
    (hp : KeepsText p mark ct) {id : I} {context : ParsingContext} {mode : WrapUpMode} {body : List Line}
    {r : ParseResult I C} (h : p.parse id body context mode = .ok r) :
    ∃ b, BodyText ct r.element.body b ∧
      noSpaces (allText body) = b ++ noSpaces (allText r.restOfWrapUp) :=
  parseFrom_text hp body (by simp) h

theorem parseFrom_keepIt {p : SAEParser I C} {id : I} {context : ParsingContext} {body : List Line}
    (ls : List Line) : ∀ {q : QuoteCheck} {prev : Option Line} {intro : Str} {r : ParseResult I C},
    parseFrom p id context .keepIt body q prev intro ls = .ok r → r.restOfWrapUp = [] := by
  induction ls with
  | nil =>
    intro q prev intro r h
    unfold parseFrom at h
    rw [Res.bind_eq_ok] at h
    obtain ⟨_, _, h⟩ := h
    simp only [Res.ok.injEq] at h
    subst h
    simp [withoutChildren]
  | cons l ls ih =>
    intro q prev intro r h
    unfold parseFrom at h
    rw [Res.bind_eq_ok] at h
    obtain ⟨q', _, h⟩ := h
    simp only at h
    split at h
    · exact ih h
    · cases hc : p.tryExtractChildren id prev (l :: ls) (.childrenDefault context) with
      | ok ex =>
        rw [hc] at h
        simp only [Res.ok.injEq] at h
        subst h
        rfl
      | err => rw [hc] at h; exact ih h
      | panic => rw [hc] at h; simp at h

theorem parse_keepIt {p : SAEParser I C} {id : I} {context : ParsingContext} {body : List Line}
    {r : ParseResult I C} (h : p.parse id body context .keepIt = .ok r) : r.restOfWrapUp = [] :=
  parseFrom_keepIt body h

theorem parse_keepIt_text {p : SAEParser I C} {mark : I → Str → Prop} {ct : C → Str → Prop}
    (hp : KeepsText p mark ct) {id : I} {context : ParsingContext} {body : List Line}
    {r : ParseResult I C} (h : p.parse id body context .keepIt = .ok r) :
    BodyText ct r.element.body (noSpaces (allText body)) := by
  obtain ⟨b, hb, he⟩ := parse_text hp h
  rw [parse_keepIt h] at he
  simp only [allText_nil, noSpaces_nil, List.append_nil] at he
  rwa [he]

theorem parseFrom_id {p : SAEParser I C} {id : I} {context : ParsingContext} {mode : WrapUpMode}
    {body : List Line} (ls : List Line) : ∀ {q : QuoteCheck} {prev : Option Line} {intro : Str}
    {r : ParseResult I C},
    parseFrom p id context mode body q prev intro ls = .ok r → r.element.identifier = id := by
  induction ls with
  | nil =>
    intro q prev intro r h
    unfold parseFrom at h
    rw [Res.bind_eq_ok] at h
    obtain ⟨_, _, h⟩ := h
    simp only [Res.ok.injEq] at h
    subst h
    unfold withoutChildren
    split
    · split <;> rfl
    · rfl
  | cons l ls ih =>
    intro q prev intro r h
    unfold parseFrom at h
    rw [Res.bind_eq_ok] at h
    obtain ⟨q', _, h⟩ := h
    simp only at h
    split at h
    · exact ih h
    · cases hc : p.tryExtractChildren id prev (l :: ls) (.childrenDefault context) with
      | ok ex =>
        rw [hc] at h
        simp only [Res.ok.injEq] at h
        subst h
        cases mode <;> rfl
      | err => rw [hc] at h; exact ih h
      | panic => rw [hc] at h; simp at h

theorem parse_id {p : SAEParser I C} {id : I} {context : ParsingContext} {mode : WrapUpMode}
    {body : List Line} {r : ParseResult I C} (h : p.parse id body context mode = .ok r) :
    r.element.identifier = id := parseFrom_id body h

theorem elementsText_append {mark : I → Str → Prop} {ct : C → Str → Prop} {es fs : List (SAE I C)}
    {t u : Str} (h1 : ElementsText mark ct es t) (h2 : ElementsText mark ct fs u) :
    ElementsText mark ct (es ++ fs) (t ++ u) := by
  induction es generalizing t with
  | nil => simp only [ElementsText] at h1; subst h1; simpa using h2
  | cons e es ih =>
    obtain ⟨h, b, v, hm, hb, hv, rfl⟩ := h1
    exact ⟨h, b, v ++ u, hm, hb, ih hv, by simp⟩

theorem elementsText_single {mark : I → Str → Prop} {ct : C → Str → Prop} {e : SAE I C} {h b : Str}
    (hm : mark e.identifier h) (hb : BodyText ct e.body b) : ElementsText mark ct [e] (h ++ b) :=
  ⟨h, b, [], hm, hb, rfl, by simp⟩

theorem extractEnd_ok {p : SAEParser I C} {params : SAEParams} {indent : Rat} {q : QuoteCheck}
    {elements : List (SAE I C)} {id : I} {body : List Line} {r : Extracted (List (SAE I C))} :
    extractEnd p params indent q elements id body = .ok r ↔
      q.checkEnd = .ok () ∧ extractLast p params indent elements id body = .ok r ∧
        (params.checkChildrenCount = true → 2 ≤ r.elements.length) := by
  unfold extractEnd
  rw [Res.bind_eq_ok]
  constructor
  · rintro ⟨u, h1, h⟩
    cases u
    rw [Res.bind_eq_ok] at h
    obtain ⟨r', h2, h⟩ := h
    split at h
    · simp at h
    · rename_i hc
      simp only [Res.ok.injEq] at h
      subst h
      refine ⟨h1, h2, fun hp => ?_⟩
      simp only [hp, Bool.true_and, decide_eq_true_eq] at hc
      omega
  · rintro ⟨h1, h2, h3⟩
    refine ⟨(), h1, ?_⟩
    rw [Res.bind_eq_ok]
    refine ⟨r, h2, ?_⟩
    rw [if_neg]
    simp only [Bool.and_eq_true, decide_eq_true_eq, not_and]
    intro hp
    have := h3 hp
    omega

/-- The last element, however its lines are cut. -/
theorem extractLast_ok {p : SAEParser I C} {params : SAEParams} {indent : Rat}
    {elements : List (SAE I C)} {id : I} {body : List Line} {r : Extracted (List (SAE I C))}
    (h : extractLast p params indent elements id body = .ok r) :
    ∃ body' wraps mode last, p.parse id body' params.context mode = .ok last ∧
      r.elements = elements ++ [last.element] ∧ body = body' ++ wraps ∧
      noSpaces (allText (last.restOfWrapUp ++ wraps)) =
        noSpaces (r.parentWrapUp.getD []) ++ noSpaces (allText r.restOfWrapUp) ∧
      (params.parseWrapUp = false → wraps = [] ∧ mode = .keepIt ∧ r.parentWrapUp = none) := by
  unfold extractLast at h
  split at h
  · rename_i hw
    split at h
    · split at h
      · rename_i i _
        rw [Res.bind_eq_ok] at h
        obtain ⟨last, hl, h⟩ := h
        simp only [Res.ok.injEq] at h
        subst h
        exact ⟨_, body.drop i, _, last, hl, rfl, (List.take_append_drop i body).symm,
          by simp [parse_keepIt hl, noSpaces_join], by simp [hw]⟩
      · rw [Res.bind_eq_ok] at h
        obtain ⟨last, hl, h⟩ := h
        simp only [Res.ok.injEq] at h
        subst h
        exact ⟨_, [], _, last, hl, rfl, by simp, by simp [parse_keepIt hl], by simp [hw]⟩
    · rw [Res.bind_eq_ok] at h
      obtain ⟨last, hl, h⟩ := h
      refine ⟨_, [], _, last, hl, ?_, (List.append_nil _).symm, ?_, by simp [hw]⟩
      · split at h
        simp only [Res.ok.injEq] at h
        subst h; rfl
      · have key : ∀ w rest, last.restOfWrapUp = w ++ rest →
            noSpaces (allText last.restOfWrapUp) =
              noSpaces ((if w = [] then none else some (Line.join w)).getD []) ++ noSpaces (allText rest) := by
          intro w rest hwr
          rw [hwr, allText_append, noSpaces_append]
          split
          · rename_i hw; subst hw; simp
          · simp [noSpaces_join]
        rw [List.append_nil]
        cases hf : last.restOfWrapUp.findIdx? (fun l => !l.justified) with
        | none =>
          rw [hf] at h
          simp only [Res.ok.injEq] at h
          subst h
          exact key _ _ (by simp)
        | some i =>
          rw [hf] at h
          simp only [Res.ok.injEq] at h
          subst h
          exact key _ _ (List.take_append_drop _ _).symm
  · rename_i hw
    rw [Res.bind_eq_ok] at h
    obtain ⟨last, hl, h⟩ := h
    simp only [Res.ok.injEq] at h
    subst h
    exact ⟨_, [], _, last, hl, rfl, by simp, by simp [parse_keepIt hl], by simp⟩

theorem nextHeader_ok {p : SAEParser I C} {q : QuoteCheck} {last id : I} {indent : Rat} {l rest : Line} :
    nextHeader p q last indent l = .ok (some (id, rest)) ↔
      q.beginningIsQuoted = false ∧ l.indentLessOrEq indent = true ∧
        p.parseHeader l = .ok (some (id, rest)) ∧ isNextFrom id last = true := by
  unfold nextHeader parseAndCheckHeader
  cases hq : q.beginningIsQuoted <;> simp only [Bool.false_eq_true, ↓reduceIte, true_and, false_and,
    reduceCtorEq, Res.ok.injEq]
  cases hi : l.indentLessOrEq indent <;> simp only [Bool.false_eq_true, ↓reduceIte, true_and, false_and,
    reduceCtorEq, Res.ok.injEq]
  cases hp : p.parseHeader l with
  | err => simp
  | panic => simp
  | ok o =>
    cases o with
    | none => simp
    | some y =>
      obtain ⟨a, b⟩ := y
      simp only [Res.bind_ok, Res.ok.injEq, Option.some.injEq, Prod.mk.injEq]
      constructor
      · intro h
        split at h
        · rename_i hn
          simp only [Res.ok.injEq, Option.some.injEq, Prod.mk.injEq] at h
          exact ⟨h, h.1 ▸ hn⟩
        · simp at h
      · rintro ⟨⟨rfl, rfl⟩, hn⟩
        rw [if_pos hn]

theorem extractMultiple_ok {p : SAEParser I C} {params : SAEParams} {ls : List Line} {expected : Option I}
    {r : Extracted (List (SAE I C))} :
    p.extractMultiple ls params expected = .ok r ↔
      ∃ first others id rest q, ls = first :: others ∧ p.parseHeader first = .ok (some (id, rest)) ∧
        goodFirst expected id = true ∧ QuoteCheck.new.update rest = .ok q ∧
        extractFrom p params first.indent q [] id [rest] others = .ok r := by
  cases ls with
  | nil => simp [extractMultiple]
  | cons first others =>
    unfold extractMultiple
    simp only
    rw [Res.bind_eq_ok]
    constructor
    · rintro ⟨o, ho, h⟩
      cases o with
      | none => simp at h
      | some x =>
        obtain ⟨id, rest⟩ := x
        simp only at h
        split at h
        · rename_i hg
          rw [Res.bind_eq_ok] at h
          obtain ⟨q, hq, h⟩ := h
          exact ⟨first, others, id, rest, q, rfl, ho, hg, hq, h⟩
        · simp at h
    · rintro ⟨f, os, id, rest, q, he, ho, hg, hq, h⟩
      obtain ⟨rfl, rfl⟩ := List.cons.inj he
      refine ⟨_, ho, ?_⟩
      simp only
      rw [if_pos hg, Res.bind_eq_ok]
      exact ⟨q, hq, h⟩

theorem extractFrom_text {p : SAEParser I C} {mark : I → Str → Prop} {ct : C → Str → Prop}
    (hp : KeepsText p mark ct) {params : SAEParams} {indent : Rat} (ls : List Line) :
    ∀ {q : QuoteCheck} {elements : List (SAE I C)} {id : I} {body : List Line}
      {r : Extracted (List (SAE I C))} {t h : Str},
    ElementsText mark ct elements t → mark id h →
    extractFrom p params indent q elements id body ls = .ok r →
    ∃ u, ElementsText mark ct r.elements u ∧
      t ++ h ++ noSpaces (allText body) ++ noSpaces (allText ls) =
        u ++ noSpaces (r.parentWrapUp.getD []) ++ noSpaces (allText r.restOfWrapUp) := by
  induction ls with
  | nil =>
    intro q elements id body r t h ht hm hr
    unfold extractFrom at hr
    rw [extractEnd_ok] at hr
    obtain ⟨body', wraps, mode, last, hl, he, hb, hw, -⟩ := extractLast_ok hr.2.1
    obtain ⟨b, hbt, hbe⟩ := parse_text hp hl
    refine ⟨t ++ (h ++ b), ?_, ?_⟩
    · rw [he]
      exact elementsText_append ht (elementsText_single (by rwa [parse_id hl]) hbt)
    · rw [hb, allText_append, noSpaces_append, hbe]
      rw [allText_append, noSpaces_append] at hw
      simp only [allText_nil, noSpaces_nil, List.append_nil, List.append_assoc]
      rw [hw]
  | cons l ls ih =>
    intro q elements id body r t h ht hm hr
    unfold extractFrom at hr
    rw [Res.bind_eq_ok] at hr
    obtain ⟨q', _, hr⟩ := hr
    rw [Res.bind_eq_ok] at hr
    obtain ⟨hd, hhd, hr⟩ := hr
    cases hd with
    | none =>
      simp only at hr
      obtain ⟨u, hu, he⟩ := ih ht hm hr
      refine ⟨u, hu, ?_⟩
      rw [← he]
      split
      · rename_i hl
        rw [allText_cons, content_of_isEmpty hl]; simp
      · simp [allText_append, allText_cons, noSpaces_append]
    | some x =>
      obtain ⟨newId, rest⟩ := x
      simp only at hr
      rw [Res.bind_eq_ok] at hr
      obtain ⟨e, he, hr⟩ := hr
      have hh := (nextHeader_ok.1 hhd).2.2.1
      obtain ⟨hn, hnm, hne⟩ := hp.header _ _ _ hh
      have hbt := parse_keepIt_text hp he
      obtain ⟨u, hu, hue⟩ := ih (elementsText_append ht
        (elementsText_single (by rwa [parse_id he]) hbt)) hnm hr
      refine ⟨u, hu, ?_⟩
      rw [← hue, allText_cons, noSpaces_append, hne]
      simp [allText_cons]

theorem extractMultiple_text {p : SAEParser I C} {mark : I → Str → Prop} {ct : C → Str → Prop}
    (hp : KeepsText p mark ct) {params : SAEParams} {ls : List Line} {expected : Option I}
    {r : Extracted (List (SAE I C))} (h : p.extractMultiple ls params expected = .ok r) :
    ∃ t, ElementsText mark ct r.elements t ∧
      noSpaces (allText ls) =
        t ++ noSpaces (r.parentWrapUp.getD []) ++ noSpaces (allText r.restOfWrapUp) := by
  obtain ⟨first, others, id, rest, q, rfl, ho, -, -, h⟩ := extractMultiple_ok.1 h
  obtain ⟨hh, hm, he⟩ := hp.header _ _ _ ho
  obtain ⟨u, hu, hue⟩ := extractFrom_text hp others (elements := []) (t := []) rfl hm h
  refine ⟨u, hu, ?_⟩
  rw [← hue, allText_cons, noSpaces_append, he]
  simp [allText_cons]

end SAEParser
end HunLaw
