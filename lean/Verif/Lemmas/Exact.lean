import Verif.Lemmas.Numbering
import Verif.Spec.Exact

/-! The parser of elements and lists finds exactly what the exact grammar says. -/

set_option autoImplicit false
set_option linter.unusedSectionVars false

namespace HunLaw

open HunLaw.Spec SAEParser

/-- The result, unless it is a panic. -/
def OkOr {α : Type} (x : Res α) (a : α) : Prop := x = .ok a ∨ x = .panic

theorem OkOr.bind {α β : Type} {x : Res α} {a : α} {f : α → Res β} {b : β} (h : OkOr x a) (hf : OkOr (f a) b) :
    OkOr (x >>= f) b := by
  rcases h with h | h
  · rw [h]; exact hf
  · rw [h]; exact .inr rfl

theorem OkOr.ok {α : Type} {a : α} : OkOr (Res.ok a) a := .inl rfl

theorem OkOr.map {α β : Type} {x : Res α} {a : α} {f : α → β} (h : OkOr x a) : OkOr (Res.map f x) (f a) := by
  rcases h with h | h <;> rw [h]
  · exact .inl rfl
  · exact .inr rfl

/-! ### quotes -/

theorem nested_step {q : QuoteCheck} {done : List Line} {l : Line} (hi : QuoteInv q done)
    (h : closing (allText (done ++ [l])) ≤ opening (allText (done ++ [l]))) : ∃ q', q.update l = .ok q' := by
  rw [Props.update_eq]
  have h1 := hi.level
  rw [allText_append, Props.opening_append, Props.closing_append] at h
  simp only [allText_cons, allText_nil, List.append_nil] at h
  rw [if_pos (by omega)]
  exact ⟨_, rfl⟩

theorem quoteInv_le {q : QuoteCheck} {done : List Line} (hi : QuoteInv q done) :
    closing (allText done) ≤ opening (allText done) := by
  have := hi.level
  have := hi.nonneg
  omega

theorem balanced_end {q : QuoteCheck} {done : List Line} (hi : QuoteInv q done) (h : BalancedLines done) :
    q.checkEnd = .ok () := by
  have := hi.level
  unfold BalancedLines at h
  unfold QuoteCheck.checkEnd
  rw [if_pos (by omega)]

theorem nested_snoc {x : List Line} {l : Line} (h : NestedLines x)
    (hl : closing (allText (x ++ [l])) ≤ opening (allText (x ++ [l]))) : NestedLines (x ++ [l]) := by
  intro a b e
  rcases List.eq_nil_or_concat b with rfl | ⟨b', z, rfl⟩
  · rw [List.append_nil] at e; rw [← e]; exact hl
  · have e' : x ++ [l] = (a ++ b') ++ [z] := by rw [e]; simp
    obtain ⟨rfl, _⟩ := List.append_inj' e' rfl
    exact h a b' rfl

theorem nested_prefix {x y : List Line} (h : NestedLines (x ++ y)) : NestedLines x := by
  intro a b e
  exact h a (b ++ y) (by rw [e]; simp)

theorem nested_le {x y : List Line} (h : NestedLines (x ++ y)) : closing (allText x) ≤ opening (allText x) :=
  h x y rfl

theorem nested_nil : NestedLines [] := by
  intro a b e
  obtain ⟨rfl, rfl⟩ := List.append_eq_nil_iff.1 e.symm
  exact Nat.le_refl _

theorem nested_add {x y : List Line} (hb : BalancedLines x) (hx : NestedLines x) (hy : NestedLines y) :
    NestedLines (x ++ y) := by
  intro a b e
  rcases List.append_eq_append_iff.1 e with ⟨c, rfl, rfl⟩ | ⟨c, rfl, rfl⟩
  · have := hy c b rfl
    unfold BalancedLines at hb
    rw [allText_append, Props.opening_append, Props.closing_append]
    omega
  · exact hx a c rfl

theorem upTo_unique {ls a b a' b' : List Line} (h : UpToUnjustified ls a b) (h' : UpToUnjustified ls a' b') :
    a = a' ∧ b = b' := by
  have key : ∀ {a b a' b' : List Line}, UpToUnjustified ls a b → UpToUnjustified ls a' b' → ∀ c, a' = a ++ c → c = [] := by
    rintro a b a' b' ⟨e, h⟩ ⟨e', h'⟩ c rfl
    cases c with
    | nil => rfl
    | cons m c =>
      have hb : b = m :: c ++ b' := by
        rw [e, List.append_assoc] at e'
        exact List.append_cancel_left e'
      rcases h with ⟨rfl, _⟩ | ⟨init, x, rfl, _, hx⟩
      · cases hb
      · exfalso
        have : x.justified = true := by
          rcases h' with ⟨_, h'⟩ | ⟨init', x', e2, h', _⟩
          · exact h' x (by simp)
          · have : init ++ [x] ++ m :: c = init ++ [x] ++ (m :: c).dropLast ++ [(m :: c).getLast (List.cons_ne_nil _ _)] := by
              rw [List.append_assoc (init ++ [x]), List.dropLast_append_getLast]
            rw [this] at e2
            obtain ⟨rfl, _⟩ := List.append_inj' e2 rfl
            exact h' x (by simp)
        rw [hx] at this
        cases this
  have e := h.1
  have e' := h'.1
  rw [e] at e'
  rcases List.append_eq_append_iff.1 e' with ⟨c, h1, h2⟩ | ⟨c, h1, h2⟩
  · have := key h h' c h1
    subst this
    exact ⟨by simpa using h1.symm, by simpa using h2⟩
  · have := key h' h c h1
    subst this
    exact ⟨by simpa using h1, by simpa using h2.symm⟩

/-! ### elements -/

variable {I C : Type} [DecidableEq I] [IdentifierCommon I]

/-- The parser finds exactly these children. -/
structure ChildrenExact (p : SAEParser I C) (context : ParsingContext)
    (ChildrenAre : I → Option Line → List Line → C → Option Str → List Line → Prop) : Prop where
  sound : ∀ id prev ls ex, ls ≠ [] → p.tryExtractChildren id prev ls (.childrenDefault context) = .ok ex →
    ChildrenAre id prev ls ex.elements ex.parentWrapUp ex.restOfWrapUp
  complete : ∀ id prev ls cs w more, ChildrenAre id prev ls cs w more →
    OkOr (p.tryExtractChildren id prev ls (.childrenDefault context)) ⟨cs, w, more⟩
  nested : ∀ id prev ls cs w more, ChildrenAre id prev ls cs w more → NestedLines ls ∧ ls ≠ []

variable {ChildrenAre : I → Option Line → List Line → C → Option Str → List Line → Prop}

theorem parseFrom_elementIs {p : SAEParser I C} {context : ParsingContext} {mode : WrapUpMode}
    (hc : ChildrenExact p context ChildrenAre)
    {id : I} {body : List Line} (ls : List Line) : ∀ {done : List Line} {q : QuoteCheck} {prev : Option Line}
      {intro : Str} {r : ParseResult I C},
    body = done ++ ls → QuoteInv q done → NestedLines done → prev = lastNonEmpty done → intro = Line.join done →
    (∀ x l y, done = x ++ l :: y → BalancedLines x →
      ∀ cs w more, ¬ ChildrenAre id (lastNonEmpty x) (l :: y ++ ls) cs w more) →
    parseFrom p id context mode body q prev intro ls = .ok r →
    ElementIs context ChildrenAre mode id body r.element r.restOfWrapUp := by
  induction ls with
  | nil =>
    intro done q prev intro r hb hq hn hp hi hno h
    unfold parseFrom at h
    rw [Res.bind_eq_ok] at h
    obtain ⟨u, hu, h⟩ := h
    simp only [Res.ok.injEq] at h
    rw [List.append_nil] at hb
    subst h hb hi
    have hbal := quoteInv_end hq hu
    have hx := upTo_findIdx body
    simp only [List.append_nil] at hno
    unfold withoutChildren
    split
    · rename_i hcm
      split
      · rename_i i hi
        rw [hi] at hx
        refine ⟨rfl, rfl, rfl, .inl ⟨_, rfl, hbal, hn, hno, ?_⟩⟩
        rw [if_pos hcm]; exact hx
      · rename_i hi
        rw [hi] at hx
        refine ⟨rfl, rfl, rfl, .inl ⟨_, rfl, hbal, hn, hno, ?_⟩⟩
        rw [if_pos hcm]; exact hx
    · rename_i hcm
      refine ⟨rfl, rfl, rfl, .inl ⟨_, rfl, hbal, hn, hno, ?_⟩⟩
      rw [if_neg hcm]; exact ⟨rfl, rfl⟩
  | cons l ls ih =>
    intro done q prev intro r hb hq hn hp hi hno h
    unfold parseFrom at h
    rw [Res.bind_eq_ok] at h
    obtain ⟨q', hq', h⟩ := h
    obtain ⟨hq2, hbal⟩ := quoteInv_step hq hq'
    simp only at h
    have hb2 : body = (done ++ [l]) ++ ls := by rw [hb]; simp
    have hn2 := nested_snoc hn (quoteInv_le hq2)
    have hp2 : (if l.isEmpty = true then prev else some l) = lastNonEmpty (done ++ [l]) := by
      rw [lastNonEmpty_snoc, hp]
    have hi2 : l.appendTo intro = Line.join (done ++ [l]) := by rw [hi]; simp [Line.join]
    have hno2 : (∀ cs w more, BalancedLines done → ¬ ChildrenAre id (lastNonEmpty done) (l :: ls) cs w more) →
        ∀ x m y, done ++ [l] = x ++ m :: y → BalancedLines x →
          ∀ cs w more, ¬ ChildrenAre id (lastNonEmpty x) (m :: y ++ ls) cs w more := by
      intro hnew x m y e hbx cs w more
      rcases List.eq_nil_or_concat y with rfl | ⟨y', z, rfl⟩
      · obtain ⟨rfl, h2⟩ := List.append_inj' e rfl
        simp only [List.cons.injEq, and_true] at h2
        subst h2
        exact hnew cs w more hbx
      · have e' : done ++ [l] = (x ++ m :: y') ++ [z] := by rw [e]; simp
        obtain ⟨rfl, h2⟩ := List.append_inj' e' rfl
        simp only [List.cons.injEq, and_true] at h2
        subst h2
        have := hno x m y' rfl hbx cs w more
        simpa using this
    split at h
    · rename_i hqt
      refine ih hb2 hq2 hn2 hp2 hi2 (hno2 ?_) h
      intro cs w more hbd
      rw [hbal.2 hbd] at hqt
      cases hqt
    · rename_i hnq
      cases hex : p.tryExtractChildren id prev (l :: ls) (.childrenDefault context) with
      | ok ex =>
        rw [hex] at h
        simp only [Res.ok.injEq] at h
        subst h
        have := hc.sound _ _ _ _ (by simp) hex
        rw [hp] at this
        have hno' : ∀ x m y, done = x ++ m :: y → BalancedLines x →
            ∀ cs w more, ¬ ChildrenAre id (lastNonEmpty x) (m :: y ++ l :: ls) cs w more := hno
        unfold withChildren
        cases mode with
        | keepIt =>
          exact ⟨rfl, rfl, rfl, .inr ⟨done, l :: ls, _, _, _, hb, hbal.1 (by simpa using hnq), hn, this, hno',
            by rw [← keepWrapUp_eq, hi], rfl⟩⟩
        | giveIt =>
          exact ⟨rfl, rfl, rfl, .inr ⟨done, l :: ls, _, _, _, hb, hbal.1 (by simpa using hnq), hn, this, hno',
            by rw [hi], rfl⟩⟩
      | err =>
        rw [hex] at h
        refine ih hb2 hq2 hn2 hp2 hi2 (hno2 ?_) h
        intro cs w more _ hch
        rw [← hp] at hch
        have := hc.complete _ _ _ _ _ _ hch
        rw [hex] at this
        rcases this with h | h <;> cases h
      | panic => rw [hex] at h; simp at h

theorem parse_elementIs {p : SAEParser I C} {context : ParsingContext} (hc : ChildrenExact p context ChildrenAre)
    (mode : WrapUpMode) (id : I) (ls : List Line) (r : ParseResult I C)
    (h : p.parse id ls context mode = .ok r) : ElementIs context ChildrenAre mode id ls r.element r.restOfWrapUp :=
  parseFrom_elementIs hc ls (done := []) rfl quoteInv_new nested_nil rfl rfl (by intro x l y e; simp at e) h

theorem sae_ext {e : SAE I C} {id : I} {b : SAEBody C} (h1 : e.identifier = id) (h2 : e.semanticInfo = .default)
    (h0 : e.lastChange = none) (h3 : e.body = b) : e = ⟨id, b, .default, none⟩ := by
  cases e; simp_all

theorem withoutChildren_eq {id : I} {context : ParsingContext} {mode : WrapUpMode} {body own given : List Line}
    {e : SAE I C} (h1 : e.identifier = id) (h2 : e.semanticInfo = .default) (h0 : e.lastChange = none)
    (h3 : e.body = .text (Line.join own))
    (h : if context = .blockAmendment ∧ mode = .giveIt then UpToUnjustified body own given
      else own = body ∧ given = []) :
    withoutChildren id context mode body (Line.join body) = ⟨e, given⟩ := by
  have he := sae_ext h1 h2 h0 h3
  subst he
  unfold withoutChildren
  have hx := upTo_findIdx body
  split
  · rename_i hcm
    rw [if_pos hcm] at h
    split
    · rename_i i hi
      rw [hi] at hx
      obtain ⟨e1, e2⟩ := upTo_unique h hx
      rw [e1, e2]
    · rename_i hi
      rw [hi] at hx
      obtain ⟨e1, e2⟩ := upTo_unique h hx
      rw [e1, e2]
  · rename_i hcm
    rw [if_neg hcm] at h
    obtain ⟨rfl, rfl⟩ := h
    rfl

theorem parseFrom_complete {p : SAEParser I C} {context : ParsingContext} {mode : WrapUpMode}
    (hc : ChildrenExact p context ChildrenAre) {id : I} {body : List Line} {e : SAE I C} {given : List Line}
    (h : ElementIs context ChildrenAre mode id body e given)
    (ls : List Line) : ∀ {done : List Line} {q : QuoteCheck} {prev : Option Line} {intro : Str},
    body = done ++ ls → QuoteInv q done → prev = lastNonEmpty done → intro = Line.join done →
    (∀ int list cs w more, body = int ++ list → BalancedLines int → ChildrenAre id (lastNonEmpty int) list cs w more →
      done.length ≤ int.length) →
    OkOr (parseFrom p id context mode body q prev intro ls) ⟨e, given⟩ := by
  obtain ⟨h1, h2, h0, h⟩ := h
  induction ls with
  | nil =>
    intro done q prev intro hb hq hp hi hfirst
    unfold parseFrom
    rw [List.append_nil] at hb
    subst hb hi
    rcases h with ⟨own, h3, hbal, hn, hno, h4⟩ | ⟨int, list, cs, w, more, e1, hbal, hn, hch, hno, h4⟩
    · rw [balanced_end hq hbal]
      simp only [Res.bind_ok]
      rw [withoutChildren_eq h1 h2 h0 h3 h4]
      exact .ok
    · exfalso
      have := hfirst int list cs w more e1 hbal hch
      have h5 := (hc.nested _ _ _ _ _ _ hch).2
      rw [e1] at this
      simp only [List.length_append] at this
      exact h5 (List.length_eq_zero_iff.1 (by omega))
  | cons l ls ih =>
    intro done q prev intro hb hq hp hi hfirst
    have hle : closing (allText (done ++ [l])) ≤ opening (allText (done ++ [l])) := by
      rcases h with ⟨own, h3, hbal, hn, hno, h4⟩ | ⟨int, list, cs, w, more, e1, hbal, hn, hch, hno, h4⟩
      · exact hn (done ++ [l]) ls (by rw [hb]; simp)
      · have := nested_add hbal hn (hc.nested _ _ _ _ _ _ hch).1
        exact this (done ++ [l]) ls (by rw [← e1, hb]; simp)
    obtain ⟨q', hq'⟩ := nested_step hq hle
    obtain ⟨hq2, hbal'⟩ := quoteInv_step hq hq'
    unfold parseFrom
    rw [hq', Res.bind_ok]
    simp only
    have hb2 : body = (done ++ [l]) ++ ls := by rw [hb]; simp
    have hp2 : (if l.isEmpty = true then prev else some l) = lastNonEmpty (done ++ [l]) := by
      rw [lastNonEmpty_snoc, hp]
    have hi2 : l.appendTo intro = Line.join (done ++ [l]) := by rw [hi]; simp [Line.join]
    have hfirst2 : (∀ cs w more, BalancedLines done → ¬ ChildrenAre id (lastNonEmpty done) (l :: ls) cs w more) →
        ∀ int list cs w more, body = int ++ list → BalancedLines int → ChildrenAre id (lastNonEmpty int) list cs w more →
      (done ++ [l]).length ≤ int.length := by
      intro hnot int list cs w more e1 hbi hch
      have h6 := hfirst int list cs w more e1 hbi hch
      rcases Nat.lt_or_ge done.length int.length with h7 | h7
      · simp; omega
      · exfalso
        rw [hb] at e1
        obtain ⟨rfl, rfl⟩ := List.append_inj e1 (by omega)
        exact hnot cs w more hbi hch
    split
    · rename_i hqt
      refine ih hb2 hq2 hp2 hi2 (hfirst2 ?_)
      intro cs w more hbd
      rw [hbal'.2 hbd] at hqt
      cases hqt
    · rename_i hnq
      have hbd := hbal'.1 (by simpa using hnq)
      by_cases hch : ∃ cs w more, ChildrenAre id (lastNonEmpty done) (l :: ls) cs w more
      · obtain ⟨cs, w, more, hch⟩ := hch
        rcases h with ⟨own, h3, hbal, hn, hno, h4⟩ | ⟨int, list, cs', w', more', e1, hbal, hn, hch', hno, h4⟩
        · exact absurd hch (hno done l ls hb hbd cs w more)
        · have h6 := hfirst int list cs' w' more' e1 hbal hch'
          rw [hb] at e1
          have h7 : int.length ≤ done.length := by
            rcases List.append_eq_append_iff.1 e1 with ⟨c, e2, e3⟩ | ⟨c, rfl, e3⟩
            · cases c with
              | nil => rw [e2]; simp
              | cons m c =>
                exfalso
                simp only [List.cons_append, List.cons.injEq] at e3
                obtain ⟨rfl, rfl⟩ := e3
                exact hno done l c e2 hbd cs w more hch
            · simp
          obtain ⟨rfl, rfl⟩ := List.append_inj e1 (by omega)
          rcases hc.complete _ _ _ _ _ _ hch' with h8 | h8
          · rw [hp, h8]
            simp only
            cases mode with
            | keepIt =>
              obtain ⟨h9, rfl⟩ := h4
              rw [sae_ext h1 h2 h0 h9, hi]
              refine .inl ?_
              simp only [withChildren, keepWrapUp_eq]
            | giveIt =>
              obtain ⟨h9, rfl⟩ := h4
              rw [sae_ext h1 h2 h0 h9, hi]
              exact .inl rfl
          · rw [hp, h8]; exact .inr rfl
      · have hnot : ∀ cs w more, BalancedLines done → ¬ ChildrenAre id (lastNonEmpty done) (l :: ls) cs w more :=
          fun cs w more _ hx => hch ⟨cs, w, more, hx⟩
        have hi := ih hb2 hq2 hp2 hi2 (hfirst2 hnot)
        cases hex : p.tryExtractChildren id prev (l :: ls) (.childrenDefault context) with
        | ok ex =>
          have := hc.sound _ _ _ _ (by simp) hex
          rw [hp] at this
          exact absurd this (hnot _ _ _ hbd)
        | err => exact hi
        | panic => exact .inr rfl

theorem parse_complete {p : SAEParser I C} {context : ParsingContext} (hc : ChildrenExact p context ChildrenAre)
    {mode : WrapUpMode} {id : I} {ls : List Line} {e : SAE I C} {given : List Line}
    (h : ElementIs context ChildrenAre mode id ls e given) : OkOr (p.parse id ls context mode) ⟨e, given⟩ :=
  parseFrom_complete hc h ls (done := []) rfl quoteInv_new rfl rfl (by simp)

/-! ### lists -/

variable {Head : Line → I → Line → Prop} {El : WrapUpMode → I → List Line → SAE I C → List Line → Prop}

theorem extractFrom_nested {p : SAEParser I C} {params : SAEParams} {margin : Rat} (ls : List Line) :
    ∀ {done : List Line} {q : QuoteCheck} {elements : List (SAE I C)} {id : I} {body : List Line}
      {r : Extracted (List (SAE I C))}, QuoteInv q done → NestedLines done →
    extractFrom p params margin q elements id body ls = .ok r → NestedLines (done ++ ls) := by
  induction ls with
  | nil => intro done q elements id body r _ hn _; simpa using hn
  | cons l ls ih =>
    intro done q elements id body r hq hn h
    unfold extractFrom at h
    rw [Res.bind_eq_ok] at h
    obtain ⟨q', hq', h⟩ := h
    rw [Res.bind_eq_ok] at h
    obtain ⟨hd, hhd, h⟩ := h
    obtain ⟨hq2, _⟩ := quoteInv_step hq hq'
    have hn2 := nested_snoc hn (quoteInv_le hq2)
    have e : done ++ l :: ls = (done ++ [l]) ++ ls := by simp
    rw [e]
    cases hd with
    | none => exact ih hq2 hn2 h
    | some x =>
      simp only at h
      rw [Res.bind_eq_ok] at h
      obtain ⟨_, _, h⟩ := h
      exact ih hq2 hn2 h

/-- The parser of a level: headers, elements. -/
structure LevelExact (p : SAEParser I C) (context : ParsingContext) (Head : Line → I → Line → Prop)
    (El : WrapUpMode → I → List Line → SAE I C → List Line → Prop) : Prop where
  head : ∀ l id rest, p.parseHeader l = .ok (some (id, rest)) ↔ Head l id rest
  noErr : ∀ l, p.parseHeader l ≠ .err
  quotes : ∀ l id rest, Head l id rest → opening l.content = opening rest.content ∧
    closing l.content = closing rest.content
  sound : ∀ mode id ls r, p.parse id ls context mode = .ok r → El mode id ls r.element r.restOfWrapUp
  complete : ∀ mode id ls e given, El mode id ls e given → OkOr (p.parse id ls context mode) ⟨e, given⟩

theorem first_quoteInv {q : QuoteCheck} {first rest : Line} (ho : opening first.content = opening rest.content ∧
    closing first.content = closing rest.content) (hq : QuoteCheck.new.update rest = .ok q) : QuoteInv q [first] := by
  obtain ⟨hq2, _⟩ := quoteInv_step quoteInv_new hq
  refine ⟨?_, hq2.nonneg⟩
  rw [hq2.level]
  simp [allText_cons, ho.1, ho.2]

theorem extractMultiple_listIs {p : SAEParser I C} {context : ParsingContext} {wrapUps : Bool}
    (hl : LevelExact p context Head El) {ls : List Line} {r : Extracted (List (SAE I C))}
    (h : p.extractMultiple ls ⟨wrapUps, true, context⟩ none = .ok r) :
    ListIs Head (isFirst · = true) El context wrapUps 2 ls r.elements r.parentWrapUp r.restOfWrapUp := by
  refine ⟨extractMultiple_of hl.head hl.quotes hl.sound (fun _ => Nat.le_refl 2) (by simp) h, ?_⟩
  obtain ⟨first, others, id, rest, q, rfl, ho, hg, hq, h⟩ := extractMultiple_ok.1 h
  have hh := (hl.head _ _ _).1 ho
  have hq2 := first_quoteInv (hl.quotes _ _ _ hh) hq
  refine extractFrom_nested others hq2 ?_ h
  exact nested_snoc nested_nil (quoteInv_le hq2)

theorem extractLast_complete {p : SAEParser I C} {params : SAEParams} (hl : LevelExact p params.context Head El)
    {margin : Rat} {elements : List (SAE I C)} {i : Item I C} {w : Option Str} {more : List Line}
    (h : LastOf El params.context params.parseWrapUp margin i w more) :
    OkOr (extractLast p params margin elements i.id i.own) ⟨elements ++ [i.element], w, more⟩ := by
  unfold extractLast
  unfold LastOf at h
  split at h
  · rename_i hw
    simp only [hw, if_true]
    cases hctx : params.context with
    | fullAct =>
      rw [hctx] at h hl
      simp only at h ⊢
      obtain ⟨own, wrap, h1, h2, h3, h4, rfl, rfl⟩ := h
      cases wrap with
      | nil =>
        rw [List.append_nil] at h1
        have : i.own.findIdx? (fun l => l.indentLessOrEq margin) = none := by
          rw [List.findIdx?_eq_none_iff, h1]
          intro l hlm
          rw [Bool.eq_false_iff]
          intro hx
          exact h2 l hlm (indent_iff.1 hx)
        rw [this]
        simp only
        rw [← h1] at h4
        refine OkOr.bind (hl.complete _ _ _ _ _ h4) ?_
        exact .ok
      | cons m wrap =>
        have h6 := h3 m rfl
        have : i.own.findIdx? (fun l => l.indentLessOrEq margin) = some own.length := by
          rw [List.findIdx?_eq_some_iff_getElem]
          refine ⟨by rw [h1]; simp, ?_, ?_⟩
          · simp only [h1]
            rw [List.getElem_append_right (Nat.le_refl _)]
            simpa using indent_iff.2 h6
          · intro j hj
            simp only [h1]
            rw [List.getElem_append_left hj]
            intro hx
            exact h2 _ (List.getElem_mem hj) (indent_iff.1 hx)
        rw [this]
        simp only
        rw [h1, List.take_left, List.drop_left]
        refine OkOr.bind (hl.complete _ _ _ _ _ h4) ?_
        exact .ok
    | blockAmendment =>
      rw [hctx] at h hl
      simp only at h ⊢
      obtain ⟨given, wrap, h1, h2, rfl⟩ := h
      refine OkOr.bind (hl.complete _ _ _ _ _ h1) ?_
      have hx := upTo_findIdx given
      simp only
      cases hf : given.findIdx? (fun l => !l.justified) with
      | some k =>
        rw [hf] at hx
        obtain ⟨e1, e2⟩ := upTo_unique h2 hx
        simp only
        rw [e1, e2]
        exact .ok
      | none =>
        rw [hf] at hx
        obtain ⟨e1, e2⟩ := upTo_unique h2 hx
        simp only
        rw [e1, e2]
        exact .ok
  · rename_i hw
    simp only [hw]
    obtain ⟨h1, rfl, rfl⟩ := h
    exact OkOr.bind (hl.complete _ _ _ _ _ h1) .ok

theorem extractFrom_cons {p : SAEParser I C} {params : SAEParams} {margin : Rat} {q : QuoteCheck}
    {elements : List (SAE I C)} {id : I} {body ls : List Line} {l : Line} :
    extractFrom p params margin q elements id body (l :: ls) = (do
      let q ← q.update l
      match ← nextHeader p q id margin l with
      | some (newId, rest) => do
        let e ← p.parse id body params.context .keepIt
        extractFrom p params margin q (elements ++ [e.element]) newId [rest] ls
      | none =>
        extractFrom p params margin q elements id (if l.isEmpty then body else body ++ [l]) ls) := rfl

/-- Reading the other lines of an item. -/
theorem extractFrom_body {p : SAEParser I C} {params : SAEParams} (hl : LevelExact p params.context Head El)
    {margin : Rat} {elements : List (SAE I C)} {id : I} {rest : Line} {start : List Line} (more : List Line)
    (y : List Line) : ∀ {x : List Line} {q : QuoteCheck},
    QuoteInv q (start ++ x) →
    (∀ z l u, y = z ++ l :: u → BalancedLines (start ++ x ++ z) → l.indent < margin + 1 →
      ∀ id' rest, Head l id' rest → isNextFrom id' id = false) →
    NestedLines (start ++ x ++ y) →
    extractFrom p params margin q elements id (rest :: nonEmptyLines x) (y ++ more) = .panic ∨
    ∃ q', QuoteInv q' (start ++ (x ++ y)) ∧
      extractFrom p params margin q elements id (rest :: nonEmptyLines x) (y ++ more) =
      extractFrom p params margin q' elements id (rest :: nonEmptyLines (x ++ y)) more := by
  induction y with
  | nil => intro x q hq _ _; exact .inr ⟨q, by simpa using hq, by simp⟩
  | cons l y ih =>
    intro x q hq hno hn
    have e0 : start ++ x ++ l :: y = (start ++ x ++ [l]) ++ y := by simp
    rw [e0] at hn
    obtain ⟨q', hq'⟩ := nested_step hq (nested_le hn)
    obtain ⟨hq2, hbal⟩ := quoteInv_step hq hq'
    have e1 : (if l.isEmpty = true then rest :: nonEmptyLines x else rest :: nonEmptyLines x ++ [l]) =
        rest :: nonEmptyLines (x ++ [l]) := by
      rw [nonEmptyLines_append, nonEmptyLines_single]; split <;> simp
    have hgo := ih (x := x ++ [l]) (q := q') (by simpa using hq2)
      (by
        intro z m u e hb
        refine hno (l :: z) m u (by rw [e]; rfl) ?_
        simpa using hb)
      (by simpa using hn)
    rw [List.cons_append, extractFrom_cons, hq', Res.bind_ok]
    cases hh : nextHeader p q' id margin l with
    | panic => exact .inl rfl
    | err =>
      exfalso
      unfold nextHeader parseAndCheckHeader at hh
      split at hh
      · cases hh
      · split at hh
        · cases hph : p.parseHeader l with
          | err => exact hl.noErr l hph
          | panic => rw [hph] at hh; cases hh
          | ok o =>
            rw [hph] at hh
            rcases o with _ | ⟨i, r⟩
            · cases hh
            · simp only [Res.bind_ok] at hh
              split at hh <;> cases hh
        · cases hh
    | ok o =>
      rw [Res.bind_ok]
      rcases o with _ | ⟨i, r⟩
      · simp only
        rw [e1]
        rcases hgo with hgo | ⟨q2, hgo1, hgo2⟩
        · exact .inl hgo
        · exact .inr ⟨q2, by simpa using hgo1, by rw [hgo2]; simp⟩
      · exfalso
        obtain ⟨h1, h2, h3, h4⟩ := nextHeader_ok.1 hh
        have := hno [] l y rfl (by simpa using hbal.1 h1) (indent_iff.1 h2) i r ((hl.head _ _ _).1 h3)
        rw [this] at h4
        cases h4

theorem extractFrom_complete {p : SAEParser I C} {params : SAEParams} (hl : LevelExact p params.context Head El)
    {margin : Rat} {w : Option Str} {more : List Line} (js : List (Item I C)) :
    ∀ {is : List (Item I C)} {i last : Item I C} {q : QuoteCheck},
    js.getLast? = some last ∨ (js = [] ∧ i = last) →
    QuoteInv q (itemLines is ++ [i.head]) →
    Items Head margin (itemLines is) (lastId none is) (i :: js) →
    NestedLines (itemLines is ++ itemLines (i :: js)) →
    BalancedLines (itemLines is ++ itemLines (i :: js)) →
    (∀ k ∈ (i :: js).dropLast, El .keepIt k.id k.own k.element []) →
    LastOf El params.context params.parseWrapUp margin last w more →
    (params.checkChildrenCount = true → 2 ≤ (is ++ i :: js).length) →
    OkOr (extractFrom p params margin q (is.map Item.element) i.id [i.rest] (i.body ++ itemLines js))
      ⟨(is ++ i :: js).map Item.element, w, more⟩ := by
  induction js with
  | nil =>
    intro is i last q hlast hq hit hn hb hels hlo hcount
    obtain rfl : i = last := by simpa using hlast
    obtain ⟨h1, h2, h3, _⟩ := hit
    have hbody := extractFrom_body hl (params := params) (margin := margin) (elements := is.map Item.element)
      (id := i.id) (rest := i.rest) (start := itemLines is ++ [i.head]) (itemLines ([] : List (Item I C))) i.body (x := []) (q := q)
      (by simpa using hq) (by simpa using h3) (by simpa [itemLines] using hn)
    rcases hbody with hbody | ⟨q', hq', hbody⟩
    · exact .inr hbody
    · rw [show [i.rest] = i.rest :: nonEmptyLines [] from rfl, hbody]
      unfold itemLines
      simp only [List.flatMap_nil, List.nil_append]
      unfold extractFrom extractEnd
      rw [balanced_end hq' (by simpa [itemLines] using hb), Res.bind_ok]
      refine OkOr.bind (extractLast_complete hl hlo) ?_
      simp only [List.length_append, List.length_map, List.length_cons, List.length_nil] at hcount ⊢
      rw [if_neg (by simp only [Bool.and_eq_true, decide_eq_true_eq]; rintro ⟨hx, h⟩; have := hcount hx; omega)]
      simp only [List.map_append, List.map_cons, List.map_nil]
      exact .ok
  | cons j js ih =>
    intro is i last q hlast hq hit hn hb hels hlo hcount
    obtain ⟨h1, h2, h3, h4⟩ := hit
    have hj := h4
    obtain ⟨hj1, hj2, _, _⟩ := h4
    obtain ⟨hj3, hj4, hj5⟩ := hj2 i.id rfl
    have e0 : itemLines is ++ itemLines (i :: j :: js) =
        (itemLines is ++ [i.head] ++ i.body) ++ [j.head] ++ (j.body ++ itemLines js) := by simp [itemLines]
    have hbody := extractFrom_body hl (params := params) (margin := margin) (elements := is.map Item.element)
      (id := i.id) (rest := i.rest) (start := itemLines is ++ [i.head]) (itemLines (j :: js)) i.body (x := []) (q := q)
      (by simpa using hq) (by simpa using h3)
      (by rw [e0, List.append_assoc _ [j.head]] at hn; simpa using nested_prefix hn)
    rcases hbody with hbody | ⟨q', hq', hbody⟩
    · exact .inr hbody
    · rw [show [i.rest] = i.rest :: nonEmptyLines [] from rfl, hbody]
      have e1 : itemLines (j :: js) = j.head :: (j.body ++ itemLines js) := by simp [itemLines]
      rw [e1]
      unfold extractFrom
      simp only [List.nil_append] at hq' ⊢
      rw [e0] at hn
      obtain ⟨q2, hq2⟩ := nested_step hq' (nested_le hn)
      rw [hq2, Res.bind_ok]
      obtain ⟨hq3, hbal⟩ := quoteInv_step hq' hq2
      rw [nextHeader_ok.2 ⟨hbal.2 (by simpa using hj3), indent_iff.2 hj4, (hl.head _ _ _).2 hj1, hj5⟩, Res.bind_ok]
      simp only
      have hi := hels i (by simp)
      refine OkOr.bind (hl.complete _ _ _ _ _ hi) ?_
      have e3 : itemLines (is ++ [i]) = itemLines is ++ [i.head] ++ i.body := by rw [itemLines_snoc]; simp
      have := ih (is := is ++ [i]) (i := j) (last := last) (q := q2) ?_ ?_ ?_ ?_ ?_ ?_ hlo ?_
      · simpa using this
      · rcases hlast with h | ⟨h, _⟩
        · cases js with
          | nil => right; simpa using h
          | cons k ks => left; simpa using h
        · cases h
      · rw [e3]; exact hq3
      · have : lastId none (is ++ [i]) = some i.id := by
          have : ∀ (a : List (Item I C)) prev i, lastId prev (a ++ [i]) = some i.id := by
            intro a
            induction a with
            | nil => intros; rfl
            | cons b a ih => intro prev i; simp only [List.cons_append, lastId]; exact ih _ _
          exact this _ _ _
        rw [this, itemLines_snoc]
        exact hj
      · rw [e3]; simpa [itemLines] using hn
      · rw [e3]; simpa [itemLines] using hb
      · intro k hk
        exact hels k (by simp only [List.dropLast]; exact List.mem_cons_of_mem _ hk)
      · simpa using hcount

theorem extractMultiple_complete_from {p : SAEParser I C} {context : ParsingContext} {wrapUps check : Bool}
    (hl : LevelExact p context Head El) {ls : List Line} {es : List (SAE I C)} {w : Option Str} {more : List Line}
    {expected : Option I} {atLeast : Nat} (hat : check = true → 2 ≤ atLeast)
    (h : ListIs Head (goodFirst expected · = true) El context wrapUps atLeast ls es w more) :
    OkOr (p.extractMultiple ls ⟨wrapUps, check, context⟩ expected) ⟨es, w, more⟩ := by
  obtain ⟨⟨is, last, first, rfl, rfl, hcount, hbal, hfirst, hisf, hitems, hels, hlast⟩, hn⟩ := h
  obtain ⟨js, hjs⟩ : ∃ js, is ++ [last] = first :: js := by
    cases is with
    | nil => simp only [List.nil_append, List.head?_cons, Option.some.injEq] at hfirst; exact ⟨[], by rw [← hfirst]; rfl⟩
    | cons a as => simp only [List.cons_append, List.head?_cons, Option.some.injEq] at hfirst; exact ⟨as ++ [last], by rw [← hfirst]; rfl⟩
  have hd : (first :: js).dropLast = is := by rw [← hjs]; simp
  have hla : (first :: js).getLast? = some last := by rw [← hjs]; simp
  rw [hjs] at hn hbal hitems hcount ⊢
  have hfi := hitems
  obtain ⟨h1, _, _, _⟩ := hfi
  have e0 : itemLines (first :: js) = first.head :: (first.body ++ itemLines js) := by simp [itemLines]
  have hle : closing first.head.content ≤ opening first.head.content := by
    have := hn [first.head] _ e0
    simpa [allText_cons] using this
  have hq : ∃ q, QuoteCheck.new.update first.rest = .ok q := by
    refine nested_step quoteInv_new ?_
    obtain ⟨o1, o2⟩ := hl.quotes _ _ _ h1
    simp only [List.nil_append, allText_cons, allText_nil, List.append_nil]
    omega
  obtain ⟨q, hq⟩ := hq
  rw [e0]
  unfold extractMultiple
  simp only
  rw [(hl.head _ _ _).2 h1, Res.bind_ok]
  simp only
  rw [if_pos (show goodFirst expected first.id = true from hisf), hq, Res.bind_ok]
  have := extractFrom_complete (params := ⟨wrapUps, check, context⟩) hl js (is := []) (i := first) (last := last) (q := q) (w := w) (more := more)
    (margin := first.head.indent) ?_ ?_ hitems ?_ ?_ ?_ hlast ?_
  · simpa using this
  · cases js with
    | nil => right; simpa using hla
    | cons k ks => left; simpa using hla
  · exact first_quoteInv (hl.quotes _ _ _ h1) hq
  · simpa [itemLines] using hn
  · simpa [itemLines] using hbal
  · rw [hd]; exact hels
  · intro hx
    have := hat hx
    simp only [List.length_map, List.nil_append] at hcount ⊢
    omega

theorem extractMultiple_complete {p : SAEParser I C} {context : ParsingContext} {wrapUps : Bool}
    (hl : LevelExact p context Head El) {ls : List Line} {es : List (SAE I C)} {w : Option Str} {more : List Line}
    (h : ListIs Head (isFirst · = true) El context wrapUps 2 ls es w more) :
    OkOr (p.extractMultiple ls ⟨wrapUps, true, context⟩ none) ⟨es, w, more⟩ :=
  extractMultiple_complete_from hl (fun _ => Nat.le_refl 2) h

/-- A list that begins with a given identifier is read. -/
theorem extractMultiple_listIs_from {p : SAEParser I C} {context : ParsingContext} {wrapUps : Bool}
    (hl : LevelExact p context Head El) {ls : List Line} {r : Extracted (List (SAE I C))} {first : I}
    (h : p.extractMultiple ls ⟨wrapUps, false, context⟩ (some first) = .ok r) :
    ListIs Head (· = first) El context wrapUps 1 ls r.elements r.parentWrapUp r.restOfWrapUp := by
  have hs := extractMultiple_of hl.head hl.quotes hl.sound (atLeast := 1) (by simp) (by simp) h
  refine ⟨?_, ?_⟩
  · obtain ⟨is, last, f, h1, h2, h3, h4, h5, h6, h7⟩ := hs
    exact ⟨is, last, f, h1, h2, h3, h4, h5, by simpa [goodFirst] using h6, h7⟩
  · obtain ⟨first, others, id, rest, q, rfl, ho, hg, hq, h⟩ := extractMultiple_ok.1 h
    have hh := (hl.head _ _ _).1 ho
    have hq2 := first_quoteInv (hl.quotes _ _ _ hh) hq
    refine extractFrom_nested others hq2 ?_ h
    exact nested_snoc nested_nil (quoteInv_le hq2)

end HunLaw
