import Verif.Lemmas.ActParser

/-! The parser follows the grammar. -/

set_option autoImplicit false
set_option linter.unusedSectionVars false

namespace HunLaw

open HunLaw.Spec SAEParser

variable {I C : Type} [DecidableEq I] [IdentifierCommon I]

theorem indent_iff {l : Line} {m : Rat} : l.indentLessOrEq m = true ↔ l.indent < m + 1 :=
  decide_eq_true_iff

/-- The quote checker after some lines. -/
structure QuoteInv (q : QuoteCheck) (done : List Line) : Prop where
  level : q.level = (opening (allText done) : Int) - closing (allText done)
  nonneg : 0 ≤ q.level

theorem quoteInv_new : QuoteInv .new [] := ⟨by rfl, by decide⟩

theorem quoteInv_step {q q' : QuoteCheck} {done : List Line} {l : Line} (hi : QuoteInv q done)
    (h : q.update l = .ok q') :
    QuoteInv q' (done ++ [l]) ∧ (q'.beginningIsQuoted = false ↔ BalancedLines done) := by
  rw [Props.update_eq] at h
  split at h
  case isFalse => simp at h
  rename_i hge
  simp only [Res.ok.injEq] at h
  have h1 := hi.level
  have h2 := hi.nonneg
  refine ⟨⟨?_, by rw [← h]; exact hge⟩, ?_⟩
  · rw [← h, h1, allText_append, Props.opening_append, Props.closing_append]
    simp [allText_cons]; omega
  · rw [← h]; unfold BalancedLines; simp; omega

theorem quoteInv_end {q : QuoteCheck} {done : List Line} (hi : QuoteInv q done)
    (h : q.checkEnd = .ok ()) : BalancedLines done := by
  have := hi.level
  unfold QuoteCheck.checkEnd at h
  split at h
  · unfold BalancedLines; omega
  · simp at h

theorem isEmpty_iff {l : Line} : l.isEmpty = true ↔ l.parts = [] := by
  simp [Line.isEmpty]

theorem nonEmptyLines_append (a b : List Line) : nonEmptyLines (a ++ b) = nonEmptyLines a ++ nonEmptyLines b := by
  simp [nonEmptyLines]

theorem nonEmptyLines_single (l : Line) : nonEmptyLines [l] = if l.isEmpty then [] else [l] := by
  unfold nonEmptyLines
  by_cases h : l.parts = [] <;> simp [h, Line.isEmpty]

theorem lastNonEmpty_snoc (ls : List Line) (l : Line) :
    lastNonEmpty (ls ++ [l]) = if l.isEmpty then lastNonEmpty ls else some l := by
  unfold lastNonEmpty
  rw [nonEmptyLines_append, nonEmptyLines_single]
  split <;> simp

theorem keepWrapUp_eq (w : Option Str) (ls : List Line) : keepWrapUp w ls = ls.foldl addLine w := by
  induction ls generalizing w with
  | nil => rfl
  | cons l ls ih =>
    cases w with
    | none => simp only [keepWrapUp, ih, List.foldl_cons, addLine]; congr 2; simp [Line.appendTo]
    | some w => simp only [keepWrapUp, ih, List.foldl_cons, addLine]; rfl

theorem upTo_findIdx (ls : List Line) :
    match ls.findIdx? (fun l => !l.justified) with
    | some i => UpToUnjustified ls (ls.take (i + 1)) (ls.drop (i + 1))
    | none => UpToUnjustified ls ls [] := by
  split
  · rename_i i h
    rw [List.findIdx?_eq_some_iff_getElem] at h
    obtain ⟨hi, hx, hlt⟩ := h
    refine ⟨(List.take_append_drop _ _).symm, .inr ⟨ls.take i, ls[i], ?_, ?_, by simpa using hx⟩⟩
    · rw [List.take_succ_eq_append_getElem hi]
    · intro l hl
      obtain ⟨j, hj, rfl⟩ := List.mem_iff_getElem.1 hl
      have hji : j < i := by
        simp at hj; omega
      have := hlt j hji
      rw [List.getElem_take]
      simpa using this
  · rename_i h
    rw [List.findIdx?_eq_none_iff] at h
    exact ⟨by simp, .inl ⟨rfl, fun l hl => by simpa using h l hl⟩⟩

/-! ### elements -/

theorem parseFrom_elementOf {p : SAEParser I C} {context : ParsingContext} {mode : WrapUpMode}
    {ChildrenOf : I → Option Line → List Line → C → Option Str → List Line → Prop}
    (hc : ∀ id prev ls ex, p.tryExtractChildren id prev ls (.childrenDefault context) = .ok ex →
      ChildrenOf id prev ls ex.elements ex.parentWrapUp ex.restOfWrapUp)
    {id : I} {body : List Line} (ls : List Line) : ∀ {done : List Line} {q : QuoteCheck} {prev : Option Line}
      {intro : Str} {r : ParseResult I C},
    body = done ++ ls → QuoteInv q done → prev = lastNonEmpty done → intro = Line.join done →
    parseFrom p id context mode body q prev intro ls = .ok r →
    ElementOf context ChildrenOf mode id body r.element r.restOfWrapUp := by
  induction ls with
  | nil =>
    intro done q prev intro r hb hq hp hi h
    unfold parseFrom at h
    rw [Res.bind_eq_ok] at h
    obtain ⟨u, hu, h⟩ := h
    simp only [Res.ok.injEq] at h
    rw [List.append_nil] at hb
    subst h hb hi
    have hbal := quoteInv_end hq hu
    have hx := upTo_findIdx body
    unfold withoutChildren
    split
    · rename_i hcm
      split
      · rename_i i hi
        rw [hi] at hx
        refine ⟨rfl, rfl, .inl ⟨_, rfl, hbal, ?_⟩⟩
        rw [if_pos hcm]; exact hx
      · rename_i hi
        rw [hi] at hx
        refine ⟨rfl, rfl, .inl ⟨_, rfl, hbal, ?_⟩⟩
        rw [if_pos hcm]; exact hx
    · rename_i hcm
      refine ⟨rfl, rfl, .inl ⟨_, rfl, hbal, ?_⟩⟩
      rw [if_neg hcm]; exact ⟨rfl, rfl⟩
  | cons l ls ih =>
    intro done q prev intro r hb hq hp hi h
    unfold parseFrom at h
    rw [Res.bind_eq_ok] at h
    obtain ⟨q', hq', h⟩ := h
    obtain ⟨hq2, hbal⟩ := quoteInv_step hq hq'
    simp only at h
    have hb2 : body = (done ++ [l]) ++ ls := by rw [hb]; simp
    have hp2 : (if l.isEmpty = true then prev else some l) = lastNonEmpty (done ++ [l]) := by
      rw [lastNonEmpty_snoc, hp]
    have hi2 : l.appendTo intro = Line.join (done ++ [l]) := by rw [hi]; simp [Line.join]
    split at h
    · exact ih hb2 hq2 hp2 hi2 h
    · rename_i hnq
      cases hex : p.tryExtractChildren id prev (l :: ls) (.childrenDefault context) with
      | ok ex =>
        rw [hex] at h
        simp only [Res.ok.injEq] at h
        subst h
        have := hc _ _ _ _ hex
        rw [hp] at this
        unfold withChildren
        cases mode with
        | keepIt =>
          exact ⟨rfl, rfl, .inr ⟨done, l :: ls, _, _, _, hb, hbal.1 (by simpa using hnq), this,
            by rw [← keepWrapUp_eq, hi], rfl⟩⟩
        | giveIt =>
          exact ⟨rfl, rfl, .inr ⟨done, l :: ls, _, _, _, hb, hbal.1 (by simpa using hnq), this,
            by rw [hi], rfl⟩⟩
      | err => rw [hex] at h; exact ih hb2 hq2 hp2 hi2 h
      | panic => rw [hex] at h; simp at h

theorem parse_elementOf {p : SAEParser I C} {context : ParsingContext}
    {ChildrenOf : I → Option Line → List Line → C → Option Str → List Line → Prop}
    (hc : ∀ id prev ls ex, p.tryExtractChildren id prev ls (.childrenDefault context) = .ok ex →
      ChildrenOf id prev ls ex.elements ex.parentWrapUp ex.restOfWrapUp)
    (mode : WrapUpMode) (id : I) (ls : List Line) (r : ParseResult I C)
    (h : p.parse id ls context mode = .ok r) :
    ElementOf context ChildrenOf mode id ls r.element r.restOfWrapUp :=
  parseFrom_elementOf hc ls (done := []) rfl quoteInv_new rfl rfl h

/-! ### lists -/

def lastId (prev : Option I) : List (Item I C) → Option I
  | [] => prev
  | i :: is => lastId (some i.id) is

theorem items_append {Head : Line → I → Line → Prop} {margin : Rat} (is js : List (Item I C))
    (before : List Line) (prev : Option I) :
    Items Head margin before prev (is ++ js) ↔ Items Head margin before prev is ∧
      Items Head margin (before ++ itemLines is) (lastId prev is) js := by
  induction is generalizing before prev with
  | nil => simp [Items, itemLines, lastId]
  | cons i is ih =>
    simp only [List.cons_append, Items, ih, lastId, itemLines, List.flatMap_cons, List.append_assoc, and_assoc]

theorem itemLines_snoc (is : List (Item I C)) (i : Item I C) :
    itemLines (is ++ [i]) = itemLines is ++ i.head :: i.body := by simp [itemLines]

variable {Head : Line → I → Line → Prop} {El : WrapUpMode → I → List Line → SAE I C → List Line → Prop}

theorem extractLast_of {p : SAEParser I C} {params : SAEParams}
    (hel : ∀ mode id ls r, p.parse id ls params.context mode = .ok r → El mode id ls r.element r.restOfWrapUp)
    {margin : Rat} {elements : List (SAE I C)} {id : I} {own : List Line} {r : Extracted (List (SAE I C))}
    (h : extractLast p params margin elements id own = .ok r) :
    ∃ e, r.elements = elements ++ [e] ∧ ∀ i : Item I C, i.id = id → i.own = own → i.element = e →
      LastOf El params.context params.parseWrapUp margin i r.parentWrapUp r.restOfWrapUp := by
  unfold extractLast at h
  unfold LastOf
  split at h
  · rename_i hw
    simp only [hw, if_true]
    cases hctx : params.context with
    | fullAct =>
      rw [hctx] at h
      rw [hctx] at hel
      simp only at h
      split at h
      · rename_i k hk
        rw [List.findIdx?_eq_some_iff_getElem] at hk
        obtain ⟨hk1, hk2, hk3⟩ := hk
        rw [Res.bind_eq_ok] at h
        obtain ⟨last, hl, h⟩ := h
        simp only [Res.ok.injEq] at h
        subst h
        refine ⟨_, rfl, ?_⟩
        rintro i rfl rfl hie
        rw [hie]
        have hres := parse_keepIt hl
        refine ⟨i.own.take k, i.own.drop k, (List.take_append_drop _ _).symm, ?_, ?_, ?_, ?_, rfl⟩
        · intro l hlm
          obtain ⟨j, hj, rfl⟩ := List.mem_iff_getElem.1 hlm
          have hjk : j < k := by simp at hj; omega
          have := hk3 j hjk
          rw [List.getElem_take, ← indent_iff]
          exact this
        · intro l hlm
          rw [List.head?_drop, List.getElem?_eq_getElem hk1] at hlm
          simp only [Option.some.injEq] at hlm
          subst hlm
          exact indent_iff.1 hk2
        · have := hel _ _ _ _ hl
          rwa [hres] at this
        · have : i.own.drop k ≠ [] := by
            intro hn
            have := congrArg List.length hn
            simp at this; omega
          simp [joinOpt, this]
      · rename_i hk
        rw [List.findIdx?_eq_none_iff] at hk
        rw [Res.bind_eq_ok] at h
        obtain ⟨last, hl, h⟩ := h
        simp only [Res.ok.injEq] at h
        subst h
        refine ⟨_, rfl, ?_⟩
        rintro i rfl rfl hie
        rw [hie]
        have hres := parse_keepIt hl
        refine ⟨i.own, [], by simp, ?_, by simp, ?_, rfl, rfl⟩
        · intro l hlm
          rw [← indent_iff, hk l hlm]; simp
        · have := hel _ _ _ _ hl
          rwa [hres] at this
    | blockAmendment =>
      rw [hctx] at h
      rw [hctx] at hel
      simp only at h
      rw [Res.bind_eq_ok] at h
      obtain ⟨last, hl, h⟩ := h
      have hx := upTo_findIdx last.restOfWrapUp
      cases hf : last.restOfWrapUp.findIdx? (fun l => !l.justified) with
      | some k =>
        rw [hf] at h hx
        simp only [Res.ok.injEq] at h
        subst h
        refine ⟨_, rfl, ?_⟩
        rintro i rfl rfl hie
        rw [hie]
        exact ⟨_, _, hel _ _ _ _ hl, hx, rfl⟩
      | none =>
        rw [hf] at h hx
        simp only [Res.ok.injEq] at h
        subst h
        refine ⟨_, rfl, ?_⟩
        rintro i rfl rfl hie
        rw [hie]
        exact ⟨_, _, hel _ _ _ _ hl, hx, rfl⟩
  · rename_i hw
    simp only [hw]
    rw [Res.bind_eq_ok] at h
    obtain ⟨last, hl, h⟩ := h
    simp only [Res.ok.injEq] at h
    subst h
    refine ⟨_, rfl, ?_⟩
    rintro i rfl rfl hie
    rw [hie]
    have := hel _ _ _ _ hl
    rw [parse_keepIt hl] at this
    exact ⟨this, rfl, rfl⟩

theorem balancedLines_of_eq {a b : List Line} (h1 : opening (allText a) = opening (allText b))
    (h2 : closing (allText a) = closing (allText b)) : BalancedLines a ↔ BalancedLines b := by
  unfold BalancedLines; rw [h1, h2]

theorem extractFrom_of {p : SAEParser I C} {params : SAEParams}
    (hhead : ∀ l id rest, p.parseHeader l = .ok (some (id, rest)) ↔ Head l id rest)
    (hel : ∀ mode id ls r, p.parse id ls params.context mode = .ok r → El mode id ls r.element r.restOfWrapUp)
    {margin : Rat} {atLeast : Nat} (hcount : params.checkChildrenCount = true → atLeast ≤ 2)
    (hcount' : params.checkChildrenCount = false → atLeast ≤ 1) (ls : List Line) :
    ∀ {is : List (Item I C)} {q : QuoteCheck} {head rest : Line} {id : I} {body : List Line}
      {r : Extracted (List (SAE I C))},
    QuoteInv q (itemLines is ++ head :: body) → Items Head margin [] none is →
    Head head id rest →
    (∀ p, lastId none is = some p → BalancedLines (itemLines is) ∧ head.indent < margin + 1 ∧
      isNextFrom id p = true) →
    (∀ x l y, body = x ++ l :: y → BalancedLines (itemLines is ++ head :: x) → l.indent < margin + 1 →
      ∀ id' rest, Head l id' rest → isNextFrom id' id = false) →
    (∀ i ∈ is, El .keepIt i.id i.own i.element []) →
    extractFrom p params margin q (is.map Item.element) id (rest :: nonEmptyLines body) ls = .ok r →
    ∃ js last, itemLines is ++ head :: body ++ ls = itemLines (js ++ [last]) ∧
      r.elements = (js ++ [last]).map Item.element ∧ atLeast ≤ r.elements.length ∧
      BalancedLines (itemLines (js ++ [last])) ∧
      ((is = [] ∧ ∃ i, (js ++ [last]).head? = some i ∧ i.head = head ∧ i.id = id) ∨
        (js ++ [last]).head? = is.head?) ∧
      Items Head margin [] none (js ++ [last]) ∧
      (∀ i ∈ js, El .keepIt i.id i.own i.element []) ∧
      LastOf El params.context params.parseWrapUp margin last r.parentWrapUp r.restOfWrapUp := by
  induction ls with
  | nil =>
    intro is q head rest id body r hq his hh hprev hno hels h
    unfold extractFrom at h
    rw [extractEnd_ok] at h
    obtain ⟨h1, h2, h3⟩ := h
    obtain ⟨e, he, hl⟩ := extractLast_of hel h2
    refine ⟨is, ⟨head, id, rest, body, e⟩, by simp [itemLines], by simp [he], ?_, ?_, ?_, ?_, hels,
      hl _ rfl rfl rfl⟩
    · cases hc : params.checkChildrenCount with
      | true => exact Nat.le_trans (hcount hc) (h3 hc)
      | false =>
        have := hcount' hc
        have : 1 ≤ r.elements.length := by rw [he]; simp
        omega
    · rw [itemLines_snoc]; exact quoteInv_end hq h1
    · cases is with
      | nil => exact .inl ⟨rfl, _, rfl, rfl, rfl⟩
      | cons i is => exact .inr rfl
    · rw [items_append]
      refine ⟨his, hh, ?_, ?_, trivial⟩
      · simpa using hprev
      · simpa using hno
  | cons l ls ih =>
    intro is q head rest id body r hq his hh hprev hno hels h
    unfold extractFrom at h
    rw [Res.bind_eq_ok] at h
    obtain ⟨q', hq', h⟩ := h
    rw [Res.bind_eq_ok] at h
    obtain ⟨hd, hhd, h⟩ := h
    obtain ⟨hq2, hbal⟩ := quoteInv_step hq hq'
    cases hd with
    | none =>
      simp only at h
      have e1 : (if l.isEmpty = true then rest :: nonEmptyLines body else rest :: nonEmptyLines body ++ [l]) =
          rest :: nonEmptyLines (body ++ [l]) := by
        rw [nonEmptyLines_append, nonEmptyLines_single]; split <;> simp
      rw [e1] at h
      have e2 : itemLines is ++ head :: body ++ l :: ls = itemLines is ++ head :: (body ++ [l]) ++ ls := by simp
      rw [e2]
      refine ih (by simpa using hq2) his hh hprev ?_ hels h
      intro x m y e hb hm id' rest' hh'
      rcases List.eq_nil_or_concat y with rfl | ⟨y', z, rfl⟩
      · obtain ⟨rfl, h2⟩ := List.append_inj' e rfl
        simp only [List.cons.injEq, and_true] at h2
        subst h2
        rw [Bool.eq_false_iff]
        intro hnx
        have := nextHeader_ok.2 ⟨hbal.2 hb, indent_iff.2 hm, (hhead _ _ _).2 hh', hnx⟩
        rw [this] at hhd
        simp at hhd
      · have e' : body ++ [l] = (x ++ m :: y') ++ [z] := by rw [e]; simp
        obtain ⟨rfl, _⟩ := List.append_inj' e' rfl
        exact hno x m y' rfl hb hm id' rest' hh'
    | some x =>
      obtain ⟨newId, newRest⟩ := x
      obtain ⟨hu, hind, hph, hnext⟩ := nextHeader_ok.1 hhd
      simp only at h
      rw [Res.bind_eq_ok] at h
      obtain ⟨e, he, h⟩ := h
      have hee := hel _ _ _ _ he
      rw [parse_keepIt he] at hee
      have e1 : is.map Item.element ++ [e.element] =
          (is ++ [(⟨head, id, rest, body, e.element⟩ : Item I C)]).map Item.element := by simp
      rw [e1, show [newRest] = newRest :: nonEmptyLines [] from rfl] at h
      have e3 : itemLines (is ++ [⟨head, id, rest, body, e.element⟩]) = itemLines is ++ head :: body := by
        rw [itemLines_snoc]
      obtain ⟨js, last, g1, g2, g3, g4, g5, g6, g7, g8⟩ := ih (is := is ++ [⟨head, id, rest, body, e.element⟩])
        (head := l) (body := []) (by rw [e3]; exact hq2)
        (by
          rw [items_append]
          exact ⟨his, hh, by simpa using hprev, by simpa using hno, trivial⟩)
        ((hhead _ _ _).1 hph)
        (by
          intro p hp
          have : lastId none (is ++ [⟨head, id, rest, body, e.element⟩]) = some id := by
            have : ∀ (a : List (Item I C)) prev i, lastId prev (a ++ [i]) = some i.id := by
              intro a
              induction a with
              | nil => intros; rfl
              | cons b a ih => intro prev i; simp only [List.cons_append, lastId]; exact ih _ _
            exact this _ _ _
          rw [this] at hp
          simp only [Option.some.injEq] at hp
          subst hp
          rw [e3]
          exact ⟨hbal.1 hu, indent_iff.1 hind, hnext⟩)
        (by intro x m y hx; simp at hx)
        (by
          intro i hi
          rcases List.mem_append.1 hi with hi | hi
          · exact hels i hi
          · simp only [List.mem_singleton] at hi
            subst hi
            exact hee)
        h
      refine ⟨js, last, ?_, g2, g3, g4, ?_, g6, g7, g8⟩
      · rw [← g1, e3]; simp
      · cases is with
        | nil =>
          rcases g5 with ⟨h0, _⟩ | h0
          · simp at h0
          · exact .inl ⟨rfl, _, h0, rfl, rfl⟩
        | cons i is =>
          rcases g5 with ⟨h0, _⟩ | h0
          · simp at h0
          · exact .inr (by rw [h0]; rfl)

theorem extractMultiple_of {p : SAEParser I C} {params : SAEParams}
    (hhead : ∀ l id rest, p.parseHeader l = .ok (some (id, rest)) ↔ Head l id rest)
    (hquote : ∀ l id rest, Head l id rest → opening l.content = opening rest.content ∧
      closing l.content = closing rest.content)
    (hel : ∀ mode id ls r, p.parse id ls params.context mode = .ok r → El mode id ls r.element r.restOfWrapUp)
    {atLeast : Nat} (hcount : params.checkChildrenCount = true → atLeast ≤ 2)
    (hcount' : params.checkChildrenCount = false → atLeast ≤ 1) {ls : List Line} {expected : Option I}
    {r : Extracted (List (SAE I C))} (h : p.extractMultiple ls params expected = .ok r) :
    ListOf Head (fun id => goodFirst expected id = true) El params.context params.parseWrapUp atLeast ls
      r.elements r.parentWrapUp r.restOfWrapUp := by
  obtain ⟨first, others, id, rest, q, rfl, ho, hg, hq, h⟩ := extractMultiple_ok.1 h
  have hh := (hhead _ _ _).1 ho
  obtain ⟨hq2, _⟩ := quoteInv_step quoteInv_new hq
  obtain ⟨o1, o2⟩ := hquote _ _ _ hh
  have hq3 : QuoteInv q ([] ++ first :: []) := by
    refine ⟨?_, hq2.nonneg⟩
    rw [hq2.level]
    simp [allText_cons, o1, o2]
  obtain ⟨js, last, g1, g2, g3, g4, g5, g6, g7, g8⟩ := extractFrom_of hhead hel hcount hcount' others
    (is := []) (head := first) (body := []) (rest := rest) hq3 trivial hh (by simp [lastId])
    (by intro x m y hx; simp at hx) (by simp) h
  rcases g5 with ⟨_, i, hi1, rfl, rfl⟩ | h0
  · have g1' : i.head :: others = itemLines (js ++ [last]) := by rw [← g1]; rfl
    exact ⟨js, last, i, g1', g2, g3, by rw [g1']; exact g4, hi1, hg, g6, g7, g8⟩
  · simp at h0

end HunLaw
