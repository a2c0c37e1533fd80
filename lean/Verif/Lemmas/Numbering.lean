import Verif.Lemmas.Division
import Verif.Spec.Numbering

/-! Lemmas for C33-C38. -/

set_option autoImplicit false

namespace HunLaw

open HunLaw.Spec SAEParser

/-! ### numbering -/

theorem consecutive_cons {I : Type} [IdentifierCommon I] {a : I} {ids : List I} :
    Consecutive (a :: ids) ↔ (∀ b, ids.head? = some b → isNextFrom b a = true) ∧ Consecutive ids := by
  cases ids with
  | nil => simp [Consecutive]
  | cons b ids => simp [Consecutive]

theorem items_consecutive {I C : Type} [IdentifierCommon I] {Head : Line → I → Line → Prop} {margin : Rat}
    (is : List (Item I C)) : ∀ {before : List Line} {prev : Option I}, Items Head margin before prev is →
    Consecutive (is.map Item.id) ∧ (∀ p i, prev = some p → is.head? = some i → isNextFrom i.id p = true) ∧
      ∀ i ∈ is, Head i.head i.id i.rest := by
  induction is with
  | nil => intro before prev h; simp [Consecutive]
  | cons i is ih =>
    intro before prev h
    obtain ⟨h1, h2, -, h4⟩ := h
    obtain ⟨i1, i2, i3⟩ := ih h4
    refine ⟨?_, ?_, ?_⟩
    · rw [List.map_cons, consecutive_cons]
      refine ⟨?_, i1⟩
      intro b hb
      rw [List.head?_map, Option.map_eq_some_iff] at hb
      obtain ⟨j, hj, rfl⟩ := hb
      exact i2 _ _ rfl hj
    · intro p j hp hj
      simp only [List.head?_cons, Option.some.injEq] at hj
      subst hj
      exact (h2 p hp).2.2
    · intro j hj
      rcases List.mem_cons.1 hj with rfl | hj
      · exact h1
      · exact i3 j hj

/-- A list is well numbered. -/
theorem listOf_numbered {I C : Type} [IdentifierCommon I] {Head : Line → I → Line → Prop} {First : I → Prop}
    {El : WrapUpMode → I → List Line → SAE I C → List Line → Prop} {context : ParsingContext} {wrapUps : Bool}
    {atLeast : Nat} {ls : List Line} {es : List (SAE I C)} {w : Option Str} {more : List Line}
    {Child : I → C → Prop}
    (hel : ∀ mode id ls e given, El mode id ls e given → e.identifier = id ∧
      ∀ intro cs w, e.body = .children intro cs w → Child e.identifier cs)
    (h : ListOf Head First El context wrapUps atLeast ls es w more) :
    atLeast ≤ es.length ∧ NumberedList First Child es ∧ ∀ e ∈ es, ∃ l rest, Head l e.identifier rest := by
  obtain ⟨is, last, first, -, rfl, h3, -, h5, h6, h7, h8, h9⟩ := h
  have hlast : ∃ mode ls given, El mode last.id ls last.element given := by
    unfold LastOf at h9
    split at h9
    · split at h9
      · obtain ⟨own, wrap, -, -, -, h, -⟩ := h9; exact ⟨_, _, _, h⟩
      · obtain ⟨given, wrap, h, -⟩ := h9; exact ⟨_, _, _, h⟩
    · exact ⟨_, _, _, h9.1⟩
  have hall : ∀ i ∈ is ++ [last], i.element.identifier = i.id ∧
      ∀ intro cs w, i.element.body = .children intro cs w → Child i.element.identifier cs := by
    intro i hi
    rcases List.mem_append.1 hi with hi | hi
    · exact hel _ _ _ _ _ (h8 i hi)
    · simp only [List.mem_singleton] at hi
      subst hi
      obtain ⟨_, _, _, h⟩ := hlast
      exact hel _ _ _ _ _ h
  have hids : ((is ++ [last]).map Item.element).map SAE.identifier = (is ++ [last]).map Item.id := by
    rw [List.map_map]
    apply List.map_congr_left
    intro i hi
    exact (hall i hi).1
  obtain ⟨c1, -, c3⟩ := items_consecutive _ h7
  refine ⟨h3, ⟨⟨first.id, ?_, h6⟩, by rw [hids]; exact c1, ?_⟩, ?_⟩
  · rw [hids, List.head?_map, h5]; rfl
  · intro e he
    obtain ⟨i, hi, rfl⟩ := List.mem_map.1 he
    exact (hall i hi).2
  · intro e he
    obtain ⟨i, hi, rfl⟩ := List.mem_map.1 he
    rw [(hall i hi).1]
    exact ⟨_, _, c3 i hi⟩

theorem elementOf_child {I C : Type} {context : ParsingContext}
    {ChildrenOf : I → Option Line → List Line → C → Option Str → List Line → Prop} {Child : I → C → Prop}
    (hc : ∀ id prev ls cs w more, ChildrenOf id prev ls cs w more → Child id cs)
    (mode : WrapUpMode) (id : I) (ls : List Line) (e : SAE I C) (given : List Line)
    (h : ElementOf context ChildrenOf mode id ls e given) :
    e.identifier = id ∧ ∀ intro cs w, e.body = .children intro cs w → Child e.identifier cs := by
  obtain ⟨h1, -, h⟩ := h
  refine ⟨h1, ?_⟩
  intro intro cs w hb
  rw [h1]
  rcases h with ⟨own, h, -⟩ | ⟨intro', list, cs', w', more, -, -, h, hm⟩
  · rw [h] at hb; simp at hb
  · cases mode with
    | keepIt =>
      obtain ⟨e1, -⟩ := hm
      rw [e1] at hb
      simp only [SAEBody.children.injEq] at hb
      obtain ⟨-, rfl, -⟩ := hb
      exact hc _ _ _ _ _ _ h
    | giveIt =>
      obtain ⟨e1, -⟩ := hm
      rw [e1] at hb
      simp only [SAEBody.children.injEq] at hb
      obtain ⟨-, rfl, -⟩ := hb
      exact hc _ _ _ _ _ _ h

variable {context : ParsingContext}

theorem alphabeticSubpointsOf_numbered {pfx : Option HunChar} {First : PrefixedId → Prop} {ls : List Line}
    {es : List AlphabeticSubpoint} {w : Option Str} {more : List Line}
    (h : AlphabeticSubpointsOf context pfx First ls es w more) : NumberedAlphabeticSubpoints pfx First es := by
  obtain ⟨h1, h2, h3⟩ := listOf_numbered (Child := fun _ _ => False)
    (elementOf_child (fun _ _ _ _ _ _ h => h)) h
  refine ⟨h1, h2, ?_⟩
  intro e he
  obtain ⟨l, rest, h⟩ := h3 e he
  exact h.2

theorem numericSubpointsOf_numbered {First : NumericId → Prop} {ls : List Line}
    {es : List NumericSubpoint} {w : Option Str} {more : List Line}
    (h : NumericSubpointsOf context First ls es w more) : NumberedNumericSubpoints First es := by
  obtain ⟨h1, h2, h3⟩ := listOf_numbered (Child := fun _ _ => False)
    (elementOf_child (fun _ _ _ _ _ _ h => h)) h
  exact ⟨h1, h2⟩

theorem alphabeticPointOf_numbered : ∀ mode id ls e given, AlphabeticPointOf context mode id ls e given →
    e.identifier = id ∧ ∀ intro cs w, e.body = .children intro cs w → NumberedInAlphabeticPoint e.identifier cs := by
  apply elementOf_child
  intro id prev ls cs w more h
  cases cs with
  | alphabeticSubpoint l => exact alphabeticSubpointsOf_numbered h
  | numericSubpoint l => exact numericSubpointsOf_numbered h

theorem numericPointOf_numbered : ∀ mode id ls e given, NumericPointOf context mode id ls e given →
    e.identifier = id ∧ ∀ intro cs w, e.body = .children intro cs w → NumberedInNumericPoint e.identifier cs := by
  apply elementOf_child
  intro id prev ls cs w more h
  cases cs with
  | alphabeticSubpoint l => exact alphabeticSubpointsOf_numbered h

theorem paragraphOf_numbered : ∀ mode id ls e given, ParagraphOf context mode id ls e given →
    e.identifier = id ∧ ∀ intro cs w, e.body = .children intro cs w → NumberedInParagraph e.identifier cs := by
  apply elementOf_child
  intro id prev ls cs w more h
  cases cs with
  | alphabeticPoint l =>
    obtain ⟨h1, h2, -⟩ := listOf_numbered (context := context) (wrapUps := true) (atLeast := 2) (First := (isFirst · = true)) (Head := AlphabeticHead) (w := w) (more := more) (ls := ls) alphabeticPointOf_numbered h
    exact ⟨h1, h2⟩
  | numericPoint l =>
    obtain ⟨h1, h2, -⟩ := listOf_numbered (context := context) (wrapUps := true) (atLeast := 2) (First := (isFirst · = true)) (Head := NumericHead) (w := w) (more := more) (ls := ls) numericPointOf_numbered h
    exact ⟨h1, h2⟩
  | quotedBlock l =>
    obtain ⟨⟨pre, post, v, segs, -, hne, hf, -⟩, -⟩ := h
    refine ⟨?_, ?_⟩
    · rintro rfl
      cases hf
      exact hne rfl
    · intro b hb
      obtain ⟨⟨s1, s2⟩, ⟨hu, -⟩, -⟩ := forall₂_right hf b hb
      simp only at hu
      generalize b.lines = inner at hu ⊢
      cases hu <;> simp
  | amendment a => exact a.elim

theorem articleOf_numbered {ls : List Line} {a : Article Empty} (h : ArticleOf context ls a) :
    NumberedParagraphs a.children := by
  obtain ⟨-, -, rest, -, -, -, h⟩ := h
  rcases h with h | ⟨p, hp, h⟩
  · obtain ⟨h1, h2, -⟩ := listOf_numbered paragraphOf_numbered h
    exact .inr ⟨h1, h2⟩
  · exact .inl ⟨p, hp, paragraphOf_numbered _ _ _ _ _ h⟩

/-! ### articles -/

theorem articleIds_cons (c : ActChild Empty) (cs : List (ActChild Empty)) :
    articleIds (c :: cs) = (match c with | .article a => [a.identifier] | _ => []) ++ articleIds cs := by
  cases c <;> simp [articleIds]

theorem division_articles (ps : List Piece) : ∀ {upper : Char → Bool} {before : List Line}
    {last : Option (Line × ArticleId)}, Division upper context before last ps →
    Consecutive ((last.map Prod.snd).toList ++ articleIds (ps.map Piece.child)) ∧
    (last = none → context = .fullAct → ∀ id, (articleIds (ps.map Piece.child)).head? = some id → isFirst id = true) := by
  induction ps with
  | nil => intro upper before last _; cases last <;> simp [articleIds, Consecutive]
  | cons p ps ih =>
    intro upper before last h
    obtain ⟨-, hc, -, hd⟩ := h
    obtain ⟨i1, i2⟩ := ih hd
    rw [List.map_cons, articleIds_cons]
    cases hp : p.child with
    | structuralElement e =>
      simp only [hp, lastArticle] at i1 i2
      exact ⟨i1, i2⟩
    | subtitle e =>
      simp only [hp, lastArticle] at i1 i2
      exact ⟨i1, i2⟩
    | article a =>
      rw [hp] at hc
      obtain ⟨-, -, ⟨-, hs⟩, -⟩ := hc
      simp only [hp, lastArticle, Option.map_some, Option.toList_some, List.singleton_append] at i1
      cases last with
      | none =>
        simp only at hs
        refine ⟨i1, ?_⟩
        intro _ hf id hid
        simp only [List.singleton_append, List.head?_cons, Option.some.injEq] at hid
        subst hid
        exact hs hf
      | some x => exact ⟨⟨hs.2, i1⟩, by simp⟩

theorem division_children (ps : List Piece) : ∀ {upper : Char → Bool} {before : List Line}
    {last : Option (Line × ArticleId)}, Division upper context before last ps →
    ∀ a x b, ps = a ++ x :: b → opening (allText (before ++ pieceLines a)) = closing (allText (before ++ pieceLines a)) ∧
      ∃ last, ChildOf upper context last (lastEmpty (before ++ pieceLines a)) x.head x.body x.child := by
  induction ps with
  | nil => intro upper before last _ a x b h; simp at h
  | cons p ps ih =>
    intro upper before last h a x b e
    obtain ⟨h1, hc, -, hd⟩ := h
    cases a with
    | nil =>
      simp only [List.nil_append, List.cons.injEq] at e
      obtain ⟨rfl, rfl⟩ := e
      exact ⟨by simpa [pieceLines] using h1, last, by simpa [pieceLines] using hc⟩
    | cons y a =>
      simp only [List.cons_append, List.cons.injEq] at e
      obtain ⟨rfl, rfl⟩ := e
      have := ih hd a x b rfl
      simpa [pieceLines] using this

/-! ### text -/

theorem noSpaces_joined {ps : List Str} {s : Str} (h : Joined ps s) : noSpaces s = noSpaces ps.flatten := by
  have hsep : ∀ a b, noSpaces (separator a b) = [] := by
    intro a b
    unfold separator
    split <;> rfl
  induction ps generalizing s with
  | nil => simp only [Joined] at h; simp [h]
  | cons a ps ih =>
    cases ps with
    | nil => simp only [Joined] at h; simp [h]
    | cons b ps =>
      obtain ⟨u, hu, rfl⟩ := h
      rw [noSpaces_append, noSpaces_append, hsep, ih hu]
      simp [noSpaces_append]

theorem flatten_nonEmptyTexts (ls : List Line) : (nonEmptyTexts ls).flatten = allText ls := by
  unfold nonEmptyTexts allText
  induction ls with
  | nil => rfl
  | cons l ls ih =>
    rw [List.map_cons, List.filter_cons]
    split
    · rw [List.flatten_cons, ih]; rfl
    · rename_i h
      simp only [ne_eq, decide_not, Bool.not_eq_true', decide_eq_false_iff_not, not_not] at h
      rw [ih, List.flatMap_cons, h]; rfl

theorem childOf_text {upper : Char → Bool} {last : Option (Line × ArticleId)} {prevEmpty : Bool} {h : Line}
    {body : List Line} {c : ActChild Empty} (hc : ChildOf upper context last prevEmpty h body c) :
    ActChildText c (noSpaces (allText (h :: body))) := by
  cases c with
  | structuralElement e =>
    obtain ⟨h1, h2, -⟩ := hc
    refine ⟨_, h1, ?_⟩
    rw [noSpaces_joined h2, flatten_nonEmptyTexts, allText_cons, noSpaces_append]
  | subtitle s =>
    obtain ⟨-, title, ⟨-, h1⟩, h2, -⟩ := hc
    unfold ActChildText
    cases hi : s.identifier with
    | none =>
      rw [hi] at h1
      obtain ⟨-, -, rfl, -⟩ := h1
      simp only [hi]
      rw [noSpaces_joined h2, List.flatten_cons, flatten_nonEmptyTexts, allText_cons]
    | some id =>
      rw [hi] at h1
      obtain ⟨n, h3, h4⟩ := h1
      obtain ⟨-, hsp⟩ := subtitleHeader_nodot h3
      simp only [hi]
      refine ⟨n, h4, hsp, ?_⟩
      obtain ⟨e, -⟩ := h3
      rw [noSpaces_joined h2, List.flatten_cons, flatten_nonEmptyTexts, allText_cons, e]
      have : noSpaces str!". " = ['.'] := by decide
      simp only [noSpaces_append, noSpaces_of_not_mem hsp, this, List.append_assoc]
  | article a => exact hc.2.2.2.1

theorem division_text (ps : List Piece) : ∀ {upper : Char → Bool} {before : List Line}
    {last : Option (Line × ArticleId)}, Division upper context before last ps →
    ActChildrenText (ps.map Piece.child) (noSpaces (allText (pieceLines ps))) := by
  induction ps with
  | nil => intro upper before last _; rfl
  | cons p ps ih =>
    intro upper before last h
    obtain ⟨-, hc, -, hd⟩ := h
    refine ⟨_, _, childOf_text hc, ih hd, ?_⟩
    rw [← noSpaces_append, ← allText_append]
    simp [pieceLines]

/-! ### quotes -/

theorem complexFrom_quotes {upper : Char → Bool} (ls : List Line) : ∀ {q : QuoteCheck} {f : ArticleFactory}
    {prevEmpty : Bool} {state : ParseState} {preamble : Str} {children : List (ActChild Empty)}
    {r : Str × List (ActChild Empty)},
    complexFrom upper context q f prevEmpty state preamble children ls = .ok r → ∃ q', Props.feedQuotes q ls = .ok q' := by
  induction ls with
  | nil => intros; exact ⟨_, rfl⟩
  | cons l ls ih =>
    intro q f prevEmpty state preamble children r h
    unfold complexFrom at h
    rw [Res.bind_eq_ok] at h
    obtain ⟨q', hq, h⟩ := h
    rw [Res.bind_eq_ok] at h
    obtain ⟨o, ho, h⟩ := h
    have : ∃ q'', Props.feedQuotes q' ls = .ok q'' := by
      cases o with
      | none => exact ih h
      | some x =>
        simp only at h
        rw [Res.bind_eq_ok] at h
        obtain ⟨c, -, h⟩ := h
        exact ih h
    obtain ⟨q'', h'⟩ := this
    exact ⟨q'', by simp [Props.feedQuotes, hq, h']⟩

/-! ### crashes -/

theorem bind_ne_panic {α β : Type} {x : Res α} {f : α → Res β} (hx : x ≠ .panic)
    (hf : ∀ a, x = .ok a → f a ≠ .panic) : x >>= f ≠ .panic := by
  cases x with
  | ok a => simpa using hf a rfl
  | err => simp
  | panic => exact absurd rfl hx

theorem update_ne_panic (q : QuoteCheck) (l : Line) : q.update l ≠ .panic := by
  rw [Props.update_eq]
  split <;> simp
theorem checkEnd_ne_panic (q : QuoteCheck) : q.checkEnd ≠ .panic := by
  unfold QuoteCheck.checkEnd
  split <;> simp

section
variable {I C : Type}

theorem parse_ne_panic {p : SAEParser I C} {context : ParsingContext} {mode : WrapUpMode} {id : I}
    (hc : ∀ prev ls params, ls ≠ [] → NoTrailingSpace ls → p.tryExtractChildren id prev ls params ≠ .panic)
    (body : List Line) (hn : NoTrailingSpace body) : p.parse id body context mode ≠ .panic := by
  unfold parse
  suffices h : ∀ ls q prev intro, NoTrailingSpace ls →
      parseFrom p id context mode body q prev intro ls ≠ .panic from h _ _ _ _ hn
  intro ls
  induction ls with
  | nil =>
    intro q prev intro _
    unfold parseFrom
    exact bind_ne_panic (checkEnd_ne_panic q) (by intro a _; simp)
  | cons l ls ih =>
    intro q prev intro hn
    unfold parseFrom
    have hn' : NoTrailingSpace ls := fun x hx => hn x (by simp [hx])
    refine bind_ne_panic (update_ne_panic q l) ?_
    intro q' _
    simp only
    split
    · exact ih _ _ _ hn'
    · split
      · simp
      · exact ih _ _ _ hn'
      · rename_i h
        exact absurd h (hc _ _ _ (by simp) hn)

theorem extractMultiple_ne_panic [DecidableEq I] [IdentifierCommon I] {p : SAEParser I C}
    (hh : ∀ l : Line, l.content.getLast? ≠ some ' ' → p.parseHeader l ≠ .panic)
    (hr : ∀ (l : Line) id rest, l.content.getLast? ≠ some ' ' → p.parseHeader l = .ok (some (id, rest)) →
      rest.content.getLast? ≠ some ' ')
    (hc : ∀ id prev ls params, ls ≠ [] → NoTrailingSpace ls → p.tryExtractChildren id prev ls params ≠ .panic)
    (ls : List Line) (hne : ls ≠ []) (hn : NoTrailingSpace ls) (params : SAEParams) (expected : Option I) :
    p.extractMultiple ls params expected ≠ .panic := by
  have hlast : ∀ indent es id body, NoTrailingSpace body → extractLast p params indent es id body ≠ .panic := by
    intro indent es id body hb
    have hp : ∀ mode b, NoTrailingSpace b → p.parse id b params.context mode ≠ .panic := fun mode b hb =>
      parse_ne_panic (hc id) b hb
    unfold extractLast
    split
    · split
      · split
        · exact bind_ne_panic (hp _ _ (fun x hx => hb x (List.mem_of_mem_take hx))) (by intro a _; simp)
        · exact bind_ne_panic (hp _ _ hb) (by intro a _; simp)
      · exact bind_ne_panic (hp _ _ hb) (by intro a _; simp)
    · exact bind_ne_panic (hp _ _ hb) (by intro a _; simp)
  have hfrom : ∀ ls indent q es id body, NoTrailingSpace ls → NoTrailingSpace body →
      extractFrom p params indent q es id body ls ≠ .panic := by
    intro ls
    induction ls with
    | nil =>
      intro indent q es id body _ hb
      unfold extractFrom extractEnd
      refine bind_ne_panic (checkEnd_ne_panic q) ?_
      intro _ _
      refine bind_ne_panic (hlast _ _ _ _ hb) ?_
      intro a _
      split <;> simp
    | cons l ls ih =>
      intro indent q es id body hl hb
      have hl' : NoTrailingSpace ls := fun x hx => hl x (by simp [hx])
      have hl1 := hl l (by simp)
      unfold extractFrom
      refine bind_ne_panic (update_ne_panic q l) ?_
      intro q' _
      refine bind_ne_panic ?_ ?_
      · unfold nextHeader parseAndCheckHeader
        split
        · simp
        · split
          · refine bind_ne_panic (hh l hl1) ?_
            intro o _
            split
            · split <;> simp
            · simp
          · simp
      · intro o ho
        cases o with
        | none =>
          simp only
          refine ih _ _ _ _ _ hl' ?_
          split
          · exact hb
          · intro x hx
            rcases List.mem_append.1 hx with hx | hx
            · exact hb x hx
            · simp only [List.mem_singleton] at hx
              subst hx; exact hl1
        | some x =>
          obtain ⟨newId, rest⟩ := x
          simp only
          have hp : p.parseHeader l = .ok (some (newId, rest)) := by
            unfold nextHeader parseAndCheckHeader at ho
            split at ho
            · simp at ho
            · split at ho
              · rw [Res.bind_eq_ok] at ho
                obtain ⟨o, h1, h2⟩ := ho
                cases o with
                | none => simp at h2
                | some x =>
                  simp only at h2
                  split at h2
                  · simp only [Res.ok.injEq, Option.some.injEq] at h2
                    rw [h1, ← h2]
                  · simp at h2
              · simp at ho
          refine bind_ne_panic (parse_ne_panic (hc id) body hb) ?_
          intro e _
          refine ih _ _ _ _ _ hl' ?_
          intro x hx
          simp only [List.mem_singleton] at hx
          subst hx
          exact hr _ _ _ hl1 hp
  cases ls with
  | nil => exact absurd rfl hne
  | cons first others =>
    have hf := hn first (by simp)
    unfold extractMultiple
    simp only
    refine bind_ne_panic (hh first hf) ?_
    intro o ho
    cases o with
    | none => simp
    | some x =>
      obtain ⟨id, rest⟩ := x
      simp only
      split
      · refine bind_ne_panic (update_ne_panic _ _) ?_
        intro q _
        refine hfrom _ _ _ _ _ _ (fun x hx => hn x (by simp [hx])) ?_
        intro x hx
        simp only [List.mem_singleton] at hx
        subst hx
        exact hr _ _ _ hf ho
      · simp
end

theorem headerLine_trailing {op : Str} {IdText Closing : Str → Prop} {excluded : List Str} {s t : Str}
    (h : HeaderLine op IdText Closing excluded s t []) : s.getLast? = some ' ' := by
  obtain ⟨cl, sp, rfl, -, -, ⟨hne, hsp⟩, -⟩ := h
  rw [List.append_nil, List.getLast?_append_of_ne_nil _ hne, List.getLast?_eq_some_getLast hne]
  rw [hsp _ (List.getLast_mem hne)]

theorem headOf_trailing {I : Type} {Header : Str → Str → Str → Prop} {parse : Str → Option I}
    (hq : ∀ s t r, Header s t r → ∃ before, s = before ++ r)
    {l : Line} {id : I} {rest : Line} (h : HeadOf Header parse l id rest) (hl : l.content.getLast? ≠ some ' ') :
    rest.content.getLast? ≠ some ' ' := by
  obtain ⟨t, r, h1, h2, h3, h4⟩ := h
  obtain ⟨b, hb⟩ := hq _ _ _ h1
  rw [(Props.C27_rest l rest r ⟨b, hb⟩ h2 h4).1]
  rw [hb, List.getLast?_append_of_ne_nil _ h2] at hl
  exact hl

theorem map_ne_panic {α β : Type} {f : α → β} {x : Res α} (h : x ≠ .panic) : Res.map f x ≠ .panic := by
  cases x <;> simp_all [Res.map]
theorem orElse_ne_panic {α : Type} {x : Res α} {f : Unit → Res α} (h : x ≠ .panic) (hf : f () ≠ .panic) :
    x.orElse f ≠ .panic := by
  cases x <;> simp_all [Res.orElse]

theorem alphabeticSubpoints_ne_panic (pfx : Option HunChar) (ls : List Line) (hne : ls ≠ [])
    (hn : NoTrailingSpace ls) (params : SAEParams) (expected : Option PrefixedId) :
    (alphabeticSubpointParser pfx).extractMultiple ls params expected ≠ .panic := by
  refine extractMultiple_ne_panic ?_ ?_ ?_ ls hne hn params expected
  · intro l hl h
    obtain ⟨t, ht, -⟩ := ((Props.C27_panic_iff l).2.2.2.1 pfx).1 h
    exact hl (headerLine_trailing ht)
  · intro l id rest hl h
    exact headOf_trailing (fun _ _ _ h => headerLine_suffix h) ((prefixedHead_iff pfx l id rest).1 h).1 hl
  · intro id prev ls params _ _ h; simp [alphabeticSubpointParser] at h

theorem numericHeader_ne_panic (l : Line) (hl : l.content.getLast? ≠ some ' ') : parseNumericHeader l ≠ .panic := by
  intro h
  obtain ⟨t, ht, -⟩ := (Props.C27_panic_iff l).2.1.1 h
  exact hl (headerLine_trailing ht)

theorem numericSubpoints_ne_panic (ls : List Line) (hne : ls ≠ [])
    (hn : NoTrailingSpace ls) (params : SAEParams) (expected : Option NumericId) :
    numericSubpointParser.extractMultiple ls params expected ≠ .panic := by
  refine extractMultiple_ne_panic numericHeader_ne_panic ?_ ?_ ls hne hn params expected
  · intro l id rest hl h
    exact headOf_trailing (Header := NumericHeader) (fun _ _ _ h => headerLine_suffix h) ((Props.C27_numeric_header_iff l id rest).1 h) hl
  · intro id prev ls params _ _ h; simp [numericSubpointParser] at h

theorem numericPoints_ne_panic (ls : List Line) (hne : ls ≠ [])
    (hn : NoTrailingSpace ls) (params : SAEParams) (expected : Option NumericId) :
    numericPointParser.extractMultiple ls params expected ≠ .panic := by
  refine extractMultiple_ne_panic numericHeader_ne_panic ?_ ?_ ls hne hn params expected
  · intro l id rest hl h
    exact headOf_trailing (Header := NumericHeader) (fun _ _ _ h => headerLine_suffix h) ((Props.C27_numeric_header_iff l id rest).1 h) hl
  · intro id prev ls params hne hn
    exact map_ne_panic (alphabeticSubpoints_ne_panic none ls hne hn params none)

theorem alphabeticPoints_ne_panic (ls : List Line) (hne : ls ≠ [])
    (hn : NoTrailingSpace ls) (params : SAEParams) (expected : Option HunChar) :
    alphabeticPointParser.extractMultiple ls params expected ≠ .panic := by
  refine extractMultiple_ne_panic ?_ ?_ ?_ ls hne hn params expected
  · intro l hl h
    obtain ⟨t, ht, -⟩ := (Props.C27_panic_iff l).2.2.1.1 h
    exact hl (headerLine_trailing ht)
  · intro l id rest hl h
    exact headOf_trailing (Header := AlphabeticHeader) (fun _ _ _ h => headerLine_suffix h) ((Props.C27_alphabetic_header_iff l id rest).1 h) hl
  · intro id prev ls params hne hn
    unfold alphabeticPointParser
    simp only
    refine orElse_ne_panic (map_ne_panic (numericSubpoints_ne_panic ls hne hn params none)) ?_
    exact map_ne_panic (alphabeticSubpoints_ne_panic (some id) ls hne hn params none)

theorem quoted_ne_panic (prev : Option Line) (ls : List Line) : QuoteParser.extractMultiple prev ls ≠ .panic := by
  have hl : ∀ (ls : List Line) (s : QuoteParser), s.parseLines ls ≠ .panic := by
    intro ls
    induction ls with
    | nil => intro s; simp [QuoteParser.parseLines]
    | cons l ls ih =>
      intro s
      unfold QuoteParser.parseLines
      refine bind_ne_panic ?_ (fun s' _ => ih s')
      unfold QuoteParser.parseLine
      exact bind_ne_panic (update_ne_panic _ _) (by intro a _; simp)
  unfold QuoteParser.extractMultiple
  split
  · simp
  · split
    · simp
    · refine bind_ne_panic (hl _ _) ?_
      intro s _
      split
      · split <;> simp
      · simp

theorem paragraphChildren_ne_panic (id : ParagraphId) (prev : Option Line) (ls : List Line) (params : SAEParams)
    (hne : ls ≠ []) (hn : NoTrailingSpace ls) : paragraphParser.tryExtractChildren id prev ls params ≠ .panic := by
  unfold paragraphParser
  simp only
  refine orElse_ne_panic (orElse_ne_panic (map_ne_panic (quoted_ne_panic prev ls)) ?_) ?_
  · exact map_ne_panic (numericPoints_ne_panic ls hne hn params none)
  · exact map_ne_panic (alphabeticPoints_ne_panic ls hne hn params none)

theorem paragraphList_ne_panic (ls : List Line) (hne : ls ≠ [])
    (hn : NoTrailingSpace ls) (params : SAEParams) (expected : Option ParagraphId) :
    paragraphParser.extractMultiple ls params expected ≠ .panic := by
  refine extractMultiple_ne_panic ?_ ?_ ?_ ls hne hn params expected
  · intro l hl h
    obtain ⟨t, ht, -⟩ := (Props.C27_panic_iff l).1.1 h
    exact hl (headerLine_trailing ht)
  · intro l id rest hl h
    exact headOf_trailing (Header := ParagraphHeader) (fun _ _ _ h => headerLine_suffix h) ((Props.C27_paragraph_header_iff l id rest).1 h) hl
  · intro id prev ls params hne hn
    exact paragraphChildren_ne_panic id prev ls params hne hn

theorem paragraphs_ne_panic (ls : List Line) (hne : ls ≠ []) (hn : NoTrailingSpace ls) :
    ArticleParser.paragraphs context ls ≠ .panic := by
  unfold ArticleParser.paragraphs
  split
  · rename_i ex hex
    rw [(extractMultiple_noWrapUp rfl hex).1]
    simp
  · rename_i h
    exact absurd h (paragraphList_ne_panic ls hne hn _ _)
  · exact bind_ne_panic (parse_ne_panic (fun prev ls params hne hn =>
      paragraphChildren_ne_panic _ prev ls params hne hn) ls hn) (by intro a _; simp)

theorem finish_panic {p : ArticleParser} {rest : Line} {body : List Line} (hp : p.lines = rest :: body)
    (hr : rest.content ≠ []) (hn : NoTrailingSpace p.lines) (h : p.finish = .panic) :
    ∃ title gap titleLines, rest :: body = titleLines ++ gap ∧ ArticleTitleOf titleLines title ∧
      (gap = [] ∨ ∃ l, gap = [l] ∧ l.parts = []) := by
  unfold ArticleParser.finish at h
  rw [hp] at h hn
  simp only [ArticleParser.extractTitle] at h
  split at h
  · rename_i t ht
    split at h
    · rename_i hl
      obtain ⟨own, o1, o2, o3⟩ := titleLoop_spec body t
      have hti : ArticleTitleOf (rest :: own) (ArticleParser.titleLoop t body).1.dropLast := by
        refine ⟨rest, own, t, rfl, ht, ?_, ?_⟩
        · rw [← dropLast_of_getLast hl, o2]
          exact joined_fold t own
        · intro a b hab hb s hs
          rw [joined_unique hs (joined_fold t a)]
          exact o3 a b hab hb
      simp only [Res.bind_ok] at h
      cases hrest : (ArticleParser.titleLoop t body).2 with
      | nil =>
        exact ⟨_, [], rest :: own, by rw [hrest] at o1; simpa using o1, hti, .inl rfl⟩
      | cons l ls =>
        rw [hrest] at h o1
        simp only [ArticleParser.dropEmpty, Res.bind_ok] at h
        have hn2 : NoTrailingSpace (l :: ls) := by
          intro x hx
          apply hn
          rw [o1]
          simp only [List.mem_cons, List.mem_append] at hx ⊢
          tauto
        by_cases he : l.isEmpty = true ∧ ls = []
        · obtain ⟨he, rfl⟩ := he
          exact ⟨_, [l], rest :: own, by rw [o1]; simp, hti, .inr ⟨l, rfl, isEmpty_iff.1 he⟩⟩
        · exfalso
          refine bind_ne_panic ?_ ?_ h
          · apply paragraphs_ne_panic
            · split
              · rename_i h1; intro h2; exact he ⟨h1, h2⟩
              · simp
            · split
              · exact fun x hx => hn2 x (by simp [hx])
              · exact hn2
          · intro a _; simp
    · simp at h
  · exfalso
    have he : rest.isEmpty = false := by
      cases hq : rest.isEmpty with
      | false => rfl
      | true => exact absurd (content_of_isEmpty hq) hr
    simp only [Res.bind_ok, ArticleParser.dropEmpty, he] at h
    refine bind_ne_panic ?_ ?_ h
    · exact paragraphs_ne_panic _ (by simp) (by simpa using hn)
    · intro a _; simp

/-- What is known of an article that is being read. -/
def Reading (done : List Line) (state : ParseState) : Prop :=
  ∀ p, state = .article p → ∃ before h body id rest, done = before ++ h :: body ∧
    HeadOf ArticleHeader ArticleId.parse h id rest ∧ p.lines = rest :: body

theorem articleHead_rest {l : Line} {id : ArticleId} {rest : Line}
    (h : HeadOf ArticleHeader ArticleId.parse l id rest) :
    rest.content ≠ [] ∧ (l.content.getLast? ≠ some ' ' → rest.content.getLast? ≠ some ' ') := by
  refine ⟨?_, headOf_trailing (fun _ _ _ h => headerLine_suffix h) h⟩
  obtain ⟨t, r, h1, h2, h3, h4⟩ := h
  rw [(Props.C27_rest l rest r (headerLine_suffix h1) h2 h4).1]
  exact h2

theorem state_finish_panic {done rest : List Line} {state : ParseState} (hr : Reading done state)
    (hn : NoTrailingSpace (done ++ rest)) (h : state.finish = .panic) : TitleOnlyArticle (done ++ rest) := by
  cases state with
  | preamble => simp [ParseState.finish] at h
  | subtitle s => simp [ParseState.finish] at h
  | structuralElement s => simp [ParseState.finish] at h
  | article p =>
    obtain ⟨before, hd, body, id, r, hdone, hh, hp⟩ := hr p rfl
    obtain ⟨h1, h2⟩ := articleHead_rest hh
    have hn2 : NoTrailingSpace p.lines := by
      intro x hx
      rw [hp] at hx
      rcases List.mem_cons.1 hx with rfl | hx
      · exact h2 (hn hd (by simp [hdone]))
      · exact hn x (by simp [hdone, hx])
    have hf : p.finish = .panic := by
      by_contra hne
      exact map_ne_panic hne h
    obtain ⟨title, gap, tl, e, ht, hg⟩ := finish_panic hp h1 hn2 hf
    exact ⟨before, hd, body, rest, id, r, title, gap, by rw [hdone], hh, ⟨tl, e, ht⟩, hg⟩

theorem newState_ne_panic {upper : Char → Bool} {f : ArticleFactory} {l : Line} {prevEmpty : Bool}
    (hl : l.content.getLast? ≠ some ' ') : newState upper f l prevEmpty context ≠ .panic := by
  unfold newState
  split
  · simp
  · split
    · simp
    · split
      · simp
      · simp
      · rename_i h
        exfalso
        unfold ArticleFactory.tryCreate at h
        split at h
        · simp at h
        · refine bind_ne_panic ?_ ?_ h
          · intro hp
            obtain ⟨t, ht, -⟩ := (Props.C27_panic_iff l).2.2.2.2.1 hp
            exact hl (headerLine_trailing ht)
          · intro o _
            split
            · simp
            · split <;> simp

theorem newState_reading {upper : Char → Bool} {f f' : ArticleFactory} {l : Line} {prevEmpty : Bool}
    {state : ParseState} (h : newState upper f l prevEmpty context = .ok (some (state, f'))) (done : List Line) :
    Reading (done ++ [l]) state := by
  rintro p rfl
  unfold newState at h
  split at h
  · simp at h
  · split at h
    · simp at h
    · split at h
      · rename_i p' f'' ht
        simp only [Res.ok.injEq, Option.some.injEq, Prod.mk.injEq, ParseState.article.injEq] at h
        obtain ⟨rfl, rfl⟩ := h
        unfold ArticleFactory.tryCreate at ht
        split at ht
        · simp at ht
        · rw [Res.bind_eq_ok] at ht
          obtain ⟨o, ho, ht⟩ := ht
          cases o with
          | none => simp at ht
          | some x =>
            obtain ⟨id, rest⟩ := x
            simp only at ht
            split at ht
            · simp only [Res.ok.injEq, Prod.mk.injEq] at ht
              obtain ⟨rfl, rfl⟩ := ht
              exact ⟨done, l, [], id, rest, rfl, (Props.C27_article_header_iff _ _ _).1 ho, rfl⟩
            · simp at ht
      · simp at h
      · simp at h

theorem complexFrom_panic {upper : Char → Bool} (ls : List Line) : ∀ {done : List Line} {q : QuoteCheck}
    {f : ArticleFactory} {prevEmpty : Bool} {state : ParseState} {preamble : Str} {children : List (ActChild Empty)},
    Reading done state → NoTrailingSpace (done ++ ls) →
    complexFrom upper context q f prevEmpty state preamble children ls = .panic →
    TitleOnlyArticle (done ++ ls) := by
  induction ls with
  | nil =>
    intro done q f prevEmpty state preamble children hr hn h
    by_contra hno
    unfold complexFrom at h
    refine bind_ne_panic (checkEnd_ne_panic q) ?_ h
    intro _ _
    refine bind_ne_panic (fun hs => hno (state_finish_panic hr hn hs)) ?_
    intro o _
    split <;> simp
  | cons l ls ih =>
    intro done q f prevEmpty state preamble children hr hn h
    by_contra hno
    have e : done ++ l :: ls = done ++ [l] ++ ls := by simp
    have hn' := hn
    rw [e] at hn'
    have hno' := hno
    rw [e] at hno'
    unfold complexFrom at h
    refine bind_ne_panic (update_ne_panic q l) ?_ h
    intro q' _
    refine bind_ne_panic ?_ ?_
    · unfold newStateIn
      split
      · simp
      · exact newState_ne_panic (hn l (by simp))
    · intro o ho
      cases o with
      | none =>
        simp only
        intro h
        refine hno' (ih ?_ hn' h)
        intro p hp
        cases state with
        | preamble => simp [ParseState.feedLine] at hp
        | subtitle s => simp [ParseState.feedLine] at hp
        | structuralElement s => simp [ParseState.feedLine] at hp
        | article p' =>
          simp only [ParseState.feedLine, ParseState.article.injEq] at hp
          subst hp
          obtain ⟨before, hd, body, id, r, hdone, hh, hp⟩ := hr p' rfl
          exact ⟨before, hd, body ++ [l], id, r, by simp [hdone], hh, by simp [ArticleParser.feedLine, hp]⟩
      | some x =>
        obtain ⟨state', f'⟩ := x
        simp only
        refine bind_ne_panic (fun hs => hno (state_finish_panic hr hn hs)) ?_
        intro c _ h
        refine hno' (ih ?_ hn' h)
        unfold newStateIn at ho
        split at ho
        · simp at ho
        · exact newState_reading ho done

theorem parseComplexBody_panic {upper : Char → Bool} {ls : List Line} (hn : NoTrailingSpace ls)
    (h : parseComplexBody upper ls context = .panic) : TitleOnlyArticle ls := by
  by_contra hno
  unfold parseComplexBody at h
  refine bind_ne_panic ?_ ?_ h
  · intro h
    exact hno (complexFrom_panic (done := []) ls (by intro p hp; simp at hp) hn h)
  · intro a _
    simp only
    split
    · simp
    · split <;> simp

end HunLaw
