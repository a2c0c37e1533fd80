import Verif.Lemmas.WrittenGroup
import Verif.Lemmas.Amendments

/-! What is read from a group in the usual form: the references meant by it, at the places of its pieces. -/

set_option autoImplicit false

namespace HunLaw.Semantic

open HunLaw Grammar Spec

variable {α β X : Type}

/-! ### the identifiers -/

theorem readParts_items {read : β → Option AnyReferencePart} {span : Span α → Str} {value : Span α → Nat → β}
    {f : Span α → AnyReferencePart} (l : Listing α) (h : ∀ s ∈ l.spans, ∀ n, read (value s n) = some (f s)) (n : Nat) :
    readParts read (itemsAt span value n l) = some (l.spans.map f) := by
  have hothers : ∀ (o : List (Str × Span α)), (∀ s ∈ o.map Prod.snd, ∀ n, read (value s n) = some (f s)) → ∀ n,
      (othersAt span value n o).mapM read = some ((o.map Prod.snd).map f) := by
    intro o
    induction o with
    | nil => intro _ n; rfl
    | cons x o ih =>
      obtain ⟨sep, x⟩ := x
      intro h n
      rw [othersAt, List.mapM_cons, h x (by simp), ih fun s hs => h s (by simp [hs])]
      rfl
  rw [readParts, itemsAt, List.mapM_cons, h l.first (by simp [Listing.spans]),
    hothers _ fun s hs => h s (by simp only [Listing.spans, List.mem_cons]; exact .inr hs)]
  rfl

theorem readParts_opt {read : β → Option AnyReferencePart} {span : Span α → Str} {value : Span α → Nat → β}
    {f : IdRange α → AnyReferencePart} (l : Option (Listing α))
    (h : ∀ x, l = some x → ∀ s ∈ x.spans, ∀ n, read (value s n) = some (f s.range)) (n : Nat) :
    readParts read ((l.map (itemsAt span value n)).getD []) = some (listed f l) := by
  cases l with
  | none => rfl
  | some l => exact readParts_items l (f := fun s => f s.range) (h l rfl) n

theorem partRange_idPart {parse : Str → Option α} {show_ : α → Str} {p : α → Prop} (h : ∀ a, p a → parse (show_ a) = some a)
    {s : Span α} (hs : s.Fits p) : partRange parse (idPart show_ s) = some s.range := by
  cases s with
  | one a => simp [partRange, idPart, h a hs, Span.range, IdRange.single]
  | upTo d a b => simp [partRange, idPart, h a hs.2.1, h b hs.2.2, Span.range]

theorem fits_span {p : Span α → Prop} {l : Listing α} (h : l.Fits p) : ∀ s ∈ l.spans, p s := by
  intro s hs
  rcases List.mem_cons.1 hs with rfl | hs
  · exact h.1
  · obtain ⟨x, hx, rfl⟩ := List.mem_map.1 hs
    exact (h.2 x hx).2

theorem convertArticle_at {s : Span ArticleId} (hs : ArticleUsual s) (n : Nat) :
    convertArticlePart (articleAt s n) = some s.range := by
  have hbook : ∀ b : Option U8, convertBook (b.map fun b => dec b.val) = some b := by
    intro b
    cases b with
    | none => rfl
    | some b => simp [convertBook, parseFin_dec]
  unfold convertArticlePart
  rw [articleAt, hbook]
  cases s with
  | one a => simp [partRange, idPart, NumericId.parse_displaySlash, Span.range, IdRange.single]
  | upTo d a b =>
    obtain ⟨-, hb, -, -⟩ := hs
    simp only [partRange, idPart, NumericId.parse_displaySlash, Span.range, Option.bind_eq_bind, Option.bind_some]
    rw [Option.some.injEq]
    obtain ⟨ba, ia⟩ := a
    obtain ⟨bb, ib⟩ := b
    simp only at hb
    subst hb
    rfl

theorem phraseAt_levels {w : Phrase} (hw : w.Usual) (n : Nat) : referenceLevels (phraseAt w n) = some w.levels := by
  have h1 := fun m => readParts_opt (read := readArticle) (span := articleSpan) (value := articleAt) (f := .article) w.article
    (fun l hl s hs n => by
      rw [readArticle, convertArticle_at (fits_span (hw.article l hl).1 s hs)]; rfl) m
  have h2 := fun m => readParts_opt (read := readParagraph) (span := paragraphSpan)
    (value := partAt NumericId.display paragraphSpan) (f := .paragraph) w.paragraph
    (fun l hl s hs n => by
      rw [readParagraph, partAt, partRange_idPart (p := fun _ => True) (fun a _ => NumericId.parse_display a)
        (fits_span (hw.paragraph l hl).1 s hs)]; rfl) m
  have h3 := fun m => readParts_opt (read := readNumericPoint) (span := dottedSpan)
    (value := partAt NumericId.display dottedSpan) (f := fun r => .point (.numeric r)) w.numericPoint
    (fun l hl s hs n => by
      rw [readNumericPoint, partAt, partRange_idPart (p := fun _ => True) (fun a _ => NumericId.parse_display a)
        (fits_span (hw.numericPoint l hl).1 s hs)]; rfl) m
  have h4 := fun m => readParts_opt (read := readAlphabeticPoint) (span := letterSpan)
    (value := partAt HunChar.display letterSpan) (f := fun r => .point (.alphabetic r)) w.alphabeticPoint
    (fun l hl s hs n => by
      rw [readAlphabeticPoint, partAt, partRange_idPart (p := fun _ => True) (fun a _ => HunChar.parse_display a)
        (fits_span (hw.alphabeticPoint l hl).1 s hs)]; rfl) m
  have h5 := fun m => readParts_opt (read := readNumericSubpoint) (span := dottedSpan)
    (value := partAt NumericId.display dottedSpan) (f := fun r => .subpoint (.numeric r)) w.numericSubpoint
    (fun l hl s hs n => by
      rw [readNumericSubpoint, partAt, partRange_idPart (p := fun i => i.suffix = none) (fun a _ => NumericId.parse_display a)
        (fits_span (hw.numericSubpoint l hl).1 s hs)]; rfl) m
  have h6 := fun m => readParts_opt (read := readAlphabeticSubpoint) (span := prefixedSpan)
    (value := partAt PrefixedId.display prefixedSpan) (f := fun r => .subpoint (.alphabetic r)) w.alphabeticSubpoint
    (fun l hl s hs n => by
      rw [readAlphabeticSubpoint, partAt, partRange_idPart (p := PrefixedUsual) (fun a ha => PrefixedId.parse_display ha.1 ha.2)
        (fits_span (hw.alphabeticSubpoint l hl).1 s hs)]; rfl) m
  simp only [referenceLevels, levelsOf, phraseAt, Tail.reference, belowAt, pointAt, subpointTail, h1, h2, h3, h4, h5, h6,
    Option.bind_eq_bind, Option.bind_some, Phrase.levels]

theorem actAt_act {c : Cache} {a : ActName} (ha : a.Usual) (hc : ∀ s x, a = .short s x → c.resolve s = some x) (n : Nat) :
    convertActReference c (actAt n a) = some a.act := by
  cases a with
  | number a e =>
    obtain ⟨h1, h2, h3, -⟩ := ha
    obtain ⟨s, hs, hs2, -⟩ := roman_chars (n := a.number.val.toNat) (by omega) (by omega)
    simp only [actAt, convertActReference, convertActId, actIdAt, parseI16_decInt, hs, Option.getD_some, hs2,
      Option.bind_eq_bind, Option.bind_some, ActName.act]
    have h4 : ((a.number.val.toNat : Nat) : Int) = a.number.val := by omega
    rw [dif_pos ⟨by omega, by omega⟩, Option.some.injEq]
    obtain ⟨y, ⟨m, hm⟩⟩ := a
    simp only [ActId.mk.injEq, true_and]
    exact Subtype.ext h4
  | short s x => exact hc s x rfl

theorem groupAt_meaning {c : Cache} {g : PhraseGroup} (hact : ∀ a, g.act = some a → a.Usual) (hrs : ∀ x ∈ g.references, x.2.Usual)
    (hc : ∀ s x, g.act = some (.short s x) → c.resolve s = some x) (n : Nat) :
    meaning c (compoundMentions (groupAt g n)) =
      if ∀ r ∈ g.meant, Ref.tryFrom r = some r then some g.meant else none := by
  have hrefs : ∀ (l : List (Str × Phrase)), (∀ x ∈ l, x.2.Usual) → ∀ n,
      ((refsAt n l).map Mention.reference).mapM (Mention.levels c) = some (l.map fun x => x.2.levels) := by
    intro l
    induction l with
    | nil => intro _ n; rfl
    | cons x l ih =>
      obtain ⟨sep, w⟩ := x
      intro h n
      rw [refsAt, List.map_cons, List.mapM_cons, ih fun x hx => h x (List.mem_cons_of_mem _ hx)]
      simp only [Mention.levels, phraseAt_levels (h _ (List.mem_cons_self ..))]
      rfl
  have hall : (compoundMentions (groupAt g n)).mapM (Mention.levels c) =
      some (g.act.toList.map (fun a => [[.act a.act]]) ++ g.references.map fun x => x.2.levels) := by
    rw [compoundMentions, groupAt]
    cases h : g.act with
    | none => simpa using hrefs g.references hrs _
    | some a =>
      simp only [Option.map_some, Option.toList_some, List.map_cons, List.map_nil, List.singleton_append, List.mapM_cons,
        hrefs g.references hrs]
      simp only [Mention.levels, actLevels, actAt_act (hact a h) (fun s x hs => hc s x (by rw [h, hs]))]
      rfl
  rw [meaning, hall]
  rfl

theorem groupAt_proper {g : PhraseGroup} (hrs : ∀ x ∈ g.references, x.2.Usual) (n : Nat) : ∀ m ∈ compoundMentions (groupAt g n), m.Proper := by
  have hrefs : ∀ (l : List (Str × Phrase)), (∀ x ∈ l, x.2.Usual) → ∀ n, ∀ r ∈ refsAt n l, (Mention.reference r).Proper := by
    intro l
    induction l with
    | nil => intro _ n r hr; simp [refsAt] at hr
    | cons x l ih =>
      obtain ⟨sep, w⟩ := x
      intro h n r hr
      rw [refsAt] at hr
      rcases List.mem_cons.1 hr with rfl | hr
      · have hn := (h _ (List.mem_cons_self ..)).named
        simp only [Mention.Proper, phraseAt, Tail.reference, belowAt, pointAt, subpointTail]
        rw [Phrase.words] at hn
        cases h1 : w.article with
        | some l => left; simp [itemsAt]
        | none =>
        cases h2 : w.paragraph with
        | some l => right; left; simp [itemsAt]
        | none =>
        cases h3 : w.numericPoint with
        | some l => right; right; left; simp [itemsAt]
        | none =>
        cases h4 : w.alphabeticPoint with
        | some l => right; right; right; left; simp [itemsAt]
        | none =>
        cases h5 : w.numericSubpoint with
        | some l => right; right; right; right; left; simp [itemsAt]
        | none =>
        cases h6 : w.alphabeticSubpoint with
        | some l => right; right; right; right; right; simp [itemsAt]
        | none => simp [h1, h2, h3, h4, h5, h6] at hn
      · exact ih (fun x hx => h x (List.mem_cons_of_mem _ hx)) _ r hr
  intro m hm
  rcases List.mem_append.1 hm with hm | hm
  · obtain ⟨a, -, rfl⟩ := List.mem_map.1 hm
    trivial
  · obtain ⟨r, hr, rfl⟩ := List.mem_map.1 hm
    exact hrefs g.references hrs _ r hr

theorem groupAt_refs_of {c : Cache} {g : PhraseGroup} (hact : ∀ a, g.act = some a → a.Usual) (hrs : ∀ x ∈ g.references, x.2.Usual)
    (hc : ∀ s x, g.act = some (.short s x) → c.resolve s = some x) (n : Nat) :
    (compoundRefs c (groupAt g n)).map (·.map (·.reference)) =
      if ∀ r ∈ g.meant, Ref.tryFrom r = some r then some g.meant else none := by
  rw [compoundRefs_mentions, mentions_meaning c _ (groupAt_proper hrs n), groupAt_meaning hact hrs hc n]

theorem groupAt_refs {c : Cache} {g : PhraseGroup} (hg : g.Usual)
    (hc : ∀ s x, g.act = some (.short s x) → c.resolve s = some x) (n : Nat) :
    (compoundRefs c (groupAt g n)).map (·.map (·.reference)) =
      if ∀ r ∈ g.meant, Ref.tryFrom r = some r then some g.meant else none := groupAt_refs_of hg.act hg.references hc n

/-! ### the places -/

/-- The length of pieces. -/
def piecesLen (l : List (Str × Bool)) : Nat := byteLen (l.flatMap Prod.fst)

theorem piecesLen_append (a b : List (Str × Bool)) : piecesLen (a ++ b) = piecesLen a + piecesLen b := by
  simp [piecesLen, List.flatMap_append, byteLen_append']

theorem piecesLen_cons (x : Str × Bool) (l : List (Str × Bool)) : piecesLen (x :: l) = byteLen x.1 + piecesLen l := by
  simp [piecesLen, byteLen_append']

theorem markedRanges_append (n : Nat) (a b : List (Str × Bool)) :
    markedRanges n (a ++ b) = markedRanges n a ++ markedRanges (n + piecesLen a) b := by
  induction a generalizing n with
  | nil => simp [markedRanges, piecesLen, byteLen]
  | cons x a ih =>
    obtain ⟨t, m⟩ := x
    rw [piecesLen_cons]
    cases m <;> simp only [List.cons_append, markedRanges, ih, Nat.add_assoc]

/-- Feeding an element only sets the place. -/
def Places (f : X → Builder → Option Builder) (pos : X → Pos) : Prop :=
  ∀ x b b', f x b = some b' → b'.start = some (b.start.getD (pos x).start) ∧ b'.fin = (pos x).fin ∧ b'.result = b.result

theorem feedPart_places (parse : Str → Option α) (set : Ref → IdRange α → Ref) :
    Places (Builder.feedPart parse set) Part.position := by
  intro x b b' h
  obtain ⟨r, -, h⟩ := bind_some_split h
  cases h
  exact ⟨rfl, rfl, rfl⟩

theorem feedArticle_places : Places Builder.feedArticle ArticlePart.position := by
  intro x b b' h
  obtain ⟨r, -, h⟩ := bind_some_split h
  cases h
  exact ⟨rfl, rfl, rfl⟩

theorem recordOne_range {b b' : Builder} (h : b.recordOne = some b') :
    ∃ s, b.start = some s ∧ b'.start = none ∧ ranges b'.result = ranges b.result ++ [(s, b.fin)] := by
  unfold Builder.recordOne at h
  split at h
  · rename_i s r hs hr
    cases h
    exact ⟨s, hs, rfl, by simp [ranges]⟩
  · cases h

/-- The state of the builder: the current piece began with `before` at `N`. -/
def Mid (b : Builder) (N : Nat) (before : Str) : Prop := b.start = some N ∨ (b.start = none ∧ before = [])

theorem Mid.start {b : Builder} {N : Nat} {before : Str} (h : Mid b N before) : b.start.getD (N + byteLen before) = N := by
  rcases h with h | ⟨h, rfl⟩ <;> simp [h, byteLen]

/-- What a step does with the elements of a level which begin at `n`. -/
def StepAt (n : Nat) (w : Words) (step : Builder → Option Builder) : Prop :=
  ∀ b b' N before, step b = some b' → N + byteLen before = n → Mid b N before →
    ranges b'.result = ranges b.result ++ markedRanges N (itemPieces before w.first w.others).1 ∧
    b'.start = some (N + piecesLen (itemPieces before w.first w.others).1)

theorem itemPieces_len (before first : Str) (l : List (Str × Str)) :
    piecesLen (itemPieces before first l).1 + byteLen (itemPieces before first l).2 =
      byteLen before + byteLen first + byteLen (l.flatMap fun x => x.1 ++ x.2) := by
  induction l generalizing before first with
  | nil => simp [itemPieces, piecesLen, byteLen, byteLen_append']
  | cons x l ih =>
    obtain ⟨sep, x⟩ := x
    simp only [itemPieces, piecesLen_cons, byteLen_append', List.flatMap_cons]
    have := ih [] x
    simp only [byteLen] at this
    omega

theorem feedMore_at {f : β → Builder → Option Builder} {pos : β → Pos} (hf : Places f pos) {span : Span α → Str}
    {value : Span α → Nat → β} (hpos : ∀ s n, pos (value s n) = ⟨n, n + byteLen (span s)⟩) :
    ∀ (l : List (Str × Span α)) (first before : Str) (b b' : Builder) (N : Nat),
      Builder.feedMore f (othersAt span value (N + byteLen (before ++ first)) l) b = some b' → b.start = some N →
      b.fin = N + byteLen (before ++ first) →
      ranges b'.result = ranges b.result ++ markedRanges N (itemPieces before first (l.map fun x => (x.1, span x.2))).1 ∧
      b'.start = some (N + piecesLen (itemPieces before first (l.map fun x => (x.1, span x.2))).1) := by
  intro l
  induction l with
  | nil =>
    intro first before b b' N h hs hfin
    cases h
    simp [itemPieces, markedRanges, piecesLen, byteLen, hs]
  | cons x l ih =>
    obtain ⟨sep, x⟩ := x
    intro first before b b' N h hs hfin
    rw [othersAt, Builder.feedMore] at h
    obtain ⟨b1, h1, h⟩ := bind_some_split h
    obtain ⟨b2, h2, h⟩ := bind_some_split h
    obtain ⟨s, hs1, hs2, hr⟩ := recordOne_range h1
    rw [hs] at hs1
    cases hs1
    obtain ⟨h3, h4, h5⟩ := hf _ _ _ h2
    rw [hpos] at h3 h4
    rw [hs2] at h3
    simp only [Option.getD_none] at h3
    have := ih (span x) [] b2 b' (N + byteLen (before ++ first) + byteLen sep) (by simpa using h) h3 (by simpa using h4)
    obtain ⟨h6, h7⟩ := this
    rw [h5, hr, hfin] at h6
    simp only [List.map_cons, itemPieces, markedRanges, piecesLen_cons]
    constructor
    · rw [h6]; simp
    · rw [h7]; simp only [Option.some.injEq]; omega

theorem feedList_at {f : β → Builder → Option Builder} {pos : β → Pos} (hf : Places f pos) {span : Span α → Str}
    {value : Span α → Nat → β} (hpos : ∀ s n, pos (value s n) = ⟨n, n + byteLen (span s)⟩) (word : Str) (l : Listing α) (n : Nat) :
    StepAt n (l.words span word) (Builder.feedList f (itemsAt span value n l)) := by
  intro b b' N before h hn hm
  rw [itemsAt, Builder.feedList] at h
  obtain ⟨b1, h1, h⟩ := bind_some_split h
  obtain ⟨h3, h4, h5⟩ := hf _ _ _ h1
  rw [hpos] at h3 h4
  simp only at h3 h4
  rw [← hn, hm.start] at h3
  have := feedMore_at hf hpos l.others (span l.first) before b1 b' N (by
    rw [byteLen_append', ← Nat.add_assoc, hn]; exact h) h3 (by rw [h4, byteLen_append', ← Nat.add_assoc, hn])
  rw [h5] at this
  exact this

/-- Steps for the levels of a reference. -/
inductive Steps : Nat → List Words → List (Builder → Option Builder) → Prop
  | nil (n : Nat) : Steps n [] []
  | cons {n : Nat} {w : Words} {ws : List Words} {f : Builder → Option Builder} {fs : List (Builder → Option Builder)}
      (h : StepAt n w f) (t : Steps (n + offset [w]) ws fs) : Steps n (w :: ws) (f :: fs)

theorem Steps.append {n : Nat} {a b : List Words} {fs gs : List (Builder → Option Builder)} (h1 : Steps n a fs)
    (h2 : Steps (n + offset a) b gs) : Steps n (a ++ b) (fs ++ gs) := by
  induction h1 with
  | nil => simpa [offset, glue, byteLen] using h2
  | cons h t ih =>
    refine .cons h (ih ?_)
    rename_i n w ws f fs
    have : offset (w :: ws) = offset [w] + offset ws := by
      rw [offset, offset, offset, ← byteLen_append', ← glue_append]; rfl
    rw [this, ← Nat.add_assoc] at h2
    exact h2

theorem Steps.of_opt {f : β → Builder → Option Builder} {pos : β → Pos} (hf : Places f pos) {span : Span α → Str}
    {value : Span α → Nat → β} (hpos : ∀ s n, pos (value s n) = ⟨n, n + byteLen (span s)⟩) (word : Str)
    (l : Option (Listing α)) (n : Nat) : Steps n (l.toList.map (Listing.words span word))
      (l.toList.map fun l => Builder.feedList f (itemsAt span value n l)) := by
  cases l with
  | none => exact .nil n
  | some l => exact .cons (feedList_at hf hpos word l n) (.nil _)

/-- All steps. -/
def runSteps : List (Builder → Option Builder) → Builder → Option Builder
  | [], b => some b
  | f :: fs, b => f b >>= runSteps fs

theorem runSteps_append (a b : List (Builder → Option Builder)) (x : Builder) :
    runSteps (a ++ b) x = runSteps a x >>= runSteps b := by
  induction a generalizing x with
  | nil => rfl
  | cons f a ih =>
    simp only [List.cons_append, runSteps, bind_assoc]
    congr 1
    funext y
    exact ih y

theorem wordPieces_len (before : Str) (l : List Words) :
    piecesLen (wordPieces before l) + (if l = [] then 0 else 1) = byteLen before + offset l := by
  induction l generalizing before with
  | nil => simp [wordPieces, piecesLen, byteLen, offset, glue]
  | cons w l ih =>
    simp only [wordPieces, piecesLen_append]
    have h1 := itemPieces_len before w.first w.others
    have h2 := ih ((itemPieces before w.first w.others).2 ++ w.ending ++ if l = [] then [] else str!" ")
    have h3 : offset (w :: l) = offset [w] + offset l := by
      rw [offset, offset, offset, ← byteLen_append', ← glue_append]; rfl
    rw [h3, offset_one]
    have h4 : byteLen w.text = byteLen w.first + byteLen (w.others.flatMap fun x => x.1 ++ x.2) + byteLen w.ending := by
      simp [Words.text, byteLen_append', Nat.add_assoc]
    simp only [byteLen_append'] at h2
    by_cases hl : l = []
    · subst hl
      simp only [if_true, byteLen, reduceCtorEq, if_false] at h2 ⊢
      omega
    · simp only [hl, if_false, reduceCtorEq] at h2 ⊢
      have : byteLen str!" " = 1 := rfl
      omega

theorem steps_at {n : Nat} {ws : List Words} {fs : List (Builder → Option Builder)} (hs : Steps n ws fs) :
    ∀ (b b' : Builder) (N : Nat) (before : Str), runSteps fs b = some b' → N + byteLen before = n → Mid b N before →
      (ws = [] → b.start = some N) → ∀ E,
      E = N + piecesLen (wordPieces before ws) →
      ∃ s, b'.start = some s ∧ ranges b'.result ++ [(s, E)] = ranges b.result ++ markedRanges N (wordPieces before ws) := by
  induction hs with
  | nil n =>
    intro b b' N before h hn hm hne E hE
    cases h
    refine ⟨N, hne rfl, ?_⟩
    simp only [wordPieces, markedRanges, hE, piecesLen_cons]
    simp [piecesLen, byteLen]
  | cons h t ih =>
    rename_i n w ws f fs
    intro b b' N before hr hn hm hne E hE
    obtain ⟨b1, hr1, hr⟩ := bind_some_split hr
    obtain ⟨h3, h4⟩ := h b b1 N before hr1 hn hm
    by_cases hws : ws = []
    · subst hws
      cases t
      cases hr
      refine ⟨_, h4, ?_⟩
      rw [h3, hE]
      simp only [wordPieces, if_true, List.append_nil, markedRanges_append, markedRanges, List.append_assoc,
        List.append_cancel_left_eq, List.cons.injEq, Prod.mk.injEq, true_and, and_true, piecesLen_append]
      simp [piecesLen, Nat.add_assoc]
    · have hlen := itemPieces_len before w.first w.others
      have h5 := ih b1 b' (N + piecesLen (itemPieces before w.first w.others).1)
        ((itemPieces before w.first w.others).2 ++ w.ending ++ str!" ") hr
        (by
          have h6 : byteLen w.text = byteLen w.first + byteLen (w.others.flatMap fun x => x.1 ++ x.2) + byteLen w.ending := by
            simp [Words.text, byteLen_append', Nat.add_assoc]
          have h7 : byteLen str!" " = 1 := rfl
          rw [offset_one]
          simp only [byteLen_append', h7]
          omega)
        (.inl h4) (fun h => absurd h hws) E
        (by simp only [hE, wordPieces, hws, if_false, piecesLen_append]; omega)
      obtain ⟨s, h6, h7⟩ := h5
      refine ⟨s, h6, ?_⟩
      rw [h7, h3]
      simp only [wordPieces, hws, if_false, markedRanges_append, List.append_assoc]

theorem feedOpt_toList {f : X → Builder → Option Builder} (o : Option X) (b : Builder) :
    Builder.feedOpt f o b = runSteps (o.toList.map f) b := by
  cases o with
  | none => rfl
  | some x =>
    simp only [Builder.feedOpt, Option.toList_some, List.map_cons, List.map_nil, runSteps]
    cases f x b <;> rfl

/-- The steps for a reference at a position. -/
theorem feedReference_at {w : Phrase} (hw : w.Usual) {n : Nat} {b b' : Builder}
    (h : Builder.feedReference (phraseAt w n) b = some b') (hb : b.start = none) :
    b'.start = none ∧ ranges b'.result = ranges b.result ++ markedRanges n (wordPieces [] w.words) := by
  obtain ⟨fs, hfs, hrun⟩ : ∃ fs, Steps n w.words fs ∧
      Builder.feedReference (phraseAt w n) b = runSteps fs b >>= fun b => b.finish ⟨n, n + byteLen w.text⟩ := by
    have s1 := Steps.of_opt feedArticle_places (span := articleSpan) (value := articleAt) (fun _ _ => rfl) str!" §" w.article n
    have s2 := Steps.of_opt (feedPart_places NumericId.parse Ref.setParagraph) (span := paragraphSpan)
      (value := partAt NumericId.display paragraphSpan) (fun _ _ => rfl) str!" bekezdés" w.paragraph (n + offset (articleWords w))
    have s3 := Steps.of_opt (feedPart_places NumericId.parse fun y r => y.setPoint (.numeric r)) (span := dottedSpan)
      (value := partAt NumericId.display dottedSpan) (fun _ _ => rfl) str!" pont" w.numericPoint
      (n + offset (articleWords w) + offset (paragraphWords w))
    have s4 := Steps.of_opt (feedPart_places HunChar.parse fun y r => y.setPoint (.alphabetic r)) (span := letterSpan)
      (value := partAt HunChar.display letterSpan) (fun _ _ => rfl) str!" pont" w.alphabeticPoint
      (n + offset (articleWords w) + offset (paragraphWords w))
    have s5 := Steps.of_opt (feedPart_places NumericId.parse fun y r => y.setSubpoint (.numeric r)) (span := dottedSpan)
      (value := partAt NumericId.display dottedSpan) (fun _ _ => rfl) str!" alpont" w.numericSubpoint
      (n + offset (articleWords w) + offset (paragraphWords w) + offset (pointWords w))
    have s6 := Steps.of_opt (feedPart_places PrefixedId.parse fun y r => y.setSubpoint (.alphabetic r)) (span := prefixedSpan)
      (value := partAt PrefixedId.display prefixedSpan) (fun _ _ => rfl) str!" alpont" w.alphabeticSubpoint
      (n + offset (articleWords w) + offset (paragraphWords w) + offset (pointWords w))
    have s34 := by
      refine Steps.append s3 (b := w.alphabeticPoint.toList.map (Listing.words letterSpan str!" pont"))
        (gs := w.alphabeticPoint.toList.map fun l => Builder.feedList (Builder.feedPart HunChar.parse fun y r => y.setPoint (.alphabetic r))
          (itemsAt letterSpan (partAt HunChar.display letterSpan) (n + offset (articleWords w) + offset (paragraphWords w)) l)) ?_
      rcases hw.onePoint with h | h
      · simpa [h, offset, glue, byteLen] using s4
      · rw [h]; exact .nil _
    have s56 := by
      refine Steps.append s5 (b := w.alphabeticSubpoint.toList.map (Listing.words prefixedSpan str!" alpont"))
        (gs := w.alphabeticSubpoint.toList.map fun l => Builder.feedList (Builder.feedPart PrefixedId.parse fun y r => y.setSubpoint (.alphabetic r))
          (itemsAt prefixedSpan (partAt PrefixedId.display prefixedSpan)
            (n + offset (articleWords w) + offset (paragraphWords w) + offset (pointWords w)) l)) ?_
      rcases hw.oneSubpoint with h | h
      · simpa [h, offset, glue, byteLen] using s6
      · rw [h]; exact .nil _
    refine ⟨_, (words_eq w) ▸ Steps.append s1 (Steps.append s2 (Steps.append s34 s56)), ?_⟩
    simp only [Builder.feedReference, phraseAt, Tail.reference, belowAt, pointAt, subpointTail, feedOpt_toList, runSteps_append,
      bind_assoc, Option.toList_map, List.map_map]
    rfl
  rw [hrun] at h
  obtain ⟨b1, h1, h⟩ := bind_some_split h
  have hlen := wordPieces_len [] w.words
  have htext : byteLen w.text = piecesLen (wordPieces [] w.words) := by
    cases hwd : w.words with
    | nil => exact absurd hwd hw.named
    | cons x l =>
      rw [hwd] at hlen
      simp only [reduceCtorEq, if_false, byteLen, offset, glue_cons, List.cons_append, Nat.zero_add] at hlen
      rw [text_glue hwd]
      have : utf8Len ' ' = 1 := rfl
      omega
  obtain ⟨s, hs1, hs2⟩ := steps_at hfs b b1 n [] h1 (by simp [byteLen]) (.inr ⟨hb, rfl⟩) (fun h => absurd h hw.named) _ rfl
  obtain ⟨s', h2, h3, h4⟩ := recordOne_range h
  simp only at h2 h4
  rw [hs1] at h2
  cases h2
  exact ⟨h3, by rw [h4, ← hs2, htext]⟩

theorem feedRefs_at : ∀ (l : List (Str × Phrase)) (n : Nat) (b b' : Builder), (∀ x ∈ l, x.2.Usual) →
    Builder.feedAll Builder.feedReference (refsAt n l) b = some b' → b.start = none →
    ranges b'.result = ranges b.result ++ markedRanges n (l.flatMap fun x => (x.1, false) :: wordPieces [] x.2.words) := by
  intro l
  induction l with
  | nil =>
    intro n b b' _ h _
    cases h
    simp [markedRanges]
  | cons x l ih =>
    obtain ⟨sep, w⟩ := x
    intro n b b' hl h hb
    have hw : w.Usual := hl _ (List.mem_cons_self ..)
    rw [refsAt, Builder.feedAll] at h
    obtain ⟨b1, h1, h⟩ := bind_some_split h
    obtain ⟨h2, h3⟩ := feedReference_at hw h1 hb
    rw [ih _ _ _ (fun x hx => hl x (List.mem_cons_of_mem _ hx)) h h2, h3]
    have hlen := wordPieces_len [] w.words
    have htext : byteLen w.text = piecesLen (wordPieces [] w.words) := by
      cases hwd : w.words with
      | nil => exact absurd hwd hw.named
      | cons x l =>
        rw [hwd] at hlen
        simp only [reduceCtorEq, if_false, byteLen, offset, glue_cons, List.cons_append, Nat.zero_add] at hlen
        rw [text_glue hwd]
        have : utf8Len ' ' = 1 := rfl
        omega
    simp only [List.flatMap_cons, List.cons_append, markedRanges, markedRanges_append, htext, List.append_assoc]

theorem groupAt_ranges_of {c : Cache} {g : PhraseGroup} (hrs : ∀ x ∈ g.references, x.2.Usual) {n : Nat} {refs : List OutgoingRef}
    (h : compoundRefs c (groupAt g n) = some refs) : ranges refs = markedRanges n g.pieces := by
  obtain ⟨b1, h1, h⟩ := bind_some_split h
  obtain ⟨b2, h2, h⟩ := bind_some_split h
  cases h
  cases ha : g.act with
  | none =>
    rw [groupAt, ha] at h1
    cases h1
    have := feedRefs_at g.references _ _ _ hrs h2 rfl
    rw [this]
    simp [PhraseGroup.pieces, ha, Builder.new, ranges, actPart, byteLen]
  | some a =>
    have h3 : b1.start = none ∧ ranges b1.result = [(n, n + byteLen a.text)] := by
      rw [groupAt, ha] at h1
      simp only [Option.map_some, Builder.feedOpt] at h1
      cases a with
      | number a e =>
        obtain ⟨x, -, h1⟩ := bind_some_split h1
        obtain ⟨s, hs, hs2, hr⟩ := recordOne_range h1
        cases hs
        exact ⟨hs2, hr⟩
      | short s x =>
        obtain ⟨x, -, h1⟩ := bind_some_split h1
        obtain ⟨s, hs, hs2, hr⟩ := recordOne_range h1
        cases hs
        exact ⟨hs2, hr⟩
    have := feedRefs_at g.references _ _ _ hrs h2 h3.1
    rw [this, h3.2]
    simp [PhraseGroup.pieces, ha, actPart, markedRanges]

theorem groupAt_ranges {c : Cache} {g : PhraseGroup} (hg : g.Usual) {n : Nat} {refs : List OutgoingRef}
    (h : compoundRefs c (groupAt g n) = some refs) : ranges refs = markedRanges n g.pieces := groupAt_ranges_of hg.references h

end HunLaw.Semantic
