import Verif.Lemmas.Amendments
import Verif.Lemmas.Ranges
import Verif.Props.MkAct

/-! Properties C48 to C50: the references of a phrase and the amendments made from them. -/

set_option autoImplicit false

namespace HunLaw.Props

open HunLaw Spec Semantic Grammar

/-! ### C48 -/

/-- C48: the references made from a text are in text order and do not overlap. -/
theorem C48_ordered (s : Str) (known : List Str) (x : Root) (c : Cache) (refs : List OutgoingRef)
    (hk : ∀ a ∈ known, a ≠ []) (h : parse s known = some x) (hr : outgoingRefs c x = some refs) :
    RangesInOrder s 0 (ranges refs) :=
  parse_inOrder hk h hr

/-- C48: the references made from a phrase are those meant by it: one for each alternative, which has the higher
parts of that before it. There is an error exactly if an identifier cannot be read, an abbreviation is unknown or
one of the references has no proper form. -/
theorem C48_meaning (s : Str) (known : List Str) (x : Root) (c : Cache) (hk : ∀ a ∈ known, a ≠ [])
    (h : parse s known = some x) (hx : ∀ l, x ≠ .simple l) :
    (outgoingRefs c x).map (·.map (·.reference)) = meaning c (rootMentions x) := by
  obtain ⟨k, m, h1, h2⟩ := parse_run hk h
  rw [outgoingRefs_mentions c x hx]
  exact mentions_meaning c _ (rootR_proper h2)

/-- C48: in an ordinary text the references are those meant by each of its groups; a group with an error gives
none. -/
theorem C48_meaning_simple (s : Str) (known : List Str) (l : List SimpleExpression) (c : Cache)
    (hk : ∀ a ∈ known, a ≠ []) (h : parse s known = some (.simple l)) :
    (outgoingRefs c (.simple l)).map (·.map (·.reference)) = some (l.flatMap fun
      | .compound r => (meaning c (compoundMentions r)).getD []
      | _ => []) := by
  obtain ⟨k, m, h1, h2⟩ := parse_run hk h
  have hl : ∀ x ∈ l, ∀ r, x = .compound r → ∀ m ∈ compoundMentions r, m.Proper := by
    refine seq_all (R := ExprR ⟨0, s⟩ known) ?_ h2
    rintro i x j hx r rfl
    exact compoundR_proper hx
  clear h2 h
  simp only [outgoingRefs, Option.map_some, Option.some.injEq]
  induction l with
  | nil => rfl
  | cons x l ih =>
    simp only [List.flatMap_cons, List.map_append, ih fun x hx => hl x (List.mem_cons_of_mem _ hx)]
    congr 1
    cases x with
    | compound r =>
      simp only [expressionRefs]
      rw [← mentions_meaning c _ (hl _ (List.mem_cons_self ..) r rfl), ← compoundRefs_mentions]
      cases compoundRefs c r <;> rfl
    | quote s => rfl
    | attachment => rfl
    | token => rfl

/-- C48: the number of references of a phrase: one, and one more for every further part of a list. -/
theorem C48_count (base : Ref) (levels : List (List AnyReferencePart)) :
    (alternatives base levels).length = 1 + (levels.map fun l => l.length - 1).sum :=
  alternatives_length levels base

/-- C48: every reference of a phrase has a proper form. -/
theorem C48_wellformed (c : Cache) (l : List Mention) (refs : List Ref) (h : meaning c l = some refs) :
    ∀ r ∈ refs, WellFormed r := by
  obtain ⟨ms, -, h⟩ := bind_some_split h
  split at h
  · rename_i hall
    cases h
    exact fun r hr => (Ref.tryFrom_eq_some.1 (hall r hr)).2
  · cases h

/-- A phrase with lists. -/
def listPhrase : Str := str!"A Btk. 3. § (1), (2) és (5) bekezdés a) és b) pontja, valamint 4. §-a alkalmazható."

example : ((parse listPhrase [str!"Btk."]).bind fun r =>
      outgoingRefs (Cache.ofMap [(str!"Btk.", ⟨⟨2012, by decide⟩, ⟨100, by decide⟩⟩)]) r).map
        (fun l => l.map fun r => (r.start, r.fin, (fmtCompact r.reference : Str))) =
    some [(2, 6, str!"2012.100____"), (7, 16, str!"2012.100_3_1__"), (18, 21, str!"2012.100_3_2__"),
      (26, 42, str!"2012.100_3_5_a_"), (47, 56, str!"2012.100_3_5_b_"), (67, 74, str!"2012.100_4___")] := by
  decide +kernel

/-! ### C49 -/

/-- C49: the place of a block amendment contains every reference of the phrase but that of the act, begins where the
first of them begins and ends where the last of them ends. -/
theorem C49_covers (c : Cache) (x : BlockAmendment) (p : SpecialPhrase) (refs : List OutgoingRef)
    (h : convertBlockAmendment c x = some p) (hr : blockAmendmentRefs c x = some refs) :
    ∃ place, amendedPlace p = some place ∧
      (∀ o ∈ refs, o.reference.article ≠ none → place.contains o.reference = true) ∧
      (∃ o ∈ refs, o.reference.article ≠ none ∧ place.firstInRange = o.reference.firstInRange) ∧
      (∃ o ∈ refs, o.reference.article ≠ none ∧ place.lastInRange = o.reference.lastInRange) := by
  rw [convertBlockAmendment, hr, Option.bind_eq_bind, Option.bind_some] at h
  obtain ⟨place, h1, h2⟩ := bind_some_split h
  obtain ⟨g1, ⟨y, hy, e1⟩, z, hz, e2⟩ := coveringRange_spec h1
  have mem : ∀ r, r ∈ amendedPositions refs ↔ ∃ o ∈ refs, o.reference = r ∧ r.article ≠ none := by
    intro r
    unfold amendedPositions
    rw [List.mem_filter, List.mem_map]
    constructor
    · rintro ⟨⟨o, ho, rfl⟩, h⟩
      refine ⟨o, ho, rfl, ?_⟩
      intro hn
      simp [Ref.isActOnly, hn] at h
    · rintro ⟨o, ho, rfl, h⟩
      refine ⟨⟨o, ho, rfl⟩, ?_⟩
      cases ha : o.reference.article with
      | none => exact absurd ha h
      | some _ => simp [Ref.isActOnly, ha]
  refine ⟨place, blockAmendmentPhrase_place h2, fun o ho ha => ?_, ?_, ?_⟩
  · obtain ⟨h3, h4⟩ := g1 _ ((mem _).2 ⟨o, ho, rfl, ha⟩)
    exact contains_of_rle h3 h4
  · obtain ⟨o, ho, rfl, ha⟩ := (mem y).1 hy
    exact ⟨o, ho, ha, e1⟩
  · obtain ⟨o, ho, rfl, ha⟩ := (mem z).1 hz
    exact ⟨o, ho, ha, e2⟩

/-- C49: without a reference below the act there is an error. -/
theorem C49_error (c : Cache) (x : BlockAmendment) (refs : List OutgoingRef)
    (hr : blockAmendmentRefs c x = some refs) (h : ∀ o ∈ refs, o.reference.article = none) :
    convertBlockAmendment c x = none := by
  rw [convertBlockAmendment, hr]
  have : amendedPositions refs = [] := by
    unfold amendedPositions
    rw [List.filter_eq_nil_iff]
    intro r hr
    obtain ⟨o, ho, rfl⟩ := List.mem_map.1 hr
    simp [Ref.isActOnly, h o ho]
  simp [this, coveringRange, minOf]

/-- C49: the place of a block amendment is in the act the phrase names. -/
theorem C49_act (s : Str) (known : List Str) (x : BlockAmendment) (c : Cache) (p : SpecialPhrase)
    (hk : ∀ a ∈ known, a ≠ []) (h : parse s known = some (.blockAmendment x))
    (hp : convertBlockAmendment c x = some p) :
    ∃ place act, amendedPlace p = some place ∧ convertActReference c x.actReference = some act ∧
      place.act = some act := by
  obtain ⟨refs, hr, -⟩ := bind_some_split hp
  obtain ⟨place, h1, -, ⟨o, ho, -, e⟩, -⟩ := C49_covers c x p refs hp hr
  have hm := C48_meaning s known _ c hk h (by simp)
  rw [show outgoingRefs c (.blockAmendment x) = blockAmendmentRefs c x from rfl, hr, Option.map_some] at hm
  obtain ⟨act, h2, h3⟩ := meaning_act (c := c) (a := x.actReference) (refs := refs.map (·.reference))
    (l := x.amended.toList.map .reference ++ x.inserted.toList.map .insertion)
    (by
      intro m hm
      rcases List.mem_append.1 hm with hm | hm <;> obtain ⟨_, -, rfl⟩ := List.mem_map.1 hm <;> trivial)
    (by rw [hm]; simp only [rootMentions, List.cons_append, List.nil_append])
  refine ⟨place, act, h1, h2, ?_⟩
  have : place.firstInRange.act = o.reference.firstInRange.act := by rw [e]
  exact this.trans (h3 o.reference (List.mem_map_of_mem ho))

/-- An amendment of more paragraphs. -/
def paragraphsPhrase : Str :=
  str!"A Btk. 3. § (2) bekezdése helyébe a következő rendelkezés lép, és a Btk. 3. §-a a következő (3) és (4) bekezdéssel egészül ki:"

example : ((parse paragraphsPhrase [str!"Btk."]).bind fun r => match r with
      | .blockAmendment x => convertBlockAmendment (Cache.ofMap [(str!"Btk.", ⟨⟨2012, by decide⟩, ⟨100, by decide⟩⟩)]) x
      | _ => none).bind amendedPlace =
    some ⟨some ⟨⟨2012, by decide⟩, ⟨100, by decide⟩⟩, some (.single ⟨none, .ofNum 3⟩), some ⟨.ofNum 2, .ofNum 4⟩, none,
      none⟩ := by
  decide +kernel

/-! ### C50 -/

/-- C50: a text amendment has one entry for each pair of a place meant by the phrase and a replacement, in order;
it is an error exactly if the places cannot be read. -/
theorem C50_product (s : Str) (known : List Str) (x : GTextAmendment) (c : Cache) (hk : ∀ a ∈ known, a ≠ [])
    (h : parse s known = some (.textAmendment x)) :
    convertTextAmendment c x = (do
      let act ← convertActReference c x.actReference
      let places ← textPlaces act ⟨some act, none, none, none, none⟩ x.references
      some (places.flatMap fun place => x.parts.map fun change => ⟨place, change.1, change.2⟩)) := by
  obtain ⟨k, m, h1, h2⟩ := parse_run hk h
  have hp : ∀ y ∈ x.references, ∀ m ∈ textMentions y, m.Proper := by
    obtain ⟨k', -, h3⟩ := h2
    exact seq_all (fun _ _ _ h => textR_proper h) h3
  rw [convertTextAmendment, convertTextReferences_eq c _ _ hp]
  have hf := feedAct_sketch c x.actReference Builder.new
  unfold actLevels at hf
  cases hc : convertActReference c x.actReference with
  | none =>
    rw [hc] at hf
    rw [Option.map_eq_none_iff.1 hf]
    rfl
  | some act =>
    rw [hc] at hf
    obtain ⟨b, hb, -⟩ := Option.map_eq_some_iff.1
      (hf.trans (sketch_act act))
    simp only [hb, Option.bind_eq_bind, Option.bind_some]

/-- C50: a repeal of texts has one entry with an empty replacement for each pair of a place meant by the phrase and
a text, in order; it is an error exactly if the places cannot be read. -/
theorem C50_repeal (s : Str) (known : List Str) (x : GRepeal) (c : Cache) (hk : ∀ a ∈ known, a ≠ [])
    (h : parse s known = some (.repeal x)) (ht : x.texts ≠ []) :
    convertRepeal c x = (do
      let act ← convertActReference c x.actReference
      let places ← textPlaces act ⟨some act, none, none, none, none⟩ x.references
      some (.textAmendment (places.flatMap fun place => x.texts.map fun text => ⟨place, text, []⟩))) := by
  obtain ⟨k, m, h1, h2⟩ := parse_run hk h
  have hp : ∀ y ∈ x.references, ∀ m ∈ textMentions y, m.Proper := by
    obtain ⟨k', -, h3⟩ := h2
    exact seq_all (fun _ _ _ h => textR_proper h) h3
  rw [convertRepeal, if_neg (by simpa using ht), convertTextRepeal, convertTextReferences_eq c _ _ hp]
  have hf := feedAct_sketch c x.actReference Builder.new
  unfold actLevels at hf
  cases hc : convertActReference c x.actReference with
  | none =>
    rw [hc] at hf
    rw [Option.map_eq_none_iff.1 hf]
    rfl
  | some act =>
    rw [hc] at hf
    obtain ⟨b, hb, -⟩ := Option.map_eq_some_iff.1
      (hf.trans (sketch_act act))
    simp only [hb, Option.bind_eq_bind, Option.bind_some, Option.bind_assoc]

/-- The acts known in the examples. -/
def btkCache : Cache := Cache.ofMap [(str!"Btk.", ⟨⟨2012, by decide⟩, ⟨100, by decide⟩⟩)]

/-- A text amendment with more places and more replacements. -/
def replacementPhrase : Str :=
  str!"A Btk. 3. § (1) és (2) bekezdésében az „egy” szövegrész helyébe a „kettő” szöveg, a „három” szövegrész helyébe a „négy” szöveg lép."

example : ((parse replacementPhrase [str!"Btk."]).bind fun r => match r with
      | .textAmendment x => convertTextAmendment btkCache x
      | _ => none).map (·.map fun a => match a.reference with
        | .sae r p => ((fmtCompact r : Str), p, a.fromText, a.toText)
        | _ => ([], .all, [], [])) =
    some [(str!"2012.100_3_1__", .all, str!"egy", str!"kettő"), (str!"2012.100_3_1__", .all, str!"három", str!"négy"),
      (str!"2012.100_3_2__", .all, str!"egy", str!"kettő"), (str!"2012.100_3_2__", .all, str!"három", str!"négy")] := by
  decide +kernel

/-- A repeal of a text. -/
def removalPhrase : Str := str!"Hatályát veszti a Btk. 3. § (1) és (2) bekezdésében az „egy” szövegrész."

example : ((parse removalPhrase [str!"Btk."]).bind fun r => match r with
      | .repeal x => if x.texts ≠ [] then convertRepeal btkCache x else none
      | _ => none) =
    some (.textAmendment ([1, 2].map fun i => ⟨.sae ⟨some ⟨⟨2012, by decide⟩, ⟨100, by decide⟩⟩,
      some (.single ⟨none, .ofNum 3⟩), some (.single (.ofNum i)), none, none⟩ .all, str!"egy", []⟩)) := by
  decide +kernel

/-! ### C67 -/

/-- C67: a repeal without texts repeals the places meant by the phrase, in order, or the whole act if the phrase
has none; it is an error exactly if the places cannot be read or one of them is not a whole element. -/
theorem C67_repeal (s : Str) (known : List Str) (x : GRepeal) (c : Cache) (hk : ∀ a ∈ known, a ≠ [])
    (h : parse s known = some (.repeal x)) (ht : x.texts = []) :
    convertRepeal c x = (do
      let act ← convertActReference c x.actReference
      let places ← textPlaces act ⟨some act, none, none, none, none⟩ x.references
      let whole ← places.mapM wholePlace
      some (.repeal (if x.references = [] then [.reference ⟨some act, none, none, none, none⟩] else whole))) := by
  obtain ⟨k, m, h1, h2⟩ := parse_run hk h
  have hp : ∀ y ∈ x.references, ∀ m ∈ textMentions y, m.Proper := by
    obtain ⟨k', -, h3⟩ := h2
    exact seq_all (fun _ _ _ h => textR_proper h) h3
  have e : convertRepealRef = wholePlace := by
    funext r
    rcases r with ⟨r, p⟩ | r | r
    · cases p <;> rfl
    · rfl
    · rfl
  rw [convertRepeal, if_pos (by simpa using ht), convertElementRepeal, convertTextReferences_eq c _ _ hp, e]
  unfold wholeAct
  cases hc : convertActReference c x.actReference with
  | none => rfl
  | some act =>
    simp only [Option.bind_eq_bind, Option.bind_some, Option.bind_assoc, Ref.ofAct]
    by_cases hr : x.references = []
    · simp [hr, textPlaces, Ref.empty]
    · simp [hr]

/-- A repeal of two elements. -/
def repealPhrase : Str := str!"Hatályát veszti a Btk. 3. § (1) bekezdése és 5. §-a."

example : ((parse repealPhrase [str!"Btk."]).bind fun r => match r with
      | .repeal x => if x.texts = [] then convertRepeal btkCache x else none
      | _ => none) =
    some (.repeal [.reference ⟨some ⟨⟨2012, by decide⟩, ⟨100, by decide⟩⟩, some (.single ⟨none, .ofNum 3⟩),
        some (.single (.ofNum 1)), none, none⟩,
      .reference ⟨some ⟨⟨2012, by decide⟩, ⟨100, by decide⟩⟩, some (.single ⟨none, .ofNum 5⟩), none, none, none⟩]) := by
  decide +kernel

/-! ### C68 -/

/-- C68: an enforcement date is for the places meant by the phrase, in order, and is the default one exactly if the
phrase has none. -/
theorem C68_places (s : Str) (known : List Str) (x : GEnforcementDate) (e : EnforcementDate) (c : Cache)
    (hk : ∀ a ∈ known, a ≠ []) (h : parse s known = some (.enforcementDate x))
    (he : convertEnforcementDate x = some e) :
    meaning c (x.references.flatMap enforcementMentions) = some e.positions ∧
      (x.references.mapM enforcedElements).map List.flatten = some e.structuralPositions ∧
      (e.isDefault = true ↔ x.references = []) := by
  obtain ⟨refs, h1, he⟩ := bind_some_split he
  obtain ⟨st, h2, he⟩ := bind_some_split he
  obtain ⟨date, h3, he⟩ := bind_some_split he
  obtain ⟨rep, h4, he⟩ := bind_some_split he
  cases he
  have hm := C48_meaning s known _ c hk h (by simp)
  rw [show outgoingRefs c (.enforcementDate x) = enforcementRefs x from rfl, h1, Option.map_some] at hm
  have e : enforcementStructural = enforcedElements := by
    funext r
    cases r with
    | structural r => simp only [enforcementStructural, enforcedElements]; cases convertStructural r <;> rfl
    | subtitles l =>
      simp only [enforcementStructural, enforcedElements]
      congr 1
      funext x
      unfold subtitleRef
      cases convertSubtitlePart x <;> rfl
    | attachment => rfl
    | reference => rfl
  refine ⟨hm.symm, ?_, by simp⟩
  rw [e] at h2
  rw [h2]
  rfl

/-- C68: the dates in it are real ones. -/
theorem C68_real (x : GEnforcementDate) (e : EnforcementDate) (he : convertEnforcementDate x = some e) :
    (∀ d, e.date = .date d → RealDate d) ∧ (∀ d, e.inlineRepeal = some d → RealDate d) := by
  have real : ∀ g d, convertDate g = some d → RealDate d := by
    intro g d h
    obtain ⟨y, -, h⟩ := bind_some_split h
    obtain ⟨m, -, h⟩ := bind_some_split h
    obtain ⟨n, -, h⟩ := bind_some_split h
    unfold calendarDate at h
    split at h
    · obtain ⟨rfl, h'⟩ := (ofYmd_iff _ _ _ _).1 h
      exact h'
    · cases h
  obtain ⟨refs, h1, he⟩ := bind_some_split he
  obtain ⟨st, h2, he⟩ := bind_some_split he
  obtain ⟨date, h3, he⟩ := bind_some_split he
  obtain ⟨rep, h4, he⟩ := bind_some_split he
  cases he
  constructor
  · rintro d rfl
    unfold convertWhen at h3
    split at h3
    · cases h3
    · obtain ⟨_, -, h3⟩ := bind_some_split h3; cases h3
    · obtain ⟨_, h5, h3⟩ := bind_some_split h3
      cases h3
      exact real _ _ h5
    · obtain ⟨_, -, h3⟩ := bind_some_split h3
      obtain ⟨_, -, h3⟩ := bind_some_split h3; cases h3
  · rintro d rfl
    unfold convertDate? at h4
    split at h4
    · cases h4
    · obtain ⟨_, h5, h4⟩ := bind_some_split h4
      cases h4
      exact real _ _ h5

/-- An enforcement date. -/
def enforcementPhrase : Str := str!"A 3. § (2) bekezdése és az 5. § 2024. február 29-én lép hatályba."

example : ((parse enforcementPhrase []).bind fun r => match r with
      | .enforcementDate x => convertEnforcementDate x
      | _ => none).map (fun e => (e.positions.map fun r => (fmtCompact r : Str), e.isDefault, e.date)) =
    some ([str!"_3_2__", str!"_5___"], false, .date ⟨2024, 2, 29⟩) := by
  decide +kernel

end HunLaw.Props
