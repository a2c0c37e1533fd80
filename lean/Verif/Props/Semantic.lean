import Verif.Lemmas.Ranges

/-! Properties C44 to C47, C65 and C66: abbreviations and the reading of an act. -/

set_option autoImplicit false

namespace HunLaw.Props

open HunLaw Spec Semantic

variable {A : Type}

/-! ### C44 -/

/-- C44: after any additions an abbreviation resolves to what it was last defined as, or if it was never defined
to what it was in the original map. -/
theorem C44_latest (c : Cache) (adds : List (Str × ActId)) (k : Str) :
    (c.addMultiple adds).resolve k = (lastDefined k adds).or (c.resolve k) := by
  rw [resolve_addMultiple]
  rcases lastDefined k adds with _ | v <;> rfl

/-- C44: an abbreviation which was defined nowhere gives an error. -/
theorem C44_unknown (m adds : List (Str × ActId)) (k : Str) (hm : ∀ e ∈ m, e.1 ≠ k) (ha : ∀ e ∈ adds, e.1 ≠ k) :
    ((Cache.ofMap m).addMultiple adds).resolve k = none := by
  have hl : lastDefined k adds = none := by
    induction adds with
    | nil => rfl
    | cons e adds ih =>
      simp only [lastDefined, ih fun e' he' => ha e' (by simp [he']), if_neg (ha e (by simp))]
  rw [C44_latest, hl, Option.none_or]
  show mapGet k m = none
  unfold mapGet
  rw [List.lookup_eq_none_iff]
  intro e he
  simpa using fun h => hm e he h.symm

/-- C44: the flag is set exactly if some addition altered what an abbreviation resolves to. -/
theorem C44_changed (m adds : List (Str × ActId)) :
    ((Cache.ofMap m).addMultiple adds).hasChanged = true ↔
      ∃ before e after k, adds = before ++ e :: after ∧
        ((Cache.ofMap m).addMultiple (before ++ [e])).resolve k ≠ ((Cache.ofMap m).addMultiple before).resolve k := by
  have key : ∀ (c : Cache) (adds : List (Str × ActId)), (c.addMultiple adds).hasChanged = true ↔ c.hasChanged = true ∨
      ∃ before e after k, adds = before ++ e :: after ∧
        (c.addMultiple (before ++ [e])).resolve k ≠ (c.addMultiple before).resolve k := by
    intro c adds
    induction adds generalizing c with
    | nil => simp [Cache.addMultiple]
    | cons e adds ih =>
      rw [show c.addMultiple (e :: adds) = (c.add e.1 e.2).addMultiple adds from rfl, ih, hasChanged_add]
      constructor
      · rintro ((h | h) | ⟨b, e', af, k, h1, h2⟩)
        · exact .inl h
        · refine .inr ⟨[], e, adds, e.1, rfl, ?_⟩
          show (c.add e.1 e.2).resolve e.1 ≠ c.resolve e.1
          rw [resolve_add, if_pos rfl]
          exact fun h' => h h'.symm
        · exact .inr ⟨e :: b, e', af, k, by rw [h1]; rfl, h2⟩
      · rintro (h | ⟨b, e', af, k, h1, h2⟩)
        · exact .inl (.inl h)
        · cases b with
          | nil =>
            simp only [List.nil_append, List.cons.injEq] at h1
            obtain ⟨rfl, rfl⟩ := h1
            change (c.add e.1 e.2).resolve k ≠ c.resolve k at h2
            rw [resolve_add] at h2
            split at h2
            · rename_i hk
              subst hk
              exact .inl (.inr fun h' => h2 h'.symm)
            · exact absurd rfl h2
          | cons e'' b =>
            simp only [List.cons_append, List.cons.injEq] at h1
            obtain ⟨rfl, rfl⟩ := h1
            exact .inr ⟨b, e', af, k, rfl, h2⟩
  rw [key]
  simp [Cache.ofMap]

/-- C44: the listed abbreviations are exactly those which can be resolved. -/
theorem C44_listed (c : Cache) (k : Str) : k ∈ c.allAbbreviations ↔ ∃ v, c.resolve k = some v := by
  rw [mem_allAbbreviations, Option.isSome_iff_exists]

/-- C44: they are listed in increasing order, each once, however they were added. -/
theorem C44_increasing (c : Cache) (adds : List (Str × ActId)) (h : Increasing c.allAbbreviations) :
    Increasing (c.addMultiple adds).allAbbreviations := addMultiple_increasing c adds h

def btkAct : ActId := ⟨⟨2012, by decide⟩, ⟨100, by decide⟩⟩
def ptkAct : ActId := ⟨⟨2013, by decide⟩, ⟨5, by decide⟩⟩

example : ((Cache.ofMap [(str!"Btk.", btkAct)]).addMultiple [(str!"Ptk.", btkAct), (str!"Ptk.", ptkAct)]).resolve
    str!"Ptk." = some ptkAct := by decide +kernel
example : Increasing (Cache.ofMap [(str!"Btk.", btkAct)]).allAbbreviations := by
  simp [Cache.ofMap, Cache.allAbbreviations, Increasing]

/-! ### C45 -/

/-- C45: the recognised abbreviation is the first one in the list with which the text begins. -/
theorem C45_first (known : List Str) (text a : Str) :
    Grammar.parseAbbreviation known text = some a ↔ FirstPrefix known text a := by
  unfold Grammar.parseAbbreviation FirstPrefix
  rw [List.find?_eq_some_iff_append]
  constructor
  · rintro ⟨h1, b, af, rfl, h2⟩
    refine ⟨b, af, rfl, List.isPrefixOf_iff_prefix.1 h1, fun x hx hp => ?_⟩
    have := h2 x hx
    rw [List.isPrefixOf_iff_prefix.2 hp] at this
    simp at this
  · rintro ⟨b, af, rfl, h1, h2⟩
    refine ⟨List.isPrefixOf_iff_prefix.2 h1, b, af, rfl, fun x hx => ?_⟩
    have := h2 x hx
    rw [← List.isPrefixOf_iff_prefix] at this
    cases hb : x.isPrefixOf text
    · rfl
    · exact absurd hb this

/-- C45: recognition fails exactly if the text begins with none of them. -/
theorem C45_none (known : List Str) (text : Str) :
    Grammar.parseAbbreviation known text = none ↔ ∀ a ∈ known, ¬ a <+: text := by
  unfold Grammar.parseAbbreviation
  rw [List.find?_eq_none]
  constructor
  · intro h a ha hp
    exact h a ha (List.isPrefixOf_iff_prefix.2 hp)
  · intro h a ha hp
    exact h a ha (List.isPrefixOf_iff_prefix.1 hp)

/-- C45: while a text is parsed, abbreviations are only added at the end of the list, and all of those are
introduced in the text. -/
theorem C45_known_grows (text : Str) (known : List Str) :
    ∃ new, (Grammar.root.run ⟨0, text⟩ ⟨known, []⟩).2.known = known ++ new ∧ ∀ a ∈ new, Introduces text a :=
  Grammar.grows_root ⟨0, text⟩ ⟨known, []⟩

/-- C45: an abbreviation in the result of the grammar stands in the text at its position. It is the first
supplied one which stands there. If no supplied one does, it is introduced in the text. -/
theorem C45_recognised (text : Str) (known : List Str) (r : Grammar.Root) (a : Str) (p : Grammar.Pos)
    (hk : ∀ a ∈ known, a ≠ []) (h : Grammar.parse text known = some r)
    (ha : Grammar.ActReference.abbreviation a p ∈ rootActs r) :
    ∃ before after, text = before ++ a ++ after ∧ p = ⟨byteLen before, byteLen (before ++ a)⟩ ∧
      (FirstPrefix known (a ++ after) a ∨ (∀ b ∈ known, ¬ b <+: a ++ after) ∧ Introduces text a) := by
  obtain ⟨k, m, hk', x, y, h1, h2, h3, h4, h5, h6, -⟩ := parse_acts hk h _ ha
  obtain ⟨h7, h8⟩ := h6 a p rfl
  obtain ⟨b, hb, hb'⟩ := hk'.trans h1
  simp only at hb hb'
  refine ⟨b, y.rest, by rw [hb, h8]; simp, ?_, ?_⟩
  · simp only [Grammar.ActReference.position] at h5
    rw [h5]
    obtain ⟨d, hd, hd'⟩ := h2
    rw [h8] at hd
    have : a = d := List.append_cancel_right hd
    subst this
    rw [Grammar.byteLen_append', hb'] at *
    simp only [Grammar.Pos.mk.injEq]
    omega
  · rw [h8] at h7
    rcases h7 with h7 | ⟨h7, h9⟩
    · exact .inl ((C45_first _ _ _).1 h7)
    · exact .inr ⟨(C45_none _ _).1 h7, h9⟩

example : FirstPrefix [str!"Ptk.", str!"Bt", str!"Btk."] str!"Btk. 3. §" str!"Bt" :=
  (C45_first _ _ _).1 (by decide +kernel)

def abbreviatedText : Str := str!"A bűncselekményt a Btk. 3. §-a tartalmazza."

example : (Grammar.parse abbreviatedText [str!"Btk."]).map rootActs =
    some [.abbreviation str!"Btk." ⟨21, 25⟩] := by decide +kernel

/-! ### C47: context -/

/-- C47: adding semantic information gives exactly what is read out of every text of the act in document order,
each with the intros of its ancestors before it and their wrap-ups after it; the abbreviations are those known in
the end, and the answer says if they have changed. -/
theorem C47_context (act act' : Act A) (changed : Bool) (h : addSemanticInfo act = (act', .ok changed)) :
    ∃ c, readTexts (Cache.ofMap act.containedAbbreviations) ((actReadings act).map (·.1)) =
        some ((actReadings act').map (·.2), c) ∧
      act'.containedAbbreviations = c.cache ∧ changed = c.hasChanged := by
  have ht := tracks_act act (Cache.ofMap act.containedAbbreviations)
  unfold addSemanticInfo at h
  rcases hw : Walk.actMut (Adder.visitor A) act (Adder.new (Cache.ofMap act.containedAbbreviations)) with
    ⟨x, a, _ | _ | _⟩ <;> rw [hw] at h ht
  · cases h
    exact ⟨_, ht.2.2, rfl, rfl⟩
  · cases h
  · cases h

/-- C47: it fails exactly if some text cannot be read. -/
theorem C47_error (act : Act A) : (addSemanticInfo act).2 = .err ↔
    readTexts (Cache.ofMap act.containedAbbreviations) ((actReadings act).map (·.1)) = none := by
  have ht := tracks_act act (Cache.ofMap act.containedAbbreviations)
  unfold addSemanticInfo
  rcases hw : Walk.actMut (Adder.visitor A) act (Adder.new (Cache.ofMap act.containedAbbreviations)) with
    ⟨x, a, _ | _ | _⟩ <;> rw [hw] at ht
  · simp only at ht ⊢
    rw [ht.2.2]
    simp
  · simp only at ht ⊢
    simp [ht]
  · exact ht.elim

/-- C47: it never panics. -/
theorem C47_no_panic (act : Act A) : (addSemanticInfo act).2 ≠ .panic := by
  have ht := tracks_act act (Cache.ofMap act.containedAbbreviations)
  unfold addSemanticInfo
  rcases hw : Walk.actMut (Adder.visitor A) act (Adder.new (Cache.ofMap act.containedAbbreviations)) with
    ⟨x, a, _ | _ | _⟩ <;> rw [hw] at ht
  · simp
  · simp
  · exact ht.elim

/-- C47: after a successful walk nothing is left on the context stacks. -/
theorem C47_stack (act act' : Act A) (c : Cache) (a : Adder)
    (h : Walk.actMut (Adder.visitor A) act (Adder.new c) = (act', a, .ok ())) : a.prefixes = [] ∧ a.postfixes = [] := by
  have ht := tracks_act act c
  rw [h] at ht
  exact ⟨ht.1, ht.2.1⟩

/-! ### C65: nothing else changes -/

/-- C65: adding semantic information changes nothing but the semantic information and, if it succeeds, the
abbreviations of the act, also if it fails. -/
theorem C65_only_info (act : Act A) :
    bareAct { (addSemanticInfo act).1 with containedAbbreviations := act.containedAbbreviations } = bareAct act ∧
      ((addSemanticInfo act).2 = .err → (addSemanticInfo act).1.containedAbbreviations = act.containedAbbreviations) := by
  have hb := act_bare (Adder.visitor A) infoOnly_adder act (Adder.new (Cache.ofMap act.containedAbbreviations))
  unfold addSemanticInfo
  rcases hw : Walk.actMut (Adder.visitor A) act (Adder.new (Cache.ofMap act.containedAbbreviations)) with
    ⟨x, a, _ | _ | _⟩ <;> rw [hw] at hb <;> simp only at hb ⊢
  · refine ⟨?_, by simp⟩
    rw [← hb]
    have : x.containedAbbreviations = act.containedAbbreviations := by
      simpa [bareAct] using congrArg Act.containedAbbreviations hb
    rw [← this]
  · have : x.containedAbbreviations = act.containedAbbreviations := by
      simpa [bareAct] using congrArg Act.containedAbbreviations hb
    exact ⟨by rw [← hb, ← this], fun _ => this⟩
  · have : x.containedAbbreviations = act.containedAbbreviations := by
      simpa [bareAct] using congrArg Act.containedAbbreviations hb
    exact ⟨by rw [← hb, ← this], by simp⟩

theorem readings_unchanged (act act' : Act A) (changed : Bool) (h : addSemanticInfo act = (act', .ok changed)) :
    (actReadings act').map (·.1) = (actReadings act).map (·.1) := by
  have hb := (C65_only_info act).1
  rw [h] at hb
  have h1 := actReadings_bare { act' with containedAbbreviations := act.containedAbbreviations }
  have h2 := actReadings_bare act
  simp only at hb
  rw [hb] at h1
  exact (h1.symm.trans h2)

/-! ### C66: a run without changes is final -/

theorem add_unchanged {c : Cache} {k : Str} {v : ActId} (h : (c.add k v).hasChanged = false) : c.add k v = c := by
  unfold Cache.add at *
  split at *
  · split at *
    · simp at h
    · rename_i hv
      rw [if_neg hv]
  · simp at h

theorem hasChanged_mono (c : Cache) (l : List (Str × ActId)) (h : (c.addMultiple l).hasChanged = false) :
    c.addMultiple l = c := by
  induction l generalizing c with
  | nil => rfl
  | cons e l ih =>
    have h1 := ih (c.add e.1 e.2) h
    change (c.add e.1 e.2).addMultiple l = c
    change ((c.add e.1 e.2).addMultiple l).hasChanged = false at h
    rw [h1] at h ⊢
    exact add_unchanged h

theorem readTexts_unchanged {c c' : Cache} {l : List Reading} {i : List SemanticInfo}
    (h : readTexts c l = some (i, c')) (hc : c'.hasChanged = false) : c' = c := by
  induction l generalizing c i with
  | nil => cases h; rfl
  | cons r l ih =>
    rw [readTexts] at h
    obtain ⟨x, h1, h⟩ := bind_some_split h
    obtain ⟨y, h2, h⟩ := bind_some_split h
    simp only [Option.some.injEq, Prod.mk.injEq] at h
    obtain ⟨-, rfl⟩ := h
    have h3 := ih (i := y.1) (c := x.2) (by rw [h2])
    rw [readText_eq] at h1
    obtain ⟨root, -, h1⟩ := bind_some_split h1
    obtain ⟨new, -, h1⟩ := bind_some_split h1
    obtain ⟨refs, -, h1⟩ := bind_some_split h1
    obtain ⟨ph, -, h1⟩ := bind_some_split h1
    cases h1
    simp only at h3
    rw [h3] at hc
    rw [h3]
    exact hasChanged_mono c new hc

/-- C66: if adding semantic information reports that the abbreviations have not changed, then doing it again
gives the same act and the same report. -/
theorem C66_final (act act' : Act A) (h : addSemanticInfo act = (act', .ok false)) :
    addSemanticInfo act' = (act', .ok false) := by
  obtain ⟨c, h1, h2, h3⟩ := C47_context act act' false h
  have hc := readTexts_unchanged h1 h3.symm
  subst hc
  have h2 : act'.containedAbbreviations = act.containedAbbreviations := h2
  rcases h' : addSemanticInfo act' with ⟨act'', r⟩
  have hr := readings_unchanged act act' false h
  cases r with
  | ok b =>
    obtain ⟨c', g1, g2, g3⟩ := C47_context act' act'' b h'
    rw [h2, hr, h1] at g1
    simp only [Option.some.injEq, Prod.mk.injEq] at g1
    obtain ⟨g1, rfl⟩ := g1
    have hb := (C65_only_info act').1
    rw [h'] at hb
    have h4 : act''.containedAbbreviations = act'.containedAbbreviations := by rw [g2, h2]; rfl
    simp only at hb
    rw [← h4] at hb
    have := determined_act.2 act'' act' hb g1.symm
    rw [this, g3]
    rfl
  | err =>
    have := (C47_error act').1 (by rw [h'])
    rw [h2, hr, h1] at this
    simp at this
  | panic => exact absurd (by rw [h']) (C47_no_panic act')

/-! ### C46: ranges -/

/-- C46 as it should be: every reference reported for an element is a non-empty range in its text. -/
def C46_statement : Prop :=
  ∀ (act act' : Act Empty) (changed : Bool), (∀ e ∈ act.containedAbbreviations, e.1 ≠ []) →
    addSemanticInfo act = (act', .ok changed) →
    ∀ x ∈ actReadings act', ∀ p ∈ ranges x.2.outgoingReferences, p.1 < p.2 ∧ p.2 ≤ byteLen x.1.text

/-- An act whose text does not end with a full stop, but an abbreviation does. -/
def unfinishedAct : Act Empty where
  identifier := ⟨⟨2345, by decide⟩, ⟨13, by decide⟩⟩
  subject := []
  preamble := []
  publicationDate := ⟨2345, 6, 7⟩
  containedAbbreviations := [(str!"Btk.", btkAct)]
  children := [.article ⟨⟨none, .ofNum 3⟩, none, [⟨⟨none⟩, .text str!"a Btk", .default, none⟩], none⟩]

theorem unfinished_ranges : (addSemanticInfo unfinishedAct).2 = .ok false ∧
    (actReadings (addSemanticInfo unfinishedAct).1).map (fun x => (x.1.text, ranges x.2.outgoingReferences)) =
      [(str!"a Btk", [(2, 6)])] := by decide +kernel

/-- C46 is false: in "a Btk", with "Btk." being a known abbreviation, the reference is from byte 2 to byte 6, but
the text has 5 bytes. -/
theorem C46_violated : ¬ C46_statement := by
  intro h
  obtain ⟨h1, h2⟩ := unfinished_ranges
  have h3 : addSemanticInfo unfinishedAct = ((addSemanticInfo unfinishedAct).1, .ok false) := by rw [← h1]
  have h4 := h _ _ _ (by simp [unfinishedAct]) h3
  rcases hl : actReadings (addSemanticInfo unfinishedAct).1 with _ | ⟨x, l⟩ <;> rw [hl] at h2
  · simp at h2
  · simp only [List.map_cons, List.cons.injEq, Prod.mk.injEq] at h2
    obtain ⟨⟨h5, h6⟩, -⟩ := h2
    have := h4 x (by rw [hl]; simp) (2, 6) (by rw [h6]; simp)
    rw [h5] at this
    revert this
    decide +kernel

/-- C46, the part that holds: all ranges are non-empty, in order, without overlap and between characters of the
text, if the text is followed by something, or ends with a sentence, or something is cut off its end before it is
parsed. In any case they are in the text and a full stop after it.
Missing: the case of a text with no wrap-up after it which ends neither with a sentence nor with something that is
cut off, where it is false (`C46_violated`). -/
theorem C46_ranges_partial (act act' : Act A) (changed : Bool) (hk : ∀ e ∈ act.containedAbbreviations, e.1 ≠ [])
    (h : addSemanticInfo act = (act', .ok changed)) :
    ∀ x ∈ actReadings act', RangesInOrder (x.1.text ++ ['.']) 0 (ranges x.2.outgoingReferences) ∧
      ((x.1.after ≠ [] ∨ sentenceEnds (withoutConnectives x.1.text) = true ∨
          withoutConnectives x.1.text ≠ x.1.text) →
        RangesInOrder x.1.text 0 (ranges x.2.outgoingReferences)) := by
  obtain ⟨c, h1, h2, h3⟩ := C47_context act act' changed h
  rw [← readings_unchanged act act' changed h] at h1
  have hc : NoEmpty (Cache.ofMap act.containedAbbreviations) := by
    intro a ha
    simp only [Cache.ofMap, Cache.allAbbreviations, List.mem_map] at ha
    obtain ⟨e, he, rfl⟩ := ha
    exact hk e he
  intro x hx
  have := (readTexts_facts hc h1).2 x hx
  exact ⟨inOrder_mono ownText_dot this, fun h => inOrder_mono (ownText_inside (by rw [endsSentence_eq, stripJunk_eq]; exact h)) this⟩

/-- C46: what is cut off the end of a text before it is parsed are some of the words and signs " a", " és",
" valamint", " illetve", " vagy", " továbbá", ";" and ",", each at most once and in the opposite order. -/
theorem C46_cut (text : Str) :
    ∃ cut : List Str, cut.Sublist [str!" a", str!" és", str!" valamint", str!" illetve", str!" vagy", str!" továbbá",
      str!";", str!","] ∧ text = withoutConnectives text ++ cut.reverse.flatten := by
  rw [← stripJunk_eq]
  exact stripJunk_cut text

/-- C46: abbreviations stay non-empty, so the act can be processed again. -/
theorem C46_abbreviations_partial (act act' : Act A) (changed : Bool) (hk : ∀ e ∈ act.containedAbbreviations, e.1 ≠ [])
    (h : addSemanticInfo act = (act', .ok changed)) : ∀ e ∈ act'.containedAbbreviations, e.1 ≠ [] := by
  obtain ⟨c, h1, h2, h3⟩ := C47_context act act' changed h
  rw [← readings_unchanged act act' changed h] at h1
  have hc : NoEmpty (Cache.ofMap act.containedAbbreviations) := by
    intro a ha
    simp only [Cache.ofMap, Cache.allAbbreviations, List.mem_map] at ha
    obtain ⟨e, he, rfl⟩ := ha
    exact hk e he
  intro e he
  rw [h2] at he
  exact (readTexts_facts hc h1).1 e.1 (List.mem_map_of_mem he)

/-! A concrete act for the theorems: a paragraph with two points and a wrap-up. -/

def readAct : Act Empty where
  identifier := ⟨⟨2345, by decide⟩, ⟨13, by decide⟩⟩
  subject := []
  preamble := []
  publicationDate := ⟨2345, 6, 7⟩
  containedAbbreviations := [(str!"Btk.", btkAct)]
  children := [.article ⟨⟨none, .ofNum 3⟩, none, [⟨⟨none⟩, .children str!"A Btk."
    (.alphabeticPoint [⟨.latin 0, .text str!"3. §-a és", .default, none⟩, ⟨.latin 1, .text str!"4. §-a", .default, none⟩])
    (some str!"nem alkalmazható."), .default, none⟩], none⟩]

example : (actReadings readAct).map (fun x => (x.1.before, x.1.text, x.1.after)) =
    [([], str!"A Btk.", []), (str!"A Btk. ", str!"3. §-a és", str!" nem alkalmazható."),
     (str!"A Btk. ", str!"4. §-a", str!" nem alkalmazható.")] := by decide +kernel

example : (addSemanticInfo readAct).2 = .ok false ∧
    (actReadings (addSemanticInfo readAct).1).map (fun x => ranges x.2.outgoingReferences) =
      [[(2, 6)], [(0, 7)], [(0, 7)]] := by decide +kernel

end HunLaw.Props
