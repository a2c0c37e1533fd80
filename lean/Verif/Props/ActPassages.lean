import Mathlib.Data.List.Forall2
import Verif.Spec.ActPassages
import Verif.Props.PassageNew

/-! Property C131: the references of a whole act are those which are meant. -/

set_option autoImplicit false

namespace HunLaw.Props

open HunLaw Spec Semantic Grammar

variable {A : Type}

theorem lookup_isSome {l : List (Str × ActId)} {k : Str} : (l.lookup k).isSome = true ↔ k ∈ l.map Prod.fst := by
  induction l with
  | nil => simp
  | cons e l ih =>
    obtain ⟨k', v⟩ := e
    rw [List.lookup_cons]
    by_cases h : k = k'
    · subst h; simp
    · rw [beq_false_of_ne h]
      simp only [ih, List.map_cons, List.mem_cons, h, false_or]

theorem lastDefined_isSome {l : List (Str × ActId)} {k : Str} : (lastDefined k l).isSome = true ↔ k ∈ l.map Prod.fst := by
  induction l with
  | nil => simp [lastDefined]
  | cons e l ih =>
    obtain ⟨k', v⟩ := e
    rw [lastDefined, List.map_cons, List.mem_cons, ← ih]
    rcases lastDefined k l with _ | w
    · by_cases h : k' = k
      · subst h; simp
      · simp only [if_neg h, Option.isSome_none, Bool.false_eq_true, or_false, false_iff]
        exact fun e => h e.symm
    · simp

theorem known_mem {m l : List (Str × ActId)} {k : Str} :
    k ∈ ((Cache.ofMap m).addMultiple l).allAbbreviations ↔ k ∈ (m ++ l).map Prod.fst := by
  have h1 : k ∈ ((Cache.ofMap m).addMultiple l).allAbbreviations ↔ (((Cache.ofMap m).addMultiple l).resolve k).isSome = true :=
    lookup_isSome.symm
  rw [h1, C44_latest, Option.isSome_or, Bool.or_eq_true, lastDefined_isSome, List.map_append, List.mem_append, or_comm]
  exact or_congr lookup_isSome Iff.rfl

theorem mapCollect_lookup (l : List (Str × ActId)) (k : Str) : (mapCollect l).lookup k = lastDefined k l := by
  have : ∀ m, (l.foldl (fun m e => mapInsert e.1 e.2 m) m).lookup k = (lastDefined k l).or (m.lookup k) := by
    induction l with
    | nil => intro m; rfl
    | cons e l ih =>
      obtain ⟨k', v⟩ := e
      intro m
      rw [List.foldl_cons, ih, lastDefined]
      rcases lastDefined k l with _ | w
      · by_cases h : k' = k
        · subst h
          simpa [mapGet] using mapGet_insert_self k' v m
        · simpa [mapGet, h] using mapGet_insert_ne (fun e : k = k' => h e.symm) v m
      · rfl
  simpa [mapCollect] using this []

theorem zip_refs (l : List OutgoingRef) :
    List.zipWith (fun (x : Nat × Nat) r => (⟨x.1, x.2, r⟩ : OutgoingRef)) (ranges l) (l.map (·.reference)) = l := by
  induction l with
  | nil => rfl
  | cons x l ih => exact congrArg (x :: ·) ih

/-- How a text is read, when these abbreviations are known. -/
theorem understood_read {m defined : List (Str × ActId)} {p : Passage} (h2 : Understood m defined p) :
    ∃ r refs, parse p.text ((Cache.ofMap m).addMultiple defined).allAbbreviations = some r ∧ getNewAbbreviations r = some p.new ∧
      outgoingRefs (((Cache.ofMap m).addMultiple defined).addMultiple p.new) r = some refs ∧ (∀ c', extractSpecialPhrase c' r = some none) ∧
      refs.map (·.reference) = p.meant ∧ ranges refs = markedRanges 0 p.pieces :=
  passage_read ((Cache.ofMap m).addMultiple defined) p h2.usual
    (clear_mono (fun b hb => by
      rw [List.map_append, List.mem_append]
      rcases List.mem_append.1 hb with hb | hb
      · exact .inl (known_mem.1 hb)
      · exact .inr hb) h2.clear)
    (nameable_mono (fun b hb => known_mem.2 hb) h2.nameable)
    (fun x hx g s a e1 e2 => by
      rw [← C44_latest, ← addMultiple_append, C44_latest]
      exact h2.means x hx g s a e1 e2)
    h2.notEmpty h2.introduces h2.plain

theorem readTexts_consists {m : List (Str × ActId)} : ∀ {rs : List Reading} {ps : List Passage} {defined : List (Str × ActId)},
    Consists m defined rs ps → ∃ infos, readTexts ((Cache.ofMap m).addMultiple defined) rs =
      some (infos, (Cache.ofMap m).addMultiple (defined ++ ps.flatMap Passage.new)) ∧
      infos.length = ps.length ∧ rs.length = ps.length ∧
      ∀ x ∈ (rs.zip infos).zip ps, Records x.1.1 x.1.2 x.2
  | [], [], defined, _ => ⟨[], by simp [readTexts], rfl, rfl, by simp⟩
  | [], _ :: _, _, h => h.elim
  | _ :: _, [], _, h => h.elim
  | r :: rs, p :: ps, defined, h => by
    obtain ⟨h1, h2, h3⟩ := h
    obtain ⟨infos, g1, g2, g3, g4⟩ := readTexts_consists h3
    obtain ⟨root, refs, k1, k2, k3, k4, k5, k6⟩ := understood_read h2
    rw [← addMultiple_append] at k3
    have hrefs : p.references = refs := by
      rw [Passage.references, ← k6, ← k5, zip_refs]
    refine ⟨⟨ownReferences (byteLen r.before) (byteLen r.after) (byteLen p.text) refs, mapCollect p.new, none⟩ :: infos, ?_, by simp [g2], by simp [g3], ?_⟩
    · simp only [readTexts, readText, h1, k1, k2, ← addMultiple_append, k3, k4, Option.bind_eq_bind, Option.bind_some, g1]
      simp [keptInIntro]
    · intro x hx
      rw [List.zip_cons_cons, List.zip_cons_cons, List.mem_cons] at hx
      rcases hx with rfl | hx
      · exact ⟨by rw [hrefs], mapCollect_lookup _, rfl⟩
      · exact g4 x hx

/-- If its texts can be read, the act is, with this information at its texts. -/
theorem act_read {act : Act A} {infos : List SemanticInfo} {l : List (Str × ActId)}
    (g1 : readTexts (Cache.ofMap act.containedAbbreviations) ((actReadings act).map (·.1)) =
      some (infos, (Cache.ofMap act.containedAbbreviations).addMultiple l)) :
    ∃ act' changed, addSemanticInfo act = (act', .ok changed) ∧ actReadings act' = ((actReadings act).map (·.1)).zip infos ∧
      ∀ k, act'.containedAbbreviations.lookup k = meaningOf act.containedAbbreviations l k := by
  rcases hr : addSemanticInfo act with ⟨act', b | _ | _⟩
  · refine ⟨act', b, rfl, ?_, ?_⟩
    · obtain ⟨c, k1, k2, k3⟩ := C47_context act act' b hr
      have hu := readings_unchanged act act' b hr
      rw [g1] at k1
      simp only [Option.some.injEq, Prod.mk.injEq] at k1
      rw [k1.1, ← hu]
      exact (List.zip_unzip (actReadings act')).symm.trans (by rw [List.unzip_eq_map])
    · obtain ⟨c, k1, k2, k3⟩ := C47_context act act' b hr
      rw [g1] at k1
      simp only [Option.some.injEq, Prod.mk.injEq] at k1
      intro k
      rw [k2, ← k1.2]
      exact C44_latest _ _ k
  · have := (C47_error act).1 (by rw [hr])
    rw [g1] at this
    cases this
  · exact absurd (by rw [hr]) (C47_no_panic act)

/-- C131: if every text of an act, in the sentence around it, is running text in the usual form, then the act is read, and
about each of its texts exactly those references are recorded which are meant in it, at their places, with the
abbreviations introduced there. An abbreviation means what it was last introduced for in the text before. In the end the
act knows all abbreviations introduced in it, with their last meanings. -/
theorem C131_act (act : Act A) (ps : List Passage)
    (h : Consists act.containedAbbreviations [] ((actReadings act).map (·.1)) ps) :
    ∃ act' changed, addSemanticInfo act = (act', .ok changed) ∧
      List.Forall₂ (fun x p => Records x.1 x.2 p) (actReadings act') ps ∧
      ∀ k, act'.containedAbbreviations.lookup k = meaningOf act.containedAbbreviations (ps.flatMap Passage.new) k := by
  obtain ⟨infos, g1, g2, g3, g4⟩ := readTexts_consists h
  have g1 : readTexts (Cache.ofMap act.containedAbbreviations) ((actReadings act).map (·.1)) =
      some (infos, (Cache.ofMap act.containedAbbreviations).addMultiple (ps.flatMap Passage.new)) := g1
  obtain ⟨act', b, hr, hz, hk⟩ := act_read g1
  refine ⟨act', b, hr, ?_, hk⟩
  rw [hz, List.forall₂_iff_zip]
  exact ⟨by rw [List.length_zip, g2, g3, Nat.min_self], fun {a} {b} hx => g4 (a, b) hx⟩

/-! ### an example -/

/-- "A 4. §-a és a 2015. évi CXLIII. törvény (a továbbiakban: Kbt.) 4. §-a, valamint a Kbt. 4. §-a szerint!" -/
def firstPassage : Passage := ⟨newPassage.items, str!" szerint!"⟩

/-- "A Kbt. 4. §-a!" -/
def secondPassage : Passage := ⟨[(str!"A ", .group articleOfNew)], str!"!"⟩

/-- An act which introduces an abbreviation in its first article and uses it in the second. -/
def introducingAct : Act Empty where
  identifier := ⟨⟨2345, by decide⟩, ⟨13, by decide⟩⟩
  subject := []
  preamble := []
  publicationDate := ⟨2345, 6, 7⟩
  containedAbbreviations := []
  children := [
    .article ⟨⟨none, .ofNum 1⟩, none, [⟨⟨none⟩,
      .text str!"A 4. §-a és a 2015. évi CXLIII. törvény (a továbbiakban: Kbt.) 4. §-a, valamint a Kbt. 4. §-a szerint!", .default, none⟩], none⟩,
    .article ⟨⟨none, .ofNum 2⟩, none, [⟨⟨none⟩, .text str!"A Kbt. 4. §-a!", .default, none⟩], none⟩]

theorem not_announced {p : Passage} (h : p.text.getLast? = some '!') (q : SpecialPhrase) : ¬ Announces q p.text := by
  intro hq
  obtain ⟨c, h1, h2⟩ := announces_last hq
  rw [h] at h1
  cases h1
  exact absurd h2 (by decide)

theorem firstPassage_understood : Understood [] [] firstPassage where
  usual := by
    refine ⟨by unfold Ordinary; decide, .inr ⟨str!"A", rfl⟩, writtenArticle_usual, nofun, ⟨articleOfAct_usual, by decide, 'K', rfl, by decide⟩,
      ⟨by unfold Ordinary; decide, .inr (fun c h => by cases h; decide), .inl ⟨⟨str!" és a", rfl⟩, by simp⟩, .inl (by decide +kernel)⟩,
      articleOfNew_usual, ⟨by unfold Ordinary; decide, .inr (fun c h => by cases h; decide), .inl ⟨⟨str!", valamint a", rfl⟩, by simp⟩,
        .inl ⟨by decide +kernel, _, rfl, fun s x h => by cases h; exact ⟨'K', rfl, by decide⟩⟩⟩,
      by unfold Ordinary; decide, .inr (fun c h => by cases h; decide), trivial⟩
  clear := by
    have hb : ∀ b ∈ ([] ++ [] ++ firstPassage.new).map Prod.fst, b = str!"Kbt." := by decide
    refine ⟨fun x y e hy b h => ?_, fun b h hp => ?_, ⟨fun x y e hy b h => ?_, fun b h hp => ?_, ⟨fun x y e hy b h => ?_, fun b h _ => ?_,
      fun x y e b h hp => ?_, fun x y e hy b h => ?_⟩, fun x y e hy b h => ?_⟩, fun x y e hy b h => ?_⟩
    · rw [hb b h]; exact clear_words (by decide +kernel) x y e hy
    · rw [hb b h, ← List.isPrefixOf_iff_prefix] at hp; exact absurd hp (by decide +kernel)
    · rw [hb b h]; exact clear_words (by decide +kernel) x y e hy
    · rw [hb b h, ← List.isPrefixOf_iff_prefix] at hp; exact absurd hp (by decide +kernel)
    · rw [hb b h]; exact clear_words (by decide +kernel) x y e hy
    · rw [hb b h]; exact ⟨_, _, rfl, rfl⟩
    · rw [hb b h] at hp
      have : 'K' ∈ firstPassage.after := by rw [e]; exact List.mem_append_right _ (hp.subset (by simp))
      revert this; decide
    · rw [hb b h]; exact clear_words (by decide +kernel) x y e hy
    · rw [hb b h]; exact clear_words (by decide +kernel) x y e hy
    · rw [hb b h]; exact clear_words (by decide +kernel) x y e hy
  nameable := by
    refine ⟨fun g s a h1 h2 => ?_, fun g s a h1 h2 => ?_, fun g s a h1 h2 => ?_, trivial⟩
    · cases h1; cases h2
    · cases h1
    · cases h1; cases h2; decide
  means := by
    intro x hx g s a h1 h2
    simp only [firstPassage, newPassage, List.mem_cons, List.not_mem_nil, or_false] at hx
    rcases hx with rfl | rfl | rfl <;> cases h1
    · cases h2
    · cases h2; decide
  notEmpty := ⟨'A', by decide +kernel, by decide⟩
  introduces a h := by
    have hall : ∀ b ∈ introducedIn firstPassage.text, b ∈ firstPassage.new.map Prod.fst := by decide +kernel
    exact hall a (introduces_mem h)
  plain := not_announced (by decide +kernel)

theorem secondPassage_understood : Understood [] ([] ++ firstPassage.new) secondPassage where
  usual := by
    refine ⟨by unfold Ordinary; decide, .inr ⟨str!"A", rfl⟩, articleOfNew_usual, nofun, by unfold Ordinary; decide, .inr (fun c h => by cases h; decide), trivial⟩
  clear := by
    have hb : ∀ b ∈ ([] ++ ([] ++ firstPassage.new) ++ secondPassage.new).map Prod.fst, b = str!"Kbt." := by decide
    refine ⟨fun x y e hy b h => ?_, fun b h hp => ?_, fun x y e b h hp => ?_, fun x y e hy b h => ?_⟩
    · rw [hb b h]; exact clear_words (by decide +kernel) x y e hy
    · rw [hb b h]; exact ⟨_, _, rfl, rfl⟩
    · rw [hb b h] at hp
      have : 'K' ∈ secondPassage.after := by rw [e]; exact List.mem_append_right _ (hp.subset (by simp))
      revert this; decide
    · rw [hb b h]; exact clear_words (by decide +kernel) x y e hy
  nameable := by
    refine ⟨fun g s a h1 h2 => ?_, trivial⟩
    cases h1; cases h2; decide
  means := by
    intro x hx g s a h1 h2
    simp only [secondPassage, List.mem_cons, List.not_mem_nil, or_false] at hx
    subst hx
    cases h1
    cases h2
    decide
  notEmpty := ⟨'A', by decide +kernel, by decide⟩
  introduces a h := by
    have hall : ∀ b ∈ introducedIn secondPassage.text, b ∈ secondPassage.new.map Prod.fst := by decide +kernel
    exact hall a (introduces_mem h)
  plain := not_announced (by decide +kernel)

/-- The condition of the theorem is met by the act, and there is a reference in the second article. -/
example : Consists introducingAct.containedAbbreviations [] ((actReadings introducingAct).map (·.1)) [firstPassage, secondPassage] ∧
    ∀ x ∈ articleOfNew.meant, Ref.tryFrom x = some x :=
  ⟨⟨by decide +kernel, firstPassage_understood, by decide +kernel, secondPassage_understood, trivial⟩, by decide +kernel⟩

end HunLaw.Props
