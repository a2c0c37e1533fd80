import Verif.Spec.ActSentences
import Verif.Props.ActPassages
import Verif.Props.Enforcement
import Verif.Props.Provisions
import Verif.Props.StructuralSentence
import Verif.Props.Subtitles
import Verif.Props.TextAmendments

/-! Property C132: what is recorded about a whole act with amending sentences, repeals and sentences about coming into force. -/

set_option autoImplicit false

namespace HunLaw.Props

open HunLaw Spec Semantic Grammar

variable {A : Type}

theorem opens_usual {m defined : List (Str × ActId)} {i : ActIntro} {rest : Str} (h : Opens m defined i rest) :
    i.Usual ((Cache.ofMap m).addMultiple defined).allAbbreviations rest ∧
      ∀ b a, i.act = .short b a → ((Cache.ofMap m).addMultiple defined).resolve b = some a := by
  obtain ⟨h1, h2⟩ := h
  refine ⟨⟨h1.article, h1.words, h1.spaced, h1.start, h1.act, fun b hb => h1.abbreviations b (known_mem.1 hb),
    fun b a e => known_mem.2 (h1.known b a e), h1.introduces⟩, fun b a e => ?_⟩
  rw [C44_latest]
  exact h2 b a e

/-- How each kind of text is read. -/
theorem tells_read {m defined : List (Str × ActId)} {t : Told} (h : Tells m defined t) :
    ∃ root refs, parse t.text ((Cache.ofMap m).addMultiple defined).allAbbreviations = some root ∧ getNewAbbreviations root = some t.new ∧
      extractSpecialPhrase (((Cache.ofMap m).addMultiple defined).addMultiple t.new) root = some t.phrase ∧
      outgoingRefs (((Cache.ofMap m).addMultiple defined).addMultiple t.new) root = some refs ∧
      refs.map (·.reference) = t.meant ∧ ∀ l, t.places = some l → ranges refs = l := by
  cases h with
  | @running p h =>
    obtain ⟨root, refs, k1, k2, k3, k4, k5, k6⟩ := understood_read h
    exact ⟨root, refs, k1, k2, k4 _, k3, k5, fun l hl => by cases hl; exact k6⟩
  | structural hs hi hm hbook htitle =>
    obtain ⟨hi, hc⟩ := opens_usual hi
    obtain ⟨x, h1, h2, h3, h4⟩ := C105_structural_partial _ _ _ hs hi hc hm hbook htitle
    exact ⟨x, _, h1, h2, h3, h4, rfl, fun l hl => by cases hl; rfl⟩
  | provisions hs hi hm hbook =>
    obtain ⟨hi, hc⟩ := opens_usual hi
    obtain ⟨x, refs, h1, h2, h3, h4, h5⟩ := C106_provisions_partial _ _ _ hs hi hc hm hbook
    exact ⟨x, refs, h1, h2, h3, h4, h5, nofun⟩
  | words hs hi hm hclear =>
    obtain ⟨hi, hc⟩ := opens_usual hi
    obtain ⟨x, refs, h1, h2, h3, h4, h5⟩ := C107_textAmendment_partial _ _ _ hs hi hc hm hclear
    exact ⟨x, refs, h1, h2, h3, h4, h5, nofun⟩
  | repeal hs hi hm hclear =>
    obtain ⟨hi, hc⟩ := opens_usual hi
    obtain ⟨x, refs, h1, h2, h3, h4, h5⟩ := C108_repeal_partial _ _ _ hs hi hc hm hclear
    exact ⟨x, refs, h1, h2, h3, h4, h5, nofun⟩
  | subtitles hs hi hm hbook hafter =>
    obtain ⟨hi, hc⟩ := opens_usual hi
    obtain ⟨x, refs, h1, h2, h3, h4, h5⟩ := C109_subtitles_partial _ _ _ hs hi hc hm hbook hafter
    exact ⟨x, refs, h1, h2, h3, h4, h5, nofun⟩
  | force hx ht hss hproper =>
    obtain ⟨r, h1, h2, -⟩ := C104_enforcement_partial ((Cache.ofMap m).addMultiple defined) _ _ _ hx ht hss
    obtain ⟨x, hx'⟩ := enforcement_root ((Cache.ofMap m).addMultiple defined) hx ht hss
    obtain ⟨h3, refs, h4, h5, h6⟩ := h2 hproper
    rw [h1] at hx'
    cases hx'
    exact ⟨_, refs, h1, rfl, h3, h4, h5, fun l hl => by cases hl; exact h6⟩

theorem readTexts_narrates {m : List (Str × ActId)} : ∀ {rs : List Reading} {ts : List Told} {defined : List (Str × ActId)},
    Narrates m defined rs ts → ∃ infos, readTexts ((Cache.ofMap m).addMultiple defined) rs =
      some (infos, (Cache.ofMap m).addMultiple (defined ++ ts.flatMap Told.new)) ∧
      infos.length = ts.length ∧ rs.length = ts.length ∧
      ∀ x ∈ (rs.zip infos).zip ts, RecordsTold x.1.1 x.1.2 x.2
  | [], [], defined, _ => ⟨[], by simp [readTexts], rfl, rfl, by simp⟩
  | [], _ :: _, _, h => h.elim
  | _ :: _, [], _, h => h.elim
  | r :: rs, t :: ts, defined, h => by
    obtain ⟨h1, h2, h3⟩ := h
    obtain ⟨infos, g1, g2, g3, g4⟩ := readTexts_narrates h3
    obtain ⟨root, refs, k1, k2, k3, k4, k5, k6⟩ := tells_read h2
    rw [← addMultiple_append] at k3 k4
    refine ⟨⟨ownReferences (byteLen r.before) (byteLen r.after) (byteLen t.text) refs, mapCollect t.new,
      if r.isIntro then keptInIntro t.phrase else t.phrase⟩ :: infos, ?_, by simp [g2], by simp [g3], ?_⟩
    · simp only [readTexts, readText, h1, k1, k2, ← addMultiple_append, k3, k4, Option.bind_eq_bind, Option.bind_some, g1]
      simp
    · intro x hx
      rw [List.zip_cons_cons, List.zip_cons_cons, List.mem_cons] at hx
      rcases hx with rfl | hx
      · exact ⟨⟨refs, k5, k6, rfl⟩, mapCollect_lookup _, rfl⟩
      · exact g4 x hx

/-- C132: if every text of an act, in its context, is running text, an amending sentence, a repeal or a sentence about coming into force, in the
usual forms, the act is read without error. What is recorded about each text are its own references, the abbreviations it introduces, and its
phrase. The phrase is the one which is meant; in an intro only those that announce a quoted block are recorded. -/
theorem C132_act (act : Act A) (ts : List Told)
    (h : Narrates act.containedAbbreviations [] ((actReadings act).map (·.1)) ts) :
    ∃ act' changed, addSemanticInfo act = (act', .ok changed) ∧
      List.Forall₂ (fun x t => RecordsTold x.1 x.2 t) (actReadings act') ts ∧
      ∀ k, act'.containedAbbreviations.lookup k = meaningOf act.containedAbbreviations (ts.flatMap Told.new) k := by
  obtain ⟨infos, g1, g2, g3, g4⟩ := readTexts_narrates h
  have g1 : readTexts (Cache.ofMap act.containedAbbreviations) ((actReadings act).map (·.1)) =
      some (infos, (Cache.ofMap act.containedAbbreviations).addMultiple (ts.flatMap Told.new)) := g1
  obtain ⟨act', b, hr, hz, hk⟩ := act_read g1
  refine ⟨act', b, hr, ?_, hk⟩
  rw [hz, List.forall₂_iff_zip]
  exact ⟨by rw [List.length_zip, g2, g3, Nat.min_self], fun {a} {b} hx => g4 (a, b) hx⟩

/-! ### an example -/

/-- "A közbeszerzésekről szóló 2015. évi CXLIII. törvény (a továbbiakban: Kbt.) 3. § (2) és (3) bekezdése helyébe a következő rendelkezések lépnek:" -/
def replacedInShortened : ProvisionSentence := { twoReplaced with intro := shortenedAct }

theorem replacedInShortened_usual : replacedInShortened.Usual where
  change := twoReplaced_usual.change
  container q h := by cases h
  proper r hr := (Ref.tryFrom_eq_some.1 ((by decide +kernel : ∀ y ∈ replacedInShortened.meant, Ref.tryFrom y = some y) r hr)).2

theorem replacedInShortened_means : replacedInShortened.Means (.blockAmendment twoParagraphsRange false) := by
  refine .provisions ⟨?_, ?_, ?_, ?_, ?_⟩ fun a h => (by cases h)
  · exact (Ref.tryFrom_eq_some.1 (by decide +kernel : Ref.tryFrom twoParagraphsRange = some twoParagraphsRange)).2
  all_goals decide +kernel

/-- An act which amends another one, introduces an abbreviation for it there, uses this in the next article, and says in the last when it
comes into force. -/
def amendingAct : Act Empty where
  identifier := ⟨⟨2345, by decide⟩, ⟨13, by decide⟩⟩
  subject := []
  preamble := []
  publicationDate := ⟨2345, 6, 7⟩
  containedAbbreviations := []
  children := [
    .article ⟨⟨none, .ofNum 1⟩, none, [⟨⟨none⟩, .children
      str!"A közbeszerzésekről szóló 2015. évi CXLIII. törvény (a továbbiakban: Kbt.) 3. § (2) és (3) bekezdése helyébe a következő rendelkezések lépnek:"
      (.quotedBlock []) none, .default, none⟩], none⟩,
    .article ⟨⟨none, .ofNum 2⟩, none, [⟨⟨none⟩, .text str!"A Kbt. 4. §-a!", .default, none⟩], none⟩,
    .article ⟨⟨none, .ofNum 3⟩, none, [⟨⟨none⟩, .text str!"Ez a törvény 2024. január 1-jén lép hatályba.", .default, none⟩], none⟩]

/-- What its texts tell. -/
noncomputable def amendingTold : List Told :=
  [⟨replacedInShortened.text, replacedInShortened.intro.new, replacedInShortened.meant, none, some (.blockAmendment twoParagraphsRange false)⟩,
   ⟨secondPassage.text, secondPassage.new, secondPassage.meant, some (markedRanges 0 secondPassage.pieces), none⟩,
   ⟨Props.wholeSentence.text, [], [], some [], some (.enforcementDate ⟨[], [], true, .date ⟨2024, 1, 1⟩, none⟩)⟩]

theorem amendingAct_narrates : Narrates amendingAct.containedAbbreviations [] ((actReadings amendingAct).map (·.1)) amendingTold :=
  ⟨by decide +kernel, .provisions replacedInShortened_usual ⟨shortenedAct_usual _, fun _ _ h => by cases h⟩ replacedInShortened_means (fun _ h => by cases h),
   by decide +kernel, .running secondPassage_understood,
   by decide +kernel, .force (x := Props.wholeSentence) (ss := []) wholeSentence_usual
     (.day (d := ⟨2024, str!"január", 1, str!"-jén"⟩) ⟨by decide, by decide, by decide, by decide⟩) ⟨[], .nil, rfl⟩ (by intro y hy; cases hy),
   trivial⟩

/-- The condition of the theorem is met by the act. Its first paragraph is recorded as announcing a quoted block, and the abbreviation is kept. -/
example : ∃ act' changed, addSemanticInfo amendingAct = (act', .ok changed) ∧
    ((actReadings act').map fun x => x.2.specialPhrase) =
      [some (.blockAmendment twoParagraphsRange false), none, some (.enforcementDate ⟨[], [], true, .date ⟨2024, 1, 1⟩, none⟩)] ∧
    act'.containedAbbreviations.lookup str!"Kbt." = some ⟨⟨2015, by decide⟩, ⟨143, by decide⟩⟩ := by
  obtain ⟨act', changed, h1, h2, h3⟩ := C132_act amendingAct amendingTold amendingAct_narrates
  refine ⟨act', changed, h1, ?_, by rw [h3]; decide +kernel⟩
  have h4 : (actReadings act').map (fun x => x.1.isIntro) = [true, false, false] := by
    have := congrArg (List.map Reading.isIntro) (readings_unchanged amendingAct act' changed h1)
    rw [List.map_map, List.map_map] at this
    exact this.trans (by decide +kernel)
  generalize actReadings act' = l at h2 h4
  cases h2 with
  | cons a h2 => cases h2 with
    | cons b h2 => cases h2 with
      | cons d h2 =>
        cases h2
        simp only [List.map_cons, List.map_nil, List.cons.injEq, and_true] at h4
        simp only [List.map_cons, List.map_nil, a.2.2, b.2.2, d.2.2, h4.1, h4.2.1, h4.2.2]
        simp [keptInIntro]

end HunLaw.Props
