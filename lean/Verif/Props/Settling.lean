import Verif.Lemmas.IntroducedIn
import Verif.Props.OneArticle
import Verif.Spec.Settling
import Mathlib.Data.List.Infix
import Mathlib.Data.List.Sort
import Mathlib.Data.List.Sublists

/-! Property C111: reading an act again and again comes to rest. -/

set_option autoImplicit false

namespace HunLaw.Props

open HunLaw Spec Semantic
open HunLaw.Grammar (introducedIn introduces_mem)

variable {A : Type}

theorem mem_insert_entry {k : Str} {v : ActId} {m : List (Str × ActId)} {e : Str × ActId} (h : e ∈ mapInsert k v m) :
    e = (k, v) ∨ e ∈ m := by
  induction m with
  | nil => simpa [mapInsert] using h
  | cons x m ih =>
    obtain ⟨k', v'⟩ := x
    rw [mapInsert] at h
    split at h
    · rcases List.mem_cons.1 h with h | h
      · exact .inl h
      · exact .inr (by simp [h])
    · split at h
      · rcases List.mem_cons.1 h with h | h
        · exact .inl h
        · exact .inr h
      · rcases List.mem_cons.1 h with h | h
        · exact .inr (by simp [h])
        · rcases ih h with h | h
          · exact .inl h
          · exact .inr (by simp [h])

theorem mem_of_get {k : Str} {v : ActId} {m : List (Str × ActId)} (h : mapGet k m = some v) : (k, v) ∈ m := by
  unfold mapGet at h
  induction m with
  | nil => cases h
  | cons e m ih =>
    obtain ⟨k', v'⟩ := e
    rw [List.lookup_cons] at h
    split at h
    · rename_i hk
      cases h
      rw [eq_of_beq hk]
      exact List.mem_cons_self
    · exact List.mem_cons_of_mem _ (ih h)

/-- What becomes of the abbreviations while texts are read. -/
structure Gains (D : Str → ActId → Prop) (c c' : Cache) : Prop where
  meant : ∀ e ∈ c'.cache, D e.1 e.2
  kept : ∀ k ∈ c.allAbbreviations, k ∈ c'.allAbbreviations
  gained : c'.hasChanged = true → c.hasChanged = true ∨ ∃ k, k ∉ c.allAbbreviations ∧ k ∈ c'.allAbbreviations
  increasing : Increasing c.allAbbreviations → Increasing c'.allAbbreviations

theorem Gains.refl {D : Str → ActId → Prop} {c : Cache} (h : ∀ e ∈ c.cache, D e.1 e.2) : Gains D c c :=
  ⟨h, fun _ h => h, .inl, fun h => h⟩

theorem Gains.trans {D : Str → ActId → Prop} {a b c : Cache} (h1 : Gains D a b) (h2 : Gains D b c) : Gains D a c := by
  refine ⟨h2.meant, fun k h => h2.kept k (h1.kept k h), fun h => ?_, fun h => h2.increasing (h1.increasing h)⟩
  rcases h2.gained h with h | ⟨k, hk, hk'⟩
  · rcases h1.gained h with h | ⟨k, hk, hk'⟩
    · exact .inl h
    · exact .inr ⟨k, hk, h2.kept k hk'⟩
  · exact .inr ⟨k, fun h => hk (h1.kept k h), hk'⟩

theorem gains_add {D : Str → ActId → Prop} (hD : ∀ k v w, D k v → D k w → v = w) {c : Cache}
    (h : ∀ e ∈ c.cache, D e.1 e.2) {k : Str} {v : ActId} (hk : D k v) : Gains D c (c.add k v) := by
  have hne : ∀ w, c.resolve k = some w → w = v := fun w hw =>
    hD k w v (h (k, w) (mem_of_get hw)) hk
  rcases hr : c.resolve k with _ | w
  · have hadd : c.add k v = ⟨mapInsert k v c.cache, true⟩ := by
      unfold Cache.add
      rw [show mapGet k c.cache = none from hr]
    refine ⟨fun e he => ?_, fun k' hk' => ?_, fun _ => .inr ⟨k, ?_, ?_⟩, add_increasing c k v⟩
    · rw [hadd] at he
      rcases mem_insert_entry he with rfl | he
      · exact hk
      · exact h e he
    · rw [mem_allAbbreviations] at hk' ⊢
      rw [resolve_add]
      split
      · rfl
      · exact hk'
    · rw [mem_allAbbreviations, hr]
      simp
    · rw [mem_allAbbreviations, resolve_add, if_pos rfl]
      rfl
  · have := hne w hr
    subst this
    have hadd : c.add k w = c := by
      unfold Cache.add
      rw [show mapGet k c.cache = some w from hr]
      simp
    rw [hadd]
    exact .refl h

theorem gains_addMultiple {D : Str → ActId → Prop} (hD : ∀ k v w, D k v → D k w → v = w) (l : List (Str × ActId)) :
    ∀ {c : Cache}, (∀ e ∈ c.cache, D e.1 e.2) → (∀ e ∈ l, D e.1 e.2) → Gains D c (c.addMultiple l) := by
  induction l with
  | nil => intro c h _; exact .refl h
  | cons e l ih =>
    intro c h hl
    have h1 := gains_add hD h (hl e (by simp))
    exact h1.trans (ih h1.meant fun e he => hl e (by simp [he]))

theorem mayMean_possible {act : Act A} (hne : ∀ e ∈ act.containedAbbreviations, e.1 ≠ []) {a : Str} {v : ActId}
    (h : MayMean act a v) : Possible act a := by
  rcases h with h | ⟨s, hs, known, root, new, -, hk, h1, h2, h3⟩
  · exact .inl (List.mem_map_of_mem h)
  · refine .inr ⟨s, hs, newAbbreviations_introduced (fun b hb => ?_) h1 h2 (a, v) h3⟩
    rcases hk b hb with hb | ⟨t, -, _, _, _, -, -, hb, -⟩
    · obtain ⟨e, he, rfl⟩ := List.mem_map.1 hb
      exact hne e he
    · exact hb

theorem gains_readTexts {act : Act A} (hne : ∀ e ∈ act.containedAbbreviations, e.1 ≠ []) (hu : Spec.Unambiguous act)
    (l : List Spec.Reading) : ∀ {c c' : Cache} {i : List SemanticInfo},
    (∀ r ∈ l, wholeSentence r.before r.text r.after ∈ sentences act) → (∀ e ∈ c.cache, MayMean act e.1 e.2) →
    Increasing c.allAbbreviations → readTexts c l = some (i, c') → Gains (MayMean act) c c' := by
  induction l with
  | nil => intro c c' i _ h _ hr; cases hr; exact .refl h
  | cons r l ih =>
    intro c c' i hl hc hi hr
    rw [readTexts] at hr
    obtain ⟨x, h1, hr⟩ := bind_some_split hr
    obtain ⟨y, h2, hr⟩ := bind_some_split hr
    cases hr
    unfold readText at h1
    obtain ⟨root, g1, h1⟩ := bind_some_split h1
    obtain ⟨new, g2, h1⟩ := bind_some_split h1
    obtain ⟨refs, -, h1⟩ := bind_some_split h1
    obtain ⟨ph, -, h1⟩ := bind_some_split h1
    cases h1
    have hg : Gains (MayMean act) c (c.addMultiple new) := by
      refine gains_addMultiple hu new hc fun e he => .inr ⟨_, hl r (by simp), _, root, new, hi, fun b hb => ?_, g1, g2,
        he⟩
      obtain ⟨e, he, rfl⟩ := List.mem_map.1 hb
      exact mayMean_possible hne (hc e he)
    exact hg.trans (ih (fun r hr => hl r (by simp [hr])) hg.meant (hg.increasing hi) h2)

theorem increasing_nodup {l : List Str} (h : Increasing l) : l.Nodup := by
  induction l with
  | nil => exact List.nodup_nil
  | cons k l ih =>
    refine List.nodup_cons.2 ⟨fun hk => ?_, ih h.2⟩
    exact absurd (h.1 k hk) (List.lt_irrefl _)

/-- What holds for the act after any number of passes. -/
structure SoFar (act b : Act A) : Prop where
  same : (actReadings b).map (·.1) = (actReadings act).map (·.1)
  meant : ∀ e ∈ b.containedAbbreviations, MayMean act e.1 e.2
  increasing : Increasing (b.containedAbbreviations.map (·.1))

theorem soFar_pass {act b b' : Act A} (hne : ∀ e ∈ act.containedAbbreviations, e.1 ≠ []) (hu : Spec.Unambiguous act)
    (h : SoFar act b) {changed : Bool} (hp : addSemanticInfo b = (b', .ok changed)) :
    SoFar act b' ∧ (∀ k ∈ b.containedAbbreviations.map (·.1), k ∈ b'.containedAbbreviations.map (·.1)) ∧
      (changed = true → ∃ k, k ∉ b.containedAbbreviations.map (·.1) ∧ k ∈ b'.containedAbbreviations.map (·.1)) := by
  obtain ⟨c, h1, h2, h3⟩ := C47_context b b' changed hp
  have hg := gains_readTexts hne hu _ (c := Cache.ofMap b.containedAbbreviations) (fun r hr => by
    rw [h.same] at hr
    obtain ⟨x, hx, rfl⟩ := List.mem_map.1 hr
    exact List.mem_map.2 ⟨x, hx, rfl⟩) h.meant h.increasing h1
  refine ⟨⟨(readings_unchanged b b' changed hp).trans h.same, ?_, ?_⟩, ?_, ?_⟩
  · rw [h2]; exact hg.meant
  · rw [h2]; exact hg.increasing h.increasing
  · rw [h2]; exact hg.kept
  · intro hc
    rw [h2]
    rcases hg.gained (by rw [← h3, hc]) with hf | hf
    · cases hf
    · exact hf

/-- C111 as it should be: whatever the act is, after some number of passes either there is an error or nothing new is
found. -/
def C111_statement : Prop := ∀ act : Act Empty, ∃ n, answer act n ≠ .ok true

/-- C111, the part that holds: if no abbreviation of the act can have two meanings, then at the latest after as many
passes as there are possible abbreviations, either there is an error or nothing new is found.
Missing: acts which give two meanings to an abbreviation; for these it is false (`C111_violated`). -/
theorem C111_settles_partial (act : Act A) (hne : ∀ e ∈ act.containedAbbreviations, e.1 ≠ [])
    (hi : Increasing (act.containedAbbreviations.map (·.1))) (hu : Spec.Unambiguous act) (possible : List Str)
    (hp : ∀ a, Possible act a → a ∈ possible) : ∃ n ≤ possible.length, answer act n ≠ .ok true := by
  by_contra hcon
  have hall : ∀ n ≤ possible.length, answer act n = .ok true := by
    intro n hn
    by_contra h
    exact hcon ⟨n, hn, h⟩
  have key : ∀ n ≤ possible.length + 1, SoFar act (afterPasses act n) ∧
      n ≤ (afterPasses act n).containedAbbreviations.length := by
    intro n
    induction n with
    | zero => exact fun _ => ⟨⟨rfl, fun e he => .inl he, hi⟩, Nat.zero_le _⟩
    | succ n ih =>
      intro hn
      obtain ⟨hk, hlen⟩ := ih (by omega)
      have ha := hall n (by omega)
      have hpass : addSemanticInfo (afterPasses act n) = (afterPasses act (n + 1), .ok true) :=
        Prod.ext rfl ha
      obtain ⟨hk', hsub, hnew⟩ := soFar_pass hne hu hk hpass
      refine ⟨hk', ?_⟩
      obtain ⟨k, hk1, hk2⟩ := hnew rfl
      have hnd : (k :: (afterPasses act n).containedAbbreviations.map (·.1)).Nodup :=
        List.nodup_cons.2 ⟨hk1, increasing_nodup hk.increasing⟩
      have hss : (k :: (afterPasses act n).containedAbbreviations.map (·.1)) ⊆
          (afterPasses act (n + 1)).containedAbbreviations.map (·.1) := by
        intro x hx
        rcases List.mem_cons.1 hx with rfl | hx
        · exact hk2
        · exact hsub x hx
      have := (List.subperm_of_subset hnd hss).length_le
      simp only [List.length_cons, List.length_map] at this
      omega
  obtain ⟨hk, hlen⟩ := key (possible.length + 1) (Nat.le_refl _)
  have hss : (afterPasses act (possible.length + 1)).containedAbbreviations.map (·.1) ⊆ possible := by
    intro x hx
    obtain ⟨e, he, rfl⟩ := List.mem_map.1 hx
    exact hp _ (mayMean_possible hne (hk.meant e he))
  have := (List.subperm_of_subset (increasing_nodup hk.increasing) hss).length_le
  rw [List.length_map] at this
  omega

/-- C111: there are finitely many possible abbreviations, so the bound is always there. -/
theorem C111_finite (act : Act A) : ∃ possible : List Str, ∀ a, Possible act a → a ∈ possible := by
  refine ⟨act.containedAbbreviations.map (·.1) ++ (sentences act).flatMap fun s => s.tails.flatMap List.inits, ?_⟩
  intro a ha
  rw [List.mem_append]
  rcases ha with ha | ⟨s, hs, before, sep, after, rfl, -⟩
  · exact .inl ha
  · refine .inr (List.mem_flatMap.2 ⟨_, hs, List.mem_flatMap.2 ⟨a ++ ')' :: after, ?_, ?_⟩⟩)
    · rw [List.mem_tails]
      exact ⟨before ++ str!"továbbiakban" ++ sep, by simp⟩
    · rw [List.mem_inits]
      exact ⟨_, rfl⟩

/-- The act gives the same abbreviation to two others. -/
def twiceAct : Act Empty where
  identifier := ⟨⟨2345, by decide⟩, ⟨13, by decide⟩⟩
  subject := []
  preamble := []
  publicationDate := ⟨2345, 6, 7⟩
  containedAbbreviations := []
  children := [
    .article ⟨⟨none, .ofNum 1⟩, none, [⟨⟨none⟩,
      .text str!"A 2012. évi C. törvény (a továbbiakban: Btk.) 3. §-a nem alkalmazható.", .default, none⟩], none⟩,
    .article ⟨⟨none, .ofNum 2⟩, none, [⟨⟨none⟩,
      .text str!"A 2013. évi V. törvény (a továbbiakban: Btk.) 4. §-a nem alkalmazható.", .default, none⟩], none⟩]

/-- C111 is violated: if an act gives one abbreviation two meanings, every pass reports new abbreviations, although
the act itself does not change any more after the first one. -/
theorem C111_violated : ¬ C111_statement := by
  intro h
  obtain ⟨n, hn⟩ := h twiceAct
  have h0 : (addSemanticInfo twiceAct).2 = .ok true := by decide +kernel
  have h1 : addSemanticInfo (addSemanticInfo twiceAct).1 = ((addSemanticInfo twiceAct).1, .ok true) := by decide +kernel
  have hs : ∀ n, afterPasses twiceAct (n + 1) = (addSemanticInfo twiceAct).1 := by
    intro n
    induction n with
    | zero => rfl
    | succ n ih => rw [afterPasses, ih, h1]
  apply hn
  unfold answer
  cases n with
  | zero => exact h0
  | succ n => rw [hs, h1]

/-! `lateAct` is unambiguous, and its second pass finds nothing new. -/

theorem increasing_pairwise {l : List Str} (h : Increasing l) :
    l.Pairwise fun a b => a.map Char.toNat < b.map Char.toNat := by
  induction l with
  | nil => exact .nil
  | cons k l ih => exact .cons h.1 (ih h.2)

theorem increasing_sublist {l m : List Str} (hl : Increasing l) (hm : Increasing m) (h : l ⊆ m) : l ∈ m.sublists := by
  have : Std.Antisymm fun a b : Str => a.map Char.toNat < b.map Char.toNat :=
    ⟨fun a b h1 h2 => absurd (List.lt_trans h1 h2) (List.lt_irrefl _)⟩
  exact List.mem_sublists.2 (List.sublist_of_subperm_of_pairwise ((increasing_nodup hl).subperm h)
    (increasing_pairwise hl) (increasing_pairwise hm))

theorem late_possible {a : Str} (h : Possible lateAct a) : a ∈ [str!" Btk.", str!": Btk.", str!"Btk."] := by
  rcases h with h | ⟨s, hs, h⟩
  · cases h
  · have h := introduces_mem h
    have : ∀ s ∈ sentences lateAct, ∀ a ∈ introducedIn s, a ∈ [str!" Btk.", str!": Btk.", str!"Btk."] := by
      decide +kernel
    exact this s hs a h

theorem late_unambiguous : Spec.Unambiguous lateAct := by
  have key : ∀ a v, MayMean lateAct a v → v = btkAct := by
    rintro a v (h | ⟨s, hs, known, root, new, h1, h2, h3, h4, h5⟩)
    · cases h
    · have hk := increasing_sublist h1 (m := [str!" Btk.", str!": Btk.", str!"Btk."])
        (by simp only [Increasing]; decide) fun b hb => late_possible (h2 b hb)
      have : ∀ s ∈ sentences lateAct, ∀ known ∈ [str!" Btk.", str!": Btk.", str!"Btk."].sublists,
          ∀ new ∈ (Grammar.parse s known).bind getNewAbbreviations, ∀ e ∈ new, e.2 = btkAct := by decide +kernel
      exact this s hs known hk new (by rw [h3]; exact h4) (a, v) h5
  intro a v w hv hw
  rw [key a v hv, key a w hw]

example : ∃ n ≤ 3, answer lateAct n ≠ .ok true :=
  C111_settles_partial lateAct (by intro e he; cases he) trivial late_unambiguous
    [str!" Btk.", str!": Btk.", str!"Btk."] fun _ h => late_possible h

example : answer lateAct 0 = .ok true ∧ answer lateAct 1 = .ok false := by decide +kernel

end HunLaw.Props
