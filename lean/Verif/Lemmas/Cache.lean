import Verif.Spec.Semantic

/-! Lemmas about the map of abbreviations. -/

set_option autoImplicit false

namespace HunLaw

open Semantic Spec

theorem mapGet_insert_self (k : Str) (v : ActId) (m : List (Str × ActId)) :
    mapGet k (mapInsert k v m) = some v := by
  unfold mapGet
  induction m with
  | nil => simp [mapInsert]
  | cons e m ih =>
    obtain ⟨k', v'⟩ := e
    rw [mapInsert]
    split
    · simp
    · rename_i h
      split
      · simp
      · rw [List.lookup_cons, beq_false_of_ne h]; exact ih

theorem mapGet_insert_ne {k k' : Str} (h : k' ≠ k) (v : ActId) (m : List (Str × ActId)) :
    mapGet k' (mapInsert k v m) = mapGet k' m := by
  unfold mapGet
  induction m with
  | nil => simp [mapInsert, h]
  | cons e m ih =>
    obtain ⟨k1, v1⟩ := e
    rw [mapInsert]
    split
    · rename_i hk; subst hk; simp [List.lookup_cons, beq_false_of_ne h]
    · split
      · simp [List.lookup_cons, beq_false_of_ne h]
      · rw [List.lookup_cons, List.lookup_cons, ih]

theorem resolve_add (c : Cache) (k : Str) (v : ActId) (k' : Str) :
    (c.add k v).resolve k' = if k' = k then some v else c.resolve k' := by
  unfold Cache.add Cache.resolve
  by_cases h : k' = k
  · subst h
    rw [if_pos rfl]
    split
    · split
      · exact mapGet_insert_self ..
      · rename_i h1 h2; simp at h2; rw [h1, h2]
    · exact mapGet_insert_self ..
  · rw [if_neg h]
    split
    · split
      · exact mapGet_insert_ne h ..
      · rfl
    · exact mapGet_insert_ne h ..

theorem addMultiple_append (c : Cache) (l m : List (Str × ActId)) :
    c.addMultiple (l ++ m) = (c.addMultiple l).addMultiple m := by
  simp [Cache.addMultiple]

theorem resolve_addMultiple (c : Cache) (l : List (Str × ActId)) (k : Str) :
    (c.addMultiple l).resolve k = match lastDefined k l with
      | some v => some v
      | none => c.resolve k := by
  induction l generalizing c with
  | nil => rfl
  | cons e l ih =>
    obtain ⟨k', v⟩ := e
    have : c.addMultiple ((k', v) :: l) = (c.add k' v).addMultiple l := rfl
    rw [this, ih, lastDefined]
    rcases lastDefined k l with _ | w
    · simp only [resolve_add]
      by_cases h : k = k'
      · subst h; simp
      · rw [if_neg h, if_neg (fun x => h x.symm)]
    · rfl

theorem hasChanged_add (c : Cache) (k : Str) (v : ActId) :
    (c.add k v).hasChanged = true ↔ c.hasChanged = true ∨ c.resolve k ≠ some v := by
  unfold Cache.add Cache.resolve
  split
  · rename_i w hw
    split
    · rename_i h; simp [hw, h]
    · rename_i h; simp at h; simp [hw, h]
  · rename_i h; simp [h]

/-! The order of the keys. -/

theorem strLt_iff (s t : Str) : strLt s t = true ↔ s.map Char.toNat < t.map Char.toNat := by
  induction s generalizing t with
  | nil => cases t <;> simp [strLt]
  | cons a s ih =>
    cases t with
    | nil => simp [strLt]
    | cons b t =>
      simp only [strLt, Bool.or_eq_true, decide_eq_true_eq, Bool.and_eq_true, beq_iff_eq, ih, List.map_cons,
        List.cons_lt_cons_iff]

theorem codes_inj {s t : Str} (h : s.map Char.toNat = t.map Char.toNat) : s = t := by
  induction s generalizing t with
  | nil => cases t <;> simp_all
  | cons a s ih =>
    cases t with
    | nil => simp at h
    | cons b t =>
      simp only [List.map_cons, List.cons.injEq] at h
      rw [Char.toNat_inj.1 h.1, ih h.2]

theorem mem_mapInsert {k : Str} {v : ActId} {m : List (Str × ActId)} {k' : Str}
    (h : k' ∈ (mapInsert k v m).map (·.1)) : k' = k ∨ k' ∈ m.map (·.1) := by
  induction m with
  | nil => simp [mapInsert] at h; exact .inl h
  | cons e m ih =>
    obtain ⟨k1, v1⟩ := e
    rw [mapInsert] at h
    split at h
    · rename_i hk; subst hk; right; simpa using h
    · split at h
      · simp only [List.map_cons, List.mem_cons] at h ⊢; exact h
      · simp only [List.map_cons, List.mem_cons] at h ⊢
        rcases h with h | h
        · exact .inr (.inl h)
        · rcases ih h with h | h
          · exact .inl h
          · exact .inr (.inr h)

theorem mapInsert_increasing (k : Str) (v : ActId) {m : List (Str × ActId)}
    (h : Increasing (m.map (·.1))) : Increasing ((mapInsert k v m).map (·.1)) := by
  induction m with
  | nil => simp [mapInsert, Increasing]
  | cons e m ih =>
    obtain ⟨k1, v1⟩ := e
    simp only [List.map_cons, Increasing] at h
    rw [mapInsert]
    split
    · rename_i hk; subst hk; simpa [Increasing] using h
    · rename_i hne
      split
      · rename_i hlt
        rw [strLt_iff] at hlt
        simp only [List.map_cons, Increasing]
        refine ⟨fun k' hk' => ?_, h⟩
        rcases List.mem_cons.1 hk' with rfl | hk'
        · exact hlt
        · exact List.lt_trans hlt (h.1 k' hk')
      · rename_i hnlt
        rw [strLt_iff] at hnlt
        simp only [List.map_cons, Increasing]
        refine ⟨fun k' hk' => ?_, ih h.2⟩
        rcases mem_mapInsert hk' with rfl | hk'
        · rcases List.le_iff_lt_or_eq.1 (List.not_lt.1 hnlt) with h1 | h1
          · exact h1
          · exact absurd (codes_inj h1).symm hne
        · exact h.1 k' hk'

theorem add_increasing (c : Cache) (k : Str) (v : ActId) (h : Increasing c.allAbbreviations) :
    Increasing (c.add k v).allAbbreviations := by
  unfold Cache.add Cache.allAbbreviations at *
  split
  · split
    · exact mapInsert_increasing k v h
    · exact h
  · exact mapInsert_increasing k v h

theorem addMultiple_increasing (c : Cache) (l : List (Str × ActId)) (h : Increasing c.allAbbreviations) :
    Increasing (c.addMultiple l).allAbbreviations := by
  induction l generalizing c with
  | nil => exact h
  | cons e l ih => exact ih _ (add_increasing c e.1 e.2 h)

theorem mem_allAbbreviations (c : Cache) (k : Str) : k ∈ c.allAbbreviations ↔ (c.resolve k).isSome = true := by
  unfold Cache.allAbbreviations Cache.resolve mapGet
  generalize c.cache = m
  induction m with
  | nil => simp
  | cons e m ih =>
    obtain ⟨k1, v1⟩ := e
    rw [List.lookup_cons, List.map_cons, List.mem_cons, ih]
    by_cases h : k = k1
    · subst h; simp
    · simp [h, beq_false_of_ne h]

end HunLaw
