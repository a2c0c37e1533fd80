import Verif.Lemmas.Downloader

/-! Property theorems about the gazette downloader: C55 and C56. -/

set_option autoImplicit false

namespace HunLaw.Props

open HunLaw HunLaw.Spec

/-! ### C56: names of issues -/

/-- A descriptor is accepted exactly if it is two numbers of 64 bits with a slash between them, and it
is read as these two numbers. -/
theorem C56_descriptor (s : Str) (m : MkIssue) :
    MkIssue.ofStr s = some m ↔
      ∃ year issue, s = year ++ '/' :: issue ∧ DenotesInt year m.year ∧ DenotesInt issue m.issue ∧
        Fits64 m.year ∧ Fits64 m.issue := by
  have hb : ∀ i : Int, Fits64 i ↔ i64Min ≤ i ∧ i ≤ i64Max := by
    intro i; unfold Fits64 i64Min i64Max; omega
  constructor
  · intro h
    unfold MkIssue.ofStr at h
    split at h
    · rename_i a b hs
      obtain ⟨y, hy, h⟩ := Option.bind_eq_some_iff.1 h
      obtain ⟨i, hi, h⟩ := Option.bind_eq_some_iff.1 h
      obtain rfl := Option.some.inj h
      rw [parseSigned_iff] at hy hi
      exact ⟨a, b, splitAll_two hs, hy.1, hi.1, (hb _).2 hy.2, (hb _).2 hi.2⟩
    · cases h
  · rintro ⟨a, b, rfl, hy, hi, fy, fi⟩
    unfold MkIssue.ofStr
    rw [splitAll_append (denotesInt_no_slash hy), splitAll_none (denotesInt_no_slash hi)]
    simp only
    rw [parseSigned_iff.2 ⟨hy, (hb _).1 fy⟩, parseSigned_iff.2 ⟨hi, (hb _).1 fi⟩]
    rfl

example : MkIssue.ofStr str!"2022/105" = some ⟨2022, 105⟩ := by decide +kernel
example : MkIssue.ofStr str!"2022/105/1" = none ∧ MkIssue.ofStr str!"2022" = none ∧
    MkIssue.ofStr str!"2022/ 5" = none := by decide +kernel

/-- Issues with the same cache file are the same. -/
theorem C56_cache_file (m n : MkIssue) (h : m.cacheKey = n.cacheKey) : m = n := by
  unfold MkIssue.cacheKey at h
  rw [List.append_assoc, List.append_assoc] at h
  obtain ⟨h1, h2⟩ := append_sep_inj (decInt_not_mem (by decide) (by decide))
    (decInt_not_mem (by decide) (by decide)) (List.append_cancel_left h)
  have h2 := List.append_cancel_right h2
  have h1 := decInt_injective h1
  have h2 := decInt_injective h2
  cases m; cases n
  simp_all

/-- C56: the cache file of an issue is named by its year and its number, without padding. The address has the last two
digits of the year and at least three characters of the number. -/
theorem C56_names (m : MkIssue) :
    (∃ year issue, m.cacheKey = str!"MK/" ++ year ++ str!"/" ++ issue ++ str!".pdf" ∧
      WrittenInt 0 year m.year ∧ WrittenInt 0 issue m.issue) ∧
    ∃ year issue, m.url = str!"http://www.kozlonyok.hu/nkonline/MKPDF/hiteles/MK" ++ year ++ issue ++ str!".pdf" ∧
      WrittenInt 2 year (if 0 ≤ m.year then m.year % 100 else -(-m.year % 100)) ∧ WrittenInt 3 issue m.issue := by
  refine ⟨⟨_, _, ?_, decInt_written _, decInt_written _⟩, _, _, rfl, ?_, padInt_written _ _⟩
  · simp [MkIssue.cacheKey]
  · have : m.year.tmod 100 = if 0 ≤ m.year then m.year % 100 else -(-m.year % 100) := by
      split
      · exact Int.tmod_eq_emod_of_nonneg ‹_›
      · rw [← Int.tmod_eq_emod_of_nonneg (a := -m.year) (by omega), Int.neg_tmod, Int.neg_neg]
    exact this ▸ padInt_written _ _

/-- The address of an issue determines it among the issues of a century. -/
theorem C56_address (m n : MkIssue) (hm : 0 ≤ m.year) (hn : 0 ≤ n.year)
    (hc : m.year / 100 = n.year / 100) (h : m.url = n.url) : m = n := by
  unfold MkIssue.url at h
  have h := List.append_cancel_right h
  rw [List.append_assoc, List.append_assoc] at h
  have h := List.append_cancel_left h
  rw [Int.tmod_eq_emod_of_nonneg hm, Int.tmod_eq_emod_of_nonneg hn] at h
  have hl : (padInt 2 (m.year % 100)).length = (padInt 2 (n.year % 100)).length := by
    rw [padInt_two (by omega) (by omega), padInt_two (by omega) (by omega)]
  obtain ⟨h1, h2⟩ := List.append_inj h hl
  have h1 := padInt_injective h1
  have h2 := padInt_injective h2
  cases m; cases n
  simp_all; omega

example : (⟨2022, 5⟩ : MkIssue).cacheKey = str!"MK/2022/5.pdf" := by decide +kernel

example : (⟨-5, -5⟩ : MkIssue).url =
    str!"http://www.kozlonyok.hu/nkonline/MKPDF/hiteles/MK-5-05.pdf" := by decide +kernel

example : (⟨2022, 5⟩ : MkIssue).url =
    str!"http://www.kozlonyok.hu/nkonline/MKPDF/hiteles/MK22005.pdf" := by decide +kernel

/-- The hypothesis about the century is needed: issues a hundred years apart have the same address. -/
example : (⟨1922, 5⟩ : MkIssue).url = (⟨2022, 5⟩ : MkIssue).url := by decide +kernel

/-! ### C55: the cache -/

/-- If the cache has a file for the issue, the answer is this file whatever the network would say, the
network is not asked and the disk is not changed. Otherwise the network is asked, and a success is what
it sent. -/
theorem C55_answer (m : MkIssue) (d : Disk) (w : World) :
    (∀ cached, d m.cacheKey = some cached →
      downloadMkIssue m d w = ([d], .ok cached) ∧ asksNetwork m d = false) ∧
    (d m.cacheKey = none → asksNetwork m d = true ∧
      (∀ b, (downloadMkIssue m d w).2 = .ok b → w.body = some b) ∧
      (∀ b, w.body = some b → w.dirFails = false → w.room = none →
        (downloadMkIssue m d w).2 = .ok b ∧
          (downloadMkIssue m d w).1.getLast? = some (d.store m.cacheKey b))) := by
  constructor
  · intro cached h
    simp [downloadMkIssue, asksNetwork, h]
  · intro h
    refine ⟨by simp [asksNetwork, h], ?_, ?_⟩
    · intro b hb
      cases hw : w.body with
      | none => simp [downloadMkIssue, h, hw] at hb
      | some body =>
        simp only [downloadMkIssue, h, hw] at hb
        split at hb
        · cases hb
        · simp only at hb
          split at hb
          · cases hb
          · cases hb; rfl
    · intro b hb hdir hroom
      simp only [downloadMkIssue, h, hb, hdir, hroom, writeFails, Bool.false_eq_true, if_false,
        true_and]
      rw [List.getLast?_cons, writeStates_last]; rfl

/-- The network is not asked again after a success: the next run answers the same. -/
theorem C55_once (m : MkIssue) (d d' : Disk) (w w' : World) (b : Bytes)
    (h : (downloadMkIssue m d w).2 = .ok b) (hd : (downloadMkIssue m d w).1.getLast? = some d') :
    asksNetwork m d' = false ∧ downloadMkIssue m d' w' = ([d'], .ok b) := by
  have key : d' m.cacheKey = some b := by
    cases hk : d m.cacheKey with
    | some c =>
      simp only [downloadMkIssue, hk] at h hd
      cases h
      cases hd
      exact hk
    | none =>
      cases hw : w.body with
      | none => simp [downloadMkIssue, hk, hw] at h
      | some body =>
        simp only [downloadMkIssue, hk, hw] at h hd
        split at h
        · cases h
        · rename_i hdir
          simp only [hdir, Bool.false_eq_true, if_false] at h hd
          split at h
          · cases h
          · rename_i hf
            cases h
            have hs : writeStates d m.cacheKey b w.room = writeStates d m.cacheKey b none := by
              unfold writeFails at hf
              cases hr : w.room with
              | none => rfl
              | some n =>
                simp only [hr, decide_eq_true_eq, Nat.not_lt] at hf
                unfold writeStates
                simp only
                rw [Nat.min_eq_right hf]
            rw [hs, List.getLast?_cons, writeStates_last] at hd
            cases hd
            exact store_self ..
  exact ⟨by simp [asksNetwork, key], by simp [downloadMkIssue, key]⟩

/-- A run, even if it is killed, touches no file of another issue. -/
theorem C55_others (m n : MkIssue) (hmn : m ≠ n) (d d' : Disk) (w : World)
    (h : d' ∈ (downloadMkIssue m d w).1) : d' n.cacheKey = d n.cacheKey := by
  have hk : n.cacheKey ≠ m.cacheKey := fun e => hmn (C56_cache_file _ _ e).symm
  unfold downloadMkIssue at h
  split at h
  · cases List.mem_singleton.1 h; rfl
  · split at h
    · cases List.mem_singleton.1 h; rfl
    · split at h
      · cases List.mem_singleton.1 h; rfl
      · rcases List.mem_cons.1 h with rfl | h
        · rfl
        · obtain ⟨k, rfl⟩ := mem_writeStates h
          exact store_other _ _ hk

/-- The full property: after any history, a successful answer is the complete body which the server has
sent for this issue. -/
def C55_statement : Prop :=
  ∀ (d : Disk) (served : List (MkIssue × Bytes)) (m : MkIssue) (w : World) (b : Bytes),
    History d served → (downloadMkIssue m d w).2 = .ok b → (m, b) ∈ served ∨ w.body = some b

/-- The program may be killed while it writes the file; the next run answers with the part which was
written. -/
theorem C55_violated : ¬ C55_statement := by
  intro h
  let m : MkIssue := ⟨2022, 5⟩
  let w : World := ⟨some [1, 2], false, none⟩
  let d : Disk := Disk.store (fun _ => none) m.cacheKey [1]
  have hd : History d [(m, [1, 2])] := by
    refine History.run m w .start ?_
    simp only [downloadMkIssue]
    refine List.mem_cons_of_mem _ ?_
    unfold writeStates
    exact List.mem_map.2 ⟨1, by decide, rfl⟩
  have := h d _ m w [1] hd (by simp [downloadMkIssue, d, store_self])
  rcases this with h | h
  · simp at h
  · simp [w] at h

/-- If no run is killed and writing does not fail, every successful answer is the complete body which the
server has sent for this issue.
Missing: runs that are killed or run out of space while they write, for which it is false. -/
theorem C55_undisturbed_partial (d : Disk) (served : List (MkIssue × Bytes)) (m : MkIssue) (w : World)
    (b : Bytes) (hd : Undisturbed d served) (h : (downloadMkIssue m d w).2 = .ok b) :
    (m, b) ∈ served ∨ w.body = some b := by
  have inv : ∀ n c, d n.cacheKey = some c → (n, c) ∈ served := by
    clear h
    induction hd with
    | start => intro n c h; cases h
    | @run d served m w d' hd hr hl ih =>
      intro n c hc
      by_cases hmn : m = n
      · subst hmn
        cases hk : d m.cacheKey with
        | some c' =>
          have := (C55_answer m d w).1 c' hk
          rw [this.1] at hl
          cases hl
          exact List.mem_append_left _ (ih _ _ hc)
        | none =>
          cases hw : w.body with
          | none => simp [downloadMkIssue, hk, hw] at hl; subst hl; rw [hk] at hc; cases hc
          | some body =>
            cases hdf : w.dirFails with
            | true => simp [downloadMkIssue, hk, hw, hdf] at hl; subst hl; rw [hk] at hc; cases hc
            | false =>
              have := (((C55_answer m d w).2 hk).2.2 body hw hdf hr).2
              rw [this] at hl
              cases hl
              rw [store_self] at hc
              cases hc
              simp
      · have hm := List.mem_of_getLast? hl
        rw [C55_others m n hmn d d' w hm] at hc
        exact List.mem_append_left _ (ih _ _ hc)
  cases hk : d m.cacheKey with
  | some c =>
    rw [((C55_answer m d w).1 c hk).1] at h
    cases h
    exact .inl (inv _ _ hk)
  | none => exact .inr (((C55_answer m d w).2 hk).2.1 b h)

/-- After any history, also with runs that were killed, a successful answer is a body which the server
has sent for this issue or a beginning of one: never something of another issue and never a mixture. -/
theorem C55_beginning_partial (d : Disk) (served : List (MkIssue × Bytes)) (m : MkIssue) (w : World)
    (b : Bytes) (hd : History d served) (h : (downloadMkIssue m d w).2 = .ok b) :
    (∃ body, (m, body) ∈ served ∧ b <+: body) ∨ w.body = some b := by
  have inv : ∀ n c, d n.cacheKey = some c → ∃ body, (n, body) ∈ served ∧ c <+: body := by
    clear h
    induction hd with
    | start => intro n c h; cases h
    | @run d served m w d' hd hl ih =>
      intro n c hc
      have old : d n.cacheKey = some c → ∃ body,
          (n, body) ∈ served ++ (w.body.map fun b => (m, b)).toList ∧ c <+: body := fun hc => by
        obtain ⟨body, h1, h2⟩ := ih _ _ hc
        exact ⟨body, List.mem_append_left _ h1, h2⟩
      by_cases hmn : m = n
      · subst hmn
        cases hk : d m.cacheKey with
        | some c' =>
          rw [((C55_answer m d w).1 c' hk).1] at hl
          cases List.mem_singleton.1 hl
          exact old hc
        | none =>
          cases hw : w.body with
          | none =>
            simp only [downloadMkIssue, hk, hw, List.mem_singleton] at hl
            subst hl; rw [hk] at hc; cases hc
          | some body =>
            simp only [downloadMkIssue, hk, hw] at hl
            split at hl
            · cases List.mem_singleton.1 hl
              rw [hk] at hc; cases hc
            · rcases List.mem_cons.1 hl with rfl | hl
              · rw [hk] at hc; cases hc
              · obtain ⟨k, rfl⟩ := mem_writeStates hl
                rw [store_self] at hc
                cases hc
                exact ⟨body, by simp, List.take_prefix _ _⟩
      · rw [C55_others m n hmn d d' w hl] at hc
        exact old hc
  cases hk : d m.cacheKey with
  | some c =>
    rw [((C55_answer m d w).1 c hk).1] at h
    cases h
    exact .inl (inv _ _ hk)
  | none => exact .inr (((C55_answer m d w).2 hk).2.1 b h)

/-- A history with two issues, both cached. -/
example : ∃ d, Undisturbed d [(⟨2022, 5⟩, [1, 2]), (⟨2022, 6⟩, [3])] ∧
    d (⟨2022, 5⟩ : MkIssue).cacheKey = some [1, 2] ∧ d (⟨2022, 6⟩ : MkIssue).cacheKey = some [3] := by
  refine ⟨_, .run ⟨2022, 6⟩ ⟨some [3], false, none⟩ (.run ⟨2022, 5⟩ ⟨some [1, 2], false, none⟩ .start rfl
    rfl) rfl rfl, by decide +kernel, by decide +kernel⟩

end HunLaw.Props
