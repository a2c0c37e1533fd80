import Verif.Spec.Cli
import Verif.Lemmas.Downloader
import Verif.Props.OutputLines
import Verif.Props.Fixups
import Verif.Props.MkAct

/-! Properties C89 to C95: the command line program. -/

set_option autoImplicit false

namespace HunLaw.Props

open HunLaw Spec Cli

/-! ### C89 -/

theorem parseAll_iff {X : Type} {f : Str → Option X} {ids : List Str} {l : List X} :
    parseAll f ids = some l ↔ List.Forall₂ (fun s x => f s = some x) ids l := by
  induction ids generalizing l with
  | nil =>
    cases l with
    | nil => simp [parseAll]
    | cons x l => simp [parseAll]
  | cons s ids ih =>
    simp only [parseAll, Option.bind_eq_bind, Option.bind_eq_some_iff, Option.some.injEq]
    constructor
    · rintro ⟨x, hx, r, hr, rfl⟩
      exact .cons hx (ih.1 hr)
    · intro h
      cases h with
      | cons hx hr => exact ⟨_, hx, _, ih.2 hr, rfl⟩

theorem lookupIssue_iff {records : List (MkIssue × ActId)} {a : ActId} {m : MkIssue} :
    lookupIssue a records = some m ↔ FirstIssue records a m := by
  induction records with
  | nil => simp [lookupIssue, FirstIssue]
  | cons r l ih =>
    unfold lookupIssue
    split
    · rename_i hr
      constructor
      · intro h
        simp only [Option.some.injEq] at h
        exact ⟨[], l, by rw [← h, ← hr]; rfl, by simp⟩
      · rintro ⟨before, after, h1, h2⟩
        cases before with
        | nil =>
          simp only [List.nil_append, List.cons.injEq] at h1
          rw [h1.1]
        | cons x before =>
          simp only [List.cons_append, List.cons.injEq] at h1
          exact absurd (h1.1 ▸ hr) (h2 x (by simp))
    · rename_i hr
      rw [ih]
      constructor
      · rintro ⟨before, after, rfl, h2⟩
        refine ⟨r :: before, after, rfl, fun x hx => ?_⟩
        rcases List.mem_cons.1 hx with rfl | hx
        · exact hr
        · exact h2 x hx
      · rintro ⟨before, after, h1, h2⟩
        cases before with
        | nil =>
          simp only [List.nil_append, List.cons.injEq] at h1
          exact absurd (by rw [h1.1]) hr
        | cons x before =>
          simp only [List.cons_append, List.cons.injEq] at h1
          exact ⟨before, after, h1.2, fun y hy => h2 y (by simp [hy])⟩

theorem lookupIssue_none {records : List (MkIssue × ActId)} {a : ActId} :
    lookupIssue a records = none ↔ ∀ r ∈ records, r.2 ≠ a := by
  induction records with
  | nil => simp [lookupIssue]
  | cons r l ih =>
    unfold lookupIssue
    split
    · rename_i h
      simp [h]
    · rename_i h
      simp [ih, h]

theorem cmp_issue (m n : MkIssue) : (cmp m n = .lt ↔ EarlierIssue m n) ∧ (cmp m n = .eq ↔ m = n) ∧
    (cmp m n = .gt ↔ EarlierIssue n m) := by
  obtain ⟨y, i⟩ := m
  obtain ⟨y', i'⟩ := n
  have e : cmp (MkIssue.mk y i) (MkIssue.mk y' i') = (cmp y y').then (cmp i i') := rfl
  rw [e]
  simp only [EarlierIssue, MkIssue.mk.injEq]
  rcases hy : (cmp y y' : Ordering) with _ | _ | _ <;> rcases hi : (cmp i i' : Ordering) with _ | _ | _ <;>
    simp only [cmp_int_lt, cmp_int_eq, cmp_int_gt] at hy hi <;> simp [Ordering.then] <;> omega

theorem mem_setInsert (m x : MkIssue) (l : List MkIssue) : x ∈ setInsert m l ↔ x = m ∨ x ∈ l := by
  induction l with
  | nil => simp [setInsert]
  | cons y l ih =>
    unfold setInsert
    split
    · simp
    · rename_i h
      rw [(cmp_issue m y).2.1] at h
      subst h
      simp
    · simp only [List.mem_cons, ih]
      tauto

theorem setInsert_sorted (m : MkIssue) (l : List MkIssue) (h : l.Pairwise EarlierIssue) :
    (setInsert m l).Pairwise EarlierIssue := by
  induction l with
  | nil => simp [setInsert]
  | cons y l ih =>
    obtain ⟨h1, h2⟩ := List.pairwise_cons.1 h
    unfold setInsert
    split
    · rename_i hm
      rw [(cmp_issue m y).1] at hm
      refine List.pairwise_cons.2 ⟨fun x hx => ?_, h⟩
      rcases List.mem_cons.1 hx with rfl | hx
      · exact hm
      · have := h1 x hx
        simp only [EarlierIssue] at hm this ⊢
        omega
    · exact h
    · rename_i hm
      rw [(cmp_issue m y).2.2] at hm
      refine List.pairwise_cons.2 ⟨fun x hx => ?_, ih h2⟩
      rcases (mem_setInsert m x l).1 hx with rfl | hx
      · exact hm
      · exact h1 x hx

theorem collectIssues_ok {records : List (MkIssue × ActId)} {acts : List ActId} {set issues : List MkIssue}
    (h : collectIssues records acts set = .ok issues) :
    (∀ m, m ∈ issues ↔ m ∈ set ∨ ∃ a ∈ acts, FirstIssue records a m) ∧
      (set.Pairwise EarlierIssue → issues.Pairwise EarlierIssue) := by
  induction acts generalizing set with
  | nil =>
    simp only [collectIssues, Res.ok.injEq] at h
    subst h
    simp
  | cons a l ih =>
    unfold collectIssues at h
    split at h
    · rename_i m hm
      obtain ⟨h1, h2⟩ := ih h
      refine ⟨fun x => ?_, fun hs => h2 (setInsert_sorted m set hs)⟩
      rw [h1, mem_setInsert]
      simp only [List.mem_cons, exists_eq_or_imp]
      have : FirstIssue records a x ↔ x = m := by
        rw [← lookupIssue_iff, hm]
        simp [eq_comm]
      rw [this]
      tauto
    · cases hd : a.display <;> rw [hd] at h <;> cases h

theorem collectIssues_bad {records : List (MkIssue × ActId)} {acts : List ActId} {set : List MkIssue} :
    (∃ issues, collectIssues records acts set = .ok issues) ∨ ∃ a ∈ acts, (∀ r ∈ records, r.2 ≠ a) ∧
      collectIssues records acts set = (a.display >>= fun _ => .err) := by
  induction acts generalizing set with
  | nil => exact .inl ⟨set, rfl⟩
  | cons a l ih =>
    unfold collectIssues
    split
    · rename_i m hm
      rcases ih (set := setInsert m set) with h | ⟨b, hb, h⟩
      · exact .inl h
      · exact .inr ⟨b, by simp [hb], h⟩
    · rename_i hm
      exact .inr ⟨a, by simp, lookupIssue_none.1 hm, rfl⟩

/-- C89: with `--mk` the issues processed are the ones named on the command line, in that order, with all their acts. -/
theorem C89_issues (env : Env) (args : Args) (hb : args.byIssue = true) (issues : List MkIssue) (acts : List ActId) :
    getIssues env args = .ok (issues, acts) ↔
      List.Forall₂ (fun s m => MkIssue.ofStr s = some m) args.ids issues ∧ acts = [] := by
  unfold getIssues
  rw [if_pos hb, ← parseAll_iff]
  cases parseAll MkIssue.ofStr args.ids with
  | none => simp [Res.ofOption]
  | some l => simp [Res.ofOption, eq_comm]

/-- C89: otherwise they are the ones in which the acts named are according to the first record about them, from the
earliest to the last, without repetition. -/
theorem C89_acts (env : Env) (args : Args) (hb : args.byIssue = false) (issues : List MkIssue) (acts : List ActId)
    (h : getIssues env args = .ok (issues, acts)) :
    List.Forall₂ (fun s a => ActId.parse s = some a) args.ids acts ∧ ∃ records, env.records = some records ∧
      issues.Pairwise EarlierIssue ∧ ∀ m, m ∈ issues ↔ ∃ a ∈ acts, FirstIssue records a m := by
  unfold getIssues at h
  rw [if_neg (by simp [hb])] at h
  simp only [Res.bind_eq_ok] at h
  obtain ⟨acts', h1, records, h2, issues', h3, h4⟩ := h
  cases h4
  obtain ⟨h4, h5⟩ := collectIssues_ok h3
  refine ⟨parseAll_iff.1 ?_, records, ?_, h5 .nil, by simpa using h4⟩
  · cases hp : parseAll ActId.parse args.ids <;> simp_all [Res.ofOption]
  · cases hp : env.records <;> simp_all [Res.ofOption]

theorem parseAll_none {X : Type} {f : Str → Option X} {ids : List Str} :
    parseAll f ids = none ↔ ∃ s ∈ ids, f s = none := by
  induction ids with
  | nil => simp [parseAll]
  | cons s ids ih =>
    cases h : f s with
    | none => simp [parseAll, h]
    | some x =>
      simp only [parseAll, Option.bind_eq_bind, h, Option.bind_some, List.mem_cons, exists_eq_or_imp, ← ih]
      cases parseAll f ids <;> simp

theorem forall₂_mem_right {X Y : Type} {R : X → Y → Prop} {l : List X} {l' : List Y} (h : List.Forall₂ R l l') {y : Y}
    (hy : y ∈ l') : ∃ x ∈ l, R x y := by
  induction h with
  | nil => simp at hy
  | cons h1 _ ih =>
    rcases List.mem_cons.1 hy with rfl | hy
    · exact ⟨_, by simp, h1⟩
    · obtain ⟨x, hx, hr⟩ := ih hy
      exact ⟨x, by simp [hx], hr⟩

theorem forall₂_mem_left {X Y : Type} {R : X → Y → Prop} {l : List X} {l' : List Y} (h : List.Forall₂ R l l') {x : X}
    (hx : x ∈ l) : ∃ y ∈ l', R x y := by
  induction h with
  | nil => simp at hx
  | cons h1 _ ih =>
    rcases List.mem_cons.1 hx with rfl | hx
    · exact ⟨_, by simp, h1⟩
    · obtain ⟨y, hy, hr⟩ := ih hx
      exact ⟨y, by simp [hy], hr⟩

theorem collectIssues_missing {records : List (MkIssue × ActId)} {acts : List ActId} {set : List MkIssue} {a : ActId}
    (ha : a ∈ acts) (hr : ∀ r ∈ records, r.2 ≠ a) (issues : List MkIssue) :
    collectIssues records acts set ≠ .ok issues := by
  induction acts generalizing set with
  | nil => simp at ha
  | cons b l ih =>
    unfold collectIssues
    split
    · rename_i m hm
      rcases List.mem_cons.1 ha with rfl | ha
      · rw [lookupIssue_none.2 hr] at hm
        cases hm
      · exact ih ha
    · cases b.display <;> simp [bind, Res.bind]

/-- C89: nothing is processed exactly if something on the command line is not the identifier of an act, the table
cannot be read or one of the acts is not in it. -/
theorem C89_refused (env : Env) (args : Args) (hb : args.byIssue = false) :
    (∀ x, getIssues env args ≠ .ok x) ↔ (∃ s ∈ args.ids, ActId.parse s = none) ∨ env.records = none ∨
      ∃ records, env.records = some records ∧ ∃ s ∈ args.ids, ∃ a, ActId.parse s = some a ∧ ∀ r ∈ records, r.2 ≠ a := by
  unfold getIssues
  rw [if_neg (by simp [hb])]
  cases hp : parseAll ActId.parse args.ids with
  | none =>
    rw [parseAll_none] at hp
    simp [Res.ofOption, hp]
  | some acts =>
    have hp' : ¬ ∃ s ∈ args.ids, ActId.parse s = none := by
      rw [← parseAll_none, hp]
      simp
    cases hr : env.records with
    | none => simp [Res.ofOption]
    | some records =>
      rw [parseAll_iff] at hp
      simp only [hp', false_or, Res.ofOption, Res.bind_ok, reduceCtorEq, Option.some.injEq, exists_eq_left']
      constructor
      · intro h
        rcases collectIssues_bad (records := records) (acts := acts) (set := []) with ⟨i, hi⟩ | ⟨a, ha, h1, -⟩
        · rw [hi] at h
          exact absurd rfl (h (i, acts))
        · obtain ⟨s, hs, hsa⟩ := forall₂_mem_right hp ha
          exact ⟨s, hs, a, hsa, h1⟩
      · rintro ⟨s, hs, a, hsa, h1⟩ x hx
        obtain ⟨b, hb, hsb⟩ := forall₂_mem_left hp hs
        rw [hsa] at hsb
        cases hsb
        rw [Res.bind_eq_ok] at hx
        obtain ⟨i, hi, -⟩ := hx
        exact collectIssues_missing hb h1 i hi

/-- Nothing can go wrong around the program: everything can be fetched, created and formatted. -/
def easyEnv (records : List (MkIssue × ActId)) (pages : MkIssue → Res (List Page)) : Env :=
  ⟨some records, pages, fun _ => .ok [], fun _ => true, fun _ => [], simpleWrap, asciiUpper, fun _ _ => .ok [],
    fun _ _ => .ok [], fun _ _ => .ok []⟩

/-- The arguments with which acts are written into a directory as text. -/
def plainArgs (ids : List Str) : Args := ⟨ids, false, .plain, .semantic, false, false, some str!"out", 105⟩

/-- Two acts in the same issue and one in an earlier one. -/
def someRecords : List (MkIssue × ActId) :=
  [(⟨2013, 31⟩, ⟨⟨2013, by decide⟩, ⟨5, by decide⟩⟩), (⟨2012, 92⟩, ⟨⟨2012, by decide⟩, ⟨100, by decide⟩⟩),
    (⟨2013, 31⟩, ⟨⟨2013, by decide⟩, ⟨6, by decide⟩⟩)]

example : getIssues (easyEnv someRecords fun _ => .err) (plainArgs [str!"2013/6", str!"2012/100", str!"2013. évi V. törvény"]) =
    .ok ([⟨2012, 92⟩, ⟨2013, 31⟩], [⟨⟨2013, by decide⟩, ⟨6, by decide⟩⟩, ⟨⟨2012, by decide⟩, ⟨100, by decide⟩⟩,
      ⟨⟨2013, by decide⟩, ⟨5, by decide⟩⟩]) := by
  decide +kernel

example : getIssues (easyEnv someRecords fun _ => .err) (plainArgs [str!"2013/7"]) = .err ∧
    getIssues (easyEnv someRecords fun _ => .err) (plainArgs [str!"6x"]) = .err := by
  decide +kernel

/-! ### The run -/

theorem actsLoop_smooth {env : Env} {args : Args} {acts : List ActId} {l : List ActRawText} {run run' : Run}
    {r : Option (Res Unit)} (h : actsLoop env args acts l run = (run', r)) (hr : r ≠ some .panic) (hn : r ≠ none)
    (ho : ∀ a ∈ l.filter (fun a => acts.isEmpty || acts.contains a.identifier), ∃ e, OpensAs env args a e) :
    r = some (.ok ()) ∧
    run'.log = run.log ++
      (l.filter (fun a => acts.isEmpty || acts.contains a.identifier)).flatMap (outputEvents env args) ∧
    (run'.ok = true ↔ run.ok = true ∧ ∀ a ∈ l.filter (fun a => acts.isEmpty || acts.contains a.identifier),
      (process env args a).2 = some (.ok ())) ∧
    ∀ a ∈ l.filter (fun a => acts.isEmpty || acts.contains a.identifier),
      (process env args a).2 = some (.ok ()) ∨ (process env args a).2 = some .err := by
  induction l generalizing run with
  | nil =>
    simp only [actsLoop, Prod.mk.injEq] at h
    obtain ⟨rfl, rfl⟩ := h
    simp
  | cons a l ih =>
    unfold actsLoop at h
    split at h
    · rename_i hw
      have hf : (acts.isEmpty || acts.contains a.identifier) = false := by
        simp only [Bool.and_eq_true, Bool.not_eq_true'] at hw
        rw [hw.1, hw.2]
        rfl
      rw [List.filter_cons_of_neg (p := fun a : ActRawText => acts.isEmpty || acts.contains a.identifier) (by rw [hf]; simp)] at ho ⊢
      exact ih h ho
    · rename_i hw
      have hf : (acts.isEmpty || acts.contains a.identifier) = true := by
        simp only [Bool.and_eq_true, Bool.not_eq_true', not_and, Bool.not_eq_false] at hw
        cases he : acts.isEmpty with
        | true => rfl
        | false => rw [hw he]; rfl
      rw [List.filter_cons_of_pos (p := fun a : ActRawText => acts.isEmpty || acts.contains a.identifier) hf] at ho ⊢
      obtain ⟨e, name, hd, hg⟩ := ho a (by simp)
      have ho' := fun b hb => ho b (List.mem_cons_of_mem _ hb)
      have hev : outputEvents env args a = [e, .write (process env args a).1] := by
        simp only [outputEvents, hd, hg]
      simp only [hd, hg] at h
      rw [List.flatMap_cons, hev]
      rcases hp : process env args a with ⟨s, x⟩
      rw [hp] at h
      match x, h, hp with
      | none, h, hp =>
        simp only [Prod.mk.injEq] at h
        exact absurd h.2.symm hn
      | some .panic, h, hp =>
        simp only [Prod.mk.injEq] at h
        exact absurd h.2.symm hr
      | some .err, h, hp =>
        obtain ⟨h1, h2, h3, h4⟩ := ih h ho'
        refine ⟨h1, by rw [h2]; simp, ?_, ?_⟩
        · rw [h3]
          simp [hp]
        · intro b hb
          rcases List.mem_cons.1 hb with rfl | hb
          · exact .inr (by rw [hp])
          · exact h4 b hb
      | some (.ok ()), h, hp =>
        obtain ⟨h1, h2, h3, h4⟩ := ih h ho'
        refine ⟨h1, by rw [h2]; simp, ?_, ?_⟩
        · rw [h3]
          simp [hp]
        · intro b hb
          rcases List.mem_cons.1 hb with rfl | hb
          · exact .inl (by rw [hp])
          · exact h4 b hb

theorem processIssue_smooth {env : Env} {args : Args} {acts : List ActId} {m : MkIssue} {run run' : Run}
    {r : Option (Res Unit)} (h : processIssue env args acts m run = (run', r)) (hr : r ≠ some .panic) (hn : r ≠ none)
    (hs : args.parseUntil ≠ .pdfLines) (ho : ∀ a ∈ wantedActs env acts m, ∃ e, OpensAs env args a e) :
    run'.log = run.log ++ (wantedActs env acts m).flatMap (outputEvents env args) ∧
    (run'.ok = true ↔ run.ok = true ∧ ∀ a ∈ wantedActs env acts m, (process env args a).2 = some (.ok ())) ∧
    ∀ a ∈ wantedActs env acts m, (process env args a).2 = some (.ok ()) ∨ (process env args a).2 = some .err := by
  unfold processIssue at h
  unfold wantedActs issueActs at *
  cases hf : env.fetch m with
  | err =>
    rw [hf] at h
    simp only [Prod.mk.injEq] at h
    obtain ⟨rfl, -⟩ := h
    simp
  | panic =>
    rw [hf] at h
    simp only [Prod.mk.injEq] at h
    exact absurd h.2.symm hr
  | ok pages =>
    rw [hf] at h ho
    simp only [if_neg hs] at h
    cases hp : parseMkPagesIntoActs pages with
    | none =>
      rw [hp] at h
      simp only [Prod.mk.injEq] at h
      obtain ⟨rfl, -⟩ := h
      simp [hp]
    | some l =>
      rw [hp] at h
      simp only [hp, Option.getD_some] at h ho ⊢
      exact (actsLoop_smooth h hr hn ho).2

theorem issuesLoop_smooth {env : Env} {args : Args} {acts : List ActId} {issues : List MkIssue} {run run' : Run}
    {r : Option (Res Unit)} (h : issuesLoop env args acts issues run = (run', r)) (hr : r ≠ some .panic)
    (hn : r ≠ none) (hs : args.parseUntil ≠ .pdfLines)
    (ho : ∀ m ∈ issues, ∀ a ∈ wantedActs env acts m, ∃ e, OpensAs env args a e) :
    run'.log = run.log ++ issues.flatMap (fun m => (wantedActs env acts m).flatMap (outputEvents env args)) ∧
    (run'.ok = true ↔ run.ok = true ∧ ∀ m ∈ issues, ∀ a ∈ wantedActs env acts m,
      (process env args a).2 = some (.ok ())) ∧
    (∀ m ∈ issues, ∀ a ∈ wantedActs env acts m,
      (process env args a).2 = some (.ok ()) ∨ (process env args a).2 = some .err) ∧
    r = some (if run'.ok then .ok () else .err) := by
  induction issues generalizing run with
  | nil =>
    simp only [issuesLoop, Prod.mk.injEq] at h
    obtain ⟨rfl, rfl⟩ := h
    simp
  | cons m l ih =>
    unfold issuesLoop at h
    rcases hp : processIssue env args acts m run with ⟨run₁, x⟩
    rw [hp] at h
    have key : x ≠ some .panic → x ≠ none → issuesLoop env args acts l run₁ = (run', r) → _ := fun h1 h2 h3 => by
      obtain ⟨a1, a2, a3⟩ := processIssue_smooth hp h1 h2 hs (ho m (by simp))
      obtain ⟨b1, b2, b3, b4⟩ := ih h3 (fun m' hm' => ho m' (by simp [hm']))
      exact And.intro (And.intro a1 (And.intro a2 a3)) (And.intro b1 (And.intro b2 (And.intro b3 b4)))
    match x, h, key with
    | none, h, _ =>
      simp only [Prod.mk.injEq] at h
      exact absurd h.2.symm hn
    | some .panic, h, _ =>
      simp only [Prod.mk.injEq] at h
      exact absurd h.2.symm hr
    | some .err, h, key =>
      obtain ⟨⟨a1, a2, a3⟩, b1, b2, b3, b4⟩ := key (by simp) (by simp) h
      refine ⟨by rw [b1, a1]; simp, ?_, ?_, b4⟩
      · rw [b2, a2]
        simp [and_assoc]
      · intro m' hm'
        rcases List.mem_cons.1 hm' with rfl | hm'
        · exact a3
        · exact b3 m' hm'
    | some (.ok ()), h, key =>
      obtain ⟨⟨a1, a2, a3⟩, b1, b2, b3, b4⟩ := key (by simp) (by simp) h
      refine ⟨by rw [b1, a1]; simp, ?_, ?_, b4⟩
      · rw [b2, a2]
        simp [and_assoc]
      · intro m' hm'
        rcases List.mem_cons.1 hm' with rfl | hm'
        · exact a3
        · exact b3 m' hm'

theorem main_smooth {env : Env} {args : Args} {issues : List MkIssue} {acts : List ActId} {log : List Event}
    {r : Res Unit} (hi : getIssues env (effective args) = .ok (issues, acts)) (h : main env args = (log, some r))
    (hr : r ≠ .panic) (hs : args.parseUntil ≠ .pdfLines)
    (ho : ∀ m ∈ issues, ∀ a ∈ wantedActs env acts m, ∃ e, OpensAs env (effective args) a e) :
    log = issues.flatMap (fun m => (wantedActs env acts m).flatMap (outputEvents env (effective args))) ∧
    (r = .ok () ↔ ∀ m ∈ issues, ∀ a ∈ wantedActs env acts m,
      (process env (effective args) a).2 = some (.ok ())) ∧
    ∀ m ∈ issues, ∀ a ∈ wantedActs env acts m, (process env (effective args) a).2 = some (.ok ()) ∨
      (process env (effective args) a).2 = some .err := by
  unfold main at h
  rw [hi] at h
  simp only [Prod.mk.injEq] at h
  have hs' : (effective args).parseUntil ≠ .pdfLines := by
    unfold effective
    split
    · exact hs
    · exact hs
  obtain ⟨h1, h2⟩ := h
  obtain ⟨a1, a2, a3, a4⟩ := issuesLoop_smooth (run := ⟨[], true⟩) (r := some r) (Prod.ext rfl h2)
    (by simpa using hr) (by simp) hs' ho
  refine ⟨by rw [← h1, a1]; simp, ?_, a3⟩
  simp only [true_and] at a2
  rw [← a2]
  simp only [Option.some.injEq] at a4
  rw [a4]
  split
  · simp_all
  · simp_all

theorem events_of_opens {env : Env} {args : Args} {a : ActRawText} {e : Event} (h : OpensAs env args a e) :
    outputEvents env args a = [e, .write (process env args a).1] := by
  obtain ⟨n, h1, h2⟩ := h
  simp only [outputEvents, h1, h2]

theorem written_of_mem {X : Type} {f : X → List Event} {l : List X} {x : X} {e : Event} {text : Str} (hx : x ∈ l)
    (hf : f x = [e, .write text]) : Written (l.flatMap f) e text := by
  obtain ⟨p, q, rfl⟩ := List.append_of_mem hx
  exact ⟨p.flatMap f, q.flatMap f, by simp [hf]⟩

/-! ### C90 -/

/-- C90 in full: if the program ends with success, then each act named was written to its output. -/
def C90_statement : Prop :=
  ∀ (env : Env) (args : Args) (log : List Event), args.byIssue = false → args.parseUntil ≠ .pdfLines →
    main env args = (log, some (.ok ())) → ∀ s ∈ args.ids, ∀ a, ActId.parse s = some a →
      ∃ name e text, a.display = .ok name ∧ getOutput env (effective args) name = .ok e ∧ Written log e text

/-- C90 is false: the program ends with success even if the issue cannot be downloaded. -/
theorem C90_violated : ¬ C90_statement := by
  intro h
  obtain ⟨name, e, text, -, -, x, y, hxy⟩ := h (easyEnv someRecords fun _ => .err) (plainArgs [str!"2013/6"]) [] rfl
    (by decide) (by decide +kernel) str!"2013/6" (by simp [plainArgs]) ⟨⟨2013, by decide⟩, ⟨6, by decide⟩⟩
    (by decide +kernel)
  simp at hxy

/-- C90, the part that holds: then each wanted act that is found in the issues was processed without an error, and what
this gave was written to its output, if all outputs can be opened.
Missing: acts in issues that cannot be downloaded or divided into acts, acts that are not in the issue, and acts
in an issue in which some output cannot be opened; for these it is false (`C90_violated`, `C91_violated`). -/
theorem C90_success_partial (env : Env) (args : Args) (log : List Event) (issues : List MkIssue) (acts : List ActId)
    (hi : getIssues env (effective args) = .ok (issues, acts)) (hs : args.parseUntil ≠ .pdfLines)
    (ho : ∀ m ∈ issues, ∀ a ∈ wantedActs env acts m, ∃ e, OpensAs env (effective args) a e)
    (h : main env args = (log, some (.ok ()))) (m : MkIssue) (hm : m ∈ issues) (a : ActRawText)
    (ha : a ∈ wantedActs env acts m) :
    ∃ e text, OpensAs env (effective args) a e ∧ process env (effective args) a = (text, some (.ok ())) ∧
      Written log e text := by
  obtain ⟨h1, h2, -⟩ := main_smooth hi h (by simp) hs ho
  obtain ⟨e, he⟩ := ho m hm a ha
  refine ⟨e, (process env (effective args) a).1, he, Prod.ext rfl (h2.1 rfl m hm a ha), ?_⟩
  rw [h1, ← List.flatMap_assoc]
  exact written_of_mem (List.mem_flatMap.2 ⟨m, hm, ha⟩) (events_of_opens he)

/-- C90: it ends with an error exactly if an act that was found could not be processed. -/
theorem C90_failure_partial (env : Env) (args : Args) (log : List Event) (issues : List MkIssue) (acts : List ActId)
    (r : Res Unit) (hi : getIssues env (effective args) = .ok (issues, acts)) (hs : args.parseUntil ≠ .pdfLines)
    (ho : ∀ m ∈ issues, ∀ a ∈ wantedActs env acts m, ∃ e, OpensAs env (effective args) a e)
    (h : main env args = (log, some r)) (hr : r ≠ .panic) :
    r = .err ↔ ∃ m ∈ issues, ∃ a ∈ wantedActs env acts m, (process env (effective args) a).2 = some .err := by
  obtain ⟨-, h2, h3⟩ := main_smooth hi h hr hs ho
  constructor
  · rintro rfl
    by_contra hc
    push Not at hc
    have := h2.2 fun m hm a ha => (h3 m hm a ha).resolve_right (hc m hm a ha)
    cases this
  · rintro ⟨m, hm, a, ha, he⟩
    match r, hr, h2 with
    | .ok (), _, h2 =>
      rw [h2.1 rfl m hm a ha] at he
      cases he
    | .err, _, _ => rfl

/-! ### C91 -/

/-- C91 in full: what is written for an act that is found is the same as if it was the only one, whatever happens to
the others. -/
def C91_statement : Prop :=
  ∀ (env : Env) (args : Args) (log : List Event) (issues : List MkIssue) (acts : List ActId) (r : Res Unit),
    getIssues env (effective args) = .ok (issues, acts) → args.parseUntil ≠ .pdfLines →
    main env args = (log, some r) → r ≠ .panic → ∀ m ∈ issues, ∀ a ∈ wantedActs env acts m,
    ∀ e, OpensAs env (effective args) a e → Written log e (process env (effective args) a).1

/-- An issue with two acts. -/
def twoActs : List Page :=
  [sampleCover, [boldLine str!"II. Törvények"] ++ (sampleRegion []).lines ++
    [.emptyLine, boldLine str!"2021. évi XXI. törvény", boldLine str!"a másikról*"] ++ sampleBody ++ sampleEnd]

/-- The second act in `twoActs`. -/
def secondAct : ActRawText :=
  ⟨⟨⟨2021, by decide⟩, ⟨21, by decide⟩⟩, str!"a másikról", sampleDate, sampleBody⟩

/-- The arguments with which the acts of whole issues are written as text into a directory. -/
def issueArgs : Args := { plainArgs [str!"2021/81"] with byIssue := true, parseUntil := .actLines }

example : parseMkPagesIntoActs twoActs = some [sampleAct, secondAct] := by decide +kernel

/-- C91 is false: if the output of an act cannot be created, then the acts after it in the issue are not
written either, and the program ends with success. -/
theorem C91_violated : ¬ C91_statement := by
  intro h
  have h := h { easyEnv [] (fun _ => .ok twoActs) with canCreate := fun p => decide (p ≠ str!"out/2021. évi XX. törvény.txt") }
    issueArgs [] [⟨2021, 81⟩] [] (.ok ()) (by decide +kernel) (by decide) (by decide +kernel) (by simp) ⟨2021, 81⟩
    (by simp) secondAct (by decide +kernel) (.file str!"out/2021. évi XXI. törvény.txt")
    ⟨str!"2021. évi XXI. törvény", by decide +kernel, by decide +kernel⟩
  obtain ⟨x, y, hxy⟩ := h
  simp at hxy

/-- C91, the part that holds: if the outputs can be opened and the program does not crash, then what is done to the
outputs is, for each issue in order and each wanted act in it in order, that the output of the act is opened and what
processing the act gives is written.
Missing: outputs that cannot be opened, for which it is false (`C91_violated`), and runs that crash. -/
theorem C91_log_partial (env : Env) (args : Args) (log : List Event) (issues : List MkIssue) (acts : List ActId)
    (r : Res Unit) (hi : getIssues env (effective args) = .ok (issues, acts)) (hs : args.parseUntil ≠ .pdfLines)
    (ho : ∀ m ∈ issues, ∀ a ∈ wantedActs env acts m, ∃ e, OpensAs env (effective args) a e)
    (h : main env args = (log, some r)) (hr : r ≠ .panic) :
    log = issues.flatMap (fun m => (wantedActs env acts m).flatMap (outputEvents env (effective args))) ∧
    ∀ m ∈ issues, ∀ a ∈ wantedActs env acts m, ∀ e, OpensAs env (effective args) a e →
      Written log e (process env (effective args) a).1 := by
  obtain ⟨h1, -, -⟩ := main_smooth hi h hr hs ho
  refine ⟨h1, fun m hm a ha e he => ?_⟩
  rw [h1, ← List.flatMap_assoc]
  exact written_of_mem (List.mem_flatMap.2 ⟨m, hm, ha⟩) (events_of_opens he)

/-- Acts that come from an issue have a name. -/
theorem C91_named (env : Env) (acts : List ActId) (m : MkIssue) (a : ActRawText) (h : a ∈ wantedActs env acts m) :
    1 ≤ a.identifier.number.val ∧ a.identifier.number.val ≤ 3999 ∧ ∃ name, a.identifier.display = .ok name := by
  have hm : a ∈ issueActs env m := (List.mem_filter.1 h).1
  unfold issueActs at hm
  cases hf : env.fetch m with
  | err => rw [hf] at hm; simp at hm
  | panic => rw [hf] at hm; simp at hm
  | ok pages =>
    rw [hf] at hm
    simp only at hm
    cases hp : parseMkPagesIntoActs pages with
    | none => rw [hp] at hm; simp at hm
    | some l =>
      rw [hp, Option.getD_some] at hm
      obtain ⟨date, regions, rest, -, -, h3⟩ := C41_regions pages l hp
      obtain ⟨reg, -, body, -, hact⟩ := forall₂_mem_right h3 hm
      obtain ⟨-, ⟨_, _, _, _, _, _, _, _, _, _, _, _, _, _, _, _, _, h0, hr⟩, -⟩ := hact
      obtain ⟨h1, h2⟩ := romanTo_range hr
      exact ⟨by omega, by omega, actId_display (by omega) (by omega)⟩

/-- Two acts are written, one after the other. -/
example : (main (easyEnv [] fun _ => .ok twoActs) issueArgs).2 = some (.ok ()) ∧
    (main (easyEnv [] fun _ => .ok twoActs) issueArgs).1.map (fun
      | .file p => p
      | .heading _ => []
      | .write s => s.take 13) =
      [str!"out/2021. évi XX. törvény.txt", str!"Act ID: 2021.", str!"out/2021. évi XXI. törvény.txt",
        str!"Act ID: 2021."] := by
  decide +kernel

/-! ### C92 -/

/-- C92 in full: the program does not crash if nothing around it does. -/
def C92_statement : Prop :=
  ∀ (env : Env) (args : Args), (∀ m, env.fetch m ≠ .panic) → (∀ a, env.fixups a ≠ .panic) →
    (∀ f x, env.pagesData f x ≠ .panic) → (∀ f x, env.rawData f x ≠ .panic) → (∀ f x, env.actData f x ≠ .panic) →
    Wraps env.wrap → args.interactive = false → 50 ≤ args.width → (main env args).2 ≠ some .panic

/-- C92 is false: the message that an act is not in the table cannot be made for act number 0. -/
theorem C92_violated : ¬ C92_statement := by
  intro h
  exact h (easyEnv someRecords fun _ => .err) (plainArgs [str!"2013/0"]) (by simp [easyEnv]) (by simp [easyEnv])
    (by simp [easyEnv]) (by simp [easyEnv]) (by simp [easyEnv]) simpleWrap_wraps rfl (by decide) (by decide +kernel)

/-- The same for numbers that have no Roman numeral. -/
theorem C92_violated_large :
    (main (easyEnv someRecords fun _ => .err) (plainArgs [str!"2013/4000"])).2 = some .panic := by
  decide +kernel

theorem mem_filter_cons {X : Type} {f : X → Bool} {x y : X} {l : List X} (h : x ∈ l.filter f) :
    x ∈ (y :: l).filter f := by
  rw [List.mem_filter] at h ⊢
  exact ⟨List.mem_cons_of_mem _ h.1, h.2⟩

theorem actsLoop_panic {env : Env} {args : Args} {acts : List ActId} {l : List ActRawText} {run : Run}
    (h : (actsLoop env args acts l run).2 = some .panic) :
    ∃ a ∈ l.filter (fun a : ActRawText => acts.isEmpty || acts.contains a.identifier),
      a.identifier.display = .panic ∨ (process env args a).2 = some .panic := by
  induction l generalizing run with
  | nil => simp [actsLoop] at h
  | cons a l ih =>
    unfold actsLoop at h
    split at h
    · obtain ⟨b, hb, h⟩ := ih h
      exact ⟨b, mem_filter_cons hb, h⟩
    · rename_i hw
      have hf : (acts.isEmpty || acts.contains a.identifier) = true := by
        simp only [Bool.and_eq_true, Bool.not_eq_true', not_and, Bool.not_eq_false] at hw
        cases he : acts.isEmpty with
        | true => rfl
        | false => rw [hw he]; rfl
      have ha : a ∈ (a :: l).filter (fun a : ActRawText => acts.isEmpty || acts.contains a.identifier) :=
        List.mem_filter.2 ⟨by simp, hf⟩
      have hrest : ∀ run', (actsLoop env args acts l run').2 = some .panic →
          ∃ b ∈ (a :: l).filter (fun a : ActRawText => acts.isEmpty || acts.contains a.identifier),
            b.identifier.display = .panic ∨ (process env args b).2 = some .panic := fun run' h' => by
        obtain ⟨b, hb, h⟩ := ih h'
        exact ⟨b, mem_filter_cons hb, h⟩
      cases hd : a.identifier.display with
      | panic => exact ⟨a, ha, .inl hd⟩
      | err => rw [hd] at h; simp at h
      | ok name =>
        rw [hd] at h
        simp only at h
        cases hg : getOutput env args name with
        | panic =>
          unfold getOutput at hg
          split at hg
          · simp only at hg
            split at hg <;> cases hg
          · cases hg
        | err => rw [hg] at h; simp at h
        | ok e =>
          rw [hg] at h
          rcases hp : process env args a with ⟨s, x⟩
          rw [hp] at h
          match x, h, hp with
          | none, h, _ => simp at h
          | some .panic, _, hp => exact ⟨a, ha, .inr (by rw [hp])⟩
          | some .err, h, _ => exact hrest _ h
          | some (.ok ()), h, _ => exact hrest _ h

theorem issuesLoop_panic {env : Env} {args : Args} {acts : List ActId} {issues : List MkIssue} {run : Run}
    (hd : ∀ f x, env.pagesData f x ≠ .panic) (hfetch : ∀ m, env.fetch m ≠ .panic)
    (h : (issuesLoop env args acts issues run).2 = some .panic) :
    ∃ m ∈ issues, ∃ a ∈ wantedActs env acts m, a.identifier.display = .panic ∨ (process env args a).2 = some .panic := by
  induction issues generalizing run with
  | nil =>
    unfold issuesLoop at h
    split at h <;> cases h
  | cons m l ih =>
    unfold issuesLoop at h
    have hrest : ∀ run', (issuesLoop env args acts l run').2 = some .panic → ∃ m' ∈ m :: l, ∃ a ∈ wantedActs env acts m',
        a.identifier.display = .panic ∨ (process env args a).2 = some .panic := fun run' h' => by
      obtain ⟨m', hm', h⟩ := ih h'
      exact ⟨m', by simp [hm'], h⟩
    rcases hp : processIssue env args acts m run with ⟨run₁, x⟩
    rw [hp] at h
    match x, h, hp with
    | none, h, _ => simp at h
    | some .err, h, _ => exact hrest _ h
    | some (.ok ()), h, _ => exact hrest _ h
    | some .panic, _, hp =>
      refine ⟨m, by simp, ?_⟩
      unfold processIssue at hp
      cases hf : env.fetch m with
      | err => rw [hf] at hp; simp at hp
      | panic => exact absurd hf (hfetch m)
      | ok pages =>
        rw [hf] at hp
        simp only at hp
        split at hp
        · exfalso
          unfold showPages at hp
          cases hg : getOutput env args (issueName m) with
          | panic =>
            unfold getOutput at hg
            split at hg
            · simp only at hg
              split at hg <;> cases hg
            · cases hg
          | err => rw [hg] at hp; simp at hp
          | ok e =>
            rw [hg] at hp
            simp only at hp
            cases ht : pagesText env args pages with
            | ok s => rw [ht] at hp; simp at hp
            | err => rw [ht] at hp; simp at hp
            | panic =>
              unfold pagesText at ht
              split at ht
              · cases ht
              · cases ht
              · cases ht
              · exact hd _ _ ht
        · cases hpp : parseMkPagesIntoActs pages with
          | none => rw [hpp] at hp; simp at hp
          | some acts' =>
            rw [hpp] at hp
            simp only at hp
            have : (actsLoop env args acts acts' run).2 = some .panic := by rw [hp]
            obtain ⟨a, ha, h⟩ := actsLoop_panic this
            refine ⟨a, ?_, h⟩
            simp only [wantedActs, issueActs, hf, hpp, Option.getD_some]
            exact ha

/-- C92, the part that holds: the program crashes only when an act that is not in the table has a number
that is not from 1 to 3999, or processing one of the wanted acts crashes (see `C92_act_partial`). Missing: such acts. -/
theorem C92_main_partial (env : Env) (args : Args) (hfetch : ∀ m, env.fetch m ≠ .panic)
    (hd : ∀ f x, env.pagesData f x ≠ .panic) (h : (main env args).2 = some .panic) :
    (args.byIssue = false ∧ ∃ s ∈ args.ids, ∃ a records, ActId.parse s = some a ∧ env.records = some records ∧
      (∀ r ∈ records, r.2 ≠ a) ∧ (a.number.val < 1 ∨ 3999 < a.number.val)) ∨
    ∃ issues acts, getIssues env (effective args) = .ok (issues, acts) ∧ ∃ m ∈ issues, ∃ a ∈ wantedActs env acts m,
      (process env (effective args) a).2 = some .panic := by
  have hids : (effective args).ids = args.ids := by
    unfold effective
    split <;> rfl
  have hby : (effective args).byIssue = args.byIssue := by
    unfold effective
    split <;> rfl
  unfold main at h
  cases hi : getIssues env (effective args) with
  | err => rw [hi] at h; simp at h
  | ok x =>
    obtain ⟨issues, acts⟩ := x
    rw [hi] at h
    simp only at h
    obtain ⟨m, hm, a, ha, h⟩ := issuesLoop_panic hd hfetch h
    refine .inr ⟨issues, acts, rfl, m, hm, a, ha, h.resolve_left ?_⟩
    obtain ⟨-, -, name, hn⟩ := C91_named env acts m a ha
    rw [hn]
    simp
  | panic =>
    left
    unfold getIssues at hi
    rw [hids, hby] at hi
    split at hi
    · exfalso
      cases hp : parseAll MkIssue.ofStr args.ids <;> rw [hp] at hi <;> simp [Res.ofOption] at hi
    · rename_i hb
      refine ⟨by simpa using hb, ?_⟩
      cases hp : parseAll ActId.parse args.ids with
      | none => rw [hp] at hi; simp [Res.ofOption] at hi
      | some acts =>
        cases hr : env.records with
        | none => rw [hp, hr] at hi; simp [Res.ofOption] at hi
        | some records =>
          rw [hp, hr] at hi
          simp only [Res.ofOption, Res.bind_ok] at hi
          rcases collectIssues_bad (records := records) (acts := acts) (set := []) with ⟨i, hi'⟩ | ⟨a, ha, h1, h2⟩
          · rw [hi'] at hi
            simp at hi
          · obtain ⟨s, hs, hsa⟩ := forall₂_mem_right (parseAll_iff.1 hp) ha
            refine ⟨s, hs, a, records, hsa, rfl, h1, ?_⟩
            by_contra hc
            obtain ⟨name, hn⟩ := actId_display (i := a) (by omega) (by omega)
            rw [h2, hn] at hi
            simp at hi

theorem written_ne_panic {x : Res Str} (h : x ≠ .panic) : (written x).2 ≠ .panic := by
  cases x <;> simp_all [written]

theorem actText_ne_panic {env : Env} {args : Args} {a : Act Amendment} (hd : ∀ f x, env.actData f x ≠ .panic)
    (h : ∀ c, ∃ out, Output.cliAct env.wrap args.width c a = .ok out) : actText env args a ≠ .panic := by
  have : ∀ c, Output.cliAct env.wrap args.width c a ≠ .panic := by
    intro c
    obtain ⟨out, ho⟩ := h c
    rw [ho]
    simp
  unfold actText
  split
  · exact this _
  · exact this _
  · exact this _
  · exact hd _ _

/-- C92: an act is processed without a crash if its lines do not end with spaces and have no article with a title
only, the same is true of the block amendments, and the texts with references are followed by something, end with a
sentence or something is cut off their ends. Missing: the others, for which it is false (`C38_violated`,
`C71_violated`, `C84_violated`). -/
theorem C92_act_partial (env : Env) (args : Args) (raw : ActRawText) (fixups : List Fixup)
    (hr : ∀ f x, env.rawData f x ≠ .panic) (hd : ∀ f x, env.actData f x ≠ .panic) (hw : 50 ≤ args.width)
    (h1 : 1 ≤ raw.identifier.number.val) (h2 : raw.identifier.number.val ≤ 3999)
    (hbody : ∀ body, fixedBody raw.body fixups = .ok body → NoTrailingSpace body ∧ ¬ TitleOnlyArticle body)
    (hact : ∀ body a a' changed, fixedBody raw.body fixups = .ok body →
      parseActStructure env.upper { raw with body := body } = .ok a →
      Semantic.addSemanticInfo a = (a', .ok changed) →
      (∀ art ∈ a'.lift.articles, ∀ p ∈ art.children, ∀ i b w, Awaits p i b w → NoTrailingSpace b.lines ∧
        (IsStructuralAmendment p.semanticInfo.specialPhrase → b.lines ≠ [] ∧ ¬ TitleOnlyArticle b.lines)) ∧
      ∀ x ∈ actReadings a, x.1.after ≠ [] ∨ sentenceEnds (withoutConnectives x.1.text) = true ∨
        withoutConnectives x.1.text ≠ x.1.text) :
    (processAct env args raw (.ok fixups)).2 ≠ .panic := by
  unfold processAct fixedAct
  simp only [Res.bind_ok]
  cases hb : fixedBody raw.body fixups with
  | err => simp
  | panic =>
    exfalso
    unfold fixedBody at hb
    cases ha : applyFixups fixups raw.body with
    | ok x => rw [ha] at hb; simp at hb
    | err => rw [ha] at hb; simp at hb
    | panic => exact C31_no_panic _ _ ha
  | ok body =>
    obtain ⟨hb1, hb2⟩ := hbody body hb
    have hact' := fun a a' changed => hact body a a' changed hb
    simp only [Res.bind_ok, processFixed]
    split
    · refine written_ne_panic ?_
      have : ∀ t, Output.cliRawAct t { raw with body := body } ≠ .panic := by
        intro t
        obtain ⟨out, ho⟩ := (C88_act_total { raw with body := body } t).2 ⟨h1, h2⟩
        rw [ho]
        simp
      unfold rawText
      split
      · exact this _
      · exact this _
      · exact this _
      · exact hr _ _
    · cases ha : parseActStructure env.upper { raw with body := body } with
      | err => simp
      | panic => exact absurd ha (C38_no_panic_partial env.upper _ hb1 hb2)
      | ok a =>
        simp only
        split
        · refine written_ne_panic (actText_ne_panic hd fun c => ?_)
          exact C84_structure env.upper _ a env.wrap args.width c ha h1 h2 hw
        · unfold finishAct
          rcases hsem : Semantic.addSemanticInfo a with ⟨a', x⟩
          match x, hsem with
          | .err, _ => simp
          | .panic, hsem => exact absurd (by rw [hsem]) (C47_no_panic a)
          | .ok changed, hsem =>
            simp only
            obtain ⟨g1, g2⟩ := hact' a a' changed ha hsem
            rcases hbl : BlockAmend.act env.upper a'.lift with ⟨a'', y⟩
            match y, hbl with
            | .err, _ => simp
            | .panic, hbl => exact absurd (by rw [hbl]) (C71_no_panic_partial env.upper a'.lift g1)
            | .ok (), hbl =>
              simp only
              have hp : actText env args a'' ≠ .panic := by
                refine actText_ne_panic hd fun c => ?_
                have := C84_prints_partial env.upper _ a a' changed env.wrap args.width c ha hsem h1 h2 hw g2
                rw [hbl] at this
                exact this
              cases ht : actText env args a'' with
              | err => simp
              | panic => exact absurd ht hp
              | ok s =>
                simp only
                split <;> simp

/-! ### C93 -/

theorem finishAct_err {env : Env} {args : Args} {a : Act Empty} {s : Str} (hf : args.forceEditor = false)
    (h : finishAct env args a = (s, .err)) : s = [] := by
  unfold finishAct at h
  split at h
  · simp_all
  · simp at h
  · split at h
    · simp_all
    · simp at h
    · split at h
      · simp [hf] at h
      · simp_all
      · simp at h

theorem written_err {x : Res Str} {s : Str} (h : written x = (s, .err)) : s = [] := by
  cases x <;> simp_all [written]

theorem processAct_err {env : Env} {args : Args} {raw : ActRawText} {f : Res (List Fixup)} {s : Str}
    (hf : args.forceEditor = false) (h : processAct env args raw f = (s, .err)) : s = [] := by
  unfold processAct at h
  split at h
  · simp_all
  · simp at h
  · unfold processFixed at h
    split at h
    · exact written_err h
    · split at h
      · simp_all
      · simp at h
      · split at h
        · exact written_err h
        · exact finishAct_err hf h

/-- C93 in full: what an interactive session writes is what the program writes for the act in one attempt. -/
def C93_statement : Prop :=
  ∀ (env : Env) (args : Args) (raw : ActRawText) (rounds : List Round) (fixups : Res (List Fixup)) (s : Str)
    (r : Res Unit), processInteractive env args raw rounds fixups = (s, some r) →
    ∃ f, EditedFrom raw rounds fixups f ∧ (processAct env args raw f).1 = s

/-- The arguments with which the editor is always opened. -/
def forcedArgs : Args := { plainArgs [] with interactive := true, forceEditor := true, format := .json }

/-- Serialization to a single letter. -/
def letterEnv : Env := { easyEnv [] (fun _ => .err) with actData := fun _ _ => .ok str!"x" }

theorem letter_output (raw : ActRawText) (f : Res (List Fixup)) : (processAct letterEnv forcedArgs raw f).1.length ≤ 1 := by
  unfold processAct
  split
  · simp
  · simp
  · unfold processFixed
    rw [if_neg (by decide)]
    split
    · simp
    · simp
    · rw [if_neg (by decide)]
      unfold finishAct
      split
      · simp
      · simp
      · split
        · simp
        · simp
        · simp [actText, forcedArgs, letterEnv]

/-- C93 is false: if the editor is forced, then the act is written into the same file each time. -/
theorem C93_violated : ¬ C93_statement := by
  intro h
  obtain ⟨f, -, hf⟩ := h letterEnv forcedArgs sampleAct [⟨.ok str!"\n", id, true⟩, ⟨.ok str!"n\n", id, true⟩] (.ok []) str!"xx"
    .err (by decide +kernel)
  have := letter_output sampleAct f
  rw [hf] at this
  exact absurd this (by decide)

theorem asciiLower_whitespace (c : Char) : isWhitespace (asciiLower c) = isWhitespace c := by
  unfold asciiLower
  split
  · rename_i h
    have hn : (Char.ofNat (c.toNat + 32)).toNat = c.toNat + 32 := toNat_ofNat_small (by omega)
    have h1 : isWhitespace c = false := by
      simp only [isWhitespace, Bool.or_eq_false_iff, Bool.and_eq_false_iff, decide_eq_false_iff_not, beq_eq_false_iff_ne]
      omega
    have h2 : isWhitespace (Char.ofNat (c.toNat + 32)) = false := by
      simp only [isWhitespace, hn, Bool.or_eq_false_iff, Bool.and_eq_false_iff, decide_eq_false_iff_not,
        beq_eq_false_iff_ne]
      omega
    rw [h1, h2]
  · rfl

theorem asciiLower_y (c : Char) : asciiLower c = 'y' ↔ c = 'y' ∨ c = 'Y' := by
  unfold asciiLower
  split
  · rename_i h
    constructor
    · intro e
      have hn : (Char.ofNat (c.toNat + 32)).toNat = c.toNat + 32 := toNat_ofNat_small (by omega)
      rw [e] at hn
      refine .inr (Char.toNat_inj.1 ?_)
      have e1 : 'y'.toNat = 121 := rfl
      have e2 : 'Y'.toNat = 89 := rfl
      omega
    · rintro (rfl | rfl)
      · exact absurd h (by decide)
      · decide
  · rename_i h
    constructor
    · exact .inl
    · rintro (rfl | rfl)
      · rfl
      · exact absurd (by decide) h

theorem trim_blank (s : Str) : (trim s).isEmpty = true ↔ ∀ c ∈ s, isWhitespace c = true := by
  have hd : ∀ l : Str, l.dropWhile isWhitespace = [] ↔ ∀ c ∈ l, isWhitespace c = true := fun l => by
    induction l with
    | nil => simp
    | cons c l ih =>
      rw [List.dropWhile_cons]
      by_cases hc : isWhitespace c = true <;> simp [hc, ih]
  rw [List.isEmpty_iff, trim, List.reverse_eq_nil_iff, hd]
  constructor
  · intro h
    by_contra hc
    push Not at hc
    obtain ⟨c, hc, hw⟩ := hc
    have hm : c ∈ s.dropWhile isWhitespace := by
      rcases List.mem_append.1 ((List.takeWhile_append_dropWhile (p := isWhitespace) (l := s)).symm ▸ hc) with hm | hm
      · exact absurd (List.all_eq_true.1 List.all_takeWhile c hm) hw
      · exact hm
    exact hw (h c (List.mem_reverse.2 hm))
  · intro h c hc
    exact h c ((List.dropWhile_suffix _).subset (List.mem_reverse.1 hc))

/-- C121: the question is answered with yes exactly by a line of white space only and by one that begins with an y,
and by anything else with no. The empty line is read at the end of the input. -/
theorem C121_answer (line : Str) :
    (SaysYes line → confirm (.ok line) = .ok true) ∧ (¬ SaysYes line → confirm (.ok line) = .ok false) := by
  have hb : confirm (.ok line) = .ok true ↔ SaysYes line := by
    have e : confirm (.ok line) =
        .ok ((trim (line.map asciiLower)).isEmpty || startsWith (line.map asciiLower) str!"y") := rfl
    rw [e, Res.ok.injEq, Bool.or_eq_true, trim_blank]
    refine or_congr (by simp [asciiLower_whitespace]) ?_
    cases line with
    | nil => simp [startsWith]
    | cons c s =>
      simp only [List.map_cons, startsWith, Bool.and_true, asciiLower_y, List.cons.injEq,
        decide_eq_true_eq]
      constructor
      · rintro (rfl | rfl)
        · exact ⟨s, .inl ⟨rfl, rfl⟩⟩
        · exact ⟨s, .inr ⟨rfl, rfl⟩⟩
      · rintro ⟨r, ⟨h, -⟩ | ⟨h, -⟩⟩
        · exact .inl h
        · exact .inr h
  refine ⟨hb.2, fun h => ?_⟩
  have e : ∃ b, confirm (.ok line) = .ok b := ⟨_, rfl⟩
  obtain ⟨b, e⟩ := e
  cases b
  · exact e
  · exact absurd (hb.1 e) h

example : SaysYes [] ∧ SaysYes str!" \r\n" ∧ SaysYes str!"Yes\n" ∧ ¬ SaysYes str!" y\n" := by
  refine ⟨.inl (by simp), .inl (by decide), .inr ⟨_, .inr rfl⟩, ?_⟩
  rintro (h | ⟨r, h | h⟩)
  · exact absurd (h 'y' (by simp)) (by decide)
  · cases h
  · cases h

/-- C121: if an attempt fails, then the session ends with its error if the answer cannot be read or is no; otherwise
the lines are edited, and with the fixups that come out of this it is tried again. -/
theorem C121_asked (env : Env) (args : Args) (raw : ActRawText) (r : Round) (rounds : List Round)
    (f : List Fixup) (s : Str) (h : processAct env args raw (.ok f) = (s, .err)) :
    (r.line = .err → processInteractive env args raw (r :: rounds) (.ok f) = (s, some .err)) ∧
    (∀ line, r.line = .ok line → ¬ SaysYes line →
      processInteractive env args raw (r :: rounds) (.ok f) = (s, some .err)) ∧
    (∀ line g, r.line = .ok line → SaysYes line → r.works = true →
      interactiveRound raw.body f r.edit = some (.ok g) →
      processInteractive env args raw (r :: rounds) (.ok f) =
        (s ++ (processInteractive env args raw rounds (.ok g)).1,
          (processInteractive env args raw rounds (.ok g)).2)) := by
  refine ⟨fun hl => ?_, fun line hl hn => ?_, fun line g hl hy hw hg => ?_⟩
  · have hc : confirm r.line = .err := by rw [hl]; rfl
    rw [processInteractive, h]
    simp only [askUser, hc]
  · have hc := (C121_answer line).2 hn
    rw [← hl] at hc
    rw [processInteractive, h]
    simp only [askUser, hc]
  · have hc := (C121_answer line).1 hy
    rw [← hl] at hc
    rw [processInteractive, h]
    simp only [askUser, hc, editFixups, hw, hg, if_true]

/-- C121: an act that fails is tried without an end if the answers are yes, as they are at the end of the input, and
the fixups stay the same. -/
theorem C121_forever (env : Env) (args : Args) (raw : ActRawText) (r : Round) (f : List Fixup) (s line : Str)
    (h : processAct env args raw (.ok f) = (s, .err)) (hl : r.line = .ok line) (hy : SaysYes line)
    (hw : r.works = true) (he : interactiveRound raw.body f r.edit = some (.ok f)) (n : Nat) :
    processInteractive env args raw (List.replicate n r) (.ok f) =
      ((List.replicate (n + 1) s).flatten, none) := by
  induction n with
  | zero => rw [List.replicate_zero, processInteractive, h]; simp
  | succ n ih =>
    rw [List.replicate_succ, (C121_asked env args raw r _ f s h).2.2 line f hl hy hw he, ih]
    simp [List.replicate_succ]

example (n : Nat) : (processInteractive letterEnv forcedArgs sampleAct
    (List.replicate n ⟨.ok [], id, true⟩) (.ok [])).2 = none := by
  rw [C121_forever letterEnv forcedArgs sampleAct ⟨.ok [], id, true⟩ [] str!"x" [] (by decide +kernel) rfl
    (.inl (by simp)) rfl (by decide +kernel)]

theorem confirm_ok {line : Res Str} (h : confirm line = .ok true) : ∃ l, line = .ok l ∧ SaysYes l := by
  cases line with
  | ok l =>
    refine ⟨l, rfl, ?_⟩
    by_contra hn
    rw [(C121_answer l).2 hn] at h
    cases h
  | err => cases h
  | panic => cases h

theorem askUser_ok {raw : ActRawText} {fixups : Res (List Fixup)} {r : Round} {g : List Fixup}
    (h : askUser raw fixups r = .ok g) :
    ∃ f l, fixups = .ok f ∧ r.line = .ok l ∧ SaysYes l ∧ interactiveRound raw.body f r.edit = some (.ok g) := by
  unfold askUser at h
  split at h
  · cases h
  · cases h
  · cases h
  · rename_i ha
    unfold editFixups at h
    split at h
    · split at h
      · cases h
      · cases h
      · rename_i f
        split at h
        · rename_i x hx
          obtain ⟨l, h1, h2⟩ := confirm_ok ha
          exact ⟨f, l, rfl, h1, h2, by rw [hx, h]⟩
        · cases h
    · cases h

/-- C93, the part that holds: so it is if the editor is not forced, and if the session ends with success, then the last
attempt was one without an error. Missing: sessions in which the editor is forced, for which it is false
(`C93_violated`). -/
theorem C93_session_partial (env : Env) (args : Args) (raw : ActRawText) (rounds : List Round)
    (fixups : Res (List Fixup)) (s : Str) (r : Res Unit) (hf : args.forceEditor = false)
    (h : processInteractive env args raw rounds fixups = (s, some r)) :
    ∃ f, EditedFrom raw rounds fixups f ∧ (processAct env args raw f).1 = s ∧
      (r = .ok () → processAct env args raw f = (s, .ok ())) := by
  induction rounds generalizing fixups s with
  | nil =>
    refine ⟨fixups, .refl _ _, ?_⟩
    unfold processInteractive at h
    rcases hp : processAct env args raw fixups with ⟨t, x⟩
    rw [hp] at h
    match x, h with
    | .ok (), h => simp_all
    | .err, h => simp at h
    | .panic, h =>
      simp only [Prod.mk.injEq, Option.some.injEq] at h
      obtain ⟨rfl, rfl⟩ := h
      simp
  | cons q rounds ih =>
    unfold processInteractive at h
    rcases hp : processAct env args raw fixups with ⟨t, x⟩
    rw [hp] at h
    match x, h, hp with
    | .ok (), h, hp => exact ⟨fixups, .refl _ _, by simp_all⟩
    | .panic, h, hp =>
      simp only [Prod.mk.injEq, Option.some.injEq] at h
      obtain ⟨rfl, rfl⟩ := h
      exact ⟨fixups, .refl _ _, by simp [hp]⟩
    | .err, h, hp =>
      have ht := processAct_err hf hp
      subst ht
      simp only at h
      cases hq : askUser raw fixups q with
      | err =>
        rw [hq] at h
        simp only [Prod.mk.injEq, Option.some.injEq] at h
        obtain ⟨rfl, rfl⟩ := h
        exact ⟨fixups, .refl _ _, by simp [hp]⟩
      | panic =>
        rw [hq] at h
        simp only [Prod.mk.injEq, Option.some.injEq] at h
        obtain ⟨rfl, rfl⟩ := h
        exact ⟨fixups, .refl _ _, by simp [hp]⟩
      | ok g =>
        rw [hq] at h
        simp only [List.nil_append] at h
        obtain ⟨f', k1, k2⟩ := ih (.ok g) s h
        obtain ⟨f, l, rfl, h1, h2, h3⟩ := askUser_ok hq
        exact ⟨f', .step q rounds f g f' l h1 h2 h3 k1, k2⟩

/-- An act with an error that is mended in the editor. -/
def brokenAct : ActRawText := { sampleAct with body := [sampleLine str!"1. § „Egy." 0] }

example : ∃ s, processInteractive letterEnv { forcedArgs with forceEditor := false } brokenAct
    [⟨.ok str!"Yes\n", fun _ => [str!"   0 1. § Egy."], true⟩] (.ok []) = (s, some (.ok ())) ∧
    (processAct letterEnv { forcedArgs with forceEditor := false } brokenAct (.ok [])).2 = .err :=
  ⟨str!"x", by decide +kernel⟩

/-! ### C94 -/

theorem display_injective {a b : ActId} {s : Str} (ha : a.display = .ok s) (hb : b.display = .ok s) : a = b := by
  unfold ActId.display at ha hb
  split at ha
  · split at hb
    · rename_i h1 h2
      cases hr : romanTo a.number.val.toNat with
      | none => rw [hr] at ha; cases ha
      | some r =>
        cases hr' : romanTo b.number.val.toNat with
        | none => rw [hr'] at hb; cases hb
        | some r' =>
          rw [hr] at ha
          rw [hr'] at hb
          simp only [Res.ok.injEq] at ha hb
          rw [← hb] at ha
          have e : ∀ (y : Int) (r : Str), decInt y ++ str!". évi " ++ r ++ str!". törvény" =
              decInt y ++ '.' :: (str!" évi " ++ r ++ str!". törvény") := by
            intro y r
            simp
          rw [e, e] at ha
          obtain ⟨k1, k2⟩ := append_sep_inj (decInt_not_mem (by decide) (by decide))
            (decInt_not_mem (by decide) (by decide)) ha
          have k2 := List.append_cancel_left (List.append_cancel_right k2)
          subst k2
          have k3 := romanTo_from hr
          rw [romanTo_from hr'] at k3
          simp only [Option.some.injEq] at k3
          have k1 := decInt_injective k1
          obtain ⟨y, n⟩ := a
          obtain ⟨y', n'⟩ := b
          obtain ⟨n, hn⟩ := n
          obtain ⟨n', hn'⟩ := n'
          obtain ⟨y, hy⟩ := y
          obtain ⟨y', hy'⟩ := y'
          simp only [ActId.mk.injEq, Subtype.mk.injEq] at *
          omega
    · cases hb
  · cases ha

theorem getOutput_injective {env : Env} {args : Args} {m n : Str} {e : Event} (hm : getOutput env args m = .ok e)
    (hn : getOutput env args n = .ok e) : m = n := by
  unfold getOutput at hm hn
  split at hm
  · rename_i dir hd
    rw [hd] at hn
    simp only at hm hn
    split at hm
    · split at hn
      · simp only [Res.ok.injEq] at hm hn
        rw [← hn] at hm
        simp only [Event.file.injEq] at hm
        have hm := List.append_cancel_left hm
        simp only [List.cons.injEq, true_and] at hm
        exact List.append_cancel_right hm
      · cases hn
    · cases hm
  · rename_i hd
    rw [hd] at hn
    simp only [Res.ok.injEq] at hm hn
    rw [← hn] at hm
    simpa using hm

/-- C94: the outputs of two different acts are different. -/
theorem C94_names (env : Env) (args : Args) (a b : ActRawText) (e : Event) (ha : OpensAs env args a e)
    (hb : OpensAs env args b e) : a.identifier = b.identifier := by
  obtain ⟨n, h1, h2⟩ := ha
  obtain ⟨n', h1', h2'⟩ := hb
  rw [getOutput_injective h2 h2'] at h1
  exact display_injective h1 h1'

/-- C94: the same for the outputs of issues. -/
theorem C94_issue_names (env : Env) (args : Args) (m n : MkIssue) (e : Event)
    (hm : getOutput env args (issueName m) = .ok e) (hn : getOutput env args (issueName n) = .ok e) : m = n := by
  have h := getOutput_injective hm hn
  unfold issueName at h
  rw [List.append_assoc, List.append_assoc] at h
  obtain ⟨h1, h2⟩ := append_sep_inj (decInt_not_mem (by decide) (by decide))
    (decInt_not_mem (by decide) (by decide)) (List.append_cancel_left h)
  have h1 := decInt_injective h1
  have h2 := decInt_injective h2
  cases m; cases n
  simp_all

/-- C94: the files are directly in the directory given, and their names are those of the acts with the extension of
the format. -/
theorem C94_place (env : Env) (args : Args) (a : ActRawText) (path : Str) (h : OpensAs env args a (.file path)) :
    ∃ dir name ext, args.outputDir = some dir ∧ path = dir ++ '/' :: (name ++ '.' :: ext) ∧
      a.identifier.display = .ok name ∧ (args.format, ext) ∈ extensions ∧ '/' ∉ name ++ '.' :: ext := by
  obtain ⟨n, h1, h2⟩ := h
  unfold getOutput at h2
  split at h2
  · rename_i dir hd
    simp only at h2
    split at h2
    · simp only [Res.ok.injEq, Event.file.injEq] at h2
      refine ⟨dir, n, _, hd, h2.symm, h1, by cases args.format <;> decide, ?_⟩
      have hn : '/' ∉ n := by
        unfold ActId.display at h1
        split at h1
        · cases hr : romanTo a.identifier.number.val.toNat with
          | none => rw [hr] at h1; cases h1
          | some r =>
            rw [hr] at h1
            simp only [Res.ok.injEq] at h1
            subst h1
            obtain ⟨k1, k2⟩ := romanTo_range hr
            obtain ⟨r', e1, -, e2, -⟩ := roman_roundtrip k1 k2
            rw [hr] at e1
            cases e1
            have k3 : '/' ∉ r := fun hc => absurd (e2 _ hc) (by decide)
            have k4 : '/' ∉ decInt a.identifier.year.val := decInt_not_mem (by decide) (by decide)
            simp [k3, k4]
        · cases h1
      have he : '/' ∉ extension args.format := by cases args.format <;> decide
      simp [hn, he]
    · cases h2
  · cases h2

/-- C94 in full: in the end the file of each act has what was made of this act. -/
def C94_statement : Prop :=
  ∀ (env : Env) (args : Args) (log : List Event) (issues : List MkIssue) (acts : List ActId),
    getIssues env (effective args) = .ok (issues, acts) → args.parseUntil ≠ .pdfLines →
    (∀ p, env.canCreate p = true) → main env args = (log, some (.ok ())) →
    ∀ m ∈ issues, ∀ a ∈ wantedActs env acts m, ∀ path, OpensAs env (effective args) a (.file path) →
      fileContent path none false log = some (process env (effective args) a).1

/-- An issue in which there is another text of the act in `samplePages`. -/
def anotherIssue : List Page :=
  [sampleCover, [boldLine str!"II. Törvények", .emptyLine, boldLine str!"2021. évi XX. törvény",
    boldLine str!"a másikról*"] ++ sampleBody ++ sampleEnd]

/-- C94 is false: an act with the same number in a later issue overwrites it. -/
theorem C94_violated : ¬ C94_statement := by
  intro h
  have h := h (easyEnv [] fun m => .ok (if m.issue = 81 then samplePages [] else anotherIssue))
    { issueArgs with ids := [str!"2021/81", str!"2021/82"] } _ [⟨2021, 81⟩, ⟨2021, 82⟩] [] (by decide +kernel)
    (by decide) (fun _ => rfl) (Prod.ext rfl (by decide +kernel)) ⟨2021, 81⟩ (by simp) sampleAct (by decide +kernel)
    str!"out/2021. évi XX. törvény.txt" ⟨str!"2021. évi XX. törvény", by decide +kernel, by decide +kernel⟩
  revert h
  decide +kernel

theorem fileContent_untouched {path : Str} {l : List Event} (h : Event.file path ∉ l) (now : Option Str) :
    fileContent path now false l = now := by
  induction l with
  | nil => rfl
  | cons e l ih =>
    have ih := ih (fun hc => h (by simp [hc]))
    cases e with
    | file p =>
      have : p ≠ path := fun hc => h (by simp [hc])
      simp [fileContent, this, ih]
    | heading n => simp [fileContent, ih]
    | write s => simp [fileContent, ih]

theorem fileContent_last {path text : Str} {l l' : List Event} (h : Event.file path ∉ l')
    (hl : ∀ e, l'.head? = some e → ∀ s, e ≠ .write s) (now : Option Str) (here : Bool) :
    fileContent path now here (l ++ [.file path, .write text] ++ l') = some text := by
  induction l generalizing now here with
  | nil =>
    simp only [List.nil_append, List.cons_append, fileContent, if_true, Option.map_some]
    cases l' with
    | nil => simp [fileContent]
    | cons e l' =>
      have hl := hl e rfl
      cases e with
      | write s => exact absurd rfl (hl s)
      | file p =>
        have : p ≠ path := fun hc => h (by simp [hc])
        simp only [fileContent, if_neg this]
        exact fileContent_untouched (fun hc => h (by simp [hc])) _
      | heading n =>
        simp only [fileContent]
        exact fileContent_untouched (fun hc => h (by simp [hc])) _
  | cons e l ih =>
    cases e with
    | file p =>
      simp only [List.cons_append, fileContent]
      split
      · exact ih _ _
      · exact ih _ _
    | heading n => exact ih _ _
    | write s => exact ih _ _

/-- C94, the part that holds: so it is if no two of the acts have the same identifier. Missing: acts with the same
identifier, for which it is false (`C94_violated`). -/
theorem C94_files_partial (env : Env) (args : Args) (log : List Event) (issues : List MkIssue) (acts : List ActId)
    (r : Res Unit) (hi : getIssues env (effective args) = .ok (issues, acts)) (hs : args.parseUntil ≠ .pdfLines)
    (ho : ∀ m ∈ issues, ∀ a ∈ wantedActs env acts m, ∃ e, OpensAs env (effective args) a e)
    (h : main env args = (log, some r)) (hr : r ≠ .panic)
    (hd : (issues.flatMap (wantedActs env acts)).Pairwise fun a b => a.identifier ≠ b.identifier) (m : MkIssue)
    (hm : m ∈ issues) (a : ActRawText) (ha : a ∈ wantedActs env acts m) (path : Str)
    (hp : OpensAs env (effective args) a (.file path)) :
    fileContent path none false log = some (process env (effective args) a).1 := by
  obtain ⟨h1, -, -⟩ := main_smooth hi h hr hs ho
  rw [h1, ← List.flatMap_assoc]
  have hmem : a ∈ issues.flatMap (wantedActs env acts) := List.mem_flatMap.2 ⟨m, hm, ha⟩
  have ho' : ∀ b ∈ issues.flatMap (wantedActs env acts), ∃ e, OpensAs env (effective args) b e := by
    intro b hb
    obtain ⟨m', hm', hb'⟩ := List.mem_flatMap.1 hb
    exact ho m' hm' b hb'
  generalize issues.flatMap (wantedActs env acts) = all at hd hmem ho'
  obtain ⟨x, y, rfl⟩ := List.append_of_mem hmem
  rw [List.flatMap_append, List.flatMap_cons, events_of_opens hp, ← List.append_assoc]
  have hy : ∀ b ∈ y, a.identifier ≠ b.identifier :=
    (List.pairwise_cons.1 (List.pairwise_append.1 hd).2.1).1
  refine fileContent_last ?_ ?_ _ _
  · intro hc
    obtain ⟨b, hb, he⟩ := List.mem_flatMap.1 hc
    obtain ⟨e, hbe⟩ := ho' b (by simp [hb])
    rw [events_of_opens hbe] at he
    simp only [List.mem_cons, reduceCtorEq, List.not_mem_nil, or_false] at he
    subst he
    exact hy b hb (C94_names env (effective args) a b _ hp hbe)
  · intro e he s
    cases y with
    | nil => simp at he
    | cons b y =>
      obtain ⟨e', hbe⟩ := ho' b (by simp)
      rw [List.flatMap_cons, events_of_opens hbe] at he
      simp only [List.cons_append, List.head?_cons, Option.some.injEq] at he
      subst he
      obtain ⟨n, -, hg⟩ := hbe
      unfold getOutput at hg
      split at hg
      · simp only at hg
        split at hg
        · cases hg
          simp
        · cases hg
      · cases hg
        simp

/-- With `twoActs` the files have different texts. -/
example : fileContent str!"out/2021. évi XXI. törvény.txt" none false
    (main (easyEnv [] fun _ => .ok twoActs) issueArgs).1 =
      some str!"Act ID: 2021. évi XXI. törvény - a másikról\nPub date: 2021-05-07\n\n1. § Elso.\n2. § Masodik.\n" := by
  decide +kernel

/-! ### C95 -/

theorem processAct_semantic {env : Env} {args : Args} {raw : ActRawText} {fixups : Res (List Fixup)} {s : Str}
    (hs : args.parseUntil = .semantic) (h : processAct env args raw fixups = (s, .ok ())) :
    ∃ f body a a' a'' changed, fixups = .ok f ∧ fixedBody raw.body f = .ok body ∧
      parseActStructure env.upper { raw with body := body } = .ok a ∧
      Semantic.addSemanticInfo a = (a', .ok changed) ∧ BlockAmend.act env.upper a'.lift = (a'', .ok ()) ∧
      actText env args a'' = .ok s ∧ args.forceEditor = false := by
  unfold processAct at h
  cases hf : fixedAct raw fixups with
  | err => rw [hf] at h; simp at h
  | panic => rw [hf] at h; simp at h
  | ok raw' =>
    rw [hf] at h
    simp only [fixedAct, Res.bind_eq_ok] at hf
    obtain ⟨f, h1, body, h2, h3⟩ := hf
    cases h3
    simp only [processFixed, hs, reduceCtorEq, if_false] at h
    cases ha : parseActStructure env.upper { raw with body := body } with
    | err => rw [ha] at h; simp at h
    | panic => rw [ha] at h; simp at h
    | ok a =>
      rw [ha] at h
      simp only [finishAct] at h
      rcases hsem : Semantic.addSemanticInfo a with ⟨a', x⟩
      rw [hsem] at h
      match x, h, hsem with
      | .err, h, _ => simp at h
      | .panic, h, _ => simp at h
      | .ok changed, h, hsem =>
        simp only at h
        rcases hbl : BlockAmend.act env.upper a'.lift with ⟨a'', y⟩
        rw [hbl] at h
        match y, h, hbl with
        | .err, h, _ => simp at h
        | .panic, h, _ => simp at h
        | .ok (), h, hbl =>
          simp only at h
          cases ht : actText env args a'' with
          | err => rw [ht] at h; simp at h
          | panic => rw [ht] at h; simp at h
          | ok t =>
            rw [ht] at h
            simp only [Prod.mk.injEq] at h
            obtain ⟨rfl, h4⟩ := h
            refine ⟨f, body, a, a', a'', changed, h1, h2, ha, hsem, hbl, ht, ?_⟩
            cases hfe : args.forceEditor with
            | false => rfl
            | true => rw [hfe] at h4; simp at h4

/-- C95: in the plain format a file has the act, parsed from the text with the fixups, with its semantic information
and block amendments, as `C82_shows` says: without escape sequences and without anything else. -/
theorem C95_file (env : Env) (args : Args) (raw : ActRawText) (fixups : Res (List Fixup)) (s dir : Str)
    (hw : Wraps env.wrap) (hs : args.parseUntil = .semantic) (hf : args.format = .plain)
    (hd : args.outputDir = some dir) (h : processAct env (effective args) raw fixups = (s, .ok ())) :
    ∃ f body a a' a'' changed, fixups = .ok f ∧ fixedBody raw.body f = .ok body ∧
      parseActStructure env.upper { raw with body := body } = .ok a ∧
      Semantic.addSemanticInfo a = (a', .ok changed) ∧ BlockAmend.act env.upper a'.lift = (a'', .ok ()) ∧
      noBlanks s = noBlanks (actShown a'') := by
  have he : effective args = args := by simp [effective, hd]
  rw [he] at h
  obtain ⟨f, body, a, a', a'', changed, h1, h2, h3, h4, h5, h6, -⟩ := processAct_semantic hs h
  simp only [actText, hf] at h6
  exact ⟨f, body, a, a', a'', changed, h1, h2, h3, h4, h5, C82_shows _ hw _ _ _ h6⟩

/-- C95: on the terminal it is the same with escape sequences. -/
theorem C95_terminal (env : Env) (args : Args) (raw : ActRawText) (fixups : Res (List Fixup)) (s : Str)
    (hw : Wraps env.wrap) (hs : args.parseUntil = .semantic) (hf : args.format = .plain ∨ args.format = .colored)
    (hd : args.outputDir = none) (h : processAct env (effective args) raw fixups = (s, .ok ())) :
    ∃ f body a a' a'' changed, fixups = .ok f ∧ fixedBody raw.body f = .ok body ∧
      parseActStructure env.upper { raw with body := body } = .ok a ∧
      Semantic.addSemanticInfo a = (a', .ok changed) ∧ BlockAmend.act env.upper a'.lift = (a'', .ok ()) ∧
      ('\x1B' ∉ actShown a'' → unescape false (noBlanks s) = noBlanks (actShown a'')) ∧ '\x1B' ∈ s := by
  have he : (effective args).format = .colored ∧ (effective args).parseUntil = .semantic := by
    rcases hf with hf | hf <;> simp [effective, hd, hf, hs]
  obtain ⟨f, body, a, a', a'', changed, h1, h2, h3, h4, h5, h6, -⟩ := processAct_semantic he.2 h
  simp only [actText, he.1] at h6
  refine ⟨f, body, a, a', a'', changed, h1, h2, h3, h4, h5, fun hesc => ?_, ?_⟩
  · have e := Output.shown_act hw (c := true) (p := (Output.Params.new (effective args).width true).indented) rfl
      (fun _ => hesc) h6 []
    simpa [Output.strip, unescape] using e
  · simp only [Output.cliAct, Output.act, Res.bind_eq_ok] at h6
    obtain ⟨id, -, r, -, t, -, h6⟩ := h6
    cases h6
    simp [Output.Params.header, Output.Params.colorize, Output.Params.new, Output.Params.indented]

/-- C95: without the last step it is the act without semantic information, and without the last two the lines of it. -/
theorem C95_steps (env : Env) (args : Args) (raw : ActRawText) (fixups : Res (List Fixup)) (s dir : Str)
    (hw : Wraps env.wrap) (hf : args.format = .plain) (hd : args.outputDir = some dir)
    (h : processAct env (effective args) raw fixups = (s, .ok ())) :
    ∃ f body, fixups = .ok f ∧ fixedBody raw.body f = .ok body ∧
      (args.parseUntil = .structure → ∃ a, parseActStructure env.upper { raw with body := body } = .ok a ∧
        noBlanks s = noBlanks (actShown a.lift)) ∧
      (args.parseUntil = .actLines → Output.cliRawAct false { raw with body := body } = .ok s) := by
  have he : effective args = args := by simp [effective, hd]
  rw [he] at h
  unfold processAct at h
  cases hfx : fixedAct raw fixups with
  | err => rw [hfx] at h; simp at h
  | panic => rw [hfx] at h; simp at h
  | ok raw' =>
    rw [hfx] at h
    simp only [fixedAct, Res.bind_eq_ok] at hfx
    obtain ⟨f, h1, body, h2, h3⟩ := hfx
    cases h3
    refine ⟨f, body, h1, h2, fun hs => ?_, fun hs => ?_⟩
    · simp only [processFixed, hs, reduceCtorEq, if_false, if_true] at h
      cases ha : parseActStructure env.upper { raw with body := body } with
      | err => rw [ha] at h; simp at h
      | panic => rw [ha] at h; simp at h
      | ok a =>
        rw [ha] at h
        simp only at h
        refine ⟨a, rfl, ?_⟩
        cases ht : actText env args a.lift with
        | err => rw [ht] at h; simp [written] at h
        | panic => rw [ht] at h; simp [written] at h
        | ok t =>
          rw [ht] at h
          simp only [written, Prod.mk.injEq, and_true] at h
          subst h
          simp only [actText, hf] at ht
          exact C82_shows _ hw _ _ _ ht
    · simp only [processFixed, hs, if_true] at h
      cases ht : rawText env args { raw with body := body } with
      | err => rw [ht] at h; simp [written] at h
      | panic => rw [ht] at h; simp [written] at h
      | ok t =>
        rw [ht] at h
        simp only [written, Prod.mk.injEq, and_true] at h
        subst h
        simpa only [rawText, hf] using ht

example : (processAct (easyEnv [] fun _ => .err) (effective (plainArgs [])) sampleAct (.ok [])).2 = .ok () ∧
    '\x1B' ∉ (processAct (easyEnv [] fun _ => .err) (effective (plainArgs [])) sampleAct (.ok [])).1 ∧
    (processAct (easyEnv [] fun _ => .err) (effective { plainArgs [] with outputDir := none }) sampleAct (.ok [])).2 =
      .ok () := by
  decide +kernel

end HunLaw.Props
