import Verif.Lemmas.Walker
import Verif.Lemmas.Cache
import Verif.Lemmas.Builder

/-! The walk which adds the semantic information reads every text in its context. -/

set_option autoImplicit false

namespace HunLaw.Semantic

open HunLaw Spec

variable {A X : Type}

theorem readTexts_append (c : Cache) (l m : List Reading) :
    readTexts c (l ++ m) = (do
      let x ← readTexts c l
      let y ← readTexts x.2 m
      some (x.1 ++ y.1, y.2)) := by
  induction l generalizing c with
  | nil =>
    simp only [List.nil_append, readTexts, Option.bind_eq_bind, Option.bind_some]
    rcases readTexts c m with _ | ⟨_, _⟩ <;> rfl
  | cons r l ih =>
    simp only [List.cons_append, readTexts, Option.bind_eq_bind, ih]
    rcases readText c r with _ | x
    · rfl
    · simp only [Option.bind_some]
      rcases readTexts x.2 l with _ | y
      · rfl
      · simp only [Option.bind_some]
        rcases readTexts y.2 m with _ | z <;> rfl

theorem ownReferences_eq (b a w : Nat) (l : List OutgoingRef) :
    ownReferences b a w l = l.filterMap (adjust b (w - a)) := by
  unfold ownReferences
  induction l with
  | nil => rfl
  | cons r l ih =>
    rw [List.filterMap_cons, List.filter_cons]
    unfold adjust at ih ⊢
    by_cases h : b < r.fin ∧ r.fin + a ≤ w
    · rw [if_pos (by simpa using h), if_pos (by omega)]
      simp only [List.map_cons]
      rw [ih]
    · rw [if_neg (by simpa using h), if_neg (by omega)]
      exact ih

theorem stripJunk_eq (s : Str) : stripJunk s = withoutConnectives s := by
  have : (fun m j => (stripSuffix m j).getD m) =
      fun (t e : Str) => if e <:+ t then t.take (t.length - e.length) else t := by
    funext t e
    unfold stripSuffix
    by_cases h : e <:+ t
    · rw [if_pos h, if_pos ⟨h.length_le, (List.suffix_iff_eq_drop.1 h).symm⟩]
      rfl
    · rw [if_neg h, if_neg fun h' => h (List.suffix_iff_eq_drop.2 h'.2.symm)]
      rfl
  unfold stripJunk withoutConnectives
  rw [this]
  rfl

theorem endsSentence_eq (s : Str) : endsSentence s = sentenceEnds s := by
  unfold endsSentence sentenceEnds
  rw [← List.head?_reverse]
  rcases s.reverse with _ | ⟨c, l⟩
  · rfl
  · simp [Bool.or_assoc]
    rfl

theorem assemble_whole (b t a : Str) : assemble b t a = wholeSentence b t a := by
  unfold assemble wholeSentence
  rw [stripJunk_eq, endsSentence_eq]
  by_cases h : a = []
  · simp only [h, if_true, ne_eq, not_true_eq_false, if_false]
    split <;> simp
  · simp [h]

theorem introPhrase_eq (p : Option SpecialPhrase) : introPhrase p = keptInIntro p := by
  rcases p with _ | p
  · rfl
  · cases p <;> rfl

/-- What is read out of a text by the program's own functions. -/
theorem readText_eq (c : Cache) (r : Reading) : readText c r = (do
    let root ← Grammar.parse (assemble r.before r.text r.after) c.allAbbreviations
    let new ← getNewAbbreviations root
    let refs ← outgoingRefs (c.addMultiple new) root
    let phrase ← extractSpecialPhrase (c.addMultiple new) root
    some (⟨ownReferences (byteLen r.before) (byteLen r.after) (byteLen (assemble r.before r.text r.after)) refs,
      mapCollect new, if r.isIntro then introPhrase phrase else phrase⟩, c.addMultiple new)) := by
  simp only [readText, assemble_whole, introPhrase_eq]

/-- Reading a text out of a visitor whose top frames are the context. -/
theorem extract_eq (a : Adder) (t : Str) :
    readText a.cache ⟨a.pre, t, a.post, false⟩ = match a.extract t with
      | (a', some i) => some (i, a'.cache)
      | (_, none) => none := by
  rw [readText_eq]
  unfold Adder.extract Adder.text
  simp only [Option.bind_eq_bind]
  rcases Grammar.parse (assemble a.pre t a.post) a.cache.allAbbreviations with _ | r
  · rfl
  simp only [Option.bind_some]
  rcases getNewAbbreviations r with _ | n
  · rfl
  simp only [Option.bind_some]
  unfold infoOf
  simp only [Option.bind_eq_bind]
  rcases outgoingRefs (a.cache.addMultiple n) r with _ | refs
  · rfl
  simp only [Option.bind_some]
  rcases extractSpecialPhrase (a.cache.addMultiple n) r with _ | ph
  · rfl
  simp [ownReferences_eq]

theorem extract_stacks (a : Adder) (t : Str) :
    (a.extract t).1.prefixes = a.prefixes ∧ (a.extract t).1.postfixes = a.postfixes := by
  unfold Adder.extract
  split
  · exact ⟨rfl, rfl⟩
  · split <;> exact ⟨rfl, rfl⟩

theorem readText_intro (c : Cache) (b t a : Str) :
    readText c ⟨b, t, a, true⟩ = (readText c ⟨b, t, a, false⟩).map fun x =>
      ({ x.1 with specialPhrase := introPhrase x.1.specialPhrase }, x.2) := by
  rw [readText_eq, readText_eq]
  simp only [Option.bind_eq_bind]
  rcases Grammar.parse (assemble b t a) c.allAbbreviations with _ | r
  · rfl
  simp only [Option.bind_some]
  rcases getNewAbbreviations r with _ | n
  · rfl
  simp only [Option.bind_some]
  rcases outgoingRefs (c.addMultiple n) r with _ | refs
  · rfl
  simp only [Option.bind_some]
  rcases extractSpecialPhrase (c.addMultiple n) r with _ | ph
  · rfl
  rfl

/-- The visitor's context is that of the ancestors. -/
def InContext (l : List Ancestor) (a : Adder) : Prop := a.pre = contextBefore l ∧ a.post = contextAfter l

/-- The step reads exactly the texts of its element, in order. -/
def Tracks (l : List Ancestor) (f : X → Adder → X × Adder × Res Unit) (rd : X → List (Reading × SemanticInfo)) : Prop :=
  ∀ x a, InContext l a →
    match f x a with
    | (x', a', .ok ()) => a'.prefixes = a.prefixes ∧ a'.postfixes = a.postfixes ∧
        readTexts a.cache ((rd x).map (·.1)) = some ((rd x').map (·.2), a'.cache)
    | (_, _, .err) => readTexts a.cache ((rd x).map (·.1)) = none
    | (_, _, .panic) => False

theorem tracks_list {l : List Ancestor} {f : X → Adder → X × Adder × Res Unit}
    {rd : X → List (Reading × SemanticInfo)} (hf : Tracks l f rd) :
    Tracks l (Walk.list f) (fun xs => xs.flatMap rd) := by
  intro xs
  induction xs with
  | nil => intro a _; exact ⟨rfl, rfl, rfl⟩
  | cons x xs ih =>
    intro a hc
    have h := hf x a hc
    rw [Walk.list]
    rcases hx : f x a with ⟨x', a', _ | _ | _⟩ <;> rw [hx] at h
    · obtain ⟨h1, h2, h3⟩ := h
      have hc' : InContext l a' := by
        unfold InContext Adder.pre Adder.post at hc ⊢
        rw [h1, h2]; exact hc
      have h' := ih a' hc'
      simp only
      rcases hl : Walk.list f xs a' with ⟨xs', a'', _ | _ | _⟩ <;> rw [hl] at h'
      · obtain ⟨g1, g2, g3⟩ := h'
        refine ⟨g1.trans h1, g2.trans h2, ?_⟩
        simp only [List.flatMap_cons, List.map_append, readTexts_append, h3, g3, Option.bind_eq_bind, Option.bind_some]
      · simp only [List.flatMap_cons, List.map_append, readTexts_append, h3, h', Option.bind_eq_bind, Option.bind_some,
          Option.bind_none]
      · exact h'
    · simp only [List.flatMap_cons, List.map_append, readTexts_append, h, Option.bind_eq_bind, Option.bind_none]
    · exact h

theorem contextBefore_snoc (l : List Ancestor) (i : Str) (w : Option Str) :
    contextBefore (l ++ [⟨i, w⟩]) = contextBefore l ++ i ++ [' '] := by
  simp [contextBefore]

theorem contextAfter_snoc (l : List Ancestor) (i : Str) (w : Option Str) :
    contextAfter (l ++ [⟨i, w⟩]) = match w with
      | some w => ' ' :: w ++ contextAfter l
      | none => contextAfter l := by
  cases w <;> simp [contextAfter]

theorem inContext_push {l : List Ancestor} {a : Adder} (h : InContext l a) (i : Str) (w : Option Str) :
    InContext (l ++ [⟨i, w⟩]) (a.push i w) := by
  obtain ⟨h1, h2⟩ := h
  unfold InContext
  rw [contextBefore_snoc, contextAfter_snoc, ← h1, ← h2]
  cases w <;> exact ⟨rfl, rfl⟩

theorem tracks_sae (k : Kind) {children : Ref → k.Children A → Adder → k.Children A × Adder × Res Unit}
    {inner : List Ancestor → k.Children A → List (Reading × SemanticInfo)} (base : Ref) (l : List Ancestor)
    (hpos : ∀ i, ∃ pos, (k.reference i).relativeTo base = some pos ∧ ∀ l, Tracks l (children pos) (inner l)) :
    Tracks l (Walk.sae (Adder.visitor A) k children base) (elementReadings inner l) := by
  intro e a hc
  obtain ⟨pos, hp, hch⟩ := hpos e.identifier
  rw [Walk.sae, hp]
  simp only [Adder.visitor, Adder.onEnter]
  obtain ⟨i, b, si⟩ := e
  cases b with
  | text t =>
    have hx := extract_eq a t
    have hs := extract_stacks a t
    rcases he : a.extract t with ⟨a', _ | info⟩ <;> rw [he] at hx hs <;> simp only [he] at hx hs ⊢
    · simp only [elementReadings, List.map_cons, List.map_nil, readTexts, Option.bind_eq_bind]
      rw [← hc.1, ← hc.2, hx]; rfl
    · simp only [Walk.body, Adder.onExit]
      refine ⟨hs.1, hs.2, ?_⟩
      simp only [elementReadings, List.map_cons, List.map_nil, readTexts, Option.bind_eq_bind]
      rw [← hc.1, ← hc.2, hx]; rfl
  | children intro c w =>
    have hx := extract_eq a intro
    have hs := extract_stacks a intro
    rcases he : a.extract intro with ⟨a', _ | info⟩ <;> rw [he] at hx hs <;> simp only [he] at hx hs ⊢
    · simp only [elementReadings, List.map_cons, readTexts, Option.bind_eq_bind]
      rw [readText_intro, ← hc.1, ← hc.2, hx]; rfl
    · have hc' : InContext l a' := by
        unfold InContext Adder.pre Adder.post at hc ⊢
        rw [hs.1, hs.2]; exact hc
      have h := hch (l ++ [⟨intro, w⟩]) c (a'.push intro w) (inContext_push hc' intro w)
      simp only [Walk.body]
      have hr : ∀ m, readTexts a.cache (⟨contextBefore l, intro, contextAfter l, true⟩ :: m) =
          (readTexts a'.cache m).map fun y =>
            ({ info with specialPhrase := introPhrase info.specialPhrase } :: y.1, y.2) := by
        intro m
        simp only [readTexts, Option.bind_eq_bind]
        rw [readText_intro, ← hc.1, ← hc.2, hx]
        simp only [Option.map_some, Option.bind_some]
        rcases readTexts a'.cache m with _ | y <;> rfl
      rcases hch' : children pos c (a'.push intro w) with ⟨c', a'', _ | _ | _⟩ <;> rw [hch'] at h
      · obtain ⟨g1, g2, g3⟩ := h
        simp only [Adder.onExit]
        refine ⟨?_, ?_, ?_⟩
        · simp only [Adder.pop, g1, Adder.push, List.tail_cons]; exact hs.1
        · simp only [Adder.pop, g2, Adder.push, List.tail_cons]; exact hs.2
        · simp only [elementReadings, List.map_cons]
          rw [hr]
          change (readTexts a'.cache _) = _ at g3
          rw [g3]; rfl
      · simp only [elementReadings, List.map_cons]
        rw [hr]
        change (readTexts a'.cache _) = _ at h
        rw [h]; rfl
      · exact h

theorem tracks_noChildren (pos : Ref) (l : List Ancestor) :
    Tracks l (Walk.noChildren pos) (noReadings l) := fun c => nomatch c

theorem tracks_map {Y : Type} {l : List Ancestor} {f : X → Adder → X × Adder × Res Unit}
    {rd : X → List (Reading × SemanticInfo)} (hf : Tracks l f rd) (mk : X → Y) {g : Y → Adder → Y × Adder × Res Unit}
    {rd' : Y → List (Reading × SemanticInfo)} (hg : ∀ x a, g (mk x) a = match f x a with | (x', s, r) => (mk x', s, r))
    (hrd : ∀ x, rd' (mk x) = rd x) (x : X) (a : Adder) (hc : InContext l a) :
    match g (mk x) a with
    | (x', a', .ok ()) => a'.prefixes = a.prefixes ∧ a'.postfixes = a.postfixes ∧
        readTexts a.cache ((rd' (mk x)).map (·.1)) = some ((rd' x').map (·.2), a'.cache)
    | (_, _, .err) => readTexts a.cache ((rd' (mk x)).map (·.1)) = none
    | (_, _, .panic) => False := by
  have h := hf x a hc
  rw [hg, hrd]
  rcases hx : f x a with ⟨x', a', _ | _ | _⟩ <;> rw [hx] at h
  · simpa only [hrd] using h
  · exact h
  · exact h

section Levels

variable (act : ActId) (art : ArticleId) (par : Option NumericId)

theorem tracks_alphabeticSubpoint (pt : RefPartPoint) (hp : pt.isRange = false) (l : List Ancestor) :
    Tracks l (Walk.alphabeticSubpoint (Adder.visitor A) ⟨some act, some (.single art), par.map .single, some pt, none⟩)
      (elementReadings noReadings l) :=
  tracks_sae .alphabeticSubpoint _ l fun i => ⟨_, relAlphabeticSubpoint act art par pt hp i, fun _ => tracks_noChildren _ _⟩

theorem tracks_numericSubpoint (pt : RefPartPoint) (hp : pt.isRange = false) (l : List Ancestor) :
    Tracks l (Walk.numericSubpoint (Adder.visitor A) ⟨some act, some (.single art), par.map .single, some pt, none⟩)
      (elementReadings noReadings l) :=
  tracks_sae .numericSubpoint _ l fun i => ⟨_, relNumericSubpoint act art par pt hp i, fun _ => tracks_noChildren _ _⟩

theorem tracks_alphabeticPoint (l : List Ancestor) :
    Tracks l (Walk.alphabeticPoint (Adder.visitor A) ⟨some act, some (.single art), par.map .single, none, none⟩)
      (elementReadings alphabeticPointReadings l) := by
  refine tracks_sae .alphabeticPoint _ l fun i => ⟨_, relAlphabeticPoint act art par i, fun l c a hc => ?_⟩
  have hp : (RefPartPoint.alphabetic (.single i)).isRange = false := isRange_single _
  cases c with
  | alphabeticSubpoint c =>
    exact tracks_map (tracks_list (tracks_alphabeticSubpoint act art par _ hp l)) AlphabeticPointChildren.alphabeticSubpoint
      (fun _ _ => rfl) (fun _ => rfl) c a hc
  | numericSubpoint c =>
    exact tracks_map (tracks_list (tracks_numericSubpoint act art par _ hp l)) AlphabeticPointChildren.numericSubpoint
      (fun _ _ => rfl) (fun _ => rfl) c a hc

theorem tracks_numericPoint (l : List Ancestor) :
    Tracks l (Walk.numericPoint (Adder.visitor A) ⟨some act, some (.single art), par.map .single, none, none⟩)
      (elementReadings numericPointReadings l) := by
  refine tracks_sae .numericPoint _ l fun i => ⟨_, relNumericPoint act art par i, fun l c a hc => ?_⟩
  have hp : (RefPartPoint.numeric (.single i)).isRange = false := isRange_single _
  cases c with
  | alphabeticSubpoint c =>
    exact tracks_map (tracks_list (tracks_alphabeticSubpoint act art par _ hp l)) NumericPointChildren.alphabeticSubpoint
      (fun _ _ => rfl) (fun _ => rfl) c a hc

theorem tracks_paragraph (l : List Ancestor) :
    Tracks l (Walk.paragraph (Adder.visitor A) ⟨some act, some (.single art), none, none, none⟩)
      (elementReadings paragraphReadings l) := by
  refine tracks_sae .paragraph _ l fun i => ⟨_, relParagraph act art i, fun l c a hc => ?_⟩
  cases c with
  | alphabeticPoint c =>
    exact tracks_map (tracks_list (tracks_alphabeticPoint act art i.id l)) ParagraphChildren.alphabeticPoint
      (fun _ _ => rfl) (fun _ => rfl) c a hc
  | numericPoint c =>
    exact tracks_map (tracks_list (tracks_numericPoint act art i.id l)) ParagraphChildren.numericPoint
      (fun _ _ => rfl) (fun _ => rfl) c a hc
  | quotedBlock c => exact ⟨rfl, rfl, rfl⟩
  | amendment c => exact ⟨rfl, rfl, rfl⟩

end Levels

theorem tracks_article (act : ActId) :
    Tracks [] (Walk.article (Adder.visitor A) (Ref.ofAct act)) articleReadings := by
  intro x a hc
  have h := tracks_list (tracks_paragraph (A := A) act x.identifier []) x.children a hc
  rw [Walk.article, relArticle]
  simp only
  rcases hx : Walk.list (Walk.paragraph (Adder.visitor A) ⟨some act, some (.single x.identifier), none, none, none⟩)
    x.children a with ⟨x', a', _ | _ | _⟩ <;> rw [hx] at h <;> exact h

/-- The texts of a child of an act. -/
def childReadings : ActChild A → List (Reading × SemanticInfo)
  | .article x => articleReadings x
  | _ => []

theorem actReadings_eq (a : Act A) : actReadings a = a.children.flatMap childReadings := by
  unfold actReadings Act.articles
  induction a.children with
  | nil => rfl
  | cons c l ih =>
    rcases c with c | c | c <;> simp [ActChild.article?, childReadings] at ih ⊢ <;> exact ih

theorem tracks_actChild (act : ActId) :
    Tracks [] (Walk.actChild (Adder.visitor A) (Ref.ofAct act)) childReadings := by
  intro c a hc
  cases c with
  | article x =>
    exact tracks_map (tracks_article act) ActChild.article (fun _ _ => rfl) (fun _ => rfl) x a hc
  | structuralElement c => exact ⟨rfl, rfl, rfl⟩
  | subtitle c => exact ⟨rfl, rfl, rfl⟩

theorem inContext_new (c : Cache) : InContext [] (Adder.new c) := ⟨rfl, rfl⟩

theorem tracks_act (x : Act A) (c : Cache) :
    match Walk.actMut (Adder.visitor A) x (Adder.new c) with
    | (x', a', .ok ()) => a'.prefixes = [] ∧ a'.postfixes = [] ∧
        readTexts c ((actReadings x).map (·.1)) = some ((actReadings x').map (·.2), a'.cache)
    | (_, _, .err) => readTexts c ((actReadings x).map (·.1)) = none
    | (_, _, .panic) => False := by
  have h := tracks_list (tracks_actChild (A := A) x.identifier) x.children (Adder.new c) (inContext_new c)
  rw [Walk.actMut]
  simp only [actReadings_eq]
  rcases hx : Walk.list (Walk.actChild (Adder.visitor A) (Ref.ofAct x.identifier)) x.children (Adder.new c) with
    ⟨x', a', _ | _ | _⟩ <;> rw [hx] at h <;> exact h

theorem infoOnly_adder : InfoOnly (Adder.visitor A) := by
  intro k p e s
  simp only [Adder.visitor, Adder.onEnter, Adder.onExit]
  refine ⟨?_, ?_, ?_, ?_, ?_, ?_⟩
  iterate 3
    · split
      · split <;> rfl
      · split <;> rfl
  all_goals split <;> rfl

/-! ### The texts of acts which differ only in the semantic information -/

theorem elementReadings_bare {I C : Type} (inner : List Ancestor → C → List (Reading × SemanticInfo)) (f : C → C)
    (hf : ∀ l c, (inner l (f c)).map (·.1) = (inner l c).map (·.1)) (l : List Ancestor) (e : SAE I C) :
    (elementReadings inner l (bareSae f e)).map (·.1) = (elementReadings inner l e).map (·.1) := by
  obtain ⟨i, b, s⟩ := e
  cases b with
  | text t => rfl
  | children i c w => simp [elementReadings, bareSae, bareBody, hf]

theorem flatMap_bare {Y : Type} (l : List X) (g : X → X) (f : X → List (Y × SemanticInfo))
    (h : ∀ x, (f (g x)).map (·.1) = (f x).map (·.1)) :
    ((l.map g).flatMap f).map (·.1) = (l.flatMap f).map (·.1) := by
  induction l with
  | nil => rfl
  | cons x l ih => simp only [List.map_cons, List.flatMap_cons, List.map_append, h, ih]

theorem subpoint_bare {I : Type} (l : List Ancestor) (e : SAE I NoChildren) :
    (elementReadings noReadings l (bareSae id e)).map (·.1) = (elementReadings noReadings l e).map (·.1) :=
  elementReadings_bare _ _ (fun _ c => nomatch c) l e

theorem actReadings_bare (a : Act A) : (actReadings (bareAct a)).map (·.1) = (actReadings a).map (·.1) := by
  rw [actReadings_eq, actReadings_eq]
  refine flatMap_bare _ _ _ fun c => ?_
  cases c with
  | structuralElement c => rfl
  | subtitle c => rfl
  | article x =>
    refine flatMap_bare _ _ _ fun p => elementReadings_bare _ _ (fun l c => ?_) _ p
    cases c with
    | alphabeticPoint c =>
      refine flatMap_bare _ _ _ fun e => elementReadings_bare _ _ (fun l c => ?_) _ e
      cases c with
      | alphabeticSubpoint c => exact flatMap_bare _ _ _ fun e => subpoint_bare l e
      | numericSubpoint c => exact flatMap_bare _ _ _ fun e => subpoint_bare l e
    | numericPoint c =>
      refine flatMap_bare _ _ _ fun e => elementReadings_bare _ _ (fun l c => ?_) _ e
      cases c with
      | alphabeticSubpoint c => exact flatMap_bare _ _ _ fun e => subpoint_bare l e
    | quotedBlock c => rfl
    | amendment c => rfl

/-! ### The semantic information and the rest determine an act -/

/-- Equal without the semantic information and with the same information are equal. -/
def Determined (g : X → X) (rd : X → List (Reading × SemanticInfo)) : Prop :=
  (∀ x, (rd (g x)).map (·.1) = (rd x).map (·.1)) ∧ ∀ x y, g x = g y → (rd x).map (·.2) = (rd y).map (·.2) → x = y

theorem determined_list {g : X → X} {rd : X → List (Reading × SemanticInfo)} (h : Determined g rd) :
    Determined (List.map g) (fun l => l.flatMap rd) := by
  refine ⟨fun l => flatMap_bare l g rd h.1, fun l => ?_⟩
  induction l with
  | nil => intro m hm _; exact (List.map_eq_nil_iff.1 hm.symm).symm
  | cons x l ih =>
    intro m hm hs
    cases m with
    | nil => simp at hm
    | cons y m =>
      simp only [List.map_cons, List.cons.injEq] at hm
      simp only [List.flatMap_cons, List.map_append] at hs
      have hl : ((rd x).map (·.2)).length = ((rd y).map (·.2)).length := by
        have h1 := h.1 x
        rw [hm.1, h.1 y] at h1
        have := congrArg List.length h1
        simpa using this.symm
      obtain ⟨h1, h2⟩ := List.append_inj hs hl
      rw [h.2 x y hm.1 h1, ih m hm.2 h2]

theorem determined_sae {I C : Type} {f : C → C} {inner : List Ancestor → C → List (Reading × SemanticInfo)}
    (h : ∀ l, Determined f (inner l)) (l : List Ancestor) :
    Determined (bareSae (I := I) f) (elementReadings inner l) := by
  refine ⟨elementReadings_bare _ _ (fun l => (h l).1) l, ?_⟩
  rintro ⟨i, b, s, n⟩ ⟨i', b', s', n'⟩ hg hr
  simp only [bareSae, SAE.mk.injEq, true_and] at hg
  obtain ⟨rfl, hb, rfl⟩ := hg
  cases b with
  | text t =>
    cases b' with
    | text t' =>
      simp only [bareBody, SAEBody.text.injEq] at hb
      simp only [elementReadings, List.map_cons, List.map_nil, List.cons.injEq, and_true] at hr
      rw [hb, hr]
    | children i c w => simp [bareBody] at hb
  | children j c w =>
    cases b' with
    | text t' => simp [bareBody] at hb
    | children j' c' w' =>
      simp only [bareBody, SAEBody.children.injEq] at hb
      obtain ⟨rfl, hc, rfl⟩ := hb
      simp only [elementReadings, List.map_cons, List.cons.injEq] at hr
      rw [(h _).2 c c' hc hr.2, hr.1]

theorem determined_noChildren (l : List Ancestor) : Determined id (noReadings l) :=
  And.intro (fun c => nomatch c) (fun c => nomatch c)

theorem determined_subpoints {I : Type} (l : List Ancestor) :
    Determined (List.map (bareSae (I := I) id)) (fun c => c.flatMap (elementReadings noReadings l)) :=
  determined_list (determined_sae determined_noChildren l)

theorem determined_alphabeticPoint (l : List Ancestor) :
    Determined bareAlphabeticPointChildren (alphabeticPointReadings l) := by
  constructor
  · rintro (c | c)
    · exact (determined_subpoints l).1 c
    · exact (determined_subpoints l).1 c
  · rintro (c | c) (d | d) hg hr <;> simp only [bareAlphabeticPointChildren, reduceCtorEq,
      AlphabeticPointChildren.alphabeticSubpoint.injEq, AlphabeticPointChildren.numericSubpoint.injEq] at hg
    · rw [(determined_subpoints l).2 c d hg hr]
    · rw [(determined_subpoints l).2 c d hg hr]

theorem determined_numericPoint (l : List Ancestor) :
    Determined bareNumericPointChildren (numericPointReadings l) := by
  constructor
  · rintro ⟨c⟩
    exact (determined_subpoints l).1 c
  · rintro ⟨c⟩ ⟨d⟩ hg hr
    simp only [bareNumericPointChildren, NumericPointChildren.alphabeticSubpoint.injEq] at hg
    rw [(determined_subpoints l).2 c d hg hr]

theorem determined_paragraph (l : List Ancestor) :
    Determined (bareParagraphChildren (A := A)) (paragraphReadings l) := by
  constructor
  · rintro (c | c | c | c)
    · exact (determined_list (determined_sae determined_alphabeticPoint l)).1 c
    · exact (determined_list (determined_sae determined_numericPoint l)).1 c
    · rfl
    · rfl
  · rintro (c | c | c | c) (d | d | d | d) hg hr <;> simp only [bareParagraphChildren, reduceCtorEq,
      ParagraphChildren.alphabeticPoint.injEq, ParagraphChildren.numericPoint.injEq,
      ParagraphChildren.quotedBlock.injEq, ParagraphChildren.amendment.injEq] at hg
    · rw [(determined_list (determined_sae determined_alphabeticPoint l)).2 c d hg hr]
    · rw [(determined_list (determined_sae determined_numericPoint l)).2 c d hg hr]
    · rw [hg]
    · rw [hg]

theorem determined_article : Determined (bareArticle (A := A)) articleReadings := by
  have h := determined_list (determined_sae (I := ParagraphId) (determined_paragraph (A := A)) [])
  refine ⟨fun x => h.1 x.children, ?_⟩
  rintro ⟨i, t, c, n⟩ ⟨i', t', c', n'⟩ hg hr
  simp only [bareArticle, Article.mk.injEq] at hg
  obtain ⟨rfl, rfl, hc, rfl⟩ := hg
  rw [h.2 c c' hc hr]

theorem determined_actChild : Determined (bareActChild (A := A)) childReadings := by
  constructor
  · rintro (c | c | c)
    · rfl
    · rfl
    · exact determined_article.1 c
  · rintro (c | c | c) (d | d | d) hg hr <;> simp only [bareActChild, reduceCtorEq,
      ActChild.structuralElement.injEq, ActChild.subtitle.injEq, ActChild.article.injEq] at hg
    · rw [hg]
    · rw [hg]
    · rw [determined_article.2 c d hg hr]

theorem determined_act : Determined (bareAct (A := A)) actReadings := by
  have h := determined_list (determined_actChild (A := A))
  refine ⟨actReadings_bare, fun x y hg hr => ?_⟩
  rw [actReadings_eq, actReadings_eq] at hr
  obtain ⟨i, s, p, d, ab, c⟩ := x
  obtain ⟨i', s', p', d', ab', c'⟩ := y
  simp only [bareAct, Act.mk.injEq] at hg
  obtain ⟨rfl, rfl, rfl, rfl, rfl, hc⟩ := hg
  rw [h.2 c c' hc hr]

end HunLaw.Semantic
