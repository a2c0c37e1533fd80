import Verif.Spec.Walker

/-! Lemmas about the walker. -/

set_option autoImplicit false

namespace HunLaw

open Spec

variable {A S : Type}

section Refs

variable (act : ActId) (art : ArticleId) (par : Option NumericId)

theorem isRange_single {α : Type} [DecidableEq α] (a : α) : (IdRange.single a).isRange = false := by
  simp [IdRange.isRange, IdRange.single]

theorem relArticle : (Ref.toArticle art).relativeTo (Ref.ofAct act) =
    some ⟨some act, some (.single art), none, none, none⟩ := by
  simp [Ref.relativeTo, Ref.toArticle, Ref.ofAct, Ref.empty, Ref.tryFrom, Ref.checkPartCombination,
    Ref.checkRanges]

theorem relParagraph (i : ParagraphId) :
    (Ref.toParagraph i).relativeTo ⟨some act, some (.single art), none, none, none⟩ =
    some ⟨some act, some (.single art), i.id.map .single, none, none⟩ := by
  rcases i with ⟨_ | i⟩ <;>
    simp [Ref.relativeTo, Ref.toParagraph, Ref.empty, Ref.tryFrom, Ref.checkPartCombination,
      Ref.checkRanges, isRange_single]

theorem relAlphabeticPoint (i : HunChar) :
    (Ref.toAlphabeticPoint i).relativeTo ⟨some act, some (.single art), par.map .single, none, none⟩ =
    some ⟨some act, some (.single art), par.map .single, some (.alphabetic (.single i)), none⟩ := by
  rcases par with _ | p <;>
    simp [Ref.relativeTo, Ref.toAlphabeticPoint, Ref.empty, Ref.tryFrom, Ref.checkPartCombination,
      Ref.checkRanges, isRange_single]

theorem relNumericPoint (i : NumericId) :
    (Ref.toNumericPoint i).relativeTo ⟨some act, some (.single art), par.map .single, none, none⟩ =
    some ⟨some act, some (.single art), par.map .single, some (.numeric (.single i)), none⟩ := by
  rcases par with _ | p <;>
    simp [Ref.relativeTo, Ref.toNumericPoint, Ref.empty, Ref.tryFrom, Ref.checkPartCombination,
      Ref.checkRanges, isRange_single]

theorem relAlphabeticSubpoint (pt : RefPartPoint) (hp : pt.isRange = false) (i : PrefixedId) :
    (Ref.toAlphabeticSubpoint i).relativeTo ⟨some act, some (.single art), par.map .single, some pt, none⟩ =
    some ⟨some act, some (.single art), par.map .single, some pt, some (.alphabetic (.single i))⟩ := by
  rcases par with _ | p <;>
    simp [Ref.relativeTo, Ref.toAlphabeticSubpoint, Ref.empty, Ref.tryFrom, Ref.checkPartCombination,
      Ref.checkRanges, isRange_single, hp]

theorem relNumericSubpoint (pt : RefPartPoint) (hp : pt.isRange = false) (i : NumericId) :
    (Ref.toNumericSubpoint i).relativeTo ⟨some act, some (.single art), par.map .single, some pt, none⟩ =
    some ⟨some act, some (.single art), par.map .single, some pt, some (.numeric (.single i))⟩ := by
  rcases par with _ | p <;>
    simp [Ref.relativeTo, Ref.toNumericSubpoint, Ref.empty, Ref.tryFrom, Ref.checkPartCombination,
      Ref.checkRanges, isRange_single, hp]

end Refs

/-! ### Visitors which change nothing -/

/-- What comes after a successful step. -/
def andThen (r : S × Res Unit) (f : S → S × Res Unit) : S × Res Unit :=
  match r with
  | (s, .ok ()) => f s
  | (s, e) => (s, e)

theorem tell_append (v : Visitor A S) (l m : List (Event A)) (s : S) :
    tell v (l ++ m) s = andThen (tell v l s) (tell v m) := by
  induction l generalizing s with
  | nil => rfl
  | cons ev l ih =>
    simp only [List.cons_append, tell]
    rcases h : notify v s ev with ⟨s', _ | _ | _⟩
    · exact ih s'
    · rfl
    · rfl

theorem walk_list (v : Visitor A S) {X : Type} (f : X → S → X × S × Res Unit) (g : X → List (Event A))
    (l : List X) (h : ∀ x ∈ l, ∀ s, f x s = (x, tell v (g x) s)) (s : S) :
    Walk.list f l s = (l, tell v (l.flatMap g) s) := by
  induction l generalizing s with
  | nil => rfl
  | cons x l ih =>
    rw [Walk.list, List.flatMap_cons, tell_append, h x (by simp)]
    rcases tell v (g x) s with ⟨s', _ | _ | _⟩
    · simp only [andThen]
      rw [ih fun y hy => h y (by simp [hy])]
    · rfl
    · rfl

theorem walk_sae (v : Visitor A S) (k : Kind)
    (children : Ref → k.Children A → S → k.Children A × S × Res Unit) (base pos : Ref) (e : Element A k)
    (inner : List (Event A)) (hpos : (k.reference e.identifier).relativeTo base = some pos)
    (hc : ∀ s, Walk.body (children pos) e.body s = (e.body, tell v inner s)) (s : S) :
    Walk.sae v.toMut k children base e s = (e, tell v (around k pos e inner) s) := by
  rw [Walk.sae, hpos]
  simp only [Visitor.toMut, around, List.cons_append, tell, notify]
  rcases v.onEnter k pos e s with ⟨s1, _ | _ | _⟩
  · simp only [hc]
    rw [tell_append]
    rcases tell v inner s1 with ⟨s2, _ | _ | _⟩
    · simp only [andThen, tell, notify]
      rcases v.onExit k pos e s2 with ⟨s3, _ | _ | _⟩ <;> rfl
    · rfl
    · rfl
  · rfl
  · rfl

theorem walk_alphabeticSubpoints (v : Visitor A S) (act : ActId) (art : ArticleId) (par : Option NumericId)
    (pt : RefPartPoint) (hp : pt.isRange = false) (l : List AlphabeticSubpoint) (s : S) :
    Walk.list (Walk.alphabeticSubpoint v.toMut
      ⟨some act, some (.single art), par.map .single, some pt, none⟩) l s =
    (l, tell v (alphabeticSubpointEvents A act art par pt l) s) := by
  refine walk_list v _ _ l (fun e _ s => ?_) s
  refine walk_sae v .alphabeticSubpoint _ _ _ e [] (relAlphabeticSubpoint act art par pt hp _) ?_ s
  intro s
  rcases hb : e.body with t | ⟨_, c, _⟩
  · simp [Walk.body, tell]
  · exact nomatch c

theorem walk_numericSubpoints (v : Visitor A S) (act : ActId) (art : ArticleId) (par : Option NumericId)
    (pt : RefPartPoint) (hp : pt.isRange = false) (l : List NumericSubpoint) (s : S) :
    Walk.list (Walk.numericSubpoint v.toMut
      ⟨some act, some (.single art), par.map .single, some pt, none⟩) l s =
    (l, tell v (numericSubpointEvents A act art par pt l) s) := by
  refine walk_list v _ _ l (fun e _ s => ?_) s
  refine walk_sae v .numericSubpoint _ _ _ e [] (relNumericSubpoint act art par pt hp _) ?_ s
  intro s
  rcases hb : e.body with t | ⟨_, c, _⟩
  · simp [Walk.body, tell]
  · exact nomatch c

theorem walk_alphabeticPoint (v : Visitor A S) (act : ActId) (art : ArticleId) (par : Option NumericId)
    (e : AlphabeticPoint) (s : S) :
    Walk.alphabeticPoint v.toMut ⟨some act, some (.single art), par.map .single, none, none⟩ e s =
    (e, tell v (around .alphabeticPoint
      ⟨some act, some (.single art), par.map .single, some (.alphabetic (.single e.identifier)), none⟩ e
      (alphabeticPointInner A act art par e)) s) := by
  refine walk_sae v .alphabeticPoint _ _ _ e _ (relAlphabeticPoint act art par _) ?_ s
  intro s
  have hp : (RefPartPoint.alphabetic (.single e.identifier)).isRange = false := isRange_single _
  rcases hb : e.body with t | ⟨i, l | l, w⟩
  · simp [Walk.body, tell, alphabeticPointInner, hb]
  · simp only [Walk.body, Walk.alphabeticPointChildren, alphabeticPointInner, hb]
    rw [walk_alphabeticSubpoints v act art par _ hp]
  · simp only [Walk.body, Walk.alphabeticPointChildren, alphabeticPointInner, hb]
    rw [walk_numericSubpoints v act art par _ hp]

theorem walk_numericPoint (v : Visitor A S) (act : ActId) (art : ArticleId) (par : Option NumericId)
    (e : NumericPoint) (s : S) :
    Walk.numericPoint v.toMut ⟨some act, some (.single art), par.map .single, none, none⟩ e s =
    (e, tell v (around .numericPoint
      ⟨some act, some (.single art), par.map .single, some (.numeric (.single e.identifier)), none⟩ e
      (numericPointInner A act art par e)) s) := by
  refine walk_sae v .numericPoint _ _ _ e _ (relNumericPoint act art par _) ?_ s
  intro s
  have hp : (RefPartPoint.numeric (.single e.identifier)).isRange = false := isRange_single _
  rcases hb : e.body with t | ⟨i, l, w⟩
  · simp [Walk.body, tell, numericPointInner, hb]
  · simp only [Walk.body, Walk.numericPointChildren, numericPointInner, hb]
    rw [walk_alphabeticSubpoints v act art par _ hp]

theorem walk_paragraph (v : Visitor A S) (act : ActId) (art : ArticleId) (p : Paragraph A) (s : S) :
    Walk.paragraph v.toMut ⟨some act, some (.single art), none, none, none⟩ p s =
    (p, tell v (around .paragraph
      ⟨some act, some (.single art), p.identifier.id.map .single, none, none⟩ p
      (paragraphInner act art p)) s) := by
  refine walk_sae v .paragraph _ _ _ p _ (relParagraph act art _) ?_ s
  intro s
  rcases hb : p.body with t | ⟨i, l | l | l | a, w⟩
  · simp [Walk.body, tell, paragraphInner, hb]
  · simp only [Walk.body, Walk.paragraphChildren, paragraphInner, hb]
    rw [walk_list v _ _ l fun e _ s => walk_alphabeticPoint v act art p.identifier.id e s]
  · simp only [Walk.body, Walk.paragraphChildren, paragraphInner, hb]
    rw [walk_list v _ _ l fun e _ s => walk_numericPoint v act art p.identifier.id e s]
  · simp [Walk.body, Walk.paragraphChildren, tell, paragraphInner, hb]
  · simp [Walk.body, Walk.paragraphChildren, tell, paragraphInner, hb]

theorem walk_article (v : Visitor A S) (act : ActId) (a : Article A) (s : S) :
    Walk.article v.toMut (Ref.ofAct act) a s = (a, tell v (articleEvents act a) s) := by
  rw [Walk.article, relArticle]
  simp only [articleEvents]
  rw [walk_list v _ _ a.children fun p _ s => walk_paragraph v act a.identifier p s]

theorem walk_act (v : Visitor A S) (a : Act A) (s : S) :
    Walk.actMut v.toMut a s = (a, tell v (actEvents a) s) := by
  have h : Walk.list (Walk.actChild v.toMut (Ref.ofAct a.identifier)) a.children s =
      (a.children, tell v (a.children.flatMap fun c =>
        match c.article? with | some x => articleEvents a.identifier x | none => []) s) := by
    refine walk_list v _ _ a.children (fun c _ s => ?_) s
    rcases c with c | c | c
    · rfl
    · rfl
    · simp only [Walk.actChild, ActChild.article?]
      rw [walk_article]
  have e : (a.children.flatMap fun c => match c.article? with
      | some x => articleEvents a.identifier x | none => []) = actEvents a := by
    unfold actEvents Act.articles
    induction a.children with
    | nil => rfl
    | cons c l ih =>
      rcases c with c | c | c <;> simp [ActChild.article?] at ih ⊢ <;> exact ih
  rw [Walk.actMut, h, e]

/-! ### The events of an act -/

theorem paired_append {l m : List (Event A)} (hl : Paired l) (hm : Paired m) : Paired (l ++ m) := by
  induction hl with
  | nil => exact hm
  | around k p e h1 _ _ ih2 =>
    have := Paired.around k p e h1 ih2
    simpa using this

theorem paired_around (k : Kind) (p : Ref) (e : Element A k) {l : List (Event A)} (h : Paired l) :
    Paired (around k p e l) := by
  have := Paired.around k p e h .nil
  simpa [around] using this

theorem paired_flatMap {X : Type} (g : X → List (Event A)) (l : List X) (h : ∀ x ∈ l, Paired (g x)) :
    Paired (l.flatMap g) := by
  induction l with
  | nil => exact .nil
  | cons x l ih =>
    rw [List.flatMap_cons]
    exact paired_append (h x (by simp)) (ih fun y hy => h y (by simp [hy]))

theorem paired_act (a : Act A) : Paired (actEvents a) := by
  refine paired_flatMap _ _ fun art _ => paired_flatMap _ _ fun p _ => paired_around _ _ _ ?_
  unfold paragraphInner
  split
  · refine paired_flatMap _ _ fun e _ => paired_around _ _ _ ?_
    unfold alphabeticPointInner
    split
    · exact paired_flatMap _ _ fun e _ => paired_around _ _ _ .nil
    · exact paired_flatMap _ _ fun e _ => paired_around _ _ _ .nil
    · exact .nil
  · refine paired_flatMap _ _ fun e _ => paired_around _ _ _ ?_
    unfold numericPointInner
    split
    · exact paired_flatMap _ _ fun e _ => paired_around _ _ _ .nil
    · exact .nil
  · exact .nil
  · exact .nil
  · exact .nil

theorem mem_around (k k' : Kind) (p p' : Ref) (e : Element A k) (e' : Element A k') (l : List (Event A)) :
    Event.enter k' p' e' ∈ around k p e l ↔
      (Event.enter k' p' e' : Event A) = .enter k p e ∨ .enter k' p' e' ∈ l := by
  simp [around]

theorem mem_articles (a : Act A) (x : Article A) : x ∈ a.articles ↔ ActChild.article x ∈ a.children := by
  simp only [Act.articles, List.mem_filterMap]
  constructor
  · rintro ⟨c, hc, h⟩
    rcases c with c | c | c <;> simp [ActChild.article?] at h
    subst h; exact hc
  · intro h; exact ⟨_, h, rfl⟩

theorem located_of_mem (a : Act A) (k : Kind) (r : Ref) (e : Element A k)
    (h : Event.enter k r e ∈ actEvents a) : Located a k r e := by
  simp only [actEvents, articleEvents, List.mem_flatMap, mem_around] at h
  obtain ⟨art, hart, p, hp, h⟩ := h
  have lp := Located.paragraph art p ((mem_articles a art).1 hart) hp
  rcases h with h | h
  · cases h; exact lp
  unfold paragraphInner at h
  split at h
  · rename_i i l w hb
    simp only [List.mem_flatMap, mem_around] at h
    obtain ⟨x, hx, h⟩ := h
    have lx := Located.alphabeticPoint x lp (by rw [pointsOf, hb]; exact hx)
    rcases h with h | h
    · cases h; exact lx
    unfold alphabeticPointInner at h
    split at h
    · rename_i hb'
      simp only [alphabeticSubpointEvents, List.mem_flatMap, mem_around, List.not_mem_nil, or_false] at h
      obtain ⟨y, hy, h⟩ := h
      cases h
      refine Located.alphabeticSubpoint _ lx ?_
      rcases x with ⟨xi, xb, xs⟩; subst hb'; exact hy
    · rename_i hb'
      simp only [numericSubpointEvents, List.mem_flatMap, mem_around, List.not_mem_nil, or_false] at h
      obtain ⟨y, hy, h⟩ := h
      cases h
      refine Located.numericSubpoint _ lx ?_
      rcases x with ⟨xi, xb, xs⟩; subst hb'; exact hy
    · simp at h
  · rename_i i l w hb
    simp only [List.mem_flatMap, mem_around] at h
    obtain ⟨x, hx, h⟩ := h
    have lx := Located.numericPoint x lp (by rw [pointsOf, hb]; exact hx)
    rcases h with h | h
    · cases h; exact lx
    unfold numericPointInner at h
    split at h
    · rename_i hb'
      simp only [alphabeticSubpointEvents, List.mem_flatMap, mem_around, List.not_mem_nil, or_false] at h
      obtain ⟨y, hy, h⟩ := h
      cases h
      refine Located.alphabeticSubpoint _ lx ?_
      rcases x with ⟨xi, xb, xs⟩; subst hb'; exact hy
    · simp at h
  · simp at h
  · simp at h
  · simp at h

theorem mem_of_paragraph (a : Act A) (r : Ref) (p : Paragraph A) (h : Located a .paragraph r p) :
    ∃ art ∈ a.articles, p ∈ art.children ∧
      r = ⟨some a.identifier, some (.single art.identifier), p.identifier.id.map .single, none, none⟩ := by
  cases h with
  | paragraph art _ h1 h2 => exact ⟨art, (mem_articles a art).2 h1, h2, rfl⟩

theorem mem_of_alphabeticPoint (a : Act A) (r : Ref) (e : AlphabeticPoint)
    (h : Located a .alphabeticPoint r e) :
    ∃ art ∈ a.articles, ∃ p ∈ art.children, e ∈ (pointsOf p).1 ∧
      r = ⟨some a.identifier, some (.single art.identifier), p.identifier.id.map .single,
        some (.alphabetic (.single e.identifier)), none⟩ := by
  cases h with
  | alphabeticPoint _ h1 h2 =>
    obtain ⟨art, ha, hp, rfl⟩ := mem_of_paragraph a _ _ h1
    exact ⟨art, ha, _, hp, h2, rfl⟩

theorem mem_of_numericPoint (a : Act A) (r : Ref) (e : NumericPoint) (h : Located a .numericPoint r e) :
    ∃ art ∈ a.articles, ∃ p ∈ art.children, e ∈ (pointsOf p).2 ∧
      r = ⟨some a.identifier, some (.single art.identifier), p.identifier.id.map .single,
        some (.numeric (.single e.identifier)), none⟩ := by
  cases h with
  | numericPoint _ h1 h2 =>
    obtain ⟨art, ha, hp, rfl⟩ := mem_of_paragraph a _ _ h1
    exact ⟨art, ha, _, hp, h2, rfl⟩

theorem mem_inner_paragraph (a : Act A) (art : Article A) (ha : art ∈ a.articles) (p : Paragraph A)
    (hp : p ∈ art.children) (ev : Event A) (h : ev ∈ paragraphInner a.identifier art.identifier p) :
    ev ∈ actEvents a := by
  simp only [actEvents, articleEvents, List.mem_flatMap]
  exact ⟨art, ha, p, hp, by simp [around, h]⟩

theorem mem_inner_alphabeticPoint (a : Act A) (art : Article A) (ha : art ∈ a.articles) (p : Paragraph A)
    (hp : p ∈ art.children) (e : AlphabeticPoint) (he : e ∈ (pointsOf p).1) (ev : Event A)
    (h : ev ∈ around .alphabeticPoint ⟨some a.identifier, some (.single art.identifier),
      p.identifier.id.map .single, some (.alphabetic (.single e.identifier)), none⟩ e
      (alphabeticPointInner A a.identifier art.identifier p.identifier.id e)) : ev ∈ actEvents a := by
  refine mem_inner_paragraph a art ha p hp ev ?_
  unfold pointsOf at he
  unfold paragraphInner
  split at he <;> simp_all
  exact ⟨e, he, h⟩

theorem mem_inner_numericPoint (a : Act A) (art : Article A) (ha : art ∈ a.articles) (p : Paragraph A)
    (hp : p ∈ art.children) (e : NumericPoint) (he : e ∈ (pointsOf p).2) (ev : Event A)
    (h : ev ∈ around .numericPoint ⟨some a.identifier, some (.single art.identifier),
      p.identifier.id.map .single, some (.numeric (.single e.identifier)), none⟩ e
      (numericPointInner A a.identifier art.identifier p.identifier.id e)) : ev ∈ actEvents a := by
  refine mem_inner_paragraph a art ha p hp ev ?_
  unfold pointsOf at he
  unfold paragraphInner
  split at he <;> simp_all
  exact ⟨e, he, h⟩

theorem mem_of_located (a : Act A) (k : Kind) (r : Ref) (e : Element A k) (h : Located a k r e) :
    Event.enter k r e ∈ actEvents a := by
  cases h with
  | paragraph art p h1 h2 =>
    simp only [actEvents, articleEvents, List.mem_flatMap]
    exact ⟨art, (mem_articles a art).2 h1, p, h2, by simp [around]⟩
  | alphabeticPoint e h1 h2 =>
    obtain ⟨art, ha, hp, rfl⟩ := mem_of_paragraph a _ _ h1
    exact mem_inner_alphabeticPoint a art ha _ hp e h2 _ (by simp [around])
  | numericPoint e h1 h2 =>
    obtain ⟨art, ha, hp, rfl⟩ := mem_of_paragraph a _ _ h1
    exact mem_inner_numericPoint a art ha _ hp e h2 _ (by simp [around])
  | @alphabeticSubpoint r k y x h1 h2 =>
    rcases k with _ | _ | _ | _ | _
    · simp [subpointsOf] at h2
    · obtain ⟨art, ha, p, hp, he, rfl⟩ := mem_of_alphabeticPoint a _ _ h1
      refine mem_inner_alphabeticPoint a art ha p hp y he _ ?_
      rcases y with ⟨yi, t | ⟨i, l | l, w⟩, ys, yc⟩ <;> simp [subpointsOf] at h2
      simp only [around, alphabeticPointInner, alphabeticSubpointEvents]
      simp
      exact h2
    · obtain ⟨art, ha, p, hp, he, rfl⟩ := mem_of_numericPoint a _ _ h1
      refine mem_inner_numericPoint a art ha p hp y he _ ?_
      rcases y with ⟨yi, t | ⟨i, l, w⟩, ys, yc⟩ <;> simp [subpointsOf] at h2
      simp only [around, numericPointInner, alphabeticSubpointEvents]
      simp
      exact h2
    · simp [subpointsOf] at h2
    · simp [subpointsOf] at h2
  | @numericSubpoint r k y x h1 h2 =>
    rcases k with _ | _ | _ | _ | _
    · simp [subpointsOf] at h2
    · obtain ⟨art, ha, p, hp, he, rfl⟩ := mem_of_alphabeticPoint a _ _ h1
      refine mem_inner_alphabeticPoint a art ha p hp y he _ ?_
      rcases y with ⟨yi, t | ⟨i, l | l, w⟩, ys, yc⟩ <;> simp [subpointsOf] at h2
      simp only [around, alphabeticPointInner, numericSubpointEvents]
      simp
      exact h2
    · rcases y with ⟨yi, t | ⟨i, l, w⟩, ys, yc⟩ <;> simp [subpointsOf] at h2
    · simp [subpointsOf] at h2
    · simp [subpointsOf] at h2

/-! ### Visitors which change the semantic information only -/

theorem list_bare {X : Type} (f : X → S → X × S × Res Unit) (g : X → X)
    (h : ∀ x s, g (f x s).1 = g x) (l : List X) (s : S) :
    (Walk.list f l s).1.map g = l.map g := by
  induction l generalizing s with
  | nil => rfl
  | cons x l ih =>
    have hx := h x s
    rw [Walk.list]
    generalize f x s = r at hx ⊢
    rcases r with ⟨x', s', _ | _ | _⟩
    · have := ih s'
      simp_all
    · simp_all
    · simp_all

theorem body_bare {C : Type} (f : C → S → C × S × Res Unit) (g : C → C)
    (h : ∀ x s, g (f x s).1 = g x) (b : SAEBody C) (s : S) :
    bareBody g (Walk.body f b s).1 = bareBody g b := by
  rcases b with t | ⟨i, c, w⟩
  · rfl
  · have := h c s
    simp only [Walk.body, bareBody]
    rw [this]

theorem sae_bare (v : VisitorMut A S) (hv : InfoOnly v) (k : Kind)
    (children : Ref → k.Children A → S → k.Children A × S × Res Unit) (g : k.Children A → k.Children A)
    (h : ∀ r x s, g (children r x s).1 = g x) (base : Ref) (e : Element A k) (s : S) :
    bareSae g (Walk.sae v k children base e s).1 = bareSae g e := by
  rw [Walk.sae]
  rcases (k.reference e.identifier).relativeTo base with _ | pos
  · rfl
  simp only
  obtain ⟨h1, h2, h5, -, -, -⟩ := hv k pos e s
  generalize v.onEnter k pos e s = r at h1 h2 h5 ⊢
  rcases r with ⟨e1, s1, _ | _ | _⟩
  · simp only at h1 h2 h5 ⊢
    have hb := body_bare (children pos) g (h pos) e1.body s1
    generalize Walk.body (children pos) e1.body s1 = r at hb ⊢
    rcases r with ⟨b, s2, _ | _ | _⟩
    · obtain ⟨-, -, -, h3, h4, h6⟩ := hv k pos { e1 with body := b } s2
      simp only at hb h3 h4 h6 ⊢
      rw [bareSae, bareSae, h3, h4, h6, hb, h1, h2, h5]
    · simp only [bareSae] at hb ⊢
      simp only [hb, h1, h2, h5]
    · simp only [bareSae] at hb ⊢
      simp only [hb, h1, h2, h5]
  · simp only [bareSae]; simp only at h1 h2 h5; rw [h1, h2, h5]
  · simp only [bareSae]; simp only at h1 h2 h5; rw [h1, h2, h5]

theorem alphabeticSubpoint_bare (v : VisitorMut A S) (hv : InfoOnly v) (r : Ref) (e : AlphabeticSubpoint)
    (s : S) : bareSae id (Walk.alphabeticSubpoint v r e s).1 = bareSae id e :=
  sae_bare v hv .alphabeticSubpoint _ id (fun _ x _ => nomatch x) r e s

theorem numericSubpoint_bare (v : VisitorMut A S) (hv : InfoOnly v) (r : Ref) (e : NumericSubpoint)
    (s : S) : bareSae id (Walk.numericSubpoint v r e s).1 = bareSae id e :=
  sae_bare v hv .numericSubpoint _ id (fun _ x _ => nomatch x) r e s

theorem alphabeticPoint_bare (v : VisitorMut A S) (hv : InfoOnly v) (r : Ref) (e : AlphabeticPoint)
    (s : S) : bareSae bareAlphabeticPointChildren (Walk.alphabeticPoint v r e s).1 =
      bareSae bareAlphabeticPointChildren e := by
  refine sae_bare v hv .alphabeticPoint _ _ (fun r x s => ?_) r e s
  rcases x with l | l
  · simpa [Walk.alphabeticPointChildren, bareAlphabeticPointChildren] using
      list_bare _ _ (alphabeticSubpoint_bare v hv r) l s
  · simpa [Walk.alphabeticPointChildren, bareAlphabeticPointChildren] using
      list_bare _ _ (numericSubpoint_bare v hv r) l s

theorem numericPoint_bare (v : VisitorMut A S) (hv : InfoOnly v) (r : Ref) (e : NumericPoint)
    (s : S) : bareSae bareNumericPointChildren (Walk.numericPoint v r e s).1 =
      bareSae bareNumericPointChildren e := by
  refine sae_bare v hv .numericPoint _ _ (fun r x s => ?_) r e s
  rcases x with ⟨l⟩
  simpa [Walk.numericPointChildren, bareNumericPointChildren] using
    list_bare _ _ (alphabeticSubpoint_bare v hv r) l s

theorem paragraph_bare (v : VisitorMut A S) (hv : InfoOnly v) (r : Ref) (e : Paragraph A)
    (s : S) : bareSae bareParagraphChildren (Walk.paragraph v r e s).1 =
      bareSae bareParagraphChildren e := by
  refine sae_bare v hv .paragraph _ _ (fun r x s => ?_) r e s
  rcases x with l | l | l | a
  · simpa [Walk.paragraphChildren, bareParagraphChildren] using
      list_bare _ _ (alphabeticPoint_bare v hv r) l s
  · simpa [Walk.paragraphChildren, bareParagraphChildren] using
      list_bare _ _ (numericPoint_bare v hv r) l s
  · rfl
  · rfl

theorem article_bare (v : VisitorMut A S) (hv : InfoOnly v) (r : Ref) (a : Article A) (s : S) :
    bareArticle (Walk.article v r a s).1 = bareArticle a := by
  rw [Walk.article]
  rcases (Ref.toArticle a.identifier).relativeTo r with _ | pos
  · rfl
  · have := list_bare _ _ (paragraph_bare v hv pos) a.children s
    simp only [bareArticle, this]

theorem act_bare (v : VisitorMut A S) (hv : InfoOnly v) (a : Act A) (s : S) :
    bareAct (Walk.actMut v a s).1 = bareAct a := by
  have := list_bare (Walk.actChild v (Ref.ofAct a.identifier)) bareActChild (fun c s => by
    rcases c with c | c | c
    · rfl
    · rfl
    · simp only [Walk.actChild, bareActChild, article_bare v hv]) a.children s
  simp only [Walk.actMut, bareAct, this]

end HunLaw
