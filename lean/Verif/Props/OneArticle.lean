import Verif.Props.OutputLines
import Verif.Props.Semantic

/-! Property C110: reading one article of an act again. -/

set_option autoImplicit false

namespace HunLaw.Props

open HunLaw Spec Semantic

variable {A : Type}

theorem update_missing {S : Type} {id : ArticleId} {f : Article A → S → Article A × S × Res Unit} {l : List (ActChild A)}
    (h : ∀ x, ActChild.article x ∈ l → x.identifier ≠ id) (s : S) : updateArticle id f l s = none := by
  induction l with
  | nil => rfl
  | cons c l ih =>
    have ih := ih fun x hx => h x (by simp [hx])
    cases c with
    | article x => rw [updateArticle, if_neg (h x (by simp)), ih]
    | structuralElement x => rw [updateArticle, ih]; intro y h; cases h
    | subtitle x => rw [updateArticle, ih]; intro y h; cases h

theorem update_found {S : Type} {id : ArticleId} {f : Article A → S → Article A × S × Res Unit}
    {before after : List (ActChild A)} {x : Article A} (hx : x.identifier = id)
    (h : ∀ x, ActChild.article x ∈ before → x.identifier ≠ id) (s : S) :
    updateArticle id f (before ++ .article x :: after) s =
      some (before ++ .article (f x s).1 :: after, (f x s).2) := by
  induction before with
  | nil => rw [List.nil_append, updateArticle, if_pos hx]; rfl
  | cons c l ih =>
    have ih := ih fun x hx => h x (by simp [hx])
    cases c with
    | article x => rw [List.cons_append, updateArticle, if_neg (h x (by simp)), ih]; rfl
    | structuralElement x => rw [List.cons_append, updateArticle, ih]; rfl; intro y h; cases h
    | subtitle x => rw [List.cons_append, updateArticle, ih]; rfl; intro y h; cases h

theorem first_article {id : ArticleId} {l : List (ActChild A)} (h : ∃ x, ActChild.article x ∈ l ∧ x.identifier = id) :
    ∃ before x after, l = before ++ .article x :: after ∧ x.identifier = id ∧
      ∀ y, ActChild.article y ∈ before → y.identifier ≠ id := by
  induction l with
  | nil => obtain ⟨x, hx, -⟩ := h; simp at hx
  | cons c l ih =>
    by_cases hc : ∃ x, c = .article x ∧ x.identifier = id
    · obtain ⟨x, rfl, hx⟩ := hc
      exact ⟨[], x, l, rfl, hx, by simp⟩
    · obtain ⟨x, hx, hid⟩ := h
      rcases List.mem_cons.1 hx with rfl | hx
      · exact absurd ⟨x, rfl, hid⟩ hc
      · obtain ⟨b, x, af, rfl, h1, h2⟩ := ih ⟨x, hx, hid⟩
        refine ⟨c :: b, x, af, rfl, h1, fun y hy => ?_⟩
        rcases List.mem_cons.1 hy with rfl | hy
        · exact fun h => hc ⟨y, rfl, h⟩
        · exact h2 y hy

/-- C110: if the act has no article with the identifier, the act stays as it was. -/
theorem C110_untouched (act : Act A) (id : ArticleId) (h : ∀ x ∈ act.articles, x.identifier ≠ id) :
    (addSemanticInfoToArticle act id).1 = act := by
  unfold addSemanticInfoToArticle
  rw [update_missing fun x hx => h x ((mem_articles act x).2 hx)]

/-- C110 as stated about missing articles: there is an error. -/
def C110_statement : Prop :=
  ∀ (act : Act Unit) (id : ArticleId), (∀ x ∈ act.articles, x.identifier ≠ id) →
    (addSemanticInfoToArticle act id).2 = .err

/-- C110 is violated: the message has the identifier of the act in it, and writing that panics if the number of the
act has no Roman form. -/
theorem C110_violated : ¬ C110_statement := by
  intro h
  have := h ⟨⟨⟨2012, by decide⟩, ⟨4000, by decide⟩⟩, [], [], ⟨2012, 1, 1⟩, [], []⟩ ⟨none, ⟨1, none⟩⟩ (by intro x hx; cases hx)
  revert this
  decide

/-- C110: there is an error for a missing article if the number of the act is between 1 and 3999, and a panic
otherwise. Missing: an error in that case too. -/
theorem C110_missing_partial (act : Act A) (id : ArticleId) (h : ∀ x ∈ act.articles, x.identifier ≠ id) :
    (1 ≤ act.identifier.number.val ∧ act.identifier.number.val ≤ 3999 →
      addSemanticInfoToArticle act id = (act, .err)) ∧
    (¬ (1 ≤ act.identifier.number.val ∧ act.identifier.number.val ≤ 3999) →
      addSemanticInfoToArticle act id = (act, .panic)) := by
  unfold addSemanticInfoToArticle
  rw [update_missing fun x hx => h x ((mem_articles act x).2 hx)]
  have hd : act.identifier.display ≠ .err := by
    unfold ActId.display; split <;> [split; skip] <;> simp
  constructor
  · rintro ⟨h1, h2⟩
    obtain ⟨s, hs⟩ := actId_display (i := act.identifier) h1 h2
    simp only [missingArticle, hs]; rfl
  · intro hn
    cases hs : act.identifier.display with
    | ok s => exact absurd (display_range hs) hn
    | err => exact absurd hs hd
    | panic => simp only [missingArticle, hs]; rfl

/-- C110: otherwise nothing changes but the semantic information of the first article with the identifier and, if
that could be read, the abbreviations of the act. What is read are the texts of this article in order, with the
abbreviations the act has had; the abbreviations of the act become those known in the end, and the answer says if
they have changed. There is an error exactly if some text of the article cannot be read. -/
theorem C110_article (act : Act A) (id : ArticleId) (h : ∃ x ∈ act.articles, x.identifier = id) :
    ∃ before x after x', act.children = before ++ .article x :: after ∧ x.identifier = id ∧
      (∀ y, ActChild.article y ∈ before → y.identifier ≠ id) ∧ bareArticle x' = bareArticle x ∧
      ((∃ c, readTexts (Cache.ofMap act.containedAbbreviations) ((articleReadings x).map (·.1)) =
          some ((articleReadings x').map (·.2), c) ∧
        addSemanticInfoToArticle act id =
          ({ act with children := before ++ .article x' :: after, containedAbbreviations := c.cache },
            .ok c.hasChanged)) ∨
      (readTexts (Cache.ofMap act.containedAbbreviations) ((articleReadings x).map (·.1)) = none ∧
        addSemanticInfoToArticle act id = ({ act with children := before ++ .article x' :: after }, .err))) := by
  obtain ⟨x, hx, hid⟩ := h
  obtain ⟨before, x, after, hc, hid, hb⟩ := first_article ⟨x, (mem_articles act x).1 hx, hid⟩
  have ht := tracks_article (A := A) act.identifier x (Adder.new (Cache.ofMap act.containedAbbreviations))
    (inContext_new _)
  have hbare := article_bare (Adder.visitor A) infoOnly_adder (Ref.ofAct act.identifier) x
    (Adder.new (Cache.ofMap act.containedAbbreviations))
  unfold addSemanticInfoToArticle
  rw [hc, update_found hid hb]
  rcases hw : Walk.article (Adder.visitor A) (Ref.ofAct act.identifier) x
    (Adder.new (Cache.ofMap act.containedAbbreviations)) with ⟨x', a, _ | _ | _⟩ <;> rw [hw] at ht hbare
  · exact ⟨before, x, after, x', rfl, hid, hb, hbare, .inl ⟨a.cache, ht.2.2, rfl⟩⟩
  · exact ⟨before, x, after, x', rfl, hid, hb, hbare, .inr ⟨ht, rfl⟩⟩
  · exact ht.elim

theorem readTexts_length {c c' : Cache} {l : List Spec.Reading} {i : List SemanticInfo}
    (h : readTexts c l = some (i, c')) : i.length = l.length := by
  induction l generalizing c i with
  | nil => cases h; rfl
  | cons r l ih =>
    rw [readTexts] at h
    obtain ⟨x, -, h⟩ := bind_some_split h
    obtain ⟨y, h2, h⟩ := bind_some_split h
    cases h
    rw [List.length_cons, List.length_cons, ih h2]

/-- C110: once the whole act was read without new abbreviations, reading any of its articles again changes
nothing. -/
theorem C110_settled (act act' : Act A) (h : addSemanticInfo act = (act', .ok false)) (id : ArticleId)
    (hid : ∃ x ∈ act'.articles, x.identifier = id) : addSemanticInfoToArticle act' id = (act', .ok false) := by
  have hf := C66_final act act' h
  obtain ⟨c, h1, h2, h3⟩ := C47_context act' act' false hf
  have hc := readTexts_unchanged h1 h3.symm
  subst hc
  obtain ⟨before, x, after, x', hl, -, -, hbare, hr⟩ := C110_article act' id hid
  rw [actReadings_eq, hl] at h1
  simp only [List.flatMap_append, List.flatMap_cons, List.map_append, childReadings] at h1
  rw [readTexts_append] at h1
  obtain ⟨y, g1, h1⟩ := bind_some_split h1
  obtain ⟨z, g2, h1⟩ := bind_some_split h1
  simp only [Option.some.injEq, Prod.mk.injEq] at h1
  obtain ⟨e1, e2⟩ := h1
  rw [readTexts_append] at g2
  obtain ⟨u, g3, g2⟩ := bind_some_split g2
  obtain ⟨v, g4, g2⟩ := bind_some_split g2
  simp only [Option.some.injEq] at g2
  subst g2
  simp only at e1 e2
  have k1 : v.2 = u.2 := readTexts_unchanged g4 (by rw [e2]; exact h3.symm)
  have k2 : u.2 = y.2 := readTexts_unchanged g3 (by rw [← k1, e2]; exact h3.symm)
  have k3 : y.2 = Cache.ofMap act'.containedAbbreviations := by rw [← k2, ← k1, e2]
  have l1 : y.1.length = ((before.flatMap childReadings).map (·.2)).length := by
    rw [readTexts_length g1, List.length_map, List.length_map]
  have l2 : u.1.length = ((articleReadings x).map (·.2)).length := by
    rw [readTexts_length g3, List.length_map, List.length_map]
  have e3 := (List.append_inj (List.append_inj e1 l1).2 l2).1
  rw [k3] at g3
  rcases hr with ⟨c, r1, r2⟩ | ⟨r1, -⟩
  · rw [r1] at g3
    simp only [Option.some.injEq] at g3
    subst g3
    have hx : x' = x := determined_article.2 x' x hbare e3
    have hc : c = Cache.ofMap act'.containedAbbreviations := by rw [← k3, ← k2]
    subst hc
    rw [r2, hx, ← hl]
    rfl
  · rw [r1] at g3
    cases g3

/-! A concrete act: the first article uses an abbreviation which only the second one introduces. -/

def lateAct : Act Empty where
  identifier := ⟨⟨2345, by decide⟩, ⟨13, by decide⟩⟩
  subject := []
  preamble := []
  publicationDate := ⟨2345, 6, 7⟩
  containedAbbreviations := []
  children := [
    .article ⟨⟨none, .ofNum 1⟩, none, [⟨⟨none⟩, .text str!"A Btk. 3. §-a nem alkalmazható.", .default, none⟩], none⟩,
    .article ⟨⟨none, .ofNum 2⟩, none, [⟨⟨none⟩,
      .text str!"A 2012. évi C. törvény (a továbbiakban: Btk.) 4. §-a nem alkalmazható.", .default, none⟩], none⟩]

/-- In the first pass the abbreviation is new. After that the first article can be read alone, and then nothing
changes any more. -/
example : let a := (addSemanticInfo lateAct).1
    (addSemanticInfo lateAct).2 = .ok true ∧
      (addSemanticInfoToArticle a ⟨none, .ofNum 1⟩).2 = .ok false ∧
      (addSemanticInfoToArticle a ⟨none, .ofNum 1⟩).1 ≠ a ∧
      addSemanticInfo (addSemanticInfoToArticle a ⟨none, .ofNum 1⟩).1 =
        ((addSemanticInfoToArticle a ⟨none, .ofNum 1⟩).1, .ok false) ∧
      addSemanticInfoToArticle a ⟨none, .ofNum 3⟩ = (a, .err) := by decide +kernel

end HunLaw.Props
