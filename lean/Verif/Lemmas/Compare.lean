import Verif.Model.Compare
import Verif.Model.Output
import Verif.Model.SemanticInfo
import Verif.Spec.Compare

/-! Lemmas on the comparison of acts and on `is_empty`. -/

set_option autoImplicit false

namespace HunLaw.Compare

open Spec

/-! ### bare lines -/

theorem looseLine_content (l : Line) : (looseLine l).content = l.content := by
  unfold looseLine
  cases h : l.content with
  | nil => simp [Line.content]
  | cons c cs => simp [Line.content, Function.comp_def]

theorem looseLine_isBold (l : Line) : (looseLine l).isBold = l.isBold := rfl

theorem looseLine_isEmpty (l : Line) : (looseLine l).isEmpty = l.isEmpty := by
  obtain ⟨ps, j, b⟩ := l
  cases ps <;> rfl

theorem looseLine_indent (l : Line) : (looseLine l).indent = l.indent := by
  obtain ⟨ps, j, b⟩ := l
  cases ps with
  | nil => rfl
  | cons p ps => simp [looseLine, Line.content, Line.indent]

theorem line_eq_iff (a b : Line) : Line.beq a b = true ↔ looseLine a = looseLine b := by
  constructor
  · intro h
    simp only [Line.beq, Bool.and_eq_true, decide_eq_true_eq, beq_iff_eq] at h
    obtain ⟨⟨h1, h2⟩, h3⟩ := h
    unfold looseLine
    rw [h1, h2, h3]
  · intro h
    simp only [Line.beq, Bool.and_eq_true, decide_eq_true_eq, beq_iff_eq]
    refine ⟨⟨?_, ?_⟩, ?_⟩
    · rw [← looseLine_indent a, ← looseLine_indent b, h]
    · rw [← looseLine_content a, ← looseLine_content b, h]
    · rw [← looseLine_isBold a, ← looseLine_isBold b, h]

/-! ### equality is that of the bare acts -/

theorem vecEq_iff {X Y : Type} {f : X → X → Bool} {g : X → Y} (h : ∀ a b, f a b = true ↔ g a = g b) :
    ∀ as bs : List X, vecEq f as bs = true ↔ as.map g = bs.map g
  | [], [] => by simp [vecEq]
  | [], _ :: _ => by simp [vecEq]
  | _ :: _, [] => by simp [vecEq]
  | a :: as, b :: bs => by simp [vecEq, h, vecEq_iff h as bs]

theorem block_eq_iff (a b : QuotedBlock) : a.eq b = true ↔ looseBlock a = looseBlock b := by
  obtain ⟨i, l, w⟩ := a
  obtain ⟨i', l', w'⟩ := b
  simp [QuotedBlock.eq, looseBlock, vecEq_iff line_eq_iff, and_assoc]

theorem body_eq_iff {C : Type} {f : C → C → Bool} {g : C → C} (h : ∀ a b, f a b = true ↔ g a = g b)
    (a b : SAEBody C) : a.eq f b = true ↔ looseBody g a = looseBody g b := by
  cases a <;> cases b <;> simp [SAEBody.eq, looseBody, h, and_assoc]

theorem element_eq_iff {I C : Type} [DecidableEq I] {f : C → C → Bool} {g : C → C}
    (h : ∀ a b, f a b = true ↔ g a = g b) (a b : SAE I C) :
    a.eq f b = true ↔ looseElement g a = looseElement g b := by
  obtain ⟨i, l, w⟩ := a
  obtain ⟨i', l', w'⟩ := b
  simp [SAE.eq, looseElement, body_eq_iff h, and_assoc]

theorem children_eq_iff {A : Type} {f : A → A → Bool} {g : A → A} (h : ∀ a b, f a b = true ↔ g a = g b)
    (a b : ParagraphChildren A) : a.eq f b = true ↔ looseChildren g a = looseChildren g b := by
  cases a <;> cases b <;> simp [ParagraphChildren.eq, looseChildren, h, vecEq_iff block_eq_iff]

theorem article_eq_iff {A : Type} {f : A → A → Bool} {g : A → A} (h : ∀ a b, f a b = true ↔ g a = g b)
    (a b : Article A) : a.eq f b = true ↔ looseArticle g a = looseArticle g b := by
  obtain ⟨i, l, w⟩ := a
  obtain ⟨i', l', w'⟩ := b
  simp [Article.eq, looseArticle, vecEq_iff (element_eq_iff (children_eq_iff h)), and_assoc]

theorem child_eq_iff {A : Type} {f : A → A → Bool} {g : A → A} (h : ∀ a b, f a b = true ↔ g a = g b)
    (a b : ActChild A) : a.eq f b = true ↔ looseChild g a = looseChild g b := by
  cases a <;> cases b <;> simp [ActChild.eq, looseChild, article_eq_iff h]

theorem act_eq_iff {A : Type} {f : A → A → Bool} {g : A → A} (h : ∀ a b, f a b = true ↔ g a = g b)
    (a b : Act A) : a.eq f b = true ↔ looseAct g a = looseAct g b := by
  obtain ⟨i, l, w, x, y, z⟩ := a
  obtain ⟨i', l', w', x', y', z'⟩ := b
  simp [Act.eq, looseAct, vecEq_iff (child_eq_iff h), and_assoc]

theorem noAmendment_eq_iff (a b : Empty) : noAmendmentEq a b = true ↔ id a = id b := nomatch a

theorem amendment_eq_iff (a b : Amendment) : a.eq b = true ↔ looseAmendment a = looseAmendment b := by
  cases a with
  | block i c w =>
    cases b with
    | block i' c' w' =>
      cases c <;> cases c' <;>
        simp [Amendment.eq, looseAmendment, BlockAmendmentChildren.eq,
          vecEq_iff (element_eq_iff (children_eq_iff noAmendment_eq_iff)), and_assoc]
    | structural => cases c <;> simp [Amendment.eq, looseAmendment]
  | structural i c w =>
    cases b with
    | block i' c' w' => cases c' <;> simp [Amendment.eq, looseAmendment]
    | structural =>
      simp [Amendment.eq, looseAmendment, vecEq_iff (child_eq_iff noAmendment_eq_iff), and_assoc]

/-! ### printing -/

open Output

theorem minIndent_bare (l : List Line) : minIndent (l.map looseLine) = minIndent l := by
  simp [minIndent, Function.comp_def, looseLine_indent]

theorem quotedLines_bare (min : Rat) : ∀ (l : List Line) (p : Params),
    quotedLines min p (l.map looseLine) = quotedLines min p l
  | [], _ => rfl
  | x :: l, p => by simp [quotedLines, looseLine_indent, looseLine_content, quotedLines_bare min l]

theorem quotedBlock_bare (w : Wrapper) (p : Params) (q : QuotedBlock) :
    quotedBlock w p (looseBlock q) = quotedBlock w p q := by
  simp [quotedBlock, looseBlock, minIndent_bare, quotedLines_bare]

theorem list_map {X : Type} {f : Params → X → Res Str} {g : X → X} (h : ∀ p x, f p (g x) = f p x) :
    ∀ (l : List X) (p : Params), Output.list f p (l.map g) = Output.list f p l
  | [], _ => rfl
  | x :: l, p => by simp [Output.list, h, list_map h l]

theorem body_bare {C : Type} (w : Wrapper) {f : Params → C → Res Str} {g : C → C} (h : ∀ p x, f p (g x) = f p x)
    (p : Params) (i : SemanticInfo) (b : SAEBody C) :
    Output.body w f p i (looseBody g b) = Output.body w f p i b := by
  cases b <;> simp [Output.body, looseBody, h]

theorem paragraphChildren_bare {A : Type} (w : Wrapper) {f : Params → A → Res Str} {g : A → A}
    (h : ∀ p x, f p (g x) = f p x) (p : Params) (c : ParagraphChildren A) :
    Output.paragraphChildren w f p (looseChildren g c) = Output.paragraphChildren w f p c := by
  cases c <;> simp [Output.paragraphChildren, looseChildren, h, list_map (quotedBlock_bare w)]

theorem paragraph_bare {A : Type} (w : Wrapper) {f : Params → A → Res Str} {g : A → A}
    (h : ∀ p x, f p (g x) = f p x) (p : Params) (e : Paragraph A) :
    Output.paragraph w f p (looseElement (looseChildren g) e) = Output.paragraph w f p e := by
  simp [Output.paragraph, Output.sae, looseElement, body_bare w (paragraphChildren_bare w h)]

theorem article_bare {A : Type} (w : Wrapper) {f : Params → A → Res Str} {g : A → A}
    (h : ∀ p x, f p (g x) = f p x) (p : Params) (a : Article A) :
    Output.article w f p (looseArticle g a) = Output.article w f p a := by
  simp [Output.article, looseArticle, list_map (paragraph_bare w h), Output.emptyEnd]

theorem child_bare {A : Type} (w : Wrapper) {f : Params → A → Res Str} {g : A → A}
    (h : ∀ p x, f p (g x) = f p x) (p : Params) (c : ActChild A) :
    Output.actChild w f p (looseChild g c) = Output.actChild w f p c := by
  cases c <;> simp [Output.actChild, looseChild, article_bare w h]

theorem children_bare {A : Type} (w : Wrapper) {f : Params → A → Res Str} {g : A → A}
    (h : ∀ p x, f p (g x) = f p x) (p : Params) : ∀ (l : List (ActChild A)) (b : Bool),
    Output.actChildren w f p b (l.map (looseChild g)) = Output.actChildren w f p b l
  | [], _ => rfl
  | c :: l, b => by
    have hc : isArticle (looseChild g c) = isArticle c := by cases c <;> rfl
    simp [Output.actChildren, child_bare w h, children_bare w h p l, hc]

theorem act_bare {A : Type} (w : Wrapper) {f : Params → A → Res Str} {g : A → A}
    (h : ∀ p x, f p (g x) = f p x) (p : Params) (a : Act A) :
    Output.act w f p (looseAct g a) = Output.act w f p a := by
  simp [Output.act, looseAct, children_bare w h]

theorem amendment_bare (w : Wrapper) (p : Params) (a : Amendment) :
    Output.amendment w p (looseAmendment a) = Output.amendment w p a := by
  have he : ∀ (p : Params) (x : Empty), noAmendment p (id x) = noAmendment p x := fun _ x => nomatch x
  have e1 := fun p => blockAmendmentChildren w p
  cases a with
  | block i c wu =>
    cases c with
    | paragraph l =>
      have : ∀ p, blockAmendmentChildren w p (.paragraph (l.map (looseElement (looseChildren id))))
          = blockAmendmentChildren w p (.paragraph l) := fun p => list_map (paragraph_bare w he) l p
      simp [Output.amendment, looseAmendment, quoted, this]
    | _ => rfl
  | structural i c wu =>
    simp [Output.amendment, looseAmendment, quoted, list_map (child_bare w he)]

/-! ### reading -/

open Semantic

variable {A : Type}

/-- A function of an element with a state does the same with the bare element. -/
def Same {X S : Type} (g : X → X) (f : X → S → X × S × Res Unit) : Prop :=
  ∀ x s, f (g x) s = (g (f x s).1, (f x s).2)

theorem same_list {X S : Type} {g : X → X} {f : X → S → X × S × Res Unit} (h : Same g f) :
    ∀ (l : List X) (s : S), Walk.list f (l.map g) s = ((Walk.list f l s).1.map g, (Walk.list f l s).2)
  | [], s => rfl
  | x :: l, s => by
    simp only [List.map_cons, Walk.list, h x s]
    rcases hx : f x s with ⟨x', s', r⟩
    cases r with
    | ok u => simp [same_list h l s']
    | err => simp
    | panic => simp

theorem same_onEnter {I C : Type} (g : C → C) : Same (looseElement g) (Adder.onEnter (I := I) (C := C)) := by
  intro e s
  obtain ⟨i, b, si⟩ := e
  cases b with
  | text t =>
    simp only [Adder.onEnter, looseElement, looseBody]
    rcases s.extract t with ⟨a, _ | x⟩ <;> rfl
  | children intro c w =>
    simp only [Adder.onEnter, looseElement, looseBody]
    rcases s.extract intro with ⟨a, _ | x⟩ <;> rfl

theorem same_onExit {I C : Type} (g : C → C) : Same (looseElement g) (Adder.onExit (I := I) (C := C)) := by
  intro e s
  obtain ⟨i, b, si⟩ := e
  cases b <;> rfl

theorem same_body {C S : Type} {g : C → C} {f : C → S → C × S × Res Unit} (h : Same g f) :
    Same (looseBody g) (Walk.body f) := by
  intro b s
  cases b with
  | text t => rfl
  | children i c w => simp [Walk.body, looseBody, h c s]

theorem same_children (g : A → A) (pos : Ref) :
    Same (looseChildren g) (Walk.paragraphChildren (Adder.visitor A) pos) := by
  intro c s
  cases c <;> rfl

theorem same_paragraph (g : A → A) (base : Ref) :
    Same (looseElement (looseChildren g)) (Walk.paragraph (Adder.visitor A) base) := by
  intro e s
  have hid : (looseElement (looseChildren g) e).identifier = e.identifier := rfl
  have hb : ∀ x : Paragraph A, (looseElement (looseChildren g) x).body = looseBody (looseChildren g) x.body := fun _ => rfl
  have hn : ∀ k p (e : Element A k) s, (Adder.visitor A).onEnter k p e s = Adder.onEnter e s := fun _ _ _ _ => rfl
  have hx : ∀ k p (e : Element A k) s, (Adder.visitor A).onExit k p e s = Adder.onExit e s := fun _ _ _ _ => rfl
  simp only [Walk.paragraph, Walk.sae, hn, hx, hid]
  cases (Kind.reference .paragraph e.identifier).relativeTo base with
  | none => rfl
  | some pos =>
    simp only [same_onEnter (looseChildren g) e s]
    rcases Adder.onEnter e s with ⟨e1, s1, r1⟩
    cases r1 with
    | ok u =>
      simp only [hb, same_body (same_children g pos) e1.body s1]
      rcases Walk.body (Walk.paragraphChildren (Adder.visitor A) pos) e1.body s1 with ⟨b, s2, r2⟩
      cases r2 with
      | ok u => exact same_onExit (looseChildren g) { e1 with body := b } s2
      | err => rfl
      | panic => rfl
    | err => rfl
    | panic => rfl

theorem same_article (g : A → A) (base : Ref) :
    Same (looseArticle g) (Walk.article (Adder.visitor A) base) := by
  intro a s
  simp only [Walk.article, looseArticle]
  cases (Ref.toArticle a.identifier).relativeTo base with
  | none => rfl
  | some pos => simp only [same_list (same_paragraph g pos)]

theorem same_child (g : A → A) (base : Ref) : Same (looseChild g) (Walk.actChild (Adder.visitor A) base) := by
  intro c s
  cases c with
  | article a => simp only [Walk.actChild, looseChild, same_article g base a s]
  | structuralElement e => rfl
  | subtitle t => rfl

theorem same_act (g : A → A) : Same (looseAct g) (Walk.actMut (Adder.visitor A)) := by
  intro a s
  simp only [Walk.actMut, looseAct, same_list (same_child g _)]

/-- Adding semantic information does the same with the bare act. -/
theorem addSemanticInfo_bare (g : A → A) (a : Act A) :
    addSemanticInfo (looseAct g a) = (looseAct g (addSemanticInfo a).1, (addSemanticInfo a).2) := by
  have hc : (looseAct g a).containedAbbreviations = a.containedAbbreviations := rfl
  simp only [addSemanticInfo, hc, same_act g a]
  rcases Walk.actMut (Adder.visitor A) a (Adder.new (Cache.ofMap a.containedAbbreviations)) with ⟨a', s, r⟩
  cases r <;> rfl

theorem updateArticle_bare {S : Type} (g : A → A) (id : ArticleId) {f : Article A → S → Article A × S × Res Unit}
    (h : Same (looseArticle g) f) : ∀ (l : List (ActChild A)) (s : S),
    updateArticle id f (l.map (looseChild g)) s
      = (updateArticle id f l s).map fun r => (r.1.map (looseChild g), r.2)
  | [], _ => rfl
  | .article x :: l, s => by
    have hid : (looseArticle g x).identifier = x.identifier := rfl
    simp only [List.map_cons, looseChild, updateArticle, hid, h x s]
    split
    · rfl
    · rw [updateArticle_bare g id h l s]
      cases updateArticle id f l s <;> rfl
  | .structuralElement e :: l, s => by
    simp only [List.map_cons, looseChild, updateArticle, updateArticle_bare g id h l s]
    cases updateArticle id f l s <;> rfl
  | .subtitle e :: l, s => by
    simp only [List.map_cons, looseChild, updateArticle, updateArticle_bare g id h l s]
    cases updateArticle id f l s <;> rfl

/-- Reading one article again does the same with the bare act. -/
theorem addSemanticInfoToArticle_bare (g : A → A) (a : Act A) (id : ArticleId) :
    addSemanticInfoToArticle (looseAct g a) id
      = (looseAct g (addSemanticInfoToArticle a id).1, (addSemanticInfoToArticle a id).2) := by
  have hc : (looseAct g a).containedAbbreviations = a.containedAbbreviations := rfl
  have hi : (looseAct g a).identifier = a.identifier := rfl
  have hl : (looseAct g a).children = a.children.map (looseChild g) := rfl
  simp only [addSemanticInfoToArticle, hc, hi, hl, updateArticle_bare g id (same_article g _)]
  rcases updateArticle id (Walk.article (Adder.visitor A) (Ref.ofAct a.identifier)) a.children
      (Adder.new (Cache.ofMap a.containedAbbreviations)) with _ | ⟨l, s, r⟩
  · rfl
  · cases r <;> rfl

/-! ### emptiness -/

theorem element_isEmpty {I C : Type} {f : C → Bool} {P : C → Prop} (h : ∀ c, f c = true ↔ ¬ P c) (e : SAE I C) :
    e.isEmpty f = true ↔ ¬ LeftElement P e := by
  obtain ⟨i, b, s⟩ := e
  cases b with
  | text t => simp [SAE.isEmpty, LeftElement]
  | children i c w => exact h c

theorem list_isEmpty {X : Type} {f : X → Bool} {P : X → Prop} (h : ∀ c, f c = true ↔ ¬ P c) (l : List X) :
    l.all f = true ↔ ¬ ∃ e ∈ l, P e := by simp [h]

theorem no_isEmpty (c : NoChildren) : c.isEmpty = true ↔ ¬ LeftNo c := nomatch c

theorem alphabetic_isEmpty (c : AlphabeticPointChildren) : c.isEmpty = true ↔ ¬ LeftAlphabetic c := by
  cases c <;> exact list_isEmpty (element_isEmpty no_isEmpty) _

theorem numeric_isEmpty (c : NumericPointChildren) : c.isEmpty = true ↔ ¬ LeftNumeric c := by
  cases c; exact list_isEmpty (element_isEmpty no_isEmpty) _

theorem children_isEmpty {f : A → Bool} {P : A → Prop} (h : ∀ c, f c = true ↔ ¬ P c) (c : ParagraphChildren A) :
    c.isEmpty f = true ↔ ¬ LeftParagraph P c := by
  cases c with
  | alphabeticPoint l => exact list_isEmpty (element_isEmpty alphabetic_isEmpty) _
  | numericPoint l => exact list_isEmpty (element_isEmpty numeric_isEmpty) _
  | quotedBlock l => simp [ParagraphChildren.isEmpty, LeftParagraph]
  | amendment a => exact h a

theorem noAmendment_isEmpty (a : Empty) : noAmendmentIsEmpty a = true ↔ ¬ False := nomatch a

theorem block_isEmpty (c : BlockAmendmentChildren) : c.isEmpty = true ↔ ¬ LeftBlock c := by
  cases c with
  | paragraph l => exact list_isEmpty (element_isEmpty (children_isEmpty noAmendment_isEmpty)) _
  | alphabeticPoint l => exact list_isEmpty (element_isEmpty alphabetic_isEmpty) _
  | numericPoint l => exact list_isEmpty (element_isEmpty numeric_isEmpty) _
  | alphabeticSubpoint l => exact list_isEmpty (element_isEmpty no_isEmpty) _
  | numericSubpoint l => exact list_isEmpty (element_isEmpty no_isEmpty) _

end HunLaw.Compare
