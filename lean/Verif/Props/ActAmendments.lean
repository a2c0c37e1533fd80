import Verif.Spec.ActAmendments
import Verif.Props.ActSentences
import Verif.Props.ExactAmendment

/-! Property C133: the amendments in a whole act are those which its sentences announce. -/

set_option autoImplicit false

namespace HunLaw.Props

open HunLaw Spec Semantic BlockAmend

/-! ### paragraphs -/

theorem paragraphReadings_bare {A : Type} (p : Paragraph A) :
    (elementReadings paragraphReadings [] (bareSae bareParagraphChildren p)).map (·.1) = (elementReadings paragraphReadings [] p).map (·.1) := by
  refine elementReadings_bare _ _ (fun l c => ?_) _ p
  cases c with
  | alphabeticPoint c =>
    refine flatMap_bare _ _ _ fun e => elementReadings_bare _ _ (fun l c => ?_) _ e
    cases c with
    | alphabeticSubpoint c => exact flatMap_bare _ _ _ fun e => subpoint_bare l e
    | numericSubpoint c => exact flatMap_bare _ _ _ fun e => subpoint_bare l e
  | numericPoint c =>
    refine flatMap_bare _ _ _ fun e => elementReadings_bare _ _ (fun l c => ?_) _ e
    cases c with
    | alphabeticSubpoint c => exact flatMap_bare _ _ _ fun e => subpoint_bare l e
  | quotedBlock c => rfl
  | amendment c => rfl

theorem actReadings_paragraphs {A : Type} (a : Act A) : actReadings a = (paragraphsOf a).flatMap (elementReadings paragraphReadings []) := by
  unfold actReadings paragraphsOf articleReadings
  rw [List.flatMap_assoc]

theorem paragraphsOf_bare {A : Type} (a : Act A) : paragraphsOf (bareAct a) = (paragraphsOf a).map (bareSae bareParagraphChildren) := by
  unfold paragraphsOf Act.articles bareAct
  induction a.children with
  | nil => rfl
  | cons c l ih =>
    cases c with
    | article x => exact (congrArg _ ih).trans (List.map_append ..).symm
    | _ => exact ih

theorem paragraphsOf_lift (a : Act Empty) : paragraphsOf a.lift = (paragraphsOf a).map Paragraph.lift := by
  unfold paragraphsOf Act.articles Act.lift
  induction a.children with
  | nil => rfl
  | cons c l ih =>
    cases c with
    | article x => exact (congrArg _ ih).trans (List.map_append ..).symm
    | _ => exact ih

theorem paragraphs_unchanged {A : Type} {act act' : Act A} {changed : Bool} (h : addSemanticInfo act = (act', .ok changed)) :
    (paragraphsOf act').map (bareSae bareParagraphChildren) = (paragraphsOf act).map (bareSae bareParagraphChildren) := by
  have hb := (C65_only_info act).1
  rw [h] at hb
  rw [← paragraphsOf_bare, ← paragraphsOf_bare, ← hb]
  rfl

theorem tryForEach_map {X : Type} {f : X → X × Res Unit} : ∀ {l : List X}, (tryForEach f l).2 = .ok () →
    (tryForEach f l).1 = l.map fun x => (f x).1
  | [], _ => rfl
  | x :: l, h => by
    unfold tryForEach at h ⊢
    rcases hx : f x with ⟨y, r⟩
    rw [hx] at h
    cases r with
    | ok u => simp only at h ⊢; rw [List.map_cons, hx, tryForEach_map h]
    | err => cases h
    | panic => cases h

theorem tryForEach_ok {X : Type} {f : X → X × Res Unit} : ∀ {l : List X}, (tryForEach f l).2 = .ok () → ∀ x ∈ l, (f x).2 = .ok ()
  | [], _, _, hm => by cases hm
  | x :: l, h, y, hm => by
    unfold tryForEach at h
    rcases hx : f x with ⟨z, r⟩
    rw [hx] at h
    cases r with
    | ok u =>
      simp only at h
      rcases List.mem_cons.1 hm with rfl | hm
      · rw [hx]
      · exact tryForEach_ok h y hm
    | err => cases h
    | panic => cases h

theorem paragraphs_converted {upper : Char → Bool} {a : Act Amendment} (h : (BlockAmend.act upper a).2 = .ok ()) :
    paragraphsOf (BlockAmend.act upper a).1 = (paragraphsOf a).map fun p => (paragraph upper p).1 := by
  have h1 := tryForEach_ok h
  have h2 := tryForEach_map h
  unfold paragraphsOf Act.articles BlockAmend.act
  simp only [h2]
  revert h1
  clear h2 h
  induction a.children with
  | nil => intro _; rfl
  | cons c l ih =>
    intro h1
    have ih := ih fun x hx => h1 x (List.mem_cons_of_mem _ hx)
    have hc := h1 c List.mem_cons_self
    cases c with
    | structuralElement c => exact ih
    | subtitle c => exact ih
    | article x =>
      have := tryForEach_map (f := paragraph upper) (l := x.children) hc
      refine (congrArg₂ (· ++ ·) this ih).trans (List.map_append ..).symm

theorem forall₂_flatten {X Y : Type} {R : X → Y → Prop} : ∀ {ls : List (List X)} {ts : List (List Y)},
    List.Forall₂ (fun l t => l.length = t.length) ls ts → List.Forall₂ R ls.flatten ts.flatten → List.Forall₂ (List.Forall₂ R) ls ts
  | _, _, .nil, _ => .nil
  | l :: ls, t :: ts, .cons hl h, hr => by
    rw [List.flatten_cons, List.flatten_cons] at hr
    have h1 := List.forall₂_take_append _ _ _ hr
    have h2 := List.forall₂_drop_append _ _ _ hr
    have e1 : List.take t.length (l ++ ls.flatten) = l := by rw [← hl, List.take_left]
    have e2 : List.drop t.length (l ++ ls.flatten) = ls.flatten := by rw [← hl, List.drop_left]
    rw [e1] at h1
    rw [e2] at h2
    exact .cons h1 (forall₂_flatten h h2)

theorem kept_kind {s : Option SpecialPhrase} {phrase : SpecialPhrase} (h : keptInIntro s = some phrase) :
    IsBlockAmendment (some phrase) ∨ IsStructuralAmendment (some phrase) := by
  cases s with
  | none => cases h
  | some x =>
    cases x with
    | blockAmendment a b => cases h; exact .inl ⟨_, _, rfl⟩
    | structuralBlockAmendment a b => cases h; exact .inr ⟨_, _, rfl⟩
    | _ => cases h

/-- What the pass over the paragraphs makes of one with this information. -/
theorem paragraph_becomes {upper : Char → Bool} {p p' : Paragraph Empty} {ts : List Told}
    (hb : bareSae bareParagraphChildren p' = bareSae bareParagraphChildren p)
    (hr : List.Forall₂ (fun x t => RecordsTold x.1 x.2 t) (elementReadings paragraphReadings [] p') ts) (hf : Fulfils upper p ts) :
    (paragraph upper p'.lift).2 = .ok () ∧ Becomes upper p ts (paragraph upper p'.lift).1 := by
  obtain ⟨i', b', s', c'⟩ := p'
  obtain ⟨i, b, s, c⟩ := p
  simp only [bareSae, SAE.mk.injEq, true_and] at hb
  obtain ⟨rfl, hb, rfl⟩ := hb
  cases b' with
  | text t' =>
    cases b with
    | text t =>
      simp only [bareBody, SAEBody.text.injEq] at hb
      subst hb
      exact ⟨rfl, rfl, fun _ h => (by cases h; rfl), fun _ _ _ h => (by cases h), fun _ _ _ h => (by cases h), fun _ _ _ h => (by cases h)⟩
    | children => cases hb
  | children j' k' w' =>
    cases b with
    | text t => cases hb
    | children j k w =>
      simp only [bareBody, SAEBody.children.injEq] at hb
      obtain ⟨rfl, hk, rfl⟩ := hb
      cases k' with
      | alphabeticPoint l' =>
        cases k with
        | alphabeticPoint l =>
          simp only [bareParagraphChildren, ParagraphChildren.alphabeticPoint.injEq] at hk
          exact ⟨rfl, rfl, fun _ h => (by cases h), fun _ _ _ h => (by cases h; exact ⟨l', rfl, hk⟩), fun _ _ _ h => (by cases h), fun _ _ _ h => (by cases h)⟩
        | _ => cases hk
      | numericPoint l' =>
        cases k with
        | numericPoint l =>
          simp only [bareParagraphChildren, ParagraphChildren.numericPoint.injEq] at hk
          exact ⟨rfl, rfl, fun _ h => (by cases h), fun _ _ _ h => (by cases h), fun _ _ _ h => (by cases h; exact ⟨l', rfl, hk⟩), fun _ _ _ h => (by cases h)⟩
        | _ => cases hk
      | amendment a => exact a.elim
      | quotedBlock bs' =>
        cases k with
        | quotedBlock bs =>
          simp only [bareParagraphChildren, ParagraphChildren.quotedBlock.injEq] at hk
          subst hk
          replace hr : List.Forall₂ (fun x t => RecordsTold x.1 x.2 t) [(⟨[], j', [], true⟩, s')] ts := hr
          obtain ⟨t, ts', ht, hn, rfl⟩ := List.forall₂_cons_left_iff.1 hr
          cases hn
          have hphrase : s'.specialPhrase = keptInIntro t.phrase := ht.2.2
          set q : Paragraph Amendment := Paragraph.lift ⟨i', .children j' (.quotedBlock bs') w', s', c'⟩ with hq
          have hbody : q.body = .children j' (.quotedBlock bs') w' := rfl
          have hinfo : q.semanticInfo.specialPhrase = keptInIntro t.phrase := hphrase
          have hkinds : ∀ phrase, AnnouncedBy t phrase → IsBlockAmendment q.semanticInfo.specialPhrase ∨ IsStructuralAmendment q.semanticInfo.specialPhrase := by
            intro phrase hp
            rw [hinfo, hp]
            exact kept_kind hp
          by_cases hex : ∃ b phrase, bs' = [b] ∧ AnnouncedBy t phrase
          · obtain ⟨b, phrase, rfl, hp⟩ := hex
            obtain ⟨hn, hh, a, ha⟩ := hf j' b w' t phrase rfl rfl hp
            have haw : Awaits q j' b w' := ⟨hbody, hkinds phrase hp⟩
            have hk := hinfo.trans hp
            have hconv := (C122_exact_partial upper q j' b w' haw hn (by rw [hk]; exact hh) a).2 (by rw [hk]; exact ha)
            refine ⟨hconv.1, ?_, fun _ h => (by cases h), fun _ _ _ h => (by cases h), fun _ _ _ h => (by cases h), ?_⟩
            · unfold paragraph; rw [hbody]; rfl
            · intro i bs w h
              cases h
              refine ⟨t, rfl, fun b₂ phrase₂ e hp₂ => ?_, fun hno => absurd hp (hno b phrase rfl)⟩
              cases e
              have : phrase₂ = phrase := Option.some.inj (hp₂.symm.trans hp)
              subst this
              exact ⟨a, ha, hconv.2⟩
          · have hno : ∀ i b w, ¬ Awaits q i b w := by
              rintro i b w ⟨h1, h2⟩
              rw [hbody] at h1
              cases h1
              refine hex ⟨b, ?_⟩
              rw [hinfo] at h2
              rcases h2 with ⟨x, f, h2⟩ | ⟨x, f, h2⟩
              · exact ⟨_, rfl, h2⟩
              · exact ⟨_, rfl, h2⟩
            rcases C51_paragraph upper q with ⟨hok, hid, -, ⟨hb, -⟩ | ⟨_, _, _, _, haw, _⟩⟩ | ⟨-, _, _, _, haw, _⟩
            · refine ⟨hok, hid, fun _ h => (by cases h), fun _ _ _ h => (by cases h), fun _ _ _ h => (by cases h), ?_⟩
              intro i bs w h
              cases h
              exact ⟨t, rfl, fun b phrase e hp => absurd ⟨b, phrase, e, hp⟩ hex, fun _ => hb.trans hbody⟩
            · exact absurd haw (hno _ _ _)
            · exact absurd haw (hno _ _ _)
        | _ => cases hk

theorem tryForEach_all {X : Type} {f : X → X × Res Unit} : ∀ {l : List X}, (∀ x ∈ l, (f x).2 = .ok ()) → (tryForEach f l).2 = .ok ()
  | [], _ => rfl
  | x :: l, h => by
    unfold tryForEach
    have hx := h x List.mem_cons_self
    rcases e : f x with ⟨y, r⟩
    rw [e] at hx
    simp only at hx
    subst hx
    exact tryForEach_all fun z hz => h z (List.mem_cons_of_mem _ hz)

theorem act_converts {upper : Char → Bool} {a : Act Amendment} (h : ∀ p ∈ paragraphsOf a, (paragraph upper p).2 = .ok ()) :
    (BlockAmend.act upper a).2 = .ok () := by
  refine tryForEach_all fun c hc => ?_
  cases c with
  | structuralElement c => rfl
  | subtitle c => rfl
  | article x =>
    refine tryForEach_all (f := paragraph upper) fun p hp => h p ?_
    unfold paragraphsOf Act.articles
    rw [List.mem_flatMap]
    exact ⟨x, List.mem_filterMap.2 ⟨_, hc, rfl⟩, hp⟩

/-- C133: let the texts of an act be in the forms of C132, those of each paragraph telling one of the lists `tss`, and let every single
quoted block be the amendment which the text before it announces. Then the act is read and its amendments are converted without
error. In place of each announced block there is the amendment that it is; the other paragraphs keep their texts, points and blocks. -/
theorem C133_act (upper : Char → Bool) (act : Act Empty) (tss : List (List Told))
    (h : Narrates act.containedAbbreviations [] ((actReadings act).map (·.1)) tss.flatten)
    (hl : List.Forall₂ (fun p ts => textCount p = ts.length) (paragraphsOf act) tss)
    (hf : List.Forall₂ (Fulfils upper) (paragraphsOf act) tss) :
    ∃ act' changed, addSemanticInfo act = (act', .ok changed) ∧ (BlockAmend.act upper act'.lift).2 = .ok () ∧
      List.Forall₂ (fun x q => Becomes upper x.1 x.2 q) ((paragraphsOf act).zip tss) (paragraphsOf (BlockAmend.act upper act'.lift).1) := by
  obtain ⟨act', changed, h1, h2, -⟩ := C132_act act _ h
  have hp := paragraphs_unchanged h1
  rw [actReadings_paragraphs, List.flatMap_def] at h2
  have key : ∀ {ps ps' : List (Paragraph Empty)} {tss : List (List Told)},
      ps'.map (bareSae bareParagraphChildren) = ps.map (bareSae bareParagraphChildren) →
      List.Forall₂ (fun p ts => textCount p = ts.length) ps tss →
      List.Forall₂ (fun l ts => l.length = ts.length) (ps'.map (elementReadings paragraphReadings [])) tss := by
    intro ps ps' tss e hl
    induction hl generalizing ps' with
    | nil => rw [List.map_nil, List.map_eq_nil_iff] at e; subst e; exact .nil
    | cons hx _ ih =>
      cases ps' with
      | nil => cases e
      | cons p' ps' =>
        rw [List.map_cons, List.map_cons, List.cons.injEq] at e
        refine .cons ?_ (ih e.2)
        have h3 := congrArg List.length ((paragraphReadings_bare p').symm.trans (by rw [e.1, paragraphReadings_bare]))
        rw [List.length_map, List.length_map] at h3
        exact h3.trans hx
  have h3 := forall₂_flatten (key hp hl) h2
  have each : ∀ {ps ps' : List (Paragraph Empty)} {tss : List (List Told)},
      ps'.map (bareSae bareParagraphChildren) = ps.map (bareSae bareParagraphChildren) →
      List.Forall₂ (Fulfils upper) ps tss →
      List.Forall₂ (List.Forall₂ fun x t => RecordsTold x.1 x.2 t) (ps'.map (elementReadings paragraphReadings [])) tss →
      (∀ p ∈ ps', (paragraph upper p.lift).2 = .ok ()) ∧
        List.Forall₂ (fun x q => Becomes upper x.1 x.2 q) (ps.zip tss) (ps'.map fun p => (paragraph upper p.lift).1) := by
    intro ps ps' tss e hf hr
    induction hf generalizing ps' with
    | nil => rw [List.map_nil, List.map_eq_nil_iff] at e; subst e; exact ⟨by simp, .nil⟩
    | cons hx _ ih =>
      cases ps' with
      | nil => cases e
      | cons p' ps' =>
        rw [List.map_cons, List.map_cons, List.cons.injEq] at e
        rw [List.map_cons] at hr
        cases hr with
        | cons hr1 hr2 =>
        obtain ⟨g1, g2⟩ := ih e.2 hr2
        obtain ⟨k1, k2⟩ := paragraph_becomes e.1 hr1 hx
        refine ⟨fun p hp => ?_, .cons k2 g2⟩
        rcases List.mem_cons.1 hp with rfl | hp
        · exact k1
        · exact g1 p hp
  obtain ⟨g1, g2⟩ := each hp hf h3
  have hok : (BlockAmend.act upper act'.lift).2 = .ok () := by
    refine act_converts fun p hp => ?_
    rw [paragraphsOf_lift, List.mem_map] at hp
    obtain ⟨p, hp, rfl⟩ := hp
    exact g1 p hp
  refine ⟨act', changed, h1, hok, ?_⟩
  rw [paragraphs_converted hok, paragraphsOf_lift, List.map_map]
  exact g2

/-! ### an example -/

/-- The two paragraphs that are to replace the earlier ones. -/
def replacingBlock : QuotedBlock := ⟨none, [sampleLine str!"(2) Ez." 0, sampleLine str!"(3) Az." 0], none⟩

/-- The amending act of C132 with the quoted block after the text that announces it. -/
def replacingAct : Act Empty :=
  { amendingAct with children := match amendingAct.children with
    | _ :: l => .article ⟨⟨none, .ofNum 1⟩, none, [⟨⟨none⟩, .children
      str!"A közbeszerzésekről szóló 2015. évi CXLIII. törvény (a továbbiakban: Kbt.) 3. § (2) és (3) bekezdése helyébe a következő rendelkezések lépnek:"
      (.quotedBlock [replacingBlock]) none, .default, none⟩], none⟩ :: l
    | [] => [] }

theorem replacingBlock_is : ∃ a, AmendmentIs asciiUpper (some (.blockAmendment twoParagraphsRange false)) replacingBlock a := by
  have hn : ∀ l ∈ replacingBlock.lines, l.content.getLast? ≠ some ' ' := by decide +kernel
  have key := C122_exact_partial asciiUpper ⟨⟨none⟩, .children [] (.quotedBlock [replacingBlock]) none,
    { SemanticInfo.default with specialPhrase := some (.blockAmendment twoParagraphsRange false) }, none⟩ [] replacingBlock none ⟨rfl, .inl ⟨_, _, rfl⟩⟩ hn
    (by rintro ⟨_, _, _, h, _⟩; cases h)
  rcases C51_paragraph asciiUpper ⟨⟨none⟩, .children [] (.quotedBlock [replacingBlock]) none,
    { SemanticInfo.default with specialPhrase := some (.blockAmendment twoParagraphsRange false) }, none⟩ with ⟨hok, -, -, ⟨-, hno⟩ | ⟨i, b, w, a, haw, hb, -⟩⟩ | ⟨hne, -⟩
  · exact absurd ⟨rfl, .inl ⟨_, _, rfl⟩⟩ (hno [] replacingBlock none)
  · obtain ⟨rfl, rfl, rfl⟩ := awaits_unique haw ⟨rfl, .inl ⟨_, _, rfl⟩⟩
    exact ⟨a, (key a).1 ⟨hok, hb⟩⟩
  · exact absurd (by decide +kernel) hne

/-- The conditions of the theorem are met by the act, and its first block becomes an amendment. -/
example : ∃ act' changed, addSemanticInfo replacingAct = (act', .ok changed) ∧ (BlockAmend.act asciiUpper act'.lift).2 = .ok () ∧
    ∃ q l i a w, paragraphsOf (BlockAmend.act asciiUpper act'.lift).1 = q :: l ∧ q.body = .children i (.amendment a) w := by
  obtain ⟨act', changed, h1, h2, h3⟩ := C133_act asciiUpper replacingAct (amendingTold.map fun t => [t])
    (by
      have e : (actReadings replacingAct).map (·.1) = (actReadings amendingAct).map (·.1) := by decide +kernel
      rw [e]
      exact amendingAct_narrates)
    (.cons rfl (.cons rfl (.cons rfl .nil)))
    (.cons (by
      rintro i b w t phrase h ht hp
      cases h
      cases ht
      cases hp
      exact ⟨by unfold NoTrailingSpace; decide +kernel, fun ⟨_, _, _, h, _⟩ => (by cases h), replacingBlock_is⟩)
      (.cons (fun _ _ _ _ _ h => by cases h) (.cons (fun _ _ _ _ _ h => by cases h) .nil)))
  refine ⟨act', changed, h1, h2, ?_⟩
  generalize paragraphsOf (BlockAmend.act asciiUpper act'.lift).1 = l at h3
  cases h3 with
  | @cons _ q _ l hq _ =>
    obtain ⟨t, ht, h4, -⟩ := hq.2.2.2.2 _ _ _ rfl
    cases ht
    obtain ⟨a, -, ha⟩ := h4 _ _ rfl rfl
    exact ⟨q, l, _, a, _, rfl, ha⟩

end HunLaw.Props
