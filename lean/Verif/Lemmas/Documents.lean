import Verif.Lemmas.Downloader
import Verif.Lemmas.Serde
import Verif.Props.Compact
import Verif.Spec.Documents

/-!
Every structure is stored as the table of its fields says (for C129).
-/

set_option autoImplicit false

namespace HunLaw.Spec.Documents

open HunLaw HunLaw.Serde

/-! ### tables of fields -/

/-- The fields that are written fit the table. -/
def Rec (fs : List (Str × Option (Value → Prop))) (m : List (Str × Value)) : Prop :=
  List.Forall₂ (fun f e => e.1 = f.1 ∧ f.2 e.2) (present fs) m

theorem record_of {fs : List (Str × Option (Value → Prop))} {m : List (Str × Value)} (h : Rec fs (m ++ [])) : Record fs (.map m) :=
  ⟨m, rfl, by rwa [List.append_nil] at h⟩

theorem rec_nil : Rec [] [] := .nil

theorem rec_put {α : Type} {c : Codec α} {k : Str} {x : α} {P : Value → Prop} {fs : List (Str × Option (Value → Prop))} {m : List (Str × Value)}
    (h : P (c.ser x)) (t : Rec fs m) : Rec ((k, some P) :: fs) (put c k x ++ m) := .cons ⟨rfl, h⟩ t

theorem rec_putSome {α : Type} {c : Codec α} {k : Str} {x : Option α} {P : α → Value → Prop} {fs : List (Str × Option (Value → Prop))}
    {m : List (Str × Value)} (h : ∀ y, x = some y → P y (c.ser y)) (t : Rec fs m) : Rec ((k, x.map P) :: fs) (putSome c k x ++ m) := by
  cases x with
  | none => exact t
  | some y => exact .cons ⟨rfl, h y rfl⟩ t

theorem rec_putUnless {α : Type} {b : Bool} {c : Codec α} {k : Str} {x : α} {P : Value → Prop} {fs : List (Str × Option (Value → Prop))}
    {m : List (Str × Value)} (h : b = false → P (c.ser x)) (t : Rec fs m) : Rec ((k, omitIf b P) :: fs) (putUnless b c k x ++ m) := by
  cases b with
  | true => exact t
  | false => exact .cons ⟨rfl, h rfl⟩ t

theorem tagged {name : Str} {P : Value → Prop} {v : Value} (h : P v) : Tagged name P (variant name v) := ⟨v, rfl, h⟩

theorem listOf {α : Type} {c : Codec α} {P : α → Value → Prop} {l : List α} (h : ∀ x ∈ l, P x (c.ser x)) : ListOf P l ((list c).ser l) := by
  refine ⟨_, rfl, ?_⟩
  induction l with
  | nil => exact .nil
  | cons x l ih => exact .cons (h x (List.mem_cons_self ..)) (ih fun y hy => h y (List.mem_cons_of_mem _ hy))

/-- The fields one by one. -/
macro "record" : tactic => `(tactic| (refine record_of ?_; first | simp only [List.append_assoc] | skip))

/-! ### texts -/

theorem numeric_is (i : NumericId) : IsNumeric i (numericId.ser i) := ⟨_, rfl, (Props.C126_numeric _ _).1 (NumericId.parse_display i)⟩
theorem letter_is (c : HunChar) : IsLetter c (hunChar.ser c) := ⟨_, rfl, (Props.C126_letter _ _).1 (HunChar.parse_display c)⟩
theorem prefixed_is {p : PrefixedId} (h : PlainPrefixed p) : IsPrefixed p (prefixedId.ser p) :=
  ⟨_, rfl, (Props.C126_subpoint _ _).1 (PrefixedId.parse_display h.1 h.2)⟩

theorem dec_writes (n : Nat) : WritesNumber (dec n) n := parseDigits_iff.1 (parseDigits_dec n)

theorem article_is (a : ArticleId) : IsArticleId a (articleId.ser a) := by
  refine ⟨_, rfl, ?_⟩
  obtain ⟨b, i⟩ := a
  have hi : CompactNumeric i.displaySlash i := (Props.C126_numeric _ _).1 (NumericId.parse_displaySlash i)
  cases b with
  | none => exact hi
  | some b => exact ⟨dec b.val, i.displaySlash, by simp [ArticleId.display], dec_writes _, hi⟩

theorem padTo_writes (w n : Nat) : WritesNumber (Date.padTo w (dec n)) n := parseDigits_iff.1 (parseDigits_padTo w n)

theorem padTo_long (w n : Nat) : w ≤ (Date.padTo w (dec n)).length := by
  simp only [Date.padTo, List.length_append, List.length_replicate]
  omega

theorem year_writes (y : Int) : WritesInteger (Date.displayYear y) y ∧ 4 ≤ (Date.displayYear y).length := by
  unfold Date.displayYear
  have h := padTo_writes 4 y.natAbs
  have hl := padTo_long 4 y.natAbs
  split
  · exact ⟨.inl ⟨_, .inl h, by omega⟩, hl⟩
  · split
    · exact ⟨.inr ⟨_, _, rfl, h, by omega⟩, by rw [List.length_cons]; omega⟩
    · exact ⟨.inl ⟨_, .inr ⟨_, rfl, h⟩, by omega⟩, by rw [List.length_cons]; omega⟩

theorem date_is {d : Date} (hd : ProperDate d) : IsDate d (date.ser d) := by
  obtain ⟨hr, -, -⟩ := hd
  have hm : d.month ≤ 12 := hr.2.1
  have hday : d.day ≤ 99 := by
    have := hr.2.2.2
    have key : ∀ k, monthDays.getD k 0 ≤ 31 := by
      intro k
      by_cases hk : k < 12
      · have : ∀ k : Fin 12, monthDays.getD k.val 0 ≤ 31 := by decide
        exact this ⟨k, hk⟩
      · rw [List.getD_eq_getElem?_getD, List.getElem?_eq_none (by simp only [monthDays, List.length_cons, List.length_nil]; omega)]
        simp
    have := key (d.month - 1)
    omega
  exact ⟨_, rfl, Date.displayYear d.year, Date.padTo 2 (dec d.month), Date.padTo 2 (dec d.day), by simp [Date.display], (year_writes _).1, (year_writes _).2,
    padTo_length (dec_length_two (by omega)), padTo_writes _ _, padTo_length (dec_length_two hday), padTo_writes _ _⟩

/-! ### references -/

theorem actId_is (a : ActId) : IsActId a (actId.ser a) := by
  record
  exact rec_put rfl (rec_put rfl rec_nil)

theorem range_is {α : Type} [DecidableEq α] {c : Codec α} {P : α → Value → Prop} {r : IdRange α} (h1 : P r.start (c.ser r.start)) (h2 : P r.fin (c.ser r.fin)) :
    IsRange P r ((range c).ser r) := by
  by_cases h : r.start = r.fin
  · exact .inl ⟨h, by simpa only [range, ne_eq, h, not_true_eq_false, if_false] using h ▸ h1⟩
  · refine .inr ⟨h, ?_⟩
    simp only [range, ne_eq, h, not_false_eq_true, if_true]
    record
    exact rec_put h1 (rec_put h2 rec_nil)

theorem numericRange_is (r : IdRange NumericId) : IsRange IsNumeric r ((range numericId).ser r) := range_is (numeric_is _) (numeric_is _)
theorem articleRange_is (r : IdRange ArticleId) : IsRange IsArticleId r ((range articleId).ser r) := range_is (article_is _) (article_is _)

theorem point_is (p : RefPartPoint) : IsPoint p (point.ser p) := by
  cases p with
  | numeric r => exact numericRange_is r
  | alphabetic r => exact range_is (letter_is _) (letter_is _)

theorem subpoint_is {p : RefPartSubpoint} (h : SubpointOk p) : IsSubpoint p (subpoint.ser p) := by
  cases p with
  | numeric r => exact numericRange_is r
  | alphabetic r => exact range_is (prefixed_is h.1) (prefixed_is h.2)

theorem ref_is {r : Ref} (h : ProperRef r) : IsRef r (reference.ser r) := by
  have hs := (plainSubpoint_iff r).1 h.2
  record
  exact rec_putSome (fun y _ => actId_is y) (rec_putSome (fun y _ => articleRange_is y) (rec_putSome (fun y _ => numericRange_is y)
    (rec_putSome (fun y _ => point_is y) (rec_putSome (fun y hy => subpoint_is (hs y hy)) rec_nil))))

theorem place_is (e : StructuralRefElement) : IsPlace e (structuralElementRef.ser e) := by
  cases e
  case subtitleUnknown => rfl
  case subtitleTitle => exact tagged rfl
  case subtitleRange => exact tagged (numericRange_is _)
  case article => exact tagged (articleRange_is _)
  all_goals first | exact tagged (numeric_is _) | exact tagged (article_is _)

theorem container_is (e : StructuralRefParent) : IsContainer e (structuralParentRef.ser e) := by
  cases e
  case subtitleTitle => exact tagged rfl
  case subtitleRange => exact tagged (numericRange_is _)
  all_goals exact tagged (numeric_is _)

/-- A field which is only written when it is true. -/
theorem true_is {b : Bool} (h : (!b) = false) : IsBool true (boolean.ser b) := by
  cases b with
  | true => rfl
  | false => cases h

theorem structuralRef_is (r : StructuralRef) : IsStructuralRef r (structuralRef.ser r) := by
  record
  exact rec_putSome (fun y _ => actId_is y) (rec_putSome (fun y _ => numeric_is y) (rec_putSome (fun y _ => container_is y)
    (rec_put (place_is _) (rec_putUnless true_is rec_nil))))

/-! ### semantic information -/

theorem outgoing_is {o : OutgoingRef} (h : ProperRef o.reference) : IsOutgoing o (outgoingRef.ser o) := by
  record
  exact rec_put rfl (rec_put rfl (rec_put (ref_is h) rec_nil))

theorem changedPlace_is {p : TextAmendmentRef} (h1 : ∀ r q, p = .sae r q → ProperRef r) (h2 : ∀ r, p = .articleTitle r → ProperRef r) :
    IsChangedPlace p (textAmendmentRef.ser p) := by
  cases p with
  | sae r q =>
    refine tagged ?_
    have hr := ref_is (h1 r q rfl)
    record
    refine rec_put hr ?_
    cases q with
    | all => exact rec_nil
    | introOnly => exact .cons ⟨rfl, rfl⟩ .nil
    | wrapUpOnly => exact .cons ⟨rfl, rfl⟩ .nil
  | structural r => exact tagged (structuralRef_is r)
  | articleTitle r => exact tagged (ref_is (h2 r rfl))

theorem textAmendment_is {a : TextAmendment} (h : (∀ r p, a.reference = .sae r p → ProperRef r) ∧ ∀ r, a.reference = .articleTitle r → ProperRef r) :
    IsTextAmendment a (textAmendment.ser a) := by
  record
  exact rec_put (changedPlace_is h.1 h.2) (rec_put rfl (rec_put rfl rec_nil))

theorem day_is {d : EnforcementDateType} (h : ∀ x, d = .date x → ProperDate x) : IsDay d (enforcementDateType.ser d) := by
  cases d with
  | date d => exact tagged (date_is (h d rfl))
  | daysAfterPublication n => exact tagged rfl
  | dayInMonthAfterPublication month day =>
    refine tagged ?_
    record
    exact rec_putSome (fun _ _ => rfl) (rec_put rfl rec_nil)

theorem enforcement_is {e : EnforcementDate} (h : ProperPhrase (.enforcementDate e)) : IsEnforcement e (enforcementDate.ser e) := by
  obtain ⟨h1, h2, h3⟩ := h
  record
  exact rec_putUnless (fun _ => listOf fun r hr => ref_is (h1 r hr)) (rec_putUnless (fun _ => listOf fun r _ => structuralRef_is r)
    (rec_putUnless true_is (rec_put (day_is h2) (rec_putSome (fun y hy => date_is (h3 y hy)) rec_nil))))

theorem repealed_is {r : RepealRef} (h : ∀ x, r = .reference x → ProperRef x) : IsRepealed r (repealRef.ser r) := by
  cases r with
  | reference r => exact tagged (ref_is (h r rfl))
  | structural r => exact tagged (structuralRef_is r)

theorem phrase_is {p : SpecialPhrase} (h : ProperPhrase p) : IsPhrase p (specialPhrase.ser p) := by
  cases p with
  | blockAmendment r b =>
    refine tagged ?_
    record
    exact rec_put (ref_is h) (rec_put rfl rec_nil)
  | enforcementDate e => exact tagged (enforcement_is h)
  | repeal l => exact tagged (listOf fun r hr => repealed_is fun x e => h x (e ▸ hr))
  | textAmendment l => exact tagged (listOf fun a ha => textAmendment_is (h a ha))
  | structuralBlockAmendment r b =>
    refine tagged ?_
    record
    exact rec_put (structuralRef_is r) (rec_put rfl rec_nil)

theorem abbreviations_is (m : List (Str × ActId)) : IsAbbreviations m (abbreviations.ser m) := by
  refine ⟨_, rfl, ?_⟩
  induction m with
  | nil => exact .nil
  | cons e m ih => exact .cons ⟨rfl, actId_is e.2⟩ ih

theorem info_is {i : SemanticInfo} (h : ProperInfo i) : IsInfo i (semanticInfo.ser i) := by
  record
  exact rec_putUnless (fun _ => listOf fun o ho => outgoing_is (h.1 o ho)) (rec_putUnless (fun _ => abbreviations_is _)
    (rec_putSome (fun p hp => phrase_is (h.2.2 p hp)) rec_nil))

/-! ### lines and elements -/

theorem linePart_is (p : LinePart) : IsLinePart p (linePart.ser p) := by
  record
  exact rec_put rfl (rec_put rfl (rec_put rfl rec_nil))

theorem line_is (l : Line) : IsLine l (line.ser l) := by
  show IsLine l (storedLine.ser (store l))
  record
  exact rec_put (listOf fun p _ => linePart_is p) (rec_put rfl (rec_put rfl (rec_put rfl rec_nil)))

theorem change_is {x : LastChange} (h : ProperChange x) : IsChange x (lastChange.ser x) := by
  record
  refine rec_put (date_is h.1) (rec_put ?_ rec_nil)
  cases hc : x.cause with
  | amendment r => exact tagged (ref_is (h.2 r hc))
  | autoRepeal => rfl
  | other s => exact tagged rfl

theorem body_is {C : Type} {c : Codec C} {P : C → Value → Prop} {b : SAEBody C} (h : ∀ i x w, b = .children i x w → P x (c.ser x)) :
    IsBody P b ((saeBody c).ser b) := by
  cases b with
  | text t => rfl
  | children intro x wrapUp =>
    have hx := h _ _ _ rfl
    show Record _ _
    record
    exact rec_put rfl (rec_put hx (rec_putSome (fun _ _ => rfl) rec_nil))

theorem element_is {I C : Type} {f : IdField I} {c : Codec C} {id : I → Option (Value → Prop)} {P : C → Value → Prop} {e : SAE I C} {okId : I → Prop} {okC : C → Prop}
    (h : ProperSae okId okC e) (hid : ∀ i fs m, okId i → Rec fs m → Rec ((str!"identifier", id i) :: fs) (f.write i ++ m)) (hc : ∀ x, okC x → P x (c.ser x)) :
    IsElement id P e ((sae f c).ser e) := by
  obtain ⟨h1, h2, h3, h4⟩ := h
  show Record _ _
  refine record_of ?_
  simp only [List.append_assoc]
  refine hid _ _ _ h1 (rec_put (body_is fun i x w hb => hc x (h2 i x w hb)) (rec_putUnless (fun _ => info_is h3) (rec_putSome (fun x hx => change_is (h4 x hx)) rec_nil)))

theorem plainId_is {I : Type} {c : Codec I} {P : I → Value → Prop} {ok : I → Prop} (h : ∀ i, ok i → P i (c.ser i)) :
    ∀ i fs m, ok i → Rec fs m → Rec ((str!"identifier", some (P i)) :: fs) ((plainId c).write i ++ m) := fun i _ _ hi t => rec_put (h i hi) t

theorem paragraphField_is : ∀ (i : ParagraphId) fs m, True → Rec fs m →
    Rec ((str!"identifier", i.id.map IsNumeric) :: fs) (paragraphField.write i ++ m) := by
  intro i fs m _ t
  obtain ⟨i⟩ := i
  cases i with
  | none => exact t
  | some i => exact .cons ⟨rfl, numeric_is i⟩ t

theorem alphabeticSubpoint_is {e : AlphabeticSubpoint} (h : ProperAlphabeticSubpoint e) : IsAlphabeticSubpoint e (alphabeticSubpoint.ser e) :=
  element_is h (plainId_is fun _ hi => prefixed_is hi) fun x => nomatch x

theorem numericSubpoint_is {e : NumericSubpoint} (h : ProperNumericSubpoint e) : IsNumericSubpoint e (numericSubpoint.ser e) :=
  element_is h (plainId_is fun _ _ => numeric_is _) fun x => nomatch x

theorem numericPoint_is {e : NumericPoint} (h : ProperNumericPoint e) : IsNumericPoint e (numericPoint.ser e) :=
  element_is h (plainId_is fun _ _ => numeric_is _) fun x hx => by
    cases x with
    | alphabeticSubpoint l => exact tagged (listOf fun e he => alphabeticSubpoint_is (hx e he))

theorem alphabeticPoint_is {e : AlphabeticPoint} (h : ProperAlphabeticPoint e) : IsAlphabeticPoint e (alphabeticPoint.ser e) :=
  element_is h (plainId_is fun _ _ => letter_is _) fun x hx => by
    cases x with
    | alphabeticSubpoint l => exact tagged (listOf fun e he => alphabeticSubpoint_is (hx e he))
    | numericSubpoint l => exact tagged (listOf fun e he => numericSubpoint_is (hx e he))

theorem quoted_is (q : QuotedBlock) : IsQuoted q (quotedBlock.ser q) := by
  record
  exact rec_putSome (fun _ _ => rfl) (rec_put (listOf fun l _ => line_is l) (rec_putSome (fun _ _ => rfl) rec_nil))

theorem paragraph_is {A : Type} {a : AmendmentCodec A} {P : A → Value → Prop} {ok : A → Prop} (ha : ∀ x, ok x → P x (a.ser x)) {e : Paragraph A}
    (h : ProperParagraph ok e) : IsParagraph P e ((paragraph a).ser e) :=
  element_is h paragraphField_is fun x hx => by
    cases x with
    | alphabeticPoint l => exact tagged (listOf fun e he => alphabeticPoint_is (hx e he))
    | numericPoint l => exact tagged (listOf fun e he => numericPoint_is (hx e he))
    | quotedBlock l => exact tagged (listOf fun q _ => quoted_is q)
    | amendment x => exact ha x hx

theorem article_doc {A : Type} {a : AmendmentCodec A} {P : A → Value → Prop} {ok : A → Prop} (ha : ∀ x, ok x → P x (a.ser x)) {e : Article A}
    (h : (∀ p ∈ e.children, ProperParagraph ok p) ∧ ∀ x, e.lastChange = some x → ProperChange x) : IsArticle P e ((article a).ser e) := by
  record
  exact rec_put (article_is _) (rec_putSome (fun _ _ => rfl) (rec_put (listOf fun p hp => paragraph_is ha (h.1 p hp))
    (rec_putSome (fun x hx => change_is (h.2 x hx)) rec_nil)))

theorem kind_is (t : SEType) : IsKind t (elementType.ser t) := by
  cases t with
  | part b =>
    refine tagged ?_
    record
    exact rec_putUnless true_is rec_nil
  | _ => rfl

theorem structural_is {e : StructuralElement} (h : ∀ x, e.lastChange = some x → ProperChange x) : IsStructural e (structuralElement.ser e) := by
  record
  exact rec_put (numeric_is _) (rec_put rfl (rec_put (kind_is _) (rec_putSome (fun x hx => change_is (h x hx)) rec_nil)))

theorem subtitle_is {s : Subtitle} (h : ∀ x, s.lastChange = some x → ProperChange x) : IsSubtitle s (subtitle.ser s) := by
  record
  exact rec_putSome (fun _ _ => numeric_is _) (rec_put rfl (rec_putSome (fun x hx => change_is (h x hx)) rec_nil))

theorem child_is {A : Type} {a : AmendmentCodec A} {P : A → Value → Prop} {ok : A → Prop} (ha : ∀ x, ok x → P x (a.ser x)) {c : ActChild A}
    (h : ProperChild ok c) : IsChild P c ((actChild a).ser c) := by
  cases c with
  | structuralElement e => exact tagged (structural_is h)
  | subtitle s => exact tagged (subtitle_is h)
  | article x => exact tagged (article_doc ha h)

theorem amended_is {C : Type} {c : Codec C} {P : Value → Prop} {intro wrapUp : Option Str} {x : C} (h : P (c.ser x)) :
    IsAmended P intro wrapUp ((amended c).ser (intro, x, wrapUp)) := by
  record
  exact rec_putSome (fun _ _ => rfl) (rec_put h (rec_putSome (fun _ _ => rfl) rec_nil))

theorem amendment_is {a : Amendment} (h : ProperAmendment a) : IsAmendment a (amendment.ser a) := by
  have h0 : ∀ x : Empty, True → IsNothing x (noAmendment.ser x) := fun x => nomatch x
  cases a with
  | block intro c wrapUp =>
    refine tagged (amended_is ?_)
    cases c with
    | paragraph l => exact tagged (listOf fun e he => paragraph_is h0 (h e he))
    | alphabeticPoint l => exact tagged (listOf fun e he => alphabeticPoint_is (h e he))
    | numericPoint l => exact tagged (listOf fun e he => numericPoint_is (h e he))
    | alphabeticSubpoint l => exact tagged (listOf fun e he => alphabeticSubpoint_is (h e he))
    | numericSubpoint l => exact tagged (listOf fun e he => numericSubpoint_is (h e he))
  | structural intro l wrapUp => exact tagged (amended_is (listOf fun c hc => child_is h0 (h c hc)))

theorem act_is {a : Act Amendment} (h : ProperAct a) : IsAct a ((act amendment).ser a) := by
  record
  exact rec_put (actId_is _) (rec_put rfl (rec_put rfl (rec_put (date_is h.1) (rec_putUnless (fun _ => abbreviations_is _)
    (rec_put (listOf fun c hc => child_is (fun _ hx => amendment_is hx) (h.2.2 c hc)) rec_nil)))))

theorem raw_is {a : ActRawText} (h : ProperDate a.publicationDate) : IsRaw a (rawDocument a) := by
  record
  exact rec_put (actId_is _) (rec_put rfl (rec_put (date_is h) (rec_put (listOf fun l _ => line_is l) rec_nil)))

theorem pages_is (l : List Page) : IsPages l (pagesDocument l) := by
  refine ⟨_, rfl, ?_⟩
  induction l with
  | nil => exact .nil
  | cons p l ih => exact .cons ⟨_, rfl, .cons ⟨rfl, listOf fun l _ => line_is l⟩ .nil⟩ ih

theorem fixup_is (f : Fixup) : IsFixup f (fixup.ser f) := by
  record
  exact rec_putUnless (fun _ => listOf fun _ _ => rfl) (rec_put rfl (rec_put rfl (rec_putUnless true_is rec_nil)))

end HunLaw.Spec.Documents
