import Verif.Lemmas.Reference
import Verif.Props.Identifiers

/-! Properties C14-C22: references. -/

set_option autoImplicit false

namespace HunLaw.Props

open Spec (Level part Present IsRangePart WellFormed NoRange ProperPrefix BuilderCall latest)

/-- 2012. évi C. törvény -/
def exAct : ActId := ⟨⟨2012, by decide⟩, ⟨100, by decide⟩⟩
/-- 5/A. § (2)-(3) of the act -/
def exRef : Ref :=
  ⟨some exAct, some (.single ⟨none, ⟨5, some (.latin 0)⟩⟩), some ⟨⟨2, none⟩, ⟨3, none⟩⟩, none, none⟩

/-! ### C14 -/

/-- One call on the builder. -/
def applyCall (b : Ref) : BuilderCall → Ref
  | .setAct v => b.setAct v
  | .setArticle v => b.setArticle v
  | .setParagraph v => b.setParagraph v
  | .setPoint v => b.setPoint v
  | .setSubpoint v => b.setSubpoint v
  | .resetArticle => b.resetArticle
  | .resetParagraph => b.resetParagraph
  | .resetPoint => b.resetPoint
  | .resetSubpoint => b.resetSubpoint

/-- A new builder after a sequence of calls. -/
def runCalls (calls : List BuilderCall) : Ref := calls.foldl applyCall .empty

/-- The references a user can get hold of: by any public constructor, and from these by any
composition of the operations. -/
inductive Obtainable : Ref → Prop
  | default : Obtainable .empty
  | act (a : ActId) : Obtainable (.ofAct a)
  | article (a : RefPartArticle) : Obtainable (.ofArticle a)
  | actArticle (a : ActId) (x : RefPartArticle) : Obtainable (.ofActArticle a x)
  | toArticle (i : ArticleId) : Obtainable (.toArticle i)
  | toParagraph (i : ParagraphId) : Obtainable (.toParagraph i)
  | toAlphabeticPoint (i : HunChar) : Obtainable (.toAlphabeticPoint i)
  | toNumericPoint (i : NumericId) : Obtainable (.toNumericPoint i)
  | toAlphabeticSubpoint (i : PrefixedId) : Obtainable (.toAlphabeticSubpoint i)
  | toNumericSubpoint (i : NumericId) : Obtainable (.toNumericSubpoint i)
  | built (calls : List BuilderCall) (r : Ref) (h : (runCalls calls).build = some r) : Obtainable r
  | deserialized (u r : Ref) (h : Ref.tryFrom u = some r) : Obtainable r
  | parsed (s : Str) (r : Ref) (h : fromCompact s = some r) : Obtainable r
  | range (s e r : Ref) (hs : Obtainable s) (he : Obtainable e) (h : s.makeRange e = some r) :
      Obtainable r
  | parent (r : Ref) (h : Obtainable r) : Obtainable r.parent
  | first (r : Ref) (h : Obtainable r) : Obtainable r.firstInRange
  | last (r : Ref) (h : Obtainable r) : Obtainable r.lastInRange
  | withoutAct (r : Ref) (h : Obtainable r) : Obtainable r.withoutAct
  | relative (r b x : Ref) (hr : Obtainable r) (hb : Obtainable b) (h : r.relativeTo b = some x) :
      Obtainable x

/-- C14: every reference one can get hold of is well-formed. -/
theorem C14_obtainable_wellformed (r : Ref) (h : Obtainable r) : WellFormed r := by
  induction h with
  | default => exact Ref.wf_empty
  | act a => rw [Ref.wellFormed_iff]; exact ⟨rfl, rfl⟩
  | article a =>
    rw [Ref.wellFormed_iff]; refine ⟨rfl, ?_⟩; simp [Ref.checkRanges, Ref.ofArticle, Ref.empty]
  | actArticle a x =>
    rw [Ref.wellFormed_iff]; refine ⟨rfl, ?_⟩; simp [Ref.checkRanges, Ref.ofActArticle, Ref.empty]
  | toArticle i =>
    rw [Ref.wellFormed_iff]; refine ⟨rfl, ?_⟩; simp [Ref.checkRanges, Ref.toArticle, Ref.empty]
  | toParagraph i =>
    rw [Ref.wellFormed_iff]
    obtain ⟨_ | i⟩ := i
    · exact ⟨rfl, rfl⟩
    · refine ⟨rfl, ?_⟩; simp [Ref.checkRanges, Ref.toParagraph, Ref.empty]
  | toAlphabeticPoint i =>
    rw [Ref.wellFormed_iff]; refine ⟨rfl, ?_⟩; simp [Ref.checkRanges, Ref.toAlphabeticPoint, Ref.empty]
  | toNumericPoint i =>
    rw [Ref.wellFormed_iff]; refine ⟨rfl, ?_⟩; simp [Ref.checkRanges, Ref.toNumericPoint, Ref.empty]
  | toAlphabeticSubpoint i => rw [Ref.wellFormed_iff]; exact ⟨rfl, rfl⟩
  | toNumericSubpoint i => rw [Ref.wellFormed_iff]; exact ⟨rfl, rfl⟩
  | built calls r h => obtain ⟨rfl, hw⟩ := Ref.tryFrom_eq_some.1 h; exact hw
  | deserialized u r h => obtain ⟨rfl, hw⟩ := Ref.tryFrom_eq_some.1 h; exact hw
  | parsed s r h =>
    simp only [fromCompact] at h
    split at h
    · split at h
      · obtain ⟨rfl, hw⟩ := Ref.tryFrom_eq_some.1 h; exact hw
      · simp at h
    · simp at h
  | range s e r _ _ h _ _ => exact Ref.wf_makeRange h
  | parent r _ ih => exact Ref.wf_parent ih
  | first r _ ih => exact Ref.wf_first ih
  | last r _ ih => exact Ref.wf_last ih
  | withoutAct r _ ih => exact Ref.wf_withoutAct ih
  | relative r b x _ _ h _ _ =>
    obtain ⟨rfl, hw⟩ := Ref.tryFrom_eq_some.1 h; exact hw

/-- C14: the check accepts exactly the well-formed combinations, unchanged; everything else is an
error. -/
theorem C14_check_exact (u : Ref) :
    (WellFormed u → Ref.tryFrom u = some u) ∧ (¬ WellFormed u → Ref.tryFrom u = none) :=
  ⟨fun h => Ref.tryFrom_eq_some.2 ⟨rfl, h⟩, fun h => Ref.tryFrom_eq_none.2 h⟩

/-- C14: conversely every well-formed reference can be obtained, so nothing useful is refused. -/
theorem C14_wellformed_obtainable (r : Ref) (h : WellFormed r) : Obtainable r :=
  .deserialized r r (Ref.tryFrom_eq_some.2 ⟨rfl, h⟩)

example : Obtainable exRef.parent ∧ Obtainable exRef.firstInRange :=
  have h : Obtainable exRef := .deserialized exRef exRef (by decide +kernel)
  ⟨.parent _ h, .first _ h⟩

example : ¬ WellFormed ⟨some exAct, none, some (.single ⟨1, none⟩), none, none⟩ := by
  rw [Ref.wellFormed_iff]; decide

/-! ### C15 -/

/-- C15: after any calls, each part is the one most recently set there, unless a higher one was
changed since. -/
theorem C15_builder_latest (calls : List BuilderCall) (l : Level) :
    part (runCalls calls) l = latest l calls.reverse := by
  have step : ∀ (b : Ref) (c : BuilderCall), part (applyCall b c) l =
      if c.effect.1 = l then c.effect.2
      else if c.effect.1.depth < l.depth then .empty else part b l := by
    intro b c
    cases c <;> cases l <;>
      simp [applyCall, BuilderCall.effect, Level.depth, part, Ref.setAct, Ref.setArticle,
        Ref.setParagraph, Ref.setPoint, Ref.setSubpoint, Ref.resetArticle, Ref.resetParagraph,
        Ref.resetPoint, Ref.resetSubpoint]
  have gen : ∀ rev : List BuilderCall, part (runCalls rev.reverse) l = latest l rev := by
    intro rev
    induction rev with
    | nil => cases l <;> rfl
    | cons c older ih =>
      simp only [List.reverse_cons, runCalls, List.foldl_append, List.foldl_cons, List.foldl_nil]
      rw [step, latest]
      simp only [runCalls] at ih
      rw [ih]
  rw [← gen, List.reverse_reverse]

/-- C15: building returns those parts or an error. -/
theorem C15_build_parts (calls : List BuilderCall) (r : Ref) (h : (runCalls calls).build = some r)
    (l : Level) : part r l = latest l calls.reverse := by
  obtain ⟨rfl, _⟩ := Ref.tryFrom_eq_some.1 h
  exact C15_builder_latest calls l

example : (runCalls [.setAct exAct, .setArticle (.single ⟨none, ⟨1, none⟩⟩),
    .setPoint (.alphabetic (.single .cs)), .setArticle (.single ⟨none, ⟨2, none⟩⟩),
    .setParagraph (.single ⟨7, none⟩)]).build =
    some ⟨some exAct, some (.single ⟨none, ⟨2, none⟩⟩), some (.single ⟨7, none⟩), none, none⟩ := by
  decide +kernel

/-! ### C16 -/

theorem option_compact_roundtrip {α : Type} [CompactString α] {x : Option α}
    (h : ∀ v, x = some v → (fromCompact (fmtCompact v) : Option α) = some v ∧ fmtCompact v ≠ []) :
    (fromCompact (fmtCompact x) : Option (Option α)) = some x := by
  cases x with
  | none => simp [fmtCompact, fromCompact]
  | some v =>
    obtain ⟨h1, h2⟩ := h v rfl
    simp only [fmtCompact, fromCompact] at h1 h2 ⊢
    rw [if_neg h2, h1]

theorem range_ne_nil {α : Type} [DecidableEq α] [CompactString α] {r : IdRange α}
    (h : fmtCompact r.start ≠ []) : fmtCompact r ≠ [] := by
  have : fmtCompact r = fmtCompact r.start ++ (if r.isRange then '-' :: fmtCompact r.fin else []) := rfl
  rw [this]; simp [h]

theorem range_not_mem {α : Type} [DecidableEq α] [CompactString α] {r : IdRange α} {x : Char}
    (h : ∀ i : α, x ∉ fmtCompact i) (hx : x ≠ '-') : x ∉ fmtCompact r := by
  have : fmtCompact r = fmtCompact r.start ++ (if r.isRange then '-' :: fmtCompact r.fin else []) := rfl
  rw [this]
  split <;> simp [h, hx]

theorem opt_not_mem {α : Type} [CompactString α] {o : Option α} {x : Char}
    (h : ∀ i : α, x ∉ fmtCompact i) : x ∉ fmtCompact o := by
  cases o with
  | none => simp [fmtCompact]
  | some v => exact h v

/-- A compact numeric range starts with a digit. -/
theorem numericRange_head {s : Str} {r : IdRange NumericId} (h : fromCompact s = some r) :
    ∃ c t, s = c :: t ∧ isDigit c = true := by
  have base : ∀ (s : Str) (i : NumericId), (fromCompact s : Option NumericId) = some i →
      ∃ c t, s = c :: t ∧ isDigit c = true := by
    intro s i hi
    obtain ⟨ds, tail, rfl, h1, h2, _⟩ := (C05_numeric_parse_iff s i).1 hi
    cases ds with
    | nil => exact absurd rfl h1
    | cons c t => exact ⟨c, t ++ tail, rfl, isDigit_iff.2 (h2 c (by simp))⟩
  simp only [fromCompact] at h
  split at h
  · rename_i l r hsp
    obtain ⟨rfl, _⟩ := splitOnce_eq_some hsp
    split at h
    · rename_i hl _
      obtain ⟨c, t, rfl, hc⟩ := base _ _ hl
      exact ⟨c, _, rfl, hc⟩
    · simp at h
  · split at h
    · rename_i hl
      exact base _ _ hl
    · simp at h

theorem letters_not_numericRange {s : Str} (h : ∀ c t, s = c :: t → isDigit c = false) :
    (fromCompact s : Option (IdRange NumericId)) = none := by
  cases hf : (fromCompact s : Option (IdRange NumericId)) with
  | none => rfl
  | some r =>
    obtain ⟨c, t, rfl, hc⟩ := numericRange_head hf
    rw [h c t rfl] at hc; simp at hc

theorem head_letters {α : Type} [DecidableEq α] [CompactString α] {r : IdRange α}
    (h : ∀ i : α, fmtCompact i ≠ [] ∧ ∀ c ∈ fmtCompact i, isDigit c = false) :
    ∀ c t, fmtCompact r = c :: t → isDigit c = false := by
  intro c t hc
  have : fmtCompact r = fmtCompact r.start ++ (if r.isRange then '-' :: fmtCompact r.fin else []) := rfl
  rw [this] at hc
  obtain ⟨h1, h2⟩ := h r.start
  cases hs : fmtCompact r.start with
  | nil => exact absurd hs h1
  | cons d ds =>
    rw [hs] at hc h2
    simp at hc
    rw [← hc.1]
    exact h2 d (by simp)

theorem pfx_not_digit (p : PrefixedId) : fmtCompact p ≠ [] ∧ ∀ c ∈ fmtCompact p, isDigit c = false := by
  refine ⟨p.display_ne_nil, ?_⟩
  intro c hc
  have := p.display_chars c hc
  cases hd : isDigit c with
  | false => rfl
  | true => rw [isDigit_iff] at hd; omega

theorem hc_not_digit (p : HunChar) : fmtCompact p ≠ [] ∧ ∀ c ∈ fmtCompact p, isDigit c = false :=
  ⟨p.display_letters.1, fun _ hc => not_isDigit_of_display hc⟩

/-- C16: the compact form of a well-formed reference parses back to it. -/
theorem C16_reference_compact_roundtrip (r : Ref) (hw : WellFormed r) (hp : Spec.PlainSubpoint r) :
    (fromCompact (fmtCompact r) : Option Ref) = some r := by
  obtain ⟨hArt, _, hNum, hChr, hPfx⟩ := C11_range_roundtrip
  obtain ⟨a, b, c, d, e⟩ := r
  have uActId : ∀ i : ActId, '_' ∉ fmtCompact i := by
    intro i
    have := decInt_not_mem (i := i.year.val) (x := '_') (by decide) (by decide)
    have := decInt_not_mem (i := i.number.val) (x := '_') (by decide) (by decide)
    simp_all [fmtCompact]
  have uArt : ∀ i : ArticleId, '_' ∉ fmtCompact i := by
    intro i h
    rcases ArticleId.compact_chars _ _ h with h | h | h <;> revert h <;> decide
  have uNum : ∀ i : NumericId, '_' ∉ fmtCompact i := fun i => i.not_mem_display (by decide) (by decide)
  have uChr : ∀ i : HunChar, '_' ∉ fmtCompact i := by
    intro i h
    have := HunChar.display_mem h
    revert this; decide
  have uPfx : ∀ i : PrefixedId, '_' ∉ fmtCompact i := by
    intro i h
    have := PrefixedId.display_chars _ _ h
    revert this; decide
  have uPt : ∀ i : RefPartPoint, '_' ∉ fmtCompact i := by
    intro i
    cases i with
    | numeric x => exact range_not_mem uNum (by decide)
    | alphabetic x => exact range_not_mem uChr (by decide)
  have uSp : ∀ i : RefPartSubpoint, '_' ∉ fmtCompact i := by
    intro i
    cases i with
    | numeric x => exact range_not_mem uNum (by decide)
    | alphabetic x => exact range_not_mem uPfx (by decide)
  have e1 : (fromCompact (fmtCompact a) : Option (Option ActId)) = some a :=
    option_compact_roundtrip fun v _ => ⟨ActId.compact_roundtrip v, by simp [fmtCompact, decInt_ne_nil]⟩
  have e2 : (fromCompact (fmtCompact b) : Option (Option RefPartArticle)) = some b :=
    option_compact_roundtrip fun v _ => ⟨hArt v, range_ne_nil (ArticleId.compact_ne_nil _)⟩
  have e3 : (fromCompact (fmtCompact c) : Option (Option RefPartParagraph)) = some c :=
    option_compact_roundtrip fun v _ => ⟨hNum v, range_ne_nil (NumericId.display_ne_nil _)⟩
  have e4 : (fromCompact (fmtCompact d) : Option (Option RefPartPoint)) = some d := by
    refine option_compact_roundtrip fun v _ => ?_
    cases v with
    | numeric x =>
      refine ⟨?_, range_ne_nil (r := x) (NumericId.display_ne_nil _)⟩
      have : (fromCompact (fmtCompact (RefPartPoint.numeric x)) : Option RefPartPoint) =
        match (fromCompact (fmtCompact x) : Option (IdRange NumericId)) with
        | some r => some (.numeric r)
        | none => match (fromCompact (fmtCompact x) : Option (IdRange HunChar)) with
          | some r => some (.alphabetic r)
          | none => none := rfl
      rw [this, hNum]
    | alphabetic x =>
      refine ⟨?_, range_ne_nil (r := x) (HunChar.display_letters _).1⟩
      have : (fromCompact (fmtCompact (RefPartPoint.alphabetic x)) : Option RefPartPoint) =
        match (fromCompact (fmtCompact x) : Option (IdRange NumericId)) with
        | some r => some (.numeric r)
        | none => match (fromCompact (fmtCompact x) : Option (IdRange HunChar)) with
          | some r => some (.alphabetic r)
          | none => none := rfl
      rw [this, hChr, letters_not_numericRange (head_letters hc_not_digit)]
  have e5 : (fromCompact (fmtCompact e) : Option (Option RefPartSubpoint)) = some e := by
    refine option_compact_roundtrip fun v hv => ?_
    cases v with
    | numeric x =>
      refine ⟨?_, range_ne_nil (r := x) (NumericId.display_ne_nil _)⟩
      have : (fromCompact (fmtCompact (RefPartSubpoint.numeric x)) : Option RefPartSubpoint) =
        match (fromCompact (fmtCompact x) : Option (IdRange NumericId)) with
        | some r => some (.numeric r)
        | none => match (fromCompact (fmtCompact x) : Option (IdRange PrefixedId)) with
          | some r => some (.alphabetic r)
          | none => none := rfl
      rw [this, hNum]
    | alphabetic x =>
      refine ⟨?_, range_ne_nil (r := x) (pfx_not_digit _).1⟩
      have : (fromCompact (fmtCompact (RefPartSubpoint.alphabetic x)) : Option RefPartSubpoint) =
        match (fromCompact (fmtCompact x) : Option (IdRange NumericId)) with
        | some r => some (.numeric r)
        | none => match (fromCompact (fmtCompact x) : Option (IdRange PrefixedId)) with
          | some r => some (.alphabetic r)
          | none => none := rfl
      obtain ⟨⟨p1, p2⟩, p3, p4⟩ := hp x hv
      rw [this, hPfx x p1 p2 p3 p4, letters_not_numericRange (head_letters pfx_not_digit)]
  have hs : splitAll '_' (fmtCompact (Ref.mk a b c d e)) =
      [fmtCompact a, fmtCompact b, fmtCompact c, fmtCompact d, fmtCompact e] := by
    have : fmtCompact (Ref.mk a b c d e) = fmtCompact a ++ '_' :: (fmtCompact b ++ '_' ::
      (fmtCompact c ++ '_' :: (fmtCompact d ++ '_' :: fmtCompact e))) := rfl
    rw [this, splitAll_append (opt_not_mem uActId),
      splitAll_append (opt_not_mem fun i => range_not_mem uArt (by decide)),
      splitAll_append (opt_not_mem fun i => range_not_mem uNum (by decide)),
      splitAll_append (opt_not_mem uPt), splitAll_none (opt_not_mem uSp)]
  have : (fromCompact (fmtCompact (Ref.mk a b c d e)) : Option Ref) =
      match splitAll '_' (fmtCompact (Ref.mk a b c d e)) with
      | [act, article, paragraph, point, subpoint] =>
        match (fromCompact act : Option (Option ActId)),
          (fromCompact article : Option (Option RefPartArticle)),
          (fromCompact paragraph : Option (Option RefPartParagraph)),
          (fromCompact point : Option (Option RefPartPoint)),
          (fromCompact subpoint : Option (Option RefPartSubpoint)) with
        | some act, some article, some paragraph, some point, some subpoint =>
          Ref.tryFrom ⟨act, article, paragraph, point, subpoint⟩
        | _, _, _, _, _ => none
      | _ => none := rfl
  rw [this, hs]
  simp only [e1, e2, e3, e4, e5]
  exact Ref.tryFrom_eq_some.2 ⟨rfl, hw⟩

/-- C16: everything read from a compact form has plain subpoints, so the restriction is met by every
reference that came from a text. -/
theorem C16_parsed_plain (s : Str) (r : Ref) (h : fromCompact s = some r) : Spec.PlainSubpoint r := by
  intro x hx
  simp only [fromCompact] at h
  split at h
  · split at h
    · rename_i hsp
      obtain ⟨rfl, _⟩ := Ref.tryFrom_eq_some.1 h
      simp only at hx
      subst hx
      split at hsp
      · simp at hsp
      · split at hsp
        · rename_i heq
          simp at hsp; subst hsp
          split at heq
          · simp at heq
          · split at heq
            · rename_i heq2
              simp at heq; subst heq
              split at heq2
              · split at heq2
                · rename_i hl hr
                  simp at heq2; subst heq2
                  have p1 := C09_prefixed_parse_plain _ _ hl
                  have p2 := C09_prefixed_parse_plain _ _ hr
                  exact ⟨⟨p1.1, p1.2.1⟩, p2.1, p2.2.1⟩
                · simp at heq2
              · split at heq2
                · rename_i hl
                  simp at heq2; subst heq2
                  have p1 := C09_prefixed_parse_plain _ _ hl
                  exact ⟨⟨p1.1, p1.2.1⟩, p1.1, p1.2.1⟩
                · simp at heq2
            · simp at heq
        · simp at hsp
    · simp at h
  · simp at h

example : fmtCompact exRef = str!"2012.100_5a_2-3__" ∧ WellFormed exRef ∧ Spec.PlainSubpoint exRef := by
  refine ⟨by decide +kernel, ?_, ?_⟩
  · rw [Ref.wellFormed_iff]; decide +kernel
  · intro s hs; simp [exRef] at hs

/-! ### C17 -/

/-- C17: a made range starts where the start does and ends where the end does. -/
theorem C17_range_ends (s e r : Ref) (h : s.makeRange e = some r) :
    r.firstInRange = s.firstInRange ∧ r.lastInRange = e.lastInRange :=
  Ref.first_of_spans (Ref.spans_of_makeRange h)

/-- C17: a made range is its two equal arguments, or there is a level above which the two arguments
and the range agree, where the range goes from the one to the other, and below which there is
nothing. -/
theorem C17_range_shape (s e r : Ref) (h : s.makeRange e = some r) :
    (s = e ∧ r = s) ∨
    ∃ k : Level, k ≠ .act ∧
      (∀ i : Level, i.depth < k.depth → part s i = part e i ∧ part r i = part s i) ∧
      Present s k ∧ Present e k ∧
      Spec.lower (part r k) = Spec.lower (part s k) ∧
      Spec.upper (part r k) = Spec.upper (part e k) ∧
      (∀ i : Level, k.depth < i.depth →
        part s i = .empty ∧ part e i = .empty ∧ part r i = .empty) :=
  Ref.spans_of_makeRange h

/-- C17: the range of a reference with itself is the reference. -/
theorem C17_range_self (r : Ref) (h : WellFormed r) : r.makeRange r = some r := by
  have hb := Ref.tryFrom_eq_some.2 ⟨rfl, h⟩
  obtain ⟨a, b, c, d, e⟩ := r
  unfold Ref.makeRange
  simp only [ne_eq, not_true_eq_false, ↓reduceIte]
  rw [← hb]
  cases a <;> cases b <;> cases c <;> cases d <;> cases e <;>
    simp [Ref.setOpt, Ref.build, Ref.setSubpoint, Ref.setPoint, Ref.setParagraph, Ref.setArticle,
      Ref.setAct, Ref.resetArticle, Ref.resetParagraph, Ref.resetPoint, Ref.resetSubpoint, Ref.empty]

/-- C17: references in different acts are rejected. -/
theorem C17_range_acts (s e : Ref) (h : s.act ≠ e.act) : s.makeRange e = none := by
  unfold Ref.makeRange; rw [if_pos h]

/-- The two parts can be the ends of one range: both present and of the same kind. -/
def SameKind : AnyReferencePart → AnyReferencePart → Prop
  | .article _, .article _ => True
  | .paragraph _, .paragraph _ => True
  | .point (.numeric _), .point (.numeric _) => True
  | .point (.alphabetic _), .point (.alphabetic _) => True
  | .subpoint (.numeric _), .subpoint (.numeric _) => True
  | .subpoint (.alphabetic _), .subpoint (.alphabetic _) => True
  | _, _ => False

/-- C17: making a range succeeds for references in hand that differ only in their last parts, when
these are of the same kind. -/
theorem C17_range_succeeds (s e : Ref) (hs : WellFormed s) (he : WellFormed e) (k : Level)
    (h1 : ∀ i : Level, i.depth < k.depth → part s i = part e i)
    (h2 : SameKind (part s k) (part e k))
    (h3 : ∀ i : Level, k.depth < i.depth → part s i = .empty ∧ part e i = .empty) :
    (s.makeRange e).isSome = true := by
  by_cases hse : s = e
  · subst hse; rw [C17_range_self s hs]; rfl
  have build_ok : ∀ x : Ref, WellFormed x → (Ref.build x).isSome = true := by
    intro x hx; unfold Ref.build; rw [Ref.tryFrom_eq_some.2 ⟨rfl, hx⟩]; rfl
  obtain ⟨a1, a2, a3, a4, a5⟩ := s
  obtain ⟨b1, b2, b3, b4, b5⟩ := e
  have act_eq : part ⟨a1, a2, a3, a4, a5⟩ .act = part ⟨b1, b2, b3, b4, b5⟩ .act → a1 = b1 := by
    intro h; simp only [part] at h; cases a1 <;> cases b1 <;> simp_all
  have art_eq : part ⟨a1, a2, a3, a4, a5⟩ .article = part ⟨b1, b2, b3, b4, b5⟩ .article → a2 = b2 := by
    intro h; simp only [part] at h; cases a2 <;> cases b2 <;> simp_all
  have par_eq : part ⟨a1, a2, a3, a4, a5⟩ .paragraph = part ⟨b1, b2, b3, b4, b5⟩ .paragraph → a3 = b3 := by
    intro h; simp only [part] at h; cases a3 <;> cases b3 <;> simp_all
  have pt_eq : part ⟨a1, a2, a3, a4, a5⟩ .point = part ⟨b1, b2, b3, b4, b5⟩ .point → a4 = b4 := by
    intro h; simp only [part] at h; cases a4 <;> cases b4 <;> simp_all
  have par_no : (part ⟨a1, a2, a3, a4, a5⟩ .paragraph = .empty ∧
      part ⟨b1, b2, b3, b4, b5⟩ .paragraph = .empty) → a3 = none ∧ b3 = none := by
    rintro ⟨h, h'⟩; simp only [part] at h h'; cases a3 <;> cases b3 <;> simp_all
  have pt_no : (part ⟨a1, a2, a3, a4, a5⟩ .point = .empty ∧
      part ⟨b1, b2, b3, b4, b5⟩ .point = .empty) → a4 = none ∧ b4 = none := by
    rintro ⟨h, h'⟩; simp only [part] at h h'; cases a4 <;> cases b4 <;> simp_all
  have sp_no : (part ⟨a1, a2, a3, a4, a5⟩ .subpoint = .empty ∧
      part ⟨b1, b2, b3, b4, b5⟩ .subpoint = .empty) → a5 = none ∧ b5 = none := by
    rintro ⟨h, h'⟩; simp only [part] at h h'; cases a5 <;> cases b5 <;> simp_all
  rw [Ref.wellFormed_iff] at hs he
  cases k with
  | act =>
    simp only [part] at h2
    cases a1 <;> cases b1 <;> simp [SameKind] at h2
  | article =>
    obtain rfl := act_eq (h1 .act (by decide))
    obtain ⟨rfl, rfl⟩ := par_no (h3 .paragraph (by decide))
    obtain ⟨rfl, rfl⟩ := pt_no (h3 .point (by decide))
    obtain ⟨rfl, rfl⟩ := sp_no (h3 .subpoint (by decide))
    simp only [part] at h2
    cases a2 <;> cases b2 <;> simp [SameKind] at h2
    simp only [Ref.mk.injEq, Option.some.injEq, true_and, and_true] at hse
    simp only [Ref.makeRange, ne_eq, not_true_eq_false, ↓reduceIte, Option.some.injEq, hse,
      not_false_eq_true, Option.isNone_none, Bool.and_self]
    apply build_ok
    rw [Ref.wellFormed_iff]
    constructor
    · cases a1 <;> simp [Ref.setOpt, Ref.setArticle, Ref.setAct, Ref.resetArticle, Ref.resetParagraph,
        Ref.resetPoint, Ref.resetSubpoint, Ref.empty, Ref.checkPartCombination]
    · simp [Ref.setArticle, Ref.resetParagraph, Ref.resetPoint, Ref.resetSubpoint, Ref.checkRanges]
  | paragraph =>
    obtain rfl := act_eq (h1 .act (by decide))
    obtain rfl := art_eq (h1 .article (by decide))
    obtain ⟨rfl, rfl⟩ := pt_no (h3 .point (by decide))
    obtain ⟨rfl, rfl⟩ := sp_no (h3 .subpoint (by decide))
    simp only [part] at h2
    cases a3 <;> cases b3 <;> simp [SameKind] at h2
    simp only [Ref.mk.injEq, Option.some.injEq, true_and, and_true] at hse
    simp only [Ref.makeRange, ne_eq, not_true_eq_false, ↓reduceIte, Option.some.injEq, hse,
      not_false_eq_true, Option.isNone_none, Bool.and_self]
    apply build_ok
    rw [Ref.wellFormed_iff]
    obtain ⟨hs1, hs2⟩ := hs
    cases a1 <;> cases a2 <;>
      simp_all [Ref.setOpt, Ref.setParagraph, Ref.setArticle, Ref.setAct, Ref.resetArticle,
        Ref.resetParagraph, Ref.resetPoint, Ref.resetSubpoint, Ref.empty, Ref.checkPartCombination,
        Ref.checkRanges]
  | point =>
    obtain rfl := act_eq (h1 .act (by decide))
    obtain rfl := art_eq (h1 .article (by decide))
    obtain rfl := par_eq (h1 .paragraph (by decide))
    obtain ⟨rfl, rfl⟩ := sp_no (h3 .subpoint (by decide))
    simp only [part] at h2
    obtain ⟨hs1, hs2⟩ := hs
    rcases a4 with _ | (_ | _) <;> rcases b4 with _ | (_ | _) <;> simp [SameKind] at h2
    all_goals
      simp only [Ref.mk.injEq, Option.some.injEq, true_and, and_true] at hse
      simp only [Ref.makeRange, ne_eq, not_true_eq_false, ↓reduceIte, Option.some.injEq, hse,
        not_false_eq_true, Option.isNone_none, Bool.and_self]
      apply build_ok
      rw [Ref.wellFormed_iff]
      cases a1 <;> cases a2 <;> cases a3 <;>
        simp_all [Ref.setOpt, Ref.setPoint, Ref.setParagraph, Ref.setArticle, Ref.setAct,
          Ref.resetArticle, Ref.resetParagraph, Ref.resetPoint, Ref.resetSubpoint, Ref.empty,
          Ref.checkPartCombination, Ref.checkRanges]
  | subpoint =>
    obtain rfl := act_eq (h1 .act (by decide))
    obtain rfl := art_eq (h1 .article (by decide))
    obtain rfl := par_eq (h1 .paragraph (by decide))
    obtain rfl := pt_eq (h1 .point (by decide))
    simp only [part] at h2
    obtain ⟨hs1, hs2⟩ := hs
    rcases a5 with _ | (_ | _) <;> rcases b5 with _ | (_ | _) <;> simp [SameKind] at h2
    all_goals
      simp only [Ref.mk.injEq, Option.some.injEq, true_and] at hse
      simp only [Ref.makeRange, ne_eq, not_true_eq_false, ↓reduceIte, Option.some.injEq, hse,
        not_false_eq_true]
      apply build_ok
      rw [Ref.wellFormed_iff]
      clear act_eq art_eq par_eq pt_eq par_no pt_no sp_no build_ok h1 h3 he hse
      cases a1 <;> cases a2 <;> cases a3 <;> cases a4 <;>
        simp_all [Ref.setOpt, Ref.setSubpoint, Ref.setPoint, Ref.setParagraph, Ref.setArticle,
          Ref.setAct, Ref.resetArticle, Ref.resetParagraph, Ref.resetPoint, Ref.resetSubpoint,
          Ref.empty, Ref.checkPartCombination, Ref.checkRanges]

theorem lower_lower (x : AnyReferencePart) : Spec.lower (Spec.lower x) = Spec.lower x := by
  rcases x with _ | x | x | x | (x | x) | (x | x) <;> rfl

theorem upper_upper (x : AnyReferencePart) : Spec.upper (Spec.upper x) = Spec.upper x := by
  rcases x with _ | x | x | x | (x | x) | (x | x) <;> rfl

theorem part_of_ends {x y : AnyReferencePart} (h1 : Spec.lower x = Spec.lower y) (h2 : Spec.upper x = Spec.upper y) : x = y := by
  have hr : ∀ {α : Type} {a b : IdRange α}, a.start = b.start → a.fin = b.fin → a = b := by
    rintro α ⟨_, _⟩ ⟨_, _⟩ rfl rfl; rfl
  rcases x with _ | x | x | x | (x | x) | (x | x) <;> rcases y with _ | y | y | y | (y | y) | (y | y) <;>
    simp only [Spec.lower, Spec.upper, AnyReferencePart.article.injEq, AnyReferencePart.act.injEq, AnyReferencePart.paragraph.injEq,
      AnyReferencePart.point.injEq, AnyReferencePart.subpoint.injEq, RefPartPoint.numeric.injEq, RefPartPoint.alphabetic.injEq,
      RefPartSubpoint.numeric.injEq, RefPartSubpoint.alphabetic.injEq, IdRange.mk.injEq, reduceCtorEq, and_self] at h1 h2 ⊢ <;>
    first | rfl | exact h1 | exact hr h1 h2

theorem lower_upper {x : AnyReferencePart} (h : ¬ IsRangePart x) : Spec.lower x = Spec.upper x := by
  rcases x with _ | x | x | x | (x | x) | (x | x) <;> simp_all [IsRangePart, Spec.lower, Spec.upper]

theorem sameKind_ends {x : AnyReferencePart} (h : IsRangePart x) : SameKind (Spec.lower x) (Spec.upper x) := by
  rcases x with _ | x | x | x | (x | x) | (x | x) <;> simp_all [IsRangePart, Spec.lower, Spec.upper, SameKind]

/-- C17: a reference in hand is the range from the first to the last of what it covers. -/
theorem C17_range_of_ends (r : Ref) (h : WellFormed r) : r.firstInRange.makeRange r.lastInRange = some r := by
  have key : ∀ x, r.firstInRange.makeRange r.lastInRange = some x → x = r := by
    intro x hx
    obtain ⟨e1, e2⟩ := C17_range_ends _ _ _ hx
    refine Ref.ext_part fun l => part_of_ends ?_ ?_
    · rw [← Ref.part_first, e1, Ref.part_first, Ref.part_first, lower_lower]
    · rw [← Ref.part_last, e2, Ref.part_last, Ref.part_last, upper_upper]
  have hsome : (r.firstInRange.makeRange r.lastInRange).isSome = true := by
    by_cases hk : ∃ k, IsRangePart (part r k)
    · obtain ⟨k, hk⟩ := hk
      refine C17_range_succeeds _ _ (Ref.wf_first h) (Ref.wf_last h) k (fun i hi => ?_) ?_ fun i hi => ?_
      · rw [Ref.part_first, Ref.part_last]
        refine lower_upper fun hr => ?_
        refine h.2 i k hi hr fun he => ?_
        rw [he] at hk
        exact hk
      · rw [Ref.part_first, Ref.part_last]
        exact sameKind_ends hk
      · have := h.2 k i hi hk
        unfold Present at this
        rw [Ref.part_first, Ref.part_last, Classical.not_not.1 this]
        exact ⟨rfl, rfl⟩
    · have : r.firstInRange = r.lastInRange := Ref.ext_part fun l => by
        rw [Ref.part_first, Ref.part_last]
        exact lower_upper fun hl => hk ⟨l, hl⟩
      rw [this, C17_range_self _ (Ref.wf_last h)]
      rfl
  obtain ⟨x, hx⟩ := Option.isSome_iff_exists.1 hsome
  rw [hx, key x hx]
example : (Ref.firstInRange exRef).makeRange (Ref.lastInRange exRef) = some exRef := by decide +kernel

/-! ### C18 -/

/-- C18: containment is reflexive. -/
theorem C18_contains_refl (r : Ref) : r.contains r = true := by
  simp [Ref.contains, rle_refl]

/-- C18: a reference contains everything that begins and ends between its own first and last. -/
theorem C18_contains_between (r x : Ref)
    (h1 : cmp r.firstInRange x.firstInRange ≠ .gt) (h2 : cmp x.lastInRange r.lastInRange ≠ .gt) :
    r.contains x = true := by
  have e1 : rle r.firstInRange x.firstInRange = true := by
    rw [rle_iff]
    cases h : cmp r.firstInRange x.firstInRange
    · exact .inl rfl
    · exact .inr ((LawfulOrd.eq_iff _ _).1 h)
    · exact absurd h h1
  have e2 : rle x.lastInRange r.lastInRange = true := by
    rw [rle_iff]
    cases h : cmp x.lastInRange r.lastInRange
    · exact .inl rfl
    · exact .inr ((LawfulOrd.eq_iff _ _).1 h)
    · exact absurd h h2
  simp [Ref.contains, e1, e2]

/-- C18, the statement on made ranges that does not hold of the code. -/
def C18_range_statement : Prop :=
  ∀ s e r : Ref, s.makeRange e = some r → r.contains s = true ∧ r.contains e = true

/-- C18 fails: a range can be made backwards, and then contains neither of its ends. -/
theorem C18_violated : ¬ C18_range_statement := by
  intro h
  have := h (Ref.toArticle ⟨none, ⟨5, none⟩⟩) (Ref.toArticle ⟨none, ⟨3, none⟩⟩)
    (Ref.ofArticle ⟨⟨none, ⟨5, none⟩⟩, ⟨none, ⟨3, none⟩⟩⟩) (by decide +kernel)
  revert this; decide +kernel

/-- C18: a range made in order contains both of its arguments. Missing: ranges made backwards, where
it is false (`C18_violated`). -/
theorem C18_range_contains_partial (s e r : Ref) (h : s.makeRange e = some r)
    (h1 : cmp s.firstInRange e.firstInRange ≠ .gt) (h2 : cmp s.lastInRange e.lastInRange ≠ .gt) :
    r.contains s = true ∧ r.contains e = true := by
  obtain ⟨e1, e2⟩ := C17_range_ends s e r h
  constructor
  · apply C18_contains_between
    · rw [e1, cmp_self]; decide
    · rw [e2]; exact h2
  · apply C18_contains_between
    · rw [e1]; exact h1
    · rw [e2, cmp_self]; decide

theorem rle_pair {α β : Type} [RustOrd α] [LawfulOrd α] [RustOrd β] [LawfulOrd β] {a c : α} {b d : β} :
    rle (a, b) (c, d) = true ↔ cmp a c = .lt ∨ a = c ∧ rle b d = true := by
  unfold rle
  show (((cmp a c).then (cmp b d)) != .gt) = true ↔ _
  cases h : cmp a c
  · simp
  · have := (LawfulOrd.eq_iff _ _).1 h
    simp [this]
  · have : a ≠ c := by rintro rfl; rw [cmp_self] at h; simp at h
    simp [this]

theorem rle_eq_pair {α β : Type} [RustOrd α] [LawfulOrd α] [RustOrd β] [LawfulOrd β] {a : α} {b d : β} :
    rle (a, b) (a, d) = true ↔ rle b d = true := by
  rw [rle_pair, cmp_self]; simp

theorem rle_some {α : Type} [RustOrd α] [LawfulOrd α] {a b : α} :
    rle (some a) (some b) = true ↔ rle a b = true := Iff.rfl

theorem rle_single {α : Type} [RustOrd α] [LawfulOrd α] {a b : α} :
    rle (IdRange.single a) (IdRange.single b) = true ↔ rle a b = true := by
  have : rle (IdRange.single a) (IdRange.single b) = rle (a, a) (b, b) := rfl
  rw [this, rle_pair, rle_iff]
  constructor
  · rintro (h | ⟨h, _⟩) <;> simp [h]
  · rintro (h | h)
    · exact .inl h
    · subst h; exact .inr ⟨rfl, .inr rfl⟩

theorem rle_ref {r s : Ref} : rle r s = rle (r.act, r.article, r.paragraph, r.point, r.subpoint)
    (s.act, s.article, s.paragraph, s.point, s.subpoint) := rfl

theorem cmp_none_some {α : Type} [RustOrd α] (a : α) : cmp (none : Option α) (some a) = .lt := rfl
theorem rle_none {α : Type} [RustOrd α] (o : Option α) : rle none o = true := by cases o <;> rfl

theorem article_low (act : Option ActId) (x y : RefPartArticle) (p : Option RefPartParagraph) (q : Option RefPartPoint) (s : Option RefPartSubpoint) :
    (rle (Ref.mk act (some x) none none none) (Ref.mk act (some y) p q s) ||
      Ref.isParentOf (Ref.mk act (some x) none none none) (Ref.mk act (some y) p q s)) = true ↔
      rle x y = true := by
    rw [Bool.or_eq_true, rle_ref, rle_eq_pair, rle_pair]
    by_cases hxy : x = y
    · subst hxy
      simp only [rle_refl, iff_true, true_and]
      left; right
      cases p with
      | some _ => exact rle_pair.2 (.inl rfl)
      | none =>
        rw [rle_eq_pair]
        cases q with
        | some _ => exact rle_pair.2 (.inl rfl)
        | none =>
          rw [rle_eq_pair]
          exact rle_none _
    · simp [Ref.isParentOf, hxy, rle_iff]
      exact Iff.rfl

theorem article_high (act : Option ActId) (x y : RefPartArticle) (p : Option RefPartParagraph) (q : Option RefPartPoint) (s : Option RefPartSubpoint) :
    (rle (Ref.mk act (some y) p q s) (Ref.mk act (some x) none none none) ||
      Ref.isParentOf (Ref.mk act (some x) none none none) (Ref.mk act (some y) p q s)) = true ↔
      rle y x = true := by
    rw [Bool.or_eq_true, rle_ref, rle_eq_pair, rle_pair]
    by_cases hxy : x = y
    · subst hxy
      simp only [rle_refl, iff_true, true_and]
      cases p with
      | some _ => right; simp [Ref.isParentOf]
      | none =>
        cases q with
        | some _ => right; simp [Ref.isParentOf]
        | none =>
          cases s with
          | some _ => right; simp [Ref.isParentOf]
          | none =>
            left; right; exact rle_refl _
    · have hyx : y ≠ x := fun h => hxy h.symm
      simp [Ref.isParentOf, hxy, hyx, rle_iff]
      exact Iff.rfl

/-- C18: a range of articles contains, of what is under the same parent, exactly what lies in its
articles: those of the other one have to be between its ends, whatever follows below. -/
theorem C18_article_range_contains (act : Option ActId) (a b : RefPartArticle) (p : Option RefPartParagraph) (q : Option RefPartPoint) (s : Option RefPartSubpoint) :
    (Ref.mk act (some a) none none none).contains (Ref.mk act (some b) p q s) = true ↔
      rle a.start b.start = true ∧ rle b.fin a.fin = true := by
  unfold Ref.contains
  rw [Bool.and_eq_true]
  refine and_congr ((article_low _  (.single a.start) (.single b.start) _ _ _).trans rle_single)
    ((article_high _  (.single a.fin) (.single b.fin) _ _ _).trans rle_single)

theorem paragraph_low (act : Option ActId) (r : Option RefPartArticle) (x y : RefPartParagraph) (q : Option RefPartPoint) (s : Option RefPartSubpoint) :
    (rle (Ref.mk act r (some x) none none) (Ref.mk act r (some y) q s) ||
      Ref.isParentOf (Ref.mk act r (some x) none none) (Ref.mk act r (some y) q s)) = true ↔
      rle x y = true := by
    rw [Bool.or_eq_true, rle_ref, rle_eq_pair, rle_eq_pair, rle_pair]
    by_cases hxy : x = y
    · subst hxy
      simp only [rle_refl, iff_true, true_and]
      left; right
      cases q with
      | some _ => exact rle_pair.2 (.inl rfl)
      | none =>
        rw [rle_eq_pair]
        exact rle_none _
    · simp [Ref.isParentOf, hxy, rle_iff]
      exact Iff.rfl

theorem paragraph_high (act : Option ActId) (r : Option RefPartArticle) (x y : RefPartParagraph) (q : Option RefPartPoint) (s : Option RefPartSubpoint) :
    (rle (Ref.mk act r (some y) q s) (Ref.mk act r (some x) none none) ||
      Ref.isParentOf (Ref.mk act r (some x) none none) (Ref.mk act r (some y) q s)) = true ↔
      rle y x = true := by
    rw [Bool.or_eq_true, rle_ref, rle_eq_pair, rle_eq_pair, rle_pair]
    by_cases hxy : x = y
    · subst hxy
      simp only [rle_refl, iff_true, true_and]
      cases q with
      | some _ => right; simp [Ref.isParentOf]
      | none =>
        cases s with
        | some _ => right; simp [Ref.isParentOf]
        | none =>
          left; right; exact rle_refl _
    · have hyx : y ≠ x := fun h => hxy h.symm
      simp [Ref.isParentOf, hxy, hyx, rle_iff]
      exact Iff.rfl

/-- C18: a range of paragraphs contains, of what is under the same parent, exactly what lies in its
paragraphs: those of the other one have to be between its ends, whatever follows below. -/
theorem C18_paragraph_range_contains (act : Option ActId) (r : Option RefPartArticle) (a b : RefPartParagraph) (q : Option RefPartPoint) (s : Option RefPartSubpoint) :
    (Ref.mk act r (some a) none none).contains (Ref.mk act r (some b) q s) = true ↔
      rle a.start b.start = true ∧ rle b.fin a.fin = true := by
  unfold Ref.contains
  rw [Bool.and_eq_true]
  refine and_congr ((paragraph_low _ _ (.single a.start) (.single b.start) _ _).trans rle_single)
    ((paragraph_high _ _ (.single a.fin) (.single b.fin) _ _).trans rle_single)

theorem point_low (act : Option ActId) (r : Option RefPartArticle) (p : Option RefPartParagraph) (x y : RefPartPoint) (s : Option RefPartSubpoint) :
    (rle (Ref.mk act r p (some x) none) (Ref.mk act r p (some y) s) ||
      Ref.isParentOf (Ref.mk act r p (some x) none) (Ref.mk act r p (some y) s)) = true ↔
      rle x y = true := by
    rw [Bool.or_eq_true, rle_ref, rle_eq_pair, rle_eq_pair, rle_eq_pair, rle_pair]
    by_cases hxy : x = y
    · subst hxy
      simp only [rle_refl, iff_true, true_and]
      left; right
      exact rle_none _
    · simp [Ref.isParentOf, hxy, rle_iff]
      exact Iff.rfl

theorem point_high (act : Option ActId) (r : Option RefPartArticle) (p : Option RefPartParagraph) (x y : RefPartPoint) (s : Option RefPartSubpoint) :
    (rle (Ref.mk act r p (some y) s) (Ref.mk act r p (some x) none) ||
      Ref.isParentOf (Ref.mk act r p (some x) none) (Ref.mk act r p (some y) s)) = true ↔
      rle y x = true := by
    rw [Bool.or_eq_true, rle_ref, rle_eq_pair, rle_eq_pair, rle_eq_pair, rle_pair]
    by_cases hxy : x = y
    · subst hxy
      simp only [rle_refl, iff_true, true_and]
      cases s with
      | some _ => right; simp [Ref.isParentOf]
      | none =>
        left; right; exact rle_refl _
    · have hyx : y ≠ x := fun h => hxy h.symm
      simp [Ref.isParentOf, hxy, hyx, rle_iff]
      exact Iff.rfl

/-- C18: a range of numeric points contains, of what is under the same parent, exactly what lies in its
points: those of the other one have to be between its ends, whatever follows below. -/
theorem C18_numeric_point_range_contains (act : Option ActId) (r : Option RefPartArticle) (p : Option RefPartParagraph) (a b : IdRange NumericId) (s : Option RefPartSubpoint) :
    (Ref.mk act r p (some (.numeric a)) none).contains (Ref.mk act r p (some (.numeric b)) s) = true ↔
      rle a.start b.start = true ∧ rle b.fin a.fin = true := by
  unfold Ref.contains
  rw [Bool.and_eq_true]
  refine and_congr ((point_low _ _ _ (.numeric (.single a.start)) (.numeric (.single b.start)) _).trans rle_single)
    ((point_high _ _ _ (.numeric (.single a.fin)) (.numeric (.single b.fin)) _).trans rle_single)

/-- C18: a range of alphabetic points contains, of what is under the same parent, exactly what lies in its
points: those of the other one have to be between its ends, whatever follows below. -/
theorem C18_alphabetic_point_range_contains (act : Option ActId) (r : Option RefPartArticle) (p : Option RefPartParagraph) (a b : IdRange HunChar) (s : Option RefPartSubpoint) :
    (Ref.mk act r p (some (.alphabetic a)) none).contains (Ref.mk act r p (some (.alphabetic b)) s) = true ↔
      rle a.start b.start = true ∧ rle b.fin a.fin = true := by
  unfold Ref.contains
  rw [Bool.and_eq_true]
  refine and_congr ((point_low _ _ _ (.alphabetic (.single a.start)) (.alphabetic (.single b.start)) _).trans rle_single)
    ((point_high _ _ _ (.alphabetic (.single a.fin)) (.alphabetic (.single b.fin)) _).trans rle_single)

theorem subpoint_low (act : Option ActId) (r : Option RefPartArticle) (p : Option RefPartParagraph) (q : Option RefPartPoint) (x y : RefPartSubpoint) :
    (rle (Ref.mk act r p q (some x)) (Ref.mk act r p q (some y)) ||
      Ref.isParentOf (Ref.mk act r p q (some x)) (Ref.mk act r p q (some y))) = true ↔
      rle x y = true := by
    rw [Bool.or_eq_true, rle_ref, rle_eq_pair, rle_eq_pair, rle_eq_pair, rle_eq_pair, rle_some]
    simp [Ref.isParentOf]

theorem subpoint_high (act : Option ActId) (r : Option RefPartArticle) (p : Option RefPartParagraph) (q : Option RefPartPoint) (x y : RefPartSubpoint) :
    (rle (Ref.mk act r p q (some y)) (Ref.mk act r p q (some x)) ||
      Ref.isParentOf (Ref.mk act r p q (some x)) (Ref.mk act r p q (some y))) = true ↔
      rle y x = true := by
    rw [Bool.or_eq_true, rle_ref, rle_eq_pair, rle_eq_pair, rle_eq_pair, rle_eq_pair, rle_some]
    simp [Ref.isParentOf]

/-- C18: a range of numeric subpoints contains, of what is under the same parent, exactly what lies in its
subpoints: those of the other one have to be between its ends, whatever follows below. -/
theorem C18_numeric_subpoint_range_contains (act : Option ActId) (r : Option RefPartArticle) (p : Option RefPartParagraph) (q : Option RefPartPoint) (a b : IdRange NumericId) :
    (Ref.mk act r p q (some (.numeric a))).contains (Ref.mk act r p q (some (.numeric b))) = true ↔
      rle a.start b.start = true ∧ rle b.fin a.fin = true := by
  unfold Ref.contains
  rw [Bool.and_eq_true]
  refine and_congr ((subpoint_low _ _ _ _ (.numeric (.single a.start)) (.numeric (.single b.start)) ).trans rle_single)
    ((subpoint_high _ _ _ _ (.numeric (.single a.fin)) (.numeric (.single b.fin)) ).trans rle_single)

/-- C18: a range of alphabetic subpoints contains, of what is under the same parent, exactly what lies in its
subpoints: those of the other one have to be between its ends, whatever follows below. -/
theorem C18_alphabetic_subpoint_range_contains (act : Option ActId) (r : Option RefPartArticle) (p : Option RefPartParagraph) (q : Option RefPartPoint) (a b : IdRange PrefixedId) :
    (Ref.mk act r p q (some (.alphabetic a))).contains (Ref.mk act r p q (some (.alphabetic b))) = true ↔
      rle a.start b.start = true ∧ rle b.fin a.fin = true := by
  unfold Ref.contains
  rw [Bool.and_eq_true]
  refine and_congr ((subpoint_low _ _ _ _ (.alphabetic (.single a.start)) (.alphabetic (.single b.start)) ).trans rle_single)
    ((subpoint_high _ _ _ _ (.alphabetic (.single a.fin)) (.alphabetic (.single b.fin)) ).trans rle_single)

/-- C18: for references without ranges, containment is being equal or being the parent. -/
theorem C18_contains_single (a b : Ref) (ha : NoRange a) (hb : NoRange b) :
    a.contains b = true ↔ a = b ∨ a.isParentOf b = true := by
  have fix : ∀ r : Ref, NoRange r → r.firstInRange = r ∧ r.lastInRange = r := by
    intro r h
    constructor
    · apply Ref.ext_part
      intro l
      rw [Ref.part_first]
      have := h l
      revert this
      cases part r l with
      | empty => simp [Spec.lower]
      | act x => simp [Spec.lower]
      | article x => obtain ⟨x, y⟩ := x; simp [IsRangePart, Spec.lower]
      | paragraph x => obtain ⟨x, y⟩ := x; simp [IsRangePart, Spec.lower]
      | point x => rcases x with ⟨x, y⟩ | ⟨x, y⟩ <;> simp [IsRangePart, Spec.lower]
      | subpoint x => rcases x with ⟨x, y⟩ | ⟨x, y⟩ <;> simp [IsRangePart, Spec.lower]
    · apply Ref.ext_part
      intro l
      rw [Ref.part_last]
      have := h l
      revert this
      cases part r l with
      | empty => simp [Spec.upper]
      | act x => simp [Spec.upper]
      | article x => obtain ⟨x, y⟩ := x; simp [IsRangePart, Spec.upper]; exact Eq.symm
      | paragraph x => obtain ⟨x, y⟩ := x; simp [IsRangePart, Spec.upper]; exact Eq.symm
      | point x => rcases x with ⟨x, y⟩ | ⟨x, y⟩ <;> simp [IsRangePart, Spec.upper] <;> exact Eq.symm
      | subpoint x => rcases x with ⟨x, y⟩ | ⟨x, y⟩ <;> simp [IsRangePart, Spec.upper] <;> exact Eq.symm
  unfold Ref.contains
  rw [(fix a ha).1, (fix a ha).2, (fix b hb).1, (fix b hb).2]
  simp only [Bool.and_eq_true, Bool.or_eq_true]
  constructor
  · rintro ⟨h1 | h1, h2 | h2⟩
    · exact .inl (rle_antisymm h1 h2)
    all_goals simp_all
  · rintro (rfl | h)
    · simp [rle_refl]
    · simp [h]

example : exRef.contains exRef.firstInRange = true ∧ exRef.parent.contains exRef = true ∧
    exRef.contains exRef.parent = false := by decide +kernel

/-! ### C19 -/

/-- `k` is the level of the last part. -/
def IsLastLevel (r : Ref) (k : Level) : Prop :=
  Present r k ∧ ∀ j : Level, k.depth < j.depth → ¬ Present r j

/-- C19: the parent has exactly the parts of the reference except the last one. -/
theorem C19_parent_parts (r : Ref) (k : Level) (h : IsLastLevel r k) (l : Level) :
    part r.parent l = if l = k then .empty else part r l := by
  obtain ⟨h1, h2⟩ := h
  have g1 := h2 .article
  have g2 := h2 .paragraph
  have g3 := h2 .point
  have g4 := h2 .subpoint
  clear h2
  rw [Ref.present_article] at g1
  rw [Ref.present_paragraph] at g2
  rw [Ref.present_point] at g3
  rw [Ref.present_subpoint] at g4
  obtain ⟨a, b, c, d, e⟩ := r
  cases k <;>
    simp only [Ref.present_act, Ref.present_article, Ref.present_paragraph, Ref.present_point,
      Ref.present_subpoint] at h1 <;>
    simp [Level.depth] at g1 g2 g3 g4 <;> cases l <;>
    simp [Ref.parent, part, *, Ref.empty]

/-- C19: the parent of the empty reference is itself. -/
theorem C19_parent_empty : Ref.empty.parent = .empty := rfl

/-- C19: at most five parents up is the empty reference. -/
theorem C19_parent_five (r : Ref) : r.parent.parent.parent.parent.parent = .empty := by
  obtain ⟨a, b, c, d, e⟩ := r
  cases a <;> cases b <;> cases c <;> cases d <;> cases e <;> rfl

/-- C19, the statement that does not hold of the code. -/
def C19_statement : Prop :=
  ∀ r : Ref, WellFormed r → r ≠ .empty → r.parent.isParentOf r = true ∧ r.parent.contains r = true

/-- C19 fails: the parent of a whole act is the empty reference, which is not taken for its parent. -/
theorem C19_violated : ¬ C19_statement := by
  intro h
  have := h (.ofAct exAct) (by rw [Ref.wellFormed_iff]; decide) (by decide)
  revert this; decide +kernel

/-- C19: the parent of a reference contains it and is recognised as its parent. Missing: references
to whole acts, where it is false (`C19_violated`). -/
theorem C19_parent_contains_partial (r : Ref) (k : Level) (hk : k ≠ .act) (h : Present r k) :
    r.parent.isParentOf r = true ∧ r.parent.contains r = true := by
  have key : ∀ x y : Ref, (x = y.parent) → Present y k → x.isParentOf y = true := by
    rintro x y rfl hy
    obtain ⟨a, b, c, d, e⟩ := y
    cases k <;>
      simp only [Ref.present_act, Ref.present_article, Ref.present_paragraph, Ref.present_point,
        Ref.present_subpoint] at hy
    · exact absurd rfl hk
    all_goals
      cases b <;> cases c <;> cases d <;> cases e <;> simp [Ref.parent, Ref.isParentOf] at hy ⊢
  have hf : r.parent.firstInRange = r.firstInRange.parent := by
    obtain ⟨a, b, c, d, e⟩ := r
    cases a <;> cases b <;> cases c <;> cases d <;> cases e <;> rfl
  have hl : r.parent.lastInRange = r.lastInRange.parent := by
    obtain ⟨a, b, c, d, e⟩ := r
    cases a <;> cases b <;> cases c <;> cases d <;> cases e <;> rfl
  have pf : Present r.firstInRange k := by
    unfold Present at *; rw [Ref.part_first]
    revert h; rcases part r k with _ | _ | _ | _ | (_ | _) | (_ | _) <;> simp [Spec.lower]
  have pl : Present r.lastInRange k := by
    unfold Present at *; rw [Ref.part_last]
    revert h; rcases part r k with _ | _ | _ | _ | (_ | _) | (_ | _) <;> simp [Spec.upper]
  refine ⟨key _ _ rfl h, ?_⟩
  unfold Ref.contains
  rw [key _ _ hf pf, key _ _ hl pl]
  simp

example : exRef.parent = ⟨some exAct, some (.single ⟨none, ⟨5, some (.latin 0)⟩⟩), none, none, none⟩ ∧
    Present exRef .paragraph := by
  refine ⟨by decide +kernel, ?_⟩
  rw [Ref.present_paragraph]; rfl

/-! ### C20 -/

/-- C20, the full statement. -/
def C20_statement : Prop :=
  ∀ a b : Ref, WellFormed a → WellFormed b → (a.isParentOf b = true ↔ ProperPrefix a b)

/-- C20 fails: point a) of article 1 is taken for a parent of paragraph (2) of article 1. -/
theorem C20_violated : ¬ C20_statement := by
  intro h
  have := (h ⟨none, some (.single ⟨none, ⟨1, none⟩⟩), none, some (.alphabetic (.single (.latin 0))), none⟩
    ⟨none, some (.single ⟨none, ⟨1, none⟩⟩), some (.single ⟨2, none⟩), none, none⟩
    (by rw [Ref.wellFormed_iff]; decide +kernel) (by rw [Ref.wellFormed_iff]; decide +kernel)).1
    (by decide +kernel)
  obtain ⟨k, h1, h2, h3⟩ := this
  cases k
  · simpa [part] using h2 .article (by decide)
  · simpa [part] using h2 .article (by decide)
  · simpa [part] using h2 .point (by decide)
  · simp [Present, part] at h3
  · simp [Present, part] at h3

/-- C20: within an act, a proper prefix is always reported as parent. -/
theorem C20_prefix_is_parent (a b : Ref) (hact : a.act = b.act) (h : ProperPrefix a b) :
    a.isParentOf b = true := by
  obtain ⟨a1, a2, a3, a4, a5⟩ := a
  obtain ⟨b1, b2, b3, b4, b5⟩ := b
  simp only at hact
  subst hact
  obtain ⟨k, h1, h2, h3⟩ := h
  have e2 := h1 .article
  have e3 := h1 .paragraph
  have e4 := h1 .point
  have n1 := h2 .act
  have n2 := h2 .article
  have n3 := h2 .paragraph
  have n4 := h2 .point
  have n5 := h2 .subpoint
  clear h1 h2
  cases k <;> simp [Level.depth] at e2 e3 e4 n1 n2 n3 n4 n5 <;>
    simp only [Ref.present_act, Ref.present_article, Ref.present_paragraph, Ref.present_point,
      Ref.present_subpoint] at h3 <;> simp only [part] at *
  · cases a1 <;> simp at n1 h3
  · cases a2 <;> cases b2 <;> simp at n2 h3
    simp [Ref.isParentOf]
  · cases a3 <;> cases b3 <;> simp at n3 h3
    cases a2 <;> cases b2 <;> simp at e2 <;> simp [Ref.isParentOf, e2]
  · cases a4 <;> cases b4 <;> simp at n4 h3
    cases a2 <;> cases b2 <;> simp at e2 <;> cases a3 <;> cases b3 <;> simp at e3 <;>
      simp [Ref.isParentOf, e2, e3]
  · cases a5 <;> cases b5 <;> simp at n5 h3
    cases a2 <;> cases b2 <;> simp at e2 <;> cases a3 <;> cases b3 <;> simp at e3 <;>
      cases a4 <;> cases b4 <;> simp at e4 <;> simp [Ref.isParentOf, e2, e3, e4]

/-- C20: one reference is reported as parent of the other exactly when it is a proper prefix.
Missing: references whose first part missing compared to the other is followed by further parts (a
skipped paragraph or a relative reference), where it is false (`C20_violated`), and the empty
reference compared to one with an act. -/
theorem C20_parent_iff_prefix_partial (a b : Ref) (hact : a.act = b.act) (ha : WellFormed a)
    (h : (a.article.isSome = true ∧
        (a.paragraph.isSome = true ∨ b.paragraph = none ∨ a.point = none)) ∨
      (a.article = none ∧ a.paragraph = none ∧ a.point = none ∧ a.subpoint = none)) :
    a.isParentOf b = true ↔ ProperPrefix a b := by
  refine ⟨?_, C20_prefix_is_parent a b hact⟩
  obtain ⟨a1, a2, a3, a4, a5⟩ := a
  obtain ⟨b1, b2, b3, b4, b5⟩ := b
  rw [Ref.wellFormed_iff] at ha
  have hc := ha.1
  clear ha
  simp only at hact h
  subst hact
  intro hp
  unfold Ref.isParentOf at hp
  simp only [ne_eq, not_true_eq_false, ↓reduceIte] at hp
  split at hp
  · rename_i hne
    simp at hp; subst hp
    simp at h
    obtain ⟨rfl, rfl, rfl⟩ := h
    refine ⟨.article, ?_, ?_, ?_⟩
    · intro i hi; cases i <;> simp [Level.depth] at hi; simp [part]
    · intro i hi; cases i <;> simp [Level.depth] at hi <;> simp [part]
    · rw [Ref.present_article]; cases b2 <;> simp at hne ⊢
  rename_i h2
  simp at h2; subst h2
  split at hp
  · rename_i hne
    simp at hp; subst hp
    have hb3 : b3.isSome = true := by cases b3 <;> simp at hne ⊢
    have hb3' : b3 ≠ none := by intro hx; subst hx; simp at hb3
    have : a4 = none ∧ a5 = none := by
      rcases h with ⟨h1, h | h | h⟩ | h
      · simp at h
      · exact absurd h hb3'
      · subst h
        cases a1 <;> cases a2 <;> cases a5 <;> simp_all [Ref.checkPartCombination]
      · exact h.2.2
    obtain ⟨rfl, rfl⟩ := this
    refine ⟨.paragraph, ?_, ?_, ?_⟩
    · intro i hi; cases i <;> simp [Level.depth] at hi <;> simp [part]
    · intro i hi; cases i <;> simp [Level.depth] at hi <;> simp [part]
    · rw [Ref.present_paragraph]; exact hb3
  rename_i h3
  simp at h3; subst h3
  split at hp
  · rename_i hne
    simp at hp; subst hp
    have hb4 : b4.isSome = true := by cases b4 <;> simp at hne ⊢
    have : a5 = none := by
      rcases h with ⟨h1, _⟩ | h
      · cases a1 <;> cases a2 <;> cases a5 <;> simp_all [Ref.checkPartCombination]
      · exact h.2.2.2
    subst this
    refine ⟨.point, ?_, ?_, ?_⟩
    · intro i hi; cases i <;> simp [Level.depth] at hi <;> simp [part]
    · intro i hi; cases i <;> simp [Level.depth] at hi <;> simp [part]
    · rw [Ref.present_point]; exact hb4
  rename_i h4
  simp at h4; subst h4
  split at hp
  · rename_i hne
    simp at hp; subst hp
    refine ⟨.subpoint, ?_, ?_, ?_⟩
    · intro i hi; cases i <;> simp [Level.depth] at hi <;> simp [part]
    · intro i hi; cases i <;> simp [Level.depth] at hi; simp [part]
    · rw [Ref.present_subpoint]; cases b5 <;> simp at hne ⊢
  · simp at hp

/-- C20: nothing is its own parent, and never across acts. -/
theorem C20_parent_irrefl (a b : Ref) (h : a.isParentOf b = true) : a ≠ b ∧ a.act = b.act := by
  constructor
  · rintro rfl; simp [Ref.isParentOf] at h
  · by_cases hab : a.act = b.act
    · exact hab
    · simp [Ref.isParentOf, hab] at h

example : (exRef.parent.article.isSome = true ∧ exRef.parent.point = none) ∧
    exRef.parent.isParentOf exRef = true := by decide +kernel

/-! ### C21 -/

/-- `k` is the level of the first part. -/
def IsTopLevel (r : Ref) (k : Level) : Prop :=
  Present r k ∧ ∀ j : Level, j.depth < k.depth → ¬ Present r j

/-- C21: a resolved reference has its own parts from its first one on, and those of the base above
that. -/
theorem C21_relative_parts (r b x : Ref) (k : Level) (hk : IsTopLevel r k)
    (h : r.relativeTo b = some x) (l : Level) :
    part x l = if l.depth < k.depth then part b l else part r l := by
  obtain ⟨h1, h2⟩ := hk
  have g0 := h2 .act
  have g1 := h2 .article
  have g2 := h2 .paragraph
  have g3 := h2 .point
  clear h2
  rw [Ref.present_act] at g0
  rw [Ref.present_article] at g1
  rw [Ref.present_paragraph] at g2
  rw [Ref.present_point] at g3
  unfold Ref.relativeTo at h
  obtain ⟨rfl, _⟩ := Ref.tryFrom_eq_some.1 h
  obtain ⟨r1, r2, r3, r4, r5⟩ := r
  cases k <;>
    simp only [Ref.present_act, Ref.present_article, Ref.present_paragraph, Ref.present_point,
      Ref.present_subpoint] at h1 <;>
    simp [Level.depth] at g0 g1 g2 g3 <;> cases l <;>
    simp [Level.depth, part, *]

/-- C21: a reference in hand that names an act is not changed. -/
theorem C21_relative_absolute (r b : Ref) (hw : WellFormed r) (h : r.act.isSome = true) :
    r.relativeTo b = some r := by
  unfold Ref.relativeTo
  rw [if_pos h]
  exact Ref.tryFrom_eq_some.2 ⟨rfl, hw⟩

/-- C21: the empty reference resolves to the base. -/
theorem C21_relative_empty (b : Ref) (hw : WellFormed b) : Ref.empty.relativeTo b = some b := by
  unfold Ref.relativeTo
  simp only [Ref.empty, Option.isSome_none, Bool.false_eq_true, ↓reduceIte]
  exact Ref.tryFrom_eq_some.2 ⟨rfl, hw⟩

/-- C21: resolving again against the same base changes nothing. -/
theorem C21_relative_idempotent (r b x : Ref) (h : r.relativeTo b = some x) :
    x.relativeTo b = some x := by
  unfold Ref.relativeTo at h
  obtain ⟨hx, hw⟩ := Ref.tryFrom_eq_some.1 h
  rw [hx] at hw
  unfold Ref.relativeTo
  refine Ref.tryFrom_eq_some.2 ⟨?_, ?_⟩
  · rw [← hx]
    obtain ⟨r1, r2, r3, r4, r5⟩ := r
    obtain ⟨b1, b2, b3, b4, b5⟩ := b
    cases r1 <;> cases r2 <;> cases r3 <;> cases r4 <;> cases r5 <;> cases b1 <;> cases b2 <;>
      cases b3 <;> cases b4 <;> cases b5 <;> rfl
  · have : (if x.act.isSome then x
      else if x.article.isSome then { x with act := b.act }
      else if x.paragraph.isSome then { x with act := b.act, article := b.article }
      else if x.point.isSome then
        { x with act := b.act, article := b.article, paragraph := b.paragraph }
      else if x.subpoint.isSome then
        { x with act := b.act, article := b.article, paragraph := b.paragraph, point := b.point }
      else b) = x := by
      rw [← hx]
      obtain ⟨r1, r2, r3, r4, r5⟩ := r
      obtain ⟨b1, b2, b3, b4, b5⟩ := b
      cases r1 <;> cases r2 <;> cases r3 <;> cases r4 <;> cases r5 <;> cases b1 <;> cases b2 <;>
        cases b3 <;> cases b4 <;> cases b5 <;> rfl
    rw [this]
    exact hw

/-- C21: resolution succeeds when the base is a single element that has the article and the point
above the first part of the reference. -/
theorem C21_relative_succeeds (r b : Ref) (k : Level) (hk : IsTopLevel r k) (hr : WellFormed r)
    (hb : NoRange b)
    (h : ∀ l : Level, l ≠ .act → l ≠ .paragraph → l.depth < k.depth → Present b l) :
    (r.relativeTo b).isSome = true := by
  have hba := hb .article
  have hbp := hb .paragraph
  have hbq := hb .point
  have h2 := h .article (by decide) (by decide)
  have h4 := h .point (by decide) (by decide)
  rw [Ref.present_article] at h2
  rw [Ref.present_point] at h4
  clear h hb
  obtain ⟨t1, t2⟩ := hk
  have g0 := t2 .act
  have g1 := t2 .article
  have g2 := t2 .paragraph
  have g3 := t2 .point
  clear t2
  rw [Ref.present_act] at g0
  rw [Ref.present_article] at g1
  rw [Ref.present_paragraph] at g2
  rw [Ref.present_point] at g3
  rw [Ref.wellFormed_iff] at hr
  obtain ⟨r1, r2, r3, r4, r5⟩ := r
  obtain ⟨b1, b2, b3, b4, b5⟩ := b
  have key : ∀ x : Ref, x.checkPartCombination = true → x.checkRanges = true →
      (Ref.tryFrom x).isSome = true := by
    intro x h1 h2; simp [Ref.tryFrom, h1, h2]
  have ra : ∀ v, b2 = some v → v.isRange = false := by
    rintro v rfl
    cases hv : v.isRange with
    | false => rfl
    | true => exact absurd (Ref.isRange_iff.1 hv) hba
  have rp : ∀ v, b3 = some v → v.isRange = false := by
    rintro v rfl
    cases hv : v.isRange with
    | false => rfl
    | true => exact absurd (Ref.isRange_iff.1 hv) hbp
  have rq : ∀ v, b4 = some v → v.isRange = false := by
    rintro v rfl
    cases hv : v.isRange with
    | false => rfl
    | true => exact absurd (Ref.rangePoint_iff.2 hv) hbq
  obtain ⟨w1, w2⟩ := hr
  cases k <;>
    simp only [Ref.present_act, Ref.present_article, Ref.present_paragraph, Ref.present_point,
      Ref.present_subpoint] at t1 <;>
    simp [Level.depth] at g0 g1 g2 g3 h2 h4
  · unfold Ref.relativeTo; rw [if_pos t1]; exact key _ w1 w2
  · unfold Ref.relativeTo
    subst g0
    simp only [Option.isSome_none, Bool.false_eq_true, ↓reduceIte, t1]
    refine key _ ?_ w2
    cases b1 <;> cases r2 <;> cases r3 <;> cases r4 <;> cases r5 <;>
      simp [Ref.checkPartCombination] at *
  · unfold Ref.relativeTo
    subst g0 g1
    simp only [Option.isSome_none, Bool.false_eq_true, ↓reduceIte, t1]
    cases b2 with
    | none => simp at h2
    | some v =>
      have := ra v rfl
      refine key _ ?_ ?_
      · cases b1 <;> cases r3 <;> cases r4 <;> cases r5 <;> simp [Ref.checkPartCombination] at *
      · simpa [Ref.checkRanges, this] using w2
  · unfold Ref.relativeTo
    subst g0 g1 g2
    simp only [Option.isSome_none, Bool.false_eq_true, ↓reduceIte, t1]
    cases b2 with
    | none => simp at h2
    | some v =>
      have := ra v rfl
      refine key _ ?_ ?_
      · cases b1 <;> cases b3 <;> cases r4 <;> cases r5 <;> simp [Ref.checkPartCombination] at *
      · cases b3 with
        | none => simpa [Ref.checkRanges, this] using w2
        | some w =>
          have hw := rp w rfl
          simpa [Ref.checkRanges, this, hw] using w2
  · unfold Ref.relativeTo
    subst g0 g1 g2 g3
    simp only [Option.isSome_none, Bool.false_eq_true, ↓reduceIte, t1]
    cases b2 with
    | none => simp at h2
    | some v =>
    cases b4 with
    | none => simp at h4
    | some u =>
      have := ra v rfl
      have hu := rq u rfl
      refine key _ ?_ ?_
      · cases b1 <;> cases b3 <;> cases r5 <;> simp [Ref.checkPartCombination] at *
      · cases b3 with
        | none => simp [Ref.checkRanges, this, hu]
        | some w =>
          have hw := rp w rfl
          simp [Ref.checkRanges, this, hw, hu]

example : (Ref.toAlphabeticPoint .cs).relativeTo exRef.firstInRange =
    some { exRef.firstInRange with point := some (.alphabetic (.single .cs)) } := by decide +kernel

/-! ### C22 -/

/-- C22: neither the first nor the last of a reference has a range. -/
theorem C22_no_range (r : Ref) : NoRange r.firstInRange ∧ NoRange r.lastInRange := by
  constructor
  · intro l
    rw [Ref.part_first]
    rcases part r l with _ | _ | _ | _ | (_ | _) | (_ | _) <;> simp [Spec.lower, IsRangePart]
  · intro l
    rw [Ref.part_last]
    rcases part r l with _ | _ | _ | _ | (_ | _) | (_ | _) <;> simp [Spec.upper, IsRangePart]

/-- C22: each part of the first (last) is the lower (upper) end of that part. -/
theorem C22_parts (r : Ref) (l : Level) :
    part r.firstInRange l = Spec.lower (part r l) ∧ part r.lastInRange l = Spec.upper (part r l) :=
  ⟨Ref.part_first r l, Ref.part_last r l⟩

/-- C22: parts that are not ranges are unchanged. -/
theorem C22_only_ranges (r : Ref) (l : Level) (h : ¬ IsRangePart (part r l)) :
    part r.firstInRange l = part r l ∧ part r.lastInRange l = part r l := by
  rw [Ref.part_first, Ref.part_last]
  revert h
  rcases part r l with _ | _ | ⟨x, y⟩ | ⟨x, y⟩ | (⟨x, y⟩ | ⟨x, y⟩) | (⟨x, y⟩ | ⟨x, y⟩) <;>
    simp [Spec.lower, Spec.upper, IsRangePart] <;> intro h <;> simp [h]

/-- C22: the first and the last are equal to the reference if it has no range. -/
theorem C22_no_range_fixed (r : Ref) (h : NoRange r) : r.firstInRange = r ∧ r.lastInRange = r :=
  ⟨Ref.ext_part fun l => (C22_only_ranges r l (h l)).1,
   Ref.ext_part fun l => (C22_only_ranges r l (h l)).2⟩

/-- C22: taking the first or the last again changes nothing. -/
theorem C22_idempotent (r : Ref) :
    r.firstInRange.firstInRange = r.firstInRange ∧ r.lastInRange.lastInRange = r.lastInRange :=
  ⟨(C22_no_range_fixed _ (C22_no_range r).1).1, (C22_no_range_fixed _ (C22_no_range r).2).2⟩

example : exRef.firstInRange ≠ exRef.lastInRange ∧
    exRef.firstInRange.paragraph = some (.single ⟨2, none⟩) := by decide +kernel

end HunLaw.Props
