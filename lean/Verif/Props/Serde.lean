import Verif.Lemmas.Downloader
import Verif.Lemmas.SerdeReady
import Verif.Props.Output

/-!
C96-C99: acts, references, fixups and lines that are stored can be read again, and what is read is well-formed.
-/

set_option autoImplicit false

namespace HunLaw.Props

open HunLaw.Spec HunLaw.Semantic HunLaw.Serde

/-- The document of an act. -/
def actDocument (a : Act Amendment) : Value := (Serde.act Serde.amendment).ser a

/-- The act of a document, if it is the document of one. -/
def documentAct (v : Value) : Option (Act Amendment) := (Serde.act Serde.amendment).de v

/-! ### C96: nothing is lost -/

/-- C96: an act that is stored is read again as it was. -/
theorem C96_act (a : Act Amendment) (h : ProperAct a) : documentAct (actDocument a) = some a := act_lossless a h

/-- C96: so different acts have different documents. -/
theorem C96_distinct (a b : Act Amendment) (ha : ProperAct a) (hb : ProperAct b)
    (h : actDocument a = actDocument b) : a = b := by
  have := C96_act a ha
  rw [h, C96_act b hb] at this
  exact (Option.some.inj this).symm

/-- C96: what the parser, the annotator and the converter of amendments give is an act that can be stored, even if
some of its amendments could not be converted. -/
theorem C96_pipeline (upper : Char → Bool) (raw : ActRawText) (a a' : Act Empty) (changed : Bool)
    (hd : ProperDate raw.publicationDate) (h : parseActStructure upper raw = .ok a)
    (hi : addSemanticInfo a = (a', .ok changed)) : ProperAct (BlockAmend.act upper a'.lift).1 := by
  simp only [parseActStructure, Res.bind_eq_ok] at h
  obtain ⟨⟨x, y⟩, hx, h⟩ := h
  cases h
  have hp := parseComplexBody_proper hx
  have hb := (C65_only_info (A := Empty) ⟨raw.identifier, raw.subject, x, raw.publicationDate, [], y⟩).1
  rw [hi] at hb
  obtain ⟨c, hc, h1, -⟩ := C47_context _ a' changed hi
  have hdate : a'.publicationDate = raw.publicationDate := congrArg Act.publicationDate hb
  have hch : a'.children.map bareActChild = y.map bareActChild := congrArg Act.children hb
  refine ⟨?_, ?_, converted_proper fun d hd' => ?_⟩
  · rw [BlockAmend.act, Act.lift, hdate]
    exact hd
  · rw [BlockAmend.act, Act.lift, h1]
    exact readTexts_increasing hc trivial
  · obtain ⟨e, he, rfl⟩ := List.mem_map.1 hd'
    refine lift_proper (act_bare_proper ?_ ?_ e he)
    · intro d hd
      have hd : d ∈ a'.children.map bareActChild := hd
      rw [hch] at hd
      obtain ⟨z, hz, rfl⟩ := List.mem_map.1 hd
      exact bare_proper (hp z hz)
    · intro z hz
      exact readTexts_proper hc z.2 (List.mem_map.2 ⟨z, hz, rfl⟩)

/-- C96: the dates of the gazette can be stored. -/
theorem C96_gazette (pages : List Page) (acts : List ActRawText) (h : parseMkPagesIntoActs pages = some acts) :
    ∀ raw ∈ acts, ProperDate raw.publicationDate := by
  obtain ⟨date, regions, rest, ⟨cover, -, hc⟩, -, hf⟩ := C41_regions pages acts h
  have hd : ProperDate date := by
    unfold parseMkCoverPage at hc
    split at hc
    · split at hc
      · obtain ⟨h1, year, x, month, day, y, rest, -, hl, hy, -⟩ := C62_sound _ _ hc
        obtain ⟨n, hn, hy⟩ := Option.map_eq_some_iff.1 hy
        obtain ⟨-, hdig, rfl⟩ := parseDigits_iff.1 hn
        have hlt : decimalValue year < 10000 := by
          match year, hl with
          | [a, b, c, d], _ =>
            have key : ∀ e ∈ [a, b, c, d], e.toNat ≤ '9'.toNat := fun e he => (hdig e he).2
            have ka := key a (by simp)
            have kb := key b (by simp)
            have kc := key c (by simp)
            have kd := key d (by simp)
            simp only [decimalValue, List.foldl, show '9'.toNat = 57 from rfl, show '0'.toNat = 48 from rfl] at *
            omega
        refine ⟨h1, ?_, ?_⟩ <;> rw [← hy] <;> simp only [Int.ofNat_eq_natCast] <;> omega
      · cases hc
    · cases hc
  intro raw hr
  clear h
  induction hf with
  | nil => simp at hr
  | cons hx _ ih =>
    obtain ⟨body, -, -, -, -, -, hp, -⟩ := hx
    rcases List.mem_cons.1 hr with rfl | hr
    · rw [hp]
      exact hd
    · exact ih hr

/-- C96: an act of a gazette which went through the whole program is read again as it was. -/
theorem C96_read_back (pages : List Page) (acts : List ActRawText) (upper : Char → Bool) (raw : ActRawText)
    (a a' : Act Empty) (changed : Bool) (hp : parseMkPagesIntoActs pages = some acts) (hr : raw ∈ acts)
    (h : parseActStructure upper raw = .ok a) (hi : addSemanticInfo a = (a', .ok changed)) :
    documentAct (actDocument (BlockAmend.act upper a'.lift).1) = some (BlockAmend.act upper a'.lift).1 :=
  C96_act _ (C96_pipeline upper raw a a' changed (C96_gazette pages acts hp raw hr) h hi)

/-- An act with amendments, references and an abbreviation goes through. -/
example : Res.map (fun a => decide ((addSemanticInfo a).2 = .ok true) &&
      decide (documentAct (actDocument (BlockAmend.act asciiUpper (addSemanticInfo a).1.lift).1) =
        some (BlockAmend.act asciiUpper (addSemanticInfo a).1.lift).1))
    (parseActStructure asciiUpper (sampleRaw outputBody)) = .ok true := by decide +kernel

example : ProperDate (sampleRaw outputBody).publicationDate := by
  refine ⟨((ofYmd_iff _ _ _ _).1 (show Date.ofYmd 2021 5 7 = some _ from rfl)).2, ?_, ?_⟩ <;> decide

/-! ### C97: only well-formed acts are read -/

/-- C97: every act that is read is well-formed: its references, dates, identifiers and maps are ones that the
program could have made. -/
theorem C97_proper (v : Value) (a : Act Amendment) (h : documentAct v = some a) : ProperAct a := act_sound v a h

/-- C97: so an act that was read can be stored and read again. -/
theorem C97_stable (v : Value) (a : Act Amendment) (h : documentAct v = some a) :
    documentAct (actDocument a) = some a := C96_act a (C97_proper v a h)

/-- C97: a reference that is read is well-formed, and every well-formed one is read again as it was. -/
theorem C97_reference (v : Value) (r : Ref) (h : Serde.reference.de v = some r) : WellFormed r :=
  (reference_sound v r h).1

/-- C97: the document with the fields of a reference is read exactly if they make a well-formed one. -/
theorem C97_checked (r : Ref) (h : PlainSubpoint r) :
    (WellFormed r → Serde.reference.de (Serde.reference.ser r) = some r) ∧
      (¬ WellFormed r → Serde.reference.de (Serde.reference.ser r) = none) := by
  rw [reference_checked r h]
  exact ⟨fun hw => Ref.tryFrom_eq_some.2 ⟨rfl, hw⟩, fun hw => Ref.tryFrom_eq_none.2 hw⟩

/-- C97: a date that is read is a date of the calendar. -/
theorem C97_date (v : Value) (d : Date) (h : Serde.date.de v = some d) : RealDate d := (date_sound v d h).1

/-- A reference to a paragraph of an article, and one in which the article is missing. -/
example : Serde.reference.de (Serde.reference.ser
      ⟨some btkAct, some (.single ⟨none, .ofNum 3⟩), some (.single (.ofNum 2)), none, none⟩) =
      some ⟨some btkAct, some (.single ⟨none, .ofNum 3⟩), some (.single (.ofNum 2)), none, none⟩ ∧
    Serde.reference.de (Serde.reference.ser ⟨some btkAct, none, some (.single (.ofNum 2)), none, none⟩) = none := by
  decide +kernel

/-- A real date and one that is not. -/
example : Serde.date.de (.str str!"2022-02-28") = some ⟨2022, 2, 28⟩ ∧ Serde.date.de (.str str!"2022-02-29") = none := by
  decide +kernel

/-! ### C98: fixups -/

/-- C98: a list of fixups that is stored is read again as it was. -/
theorem C98_fixups (l : List Fixup) : (list fixup).de ((list fixup).ser l) = some l :=
  list_lossless fixup_lossless l fun _ _ => trivial

example : (list fixup).de ((list fixup).ser [⟨[str!"a", str!"b"], str!"c", str!"d", true⟩, ⟨[], str!"e", [], false⟩]) =
    some [⟨[str!"a", str!"b"], str!"c", str!"d", true⟩, ⟨[], str!"e", [], false⟩] := by decide +kernel

/-! ### C99: lines -/

/-- What a line knows about itself is true. -/
def Consistent (l : StoredLine) : Prop :=
  l.cachedContent = l.parts.map (·.content) ∧
    (l.cachedBold = true ↔ l.parts.length * 2 < (l.parts.filter (·.bold)).length * 3)

/-- C99 in full: the content of a line that was read is the text of its parts, and it is bold if most of them
are. -/
def C99_statement : Prop := ∀ v l, storedLine.de v = some l → Consistent l

/-- C99 is false: the two fields of the document are not compared with the parts. -/
theorem C99_violated : ¬ C99_statement := by
  intro h
  have := (h (storedLine.ser ⟨[], false, str!"abc", false⟩) _ (storedLine_lossless _ trivial)).1
  simp at this

/-- C99, the part that holds: for lines that were made from parts and stored by the program.
Missing: other documents; for these it is false (`C99_violated`). -/
theorem C99_lines_partial (parts : List LinePart) (justified : Bool) (l : StoredLine)
    (h : storedLine.de (Serde.line.ser (Line.fromParts parts justified)) = some l) : Consistent l := by
  rw [show Serde.line.ser (Line.fromParts parts justified) = storedLine.ser (store (Line.fromParts parts justified)) from
    rfl, storedLine_lossless _ trivial] at h
  cases h
  exact ⟨rfl, by simp [store, Line.fromParts]⟩

example : (storedLine.de (Serde.line.ser (sampleLine str!"abc" 5))).map (·.cachedContent) = some str!"abc" := by
  decide +kernel

end HunLaw.Props
