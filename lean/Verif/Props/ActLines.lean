import Verif.Props.ActAmendments
import Verif.Props.CliFormats

/-! Property C134: the data written about an act are those which its lines say. -/

set_option autoImplicit false

namespace HunLaw.Props

open HunLaw Spec Semantic Cli
open HunLaw.BlockAmend (children block paragraph awaits_unique)

/-! ### converting keeps what is recorded -/

theorem children_readings (upper : Char → Bool) (phrase : Option SpecialPhrase) (l : List Ancestor) (c : ParagraphChildren Amendment) :
    paragraphReadings l (children upper phrase c).1 = paragraphReadings l c := by
  unfold children
  split
  · unfold block
    split <;> [split; split; skip] <;> rfl
  · rfl

theorem paragraph_readings (upper : Char → Bool) (l : List Ancestor) (p : Paragraph Amendment) :
    elementReadings paragraphReadings l (paragraph upper p).1 = elementReadings paragraphReadings l p := by
  obtain ⟨i, b, s, c⟩ := p
  cases b with
  | text t => rfl
  | children j k w => simp only [paragraph, elementReadings, children_readings]

theorem lift_readings (l : List Ancestor) (p : Paragraph Empty) :
    elementReadings paragraphReadings l p.lift = elementReadings paragraphReadings l p := by
  obtain ⟨i, b, s, c⟩ := p
  cases b with
  | text t => rfl
  | children j k w => cases k <;> first | rfl | (rename_i a; exact a.elim)

theorem converted_readings {upper : Char → Bool} {a : Act Empty} (h : (BlockAmend.act upper a.lift).2 = .ok ()) :
    actReadings (BlockAmend.act upper a.lift).1 = actReadings a := by
  rw [actReadings_paragraphs, actReadings_paragraphs, paragraphs_converted h, paragraphsOf_lift, List.map_map, List.flatMap_map]
  refine List.flatMap_congr fun p _ => ?_
  exact (paragraph_readings upper [] p.lift).trans (lift_readings [] p)

/-- C133: the converted act has the information of C132 at each of its texts and the abbreviations which were introduced. -/
theorem C133_recorded (upper : Char → Bool) (act act' : Act Empty) (changed : Bool) (ts : List Told)
    (h : Narrates act.containedAbbreviations [] ((actReadings act).map (·.1)) ts)
    (hi : addSemanticInfo act = (act', .ok changed)) (hc : (BlockAmend.act upper act'.lift).2 = .ok ()) :
    List.Forall₂ (fun x t => RecordsTold x.1 x.2 t) (actReadings (BlockAmend.act upper act'.lift).1) ts ∧
      ∀ k, (BlockAmend.act upper act'.lift).1.containedAbbreviations.lookup k = meaningOf act.containedAbbreviations (ts.flatMap Told.new) k := by
  obtain ⟨act₂, changed₂, h1, h2, h3⟩ := C132_act act ts h
  rw [hi] at h1
  cases h1
  exact ⟨by rw [converted_readings hc]; exact h2, h3⟩

/-! ### from the lines to the data -/

/-- C134: let the lines of a raw act be the act `act`, with no space at the end of a line, let its texts be in the forms of C132, those of each
paragraph telling one of the lists `tss`, and let every announced block be the amendment announced. Then the JSON or YAML document of an act is
written, and there is no error. That act has the head of the raw one, its quoted blocks are converted as announced, and the references,
abbreviations and phrases recorded in it are those which its texts tell. It can be read back from the document. -/
theorem C134_data (env : Env) (args : Args) (raw : ActRawText) (act : Act Empty) (tss : List (List Told))
    (encode : OutputFormat → Serde.Value → Str) (henv : ∀ f a, env.actData f a = .ok (encode f (actDocument a)))
    (hd : ProperDate raw.publicationDate) (hs : args.parseUntil = .semantic) (hf : args.format = .json ∨ args.format = .yaml)
    (he : args.forceEditor = false) (hn : NoTrailingSpace raw.body)
    (hb : BodyIs .fullAct env.upper raw.body act.preamble act.children) (hhead : act.identifier = raw.identifier ∧ act.subject = raw.subject ∧
      act.publicationDate = raw.publicationDate ∧ act.containedAbbreviations = [])
    (ht : Narrates [] [] ((actReadings act).map (·.1)) tss.flatten)
    (hl : List.Forall₂ (fun p ts => textCount p = ts.length) (paragraphsOf act) tss)
    (hfu : List.Forall₂ (Fulfils env.upper) (paragraphsOf act) tss) :
    ∃ a : Act Amendment, processFixed env args raw = (encode args.format (actDocument a), .ok ()) ∧ documentAct (actDocument a) = some a ∧
      (a.identifier = raw.identifier ∧ a.subject = raw.subject ∧ a.publicationDate = raw.publicationDate ∧ a.preamble = act.preamble) ∧
      List.Forall₂ (fun x q => Becomes env.upper x.1 x.2 q) ((paragraphsOf act).zip tss) (paragraphsOf a) ∧
      List.Forall₂ (fun x t => RecordsTold x.1 x.2 t) (actReadings a) tss.flatten ∧
      ∀ k, a.containedAbbreviations.lookup k = lastDefined k (tss.flatten.flatMap Told.new) := by
  obtain ⟨e1, e2, e3, e4⟩ := hhead
  have hp := (C115_act_exact env.upper raw act hn).2 ⟨hb, e1, e2, e3, e4⟩
  replace ht : Narrates act.containedAbbreviations [] ((actReadings act).map (·.1)) tss.flatten := by rw [e4]; exact ht
  obtain ⟨act', changed, h1, h2, h3⟩ := C133_act env.upper act tss ht hl hfu
  obtain ⟨h4, h5⟩ := C133_recorded env.upper act act' changed _ ht h1 h2
  have hpr := C96_pipeline env.upper raw act act' changed hd hp h1
  have hbare := (C65_only_info act).1
  rw [h1] at hbare
  refine ⟨(BlockAmend.act env.upper act'.lift).1, ?_, C96_act _ hpr, ⟨?_, ?_, ?_, ?_⟩, h3, h4, fun k => ?_⟩
  · have hc : BlockAmend.act env.upper act'.lift = ((BlockAmend.act env.upper act'.lift).1, .ok ()) := by rw [← h2]
    have ht : ∀ a, actText env args a = .ok (encode args.format (actDocument a)) := by
      intro a
      rcases hf with hf | hf <;> simp only [actText, hf, henv]
    unfold processFixed
    rw [if_neg (by rw [hs]; decide), hp]
    simp only
    rw [if_neg (by rw [hs]; decide)]
    unfold finishAct
    rw [h1]
    simp only
    rw [hc]
    simp only [ht, he]
    rfl
  · exact (congrArg Act.identifier hbare).trans e1
  · exact (congrArg Act.subject hbare).trans e2
  · exact (congrArg Act.publicationDate hbare).trans e3
  · exact congrArg Act.preamble hbare
  · rw [h5, e4]
    simp [meaningOf]

/-! ### an example -/

/-- The lines of the amending act. -/
def amendingLines : ActRawText := sampleRaw
  [sampleLine str!"1. § A közbeszerzésekről szóló 2015. évi CXLIII. törvény (a továbbiakban: Kbt.) 3. § (2) és (3) bekezdése helyébe a következő rendelkezések lépnek:" 0,
   sampleLine str!"„(2) Ez." 0, sampleLine str!"(3) Az.”" 0, sampleLine str!"2. § A Kbt. 4. §-a!" 0,
   sampleLine str!"3. § Ez a törvény 2024. január 1-jén lép hatályba." 0]

/-- What they are. -/
def linesAct : Act Empty := match parseActStructure asciiUpper amendingLines with
  | .ok a => a
  | _ => amendingAct

/-- The only quoted blocks of its paragraphs. -/
def onlyBlocks (a : Act Empty) : List (Option QuotedBlock) := (paragraphsOf a).map fun p => match p.body with
  | .children _ (.quotedBlock [b]) _ => some b
  | _ => none

/-- The first one. -/
def linesBlock : QuotedBlock := ((onlyBlocks linesAct).head?.getD none).getD replacingBlock

theorem linesAct_parsed : parseActStructure asciiUpper amendingLines = .ok linesAct := by
  have h : Res.map (fun _ => ()) (parseActStructure asciiUpper amendingLines) = .ok () := by decide +kernel
  unfold linesAct
  rcases e : parseActStructure asciiUpper amendingLines with a | _ | _
  · rfl
  · rw [e] at h; cases h
  · rw [e] at h; cases h

theorem converted_is {b : QuotedBlock} {phrase : Option SpecialPhrase} (hn : NoTrailingSpace b.lines) (hk : IsBlockAmendment phrase)
    (hok : (paragraph asciiUpper ⟨⟨none⟩, .children [] (.quotedBlock [b]) none, { SemanticInfo.default with specialPhrase := phrase }, none⟩).2 = .ok ()) :
    ∃ a, AmendmentIs asciiUpper phrase b a := by
  have haw : Awaits ⟨⟨none⟩, .children [] (.quotedBlock [b]) none, { SemanticInfo.default with specialPhrase := phrase }, none⟩ [] b none := ⟨rfl, .inl hk⟩
  rcases C51_paragraph asciiUpper ⟨⟨none⟩, .children [] (.quotedBlock [b]) none, { SemanticInfo.default with specialPhrase := phrase }, none⟩ with
    ⟨-, -, -, ⟨-, hno⟩ | ⟨i, b', w, a, haw', hb, -⟩⟩ | ⟨hne, -⟩
  · exact absurd haw (hno _ _ _)
  · obtain ⟨rfl, rfl, rfl⟩ := awaits_unique haw' haw
    obtain ⟨x, f, rfl⟩ := hk
    exact ⟨a, (C122_exact_partial asciiUpper _ _ _ _ haw hn (by rintro ⟨_, _, _, h, _⟩; cases h) a).1 ⟨hok, hb⟩⟩
  · exact absurd hok hne

theorem linesBlock_is : NoTrailingSpace linesBlock.lines ∧
    ∃ a, AmendmentIs asciiUpper (some (.blockAmendment twoParagraphsRange false)) linesBlock a := by
  have hn : ∀ l ∈ linesBlock.lines, l.content.getLast? ≠ some ' ' := by decide +kernel
  exact ⟨hn, converted_is hn ⟨_, _, rfl⟩ (by decide +kernel)⟩

/-- The conditions of the theorem are met by these lines. -/
example : NoTrailingSpace amendingLines.body ∧ BodyIs .fullAct asciiUpper amendingLines.body linesAct.preamble linesAct.children ∧
    linesAct.containedAbbreviations = [] ∧ Narrates [] [] ((actReadings linesAct).map (·.1)) (amendingTold.map fun t => [t]).flatten ∧
    List.Forall₂ (fun p ts => textCount p = ts.length) (paragraphsOf linesAct) (amendingTold.map fun t => [t]) ∧
    List.Forall₂ (Fulfils asciiUpper) (paragraphsOf linesAct) (amendingTold.map fun t => [t]) := by
  have h := C115_act_sound _ _ _ linesAct_parsed
  have hc : (paragraphsOf linesAct).map textCount = [1, 1, 1] := by decide +kernel
  have hb : onlyBlocks linesAct = [some linesBlock, none, none] := by decide +kernel
  refine ⟨by unfold NoTrailingSpace; decide +kernel, h.1, h.2.2.2.2, ?_, ?_⟩
  · have e : (actReadings linesAct).map (·.1) = (actReadings amendingAct).map (·.1) := by decide +kernel
    rw [e]
    exact amendingAct_narrates
  · unfold onlyBlocks at hb
    generalize paragraphsOf linesAct = l at hc hb
    have hlen := congrArg List.length hc
    rw [List.length_map] at hlen
    obtain ⟨p, q, r, rfl⟩ := List.length_eq_three.1 hlen
    · simp only [List.map_cons, List.map_nil, List.cons.injEq, and_true] at hc hb
      refine ⟨.cons hc.1 (.cons hc.2.1 (.cons hc.2.2 .nil)), .cons ?_ (.cons ?_ (.cons ?_ .nil))⟩
      · rintro i b w t phrase hp ht hph
        cases ht
        cases hph
        have := hb.1
        rw [hp] at this
        rw [Option.some.inj this]
        exact ⟨linesBlock_is.1, fun ⟨_, _, _, h, _⟩ => (by cases h), linesBlock_is.2⟩
      · rintro i b w t phrase hp
        have := hb.2.1
        rw [hp] at this
        cases this
      · rintro i b w t phrase hp
        have := hb.2.2
        rw [hp] at this
        cases this

end HunLaw.Props
