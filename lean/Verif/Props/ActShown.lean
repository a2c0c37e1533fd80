import Verif.Props.ActLines
import Verif.Props.Output

/-! Property C135: the text written about an act is what its lines say. -/

set_option autoImplicit false

namespace HunLaw.Props

open HunLaw Spec Semantic Cli

/-- C135: let the lines of a raw act be the act `act`, and let its texts and quoted blocks be as in C134. Let each of its texts be followed by
a wrap-up, or end as a sentence does, or have a connective at its end. Then a plain text is written, and there is no error. If blanks are not
looked at, the text is the number, subject, preamble and all the parts of an act with the head of the raw one, of which the quoted blocks are
converted as announced, and in which what the texts tell is recorded. -/
theorem C135_plain (env : Env) (args : Args) (raw : ActRawText) (act : Act Empty) (tss : List (List Told))
    (hw : Wraps env.wrap) (h50 : 50 ≤ args.width) (h1 : 1 ≤ raw.identifier.number.val) (h2 : raw.identifier.number.val ≤ 3999)
    (hs : args.parseUntil = .semantic) (hf : args.format = .plain) (he : args.forceEditor = false) (hn : NoTrailingSpace raw.body)
    (hb : BodyIs .fullAct env.upper raw.body act.preamble act.children) (hhead : act.identifier = raw.identifier ∧ act.subject = raw.subject ∧
      act.publicationDate = raw.publicationDate ∧ act.containedAbbreviations = [])
    (ht : Narrates [] [] ((actReadings act).map (·.1)) tss.flatten)
    (hl : List.Forall₂ (fun p ts => textCount p = ts.length) (paragraphsOf act) tss)
    (hfu : List.Forall₂ (Fulfils env.upper) (paragraphsOf act) tss)
    (hends : ∀ x ∈ actReadings act, x.1.after ≠ [] ∨ sentenceEnds (withoutConnectives x.1.text) = true ∨
      withoutConnectives x.1.text ≠ x.1.text) :
    ∃ (a : Act Amendment) (out : Str), processFixed env args raw = (out, .ok ()) ∧ noBlanks out = noBlanks (actShown a) ∧
      (a.identifier = raw.identifier ∧ a.subject = raw.subject ∧ a.publicationDate = raw.publicationDate ∧ a.preamble = act.preamble) ∧
      List.Forall₂ (fun x q => Becomes env.upper x.1 x.2 q) ((paragraphsOf act).zip tss) (paragraphsOf a) ∧
      List.Forall₂ (fun x t => RecordsTold x.1 x.2 t) (actReadings a) tss.flatten := by
  obtain ⟨e1, e2, e3, e4⟩ := hhead
  have hp := (C115_act_exact env.upper raw act hn).2 ⟨hb, e1, e2, e3, e4⟩
  replace ht : Narrates act.containedAbbreviations [] ((actReadings act).map (·.1)) tss.flatten := by rw [e4]; exact ht
  obtain ⟨act', changed, i1, i2, i3⟩ := C133_act env.upper act tss ht hl hfu
  obtain ⟨i4, -⟩ := C133_recorded env.upper act act' changed _ ht i1 i2
  obtain ⟨out, ho⟩ := C84_prints_partial env.upper raw act act' changed env.wrap args.width false hp i1 h1 h2 h50 hends
  have hbare := (C65_only_info act).1
  rw [i1] at hbare
  refine ⟨(BlockAmend.act env.upper act'.lift).1, out, ?_, C82_shows _ hw _ _ _ ho, ⟨?_, ?_, ?_, ?_⟩, i3, i4⟩
  · have hc : BlockAmend.act env.upper act'.lift = ((BlockAmend.act env.upper act'.lift).1, .ok ()) := by rw [← i2]
    have ht : actText env args (BlockAmend.act env.upper act'.lift).1 = .ok out := by simp only [actText, hf, ho]
    unfold processFixed
    rw [if_neg (by rw [hs]; decide), hp]
    simp only
    rw [if_neg (by rw [hs]; decide)]
    unfold finishAct
    rw [i1]
    simp only
    rw [hc]
    simp only [ht, he]
    rfl
  · exact (congrArg Act.identifier hbare).trans e1
  · exact (congrArg Act.subject hbare).trans e2
  · exact (congrArg Act.publicationDate hbare).trans e3
  · exact congrArg Act.preamble hbare

/-- The further conditions are met by the lines of the example of C134, and there are a wrapper and arguments that are as they should be. -/
example : Wraps simpleWrap ∧ (1 ≤ amendingLines.identifier.number.val ∧ amendingLines.identifier.number.val ≤ 3999) ∧ 50 ≤ (plainArgs []).width ∧
    (plainArgs []).parseUntil = .semantic ∧ (plainArgs []).format = .plain ∧ (plainArgs []).forceEditor = false ∧
    ∀ x ∈ actReadings linesAct, x.1.after ≠ [] ∨ sentenceEnds (withoutConnectives x.1.text) = true ∨
      withoutConnectives x.1.text ≠ x.1.text := by
  refine ⟨simpleWrap_wraps, by decide, by decide, rfl, rfl, rfl, ?_⟩
  have h : ((actReadings linesAct).map fun x => x.1).all (fun r => r.after ≠ [] ∨ sentenceEnds (withoutConnectives r.text) = true ∨
      withoutConnectives r.text ≠ r.text) = true := by decide +kernel
  intro x hx
  have := List.all_eq_true.1 h x.1 (List.mem_map_of_mem hx)
  simpa using this

end HunLaw.Props
