import Verif.Props.Cli
import Verif.Props.OutputStyles
import Verif.Props.Serde

/-!
C95, continued: the other output formats.
-/

set_option autoImplicit false

namespace HunLaw.Props

open HunLaw HunLaw.Spec HunLaw.Cli

/-- The act that is processed: parsed from the text with the fixups, with its semantic information and amendments. -/
def Processed (env : Env) (raw : ActRawText) (fixups : Res (List Fixup)) (result : Act Amendment) : Prop :=
  ∃ f body a a' changed, fixups = .ok f ∧ fixedBody raw.body f = .ok body ∧
    parseActStructure env.upper { raw with body := body } = .ok a ∧
    Semantic.addSemanticInfo a = (a', .ok changed) ∧ BlockAmend.act env.upper a'.lift = (result, .ok ())

theorem processed_text {env : Env} {args : Args} {raw : ActRawText} {fixups : Res (List Fixup)} {s : Str}
    (hs : args.parseUntil = .semantic) (h : processAct env (effective args) raw fixups = (s, .ok ())) :
    ∃ a, Processed env raw fixups a ∧ actText env (effective args) a = .ok s := by
  have he : (effective args).parseUntil = .semantic := by
    unfold effective
    split <;> exact hs
  obtain ⟨f, body, a, a', a'', changed, h1, h2, h3, h4, h5, h6, -⟩ := processAct_semantic he h
  exact ⟨a'', ⟨f, body, a, a', changed, h1, h2, h3, h4, h5⟩, h6⟩

/-- C95: in the plain format for tests the text is the same as in the plain one, even on the terminal. -/
theorem C95_test_format (env : Env) (args : Args) (raw : ActRawText) (fixups : Res (List Fixup)) (s : Str)
    (hw : Wraps env.wrap) (hs : args.parseUntil = .semantic) (hf : args.format = .testPlain)
    (h : processAct env (effective args) raw fixups = (s, .ok ())) :
    ∃ a, Processed env raw fixups a ∧ noBlanks s = noBlanks (actShown a) := by
  obtain ⟨a, h1, h2⟩ := processed_text hs h
  have he : effective args = args := by simp [effective, hf]
  rw [he] at h2
  simp only [actText, hf] at h2
  exact ⟨a, h1, C82_shows _ hw _ _ _ h2⟩

/-- C95: in the coloured format it is coloured in files as well. -/
theorem C95_coloured (env : Env) (args : Args) (raw : ActRawText) (fixups : Res (List Fixup)) (s : Str)
    (hw : Wraps env.wrap) (hs : args.parseUntil = .semantic) (hf : args.format = .colored)
    (h : processAct env (effective args) raw fixups = (s, .ok ())) :
    ∃ a, Processed env raw fixups a ∧
      ('\x1B' ∉ actShown a → cells none plainStyle (noBlanks s) = noBlankCells (actStyled a)) := by
  obtain ⟨a, h1, h2⟩ := processed_text hs h
  have he : effective args = args := by simp [effective, hf]
  rw [he] at h2
  simp only [actText, hf] at h2
  exact ⟨a, h1, fun hesc => C120_styles _ hw _ _ _ hesc h2⟩

/-- C95: in the two formats for data what is written is the document of the act, from which the act can be read back. -/
theorem C95_data (env : Env) (args : Args) (raw : ActRawText) (fixups : Res (List Fixup)) (s : Str)
    (encode : OutputFormat → Serde.Value → Str) (henv : ∀ f a, env.actData f a = .ok (encode f (actDocument a)))
    (hd : ProperDate raw.publicationDate) (hs : args.parseUntil = .semantic) (hf : args.format = .json ∨ args.format = .yaml)
    (h : processAct env (effective args) raw fixups = (s, .ok ())) :
    ∃ a, Processed env raw fixups a ∧ s = encode args.format (actDocument a) ∧ documentAct (actDocument a) = some a := by
  obtain ⟨a, h1, h2⟩ := processed_text hs h
  have he : effective args = args := by rcases hf with hf | hf <;> simp [effective, hf]
  rw [he] at h2
  obtain ⟨f, body, b, b', changed, h3, h4, h5, h6, h7⟩ := h1
  refine ⟨a, ⟨f, body, b, b', changed, h3, h4, h5, h6, h7⟩, ?_, ?_⟩
  · rcases hf with hf | hf
    · simp only [actText, hf, henv, Res.ok.injEq] at h2
      rw [hf, h2]
    · simp only [actText, hf, henv, Res.ok.injEq] at h2
      rw [hf, h2]
  · have := C96_pipeline env.upper { raw with body := body } b b' changed hd h5 h6
    rw [h7] at this
    exact C96_act a this

/-- A writer that writes only the name of the format. -/
def someWriter (f : OutputFormat) (_ : Serde.Value) : Str := if f = .json then str!"json" else str!"yaml"

example : (∀ f a, { easyEnv [] fun _ => .err with actData := fun f a => .ok (someWriter f (actDocument a)) }.actData f a =
      .ok (someWriter f (actDocument a))) ∧
    processAct { easyEnv [] fun _ => .err with actData := fun f a => .ok (someWriter f (actDocument a)) }
      (effective { plainArgs [] with format := .yaml }) sampleAct (.ok []) = (str!"yaml", .ok ()) ∧
    (processAct (easyEnv [] fun _ => .err) (effective { plainArgs [] with format := .testPlain, outputDir := none }) sampleAct
      (.ok [])).2 = .ok () ∧
    '\x1B' ∉ (processAct (easyEnv [] fun _ => .err) (effective { plainArgs [] with format := .testPlain, outputDir := none })
      sampleAct (.ok [])).1 ∧
    '\x1B' ∈ (processAct (easyEnv [] fun _ => .err) (effective { plainArgs [] with format := .colored }) sampleAct (.ok [])).1 :=
  ⟨fun _ _ => rfl, by decide +kernel, by decide +kernel, by decide +kernel, by decide +kernel⟩

example : ProperDate sampleAct.publicationDate := by
  refine ⟨((ofYmd_iff _ _ _ _).1 (show Date.ofYmd 2021 5 7 = some _ from rfl)).2, ?_, ?_⟩ <;> decide

end HunLaw.Props
