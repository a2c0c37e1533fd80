import Verif.Lemmas.OutputStyles
import Verif.Props.Output

/-!
C120: the colours of the coloured output say what is what.
-/

set_option autoImplicit false

namespace HunLaw.Props

open HunLaw HunLaw.Spec HunLaw.Output

/-- The specification of the styles is about the same characters as the one of the plain output. -/
theorem C120_characters (a : Act Amendment) : (actStyled a).map Prod.fst = actShown a := actStyled_fst a

/-- C120: on a terminal every character of the coloured output has the style it should have: references and instructions
stand out in the texts, headers and notes are bold or in italics, and all the rest is plain. Spaces and line breaks are
not looked at. -/
theorem C120_styles (w : Wrapper) (hw : Wraps w) (width : Nat) (a : Act Amendment) (coloured : Str)
    (hesc : '\x1B' ∉ actShown a) (h : cliAct w width true a = .ok coloured) :
    cells none plainStyle (noBlanks coloured) = noBlankCells (actStyled a) := by
  have hc : NoEsc (actStyled a) := by
    intro x hx e
    rw [← actStyled_fst a] at hesc
    exact hesc (List.mem_map.2 ⟨x, hx, e⟩)
  have := styled_act hw (p := (Params.new width true).indented) rfl hc h []
  simpa [cells] using this

/-- The coloured output of an act with amendments and references: some of each style. -/
example : ∃ a out, convertText outputBody = .ok a ∧ cliAct simpleWrap 105 true a.1 = .ok out ∧ '\x1B' ∉ actShown a.1 ∧
    ∀ style ∈ [plainStyle, boldStyle, italicStyle, phraseStyle, referenceStyle],
      ∃ x ∈ cells none plainStyle (noBlanks out), x.2 = style := by
  have h : Res.map (fun a => (Res.map (fun out => [plainStyle, boldStyle, italicStyle, phraseStyle, referenceStyle].all
      fun style => (cells none plainStyle (noBlanks out)).any fun x => x.2 == style) (cliAct simpleWrap 105 true a.1),
      (actShown a.1).contains '\x1B')) (convertText outputBody) = .ok (.ok true, false) := by decide +kernel
  obtain ⟨a, h1, e⟩ := map_ok.1 h
  simp only [Prod.mk.injEq] at e
  obtain ⟨out, h2, h3⟩ := map_ok.1 e.1
  refine ⟨a, out, h1, h2, ?_, fun style hs => ?_⟩
  · simpa using e.2
  · obtain ⟨x, hx, hy⟩ := List.any_eq_true.1 (List.all_eq_true.1 h3 style hs)
    exact ⟨x, hx, by simpa using hy⟩

/-- A text of which a part is a reference. -/
def statedText : SemanticInfo := ⟨twoReferences, [], some (.repeal [])⟩

/-- The references in a text which is an instruction are in one colour, the rest of it is in another. -/
example : textStyled statedText 0 str!"A Btk. és Ptk. szerint" =
    inStyle phraseStyle str!"A " ++ inStyle referenceStyle str!"Btk." ++ inStyle phraseStyle str!" és " ++
      inStyle referenceStyle str!"Ptk." ++ inStyle phraseStyle str!" szerint" := by decide +kernel

end HunLaw.Props
