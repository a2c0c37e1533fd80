import Verif.Lemmas.Documents
import Verif.Props.Serde

/-!
C129: the documents of acts, raw acts, pages and fixups have the published form.
-/

set_option autoImplicit false

namespace HunLaw.Props

open HunLaw.Spec HunLaw.Semantic HunLaw.Serde

/-- C129: the document of an act has exactly the fields of the published form, each with its own value, at every level. -/
theorem C129_act (a : Act Amendment) (h : ProperAct a) : Documents.IsAct a (actDocument a) := Documents.act_is h

/-- C129: so has the document of every act that is made from a gazette. -/
theorem C129_pipeline (pages : List Page) (acts : List ActRawText) (upper : Char → Bool) (raw : ActRawText)
    (a a' : Act Empty) (changed : Bool) (hp : parseMkPagesIntoActs pages = some acts) (hr : raw ∈ acts)
    (h : parseActStructure upper raw = .ok a) (hi : addSemanticInfo a = (a', .ok changed)) :
    Documents.IsAct (BlockAmend.act upper a'.lift).1 (actDocument (BlockAmend.act upper a'.lift).1) :=
  C129_act _ (C96_pipeline upper raw a a' changed (C96_gazette pages acts hp raw hr) h hi)

/-- C129: the same for raw acts. -/
theorem C129_raw (a : ActRawText) (h : ProperDate a.publicationDate) : Documents.IsRaw a (rawDocument a) := Documents.raw_is h

/-- C129: the same for the pages of an issue. -/
theorem C129_pages (l : List Page) : Documents.IsPages l (pagesDocument l) := Documents.pages_is l

/-- C129: the same for a list of fixups. -/
theorem C129_fixups (l : List Fixup) : Documents.ListOf Documents.IsFixup l ((list fixup).ser l) := Documents.listOf fun f _ => Documents.fixup_is f

/-- C129: the same for a note about the last change. -/
theorem C129_change (x : LastChange) (h : ProperChange x) : Documents.IsChange x (lastChange.ser x) := Documents.change_is h

/-- An act of a chapter and an article with a point, whose words are changed by its text. -/
def documentedAct : Act Amendment :=
  ⟨⟨⟨2020, by omega⟩, ⟨5, by omega⟩⟩, str!"tárgy", [], ⟨2020, 1, 2⟩, [],
    [.structuralElement ⟨.ofNum 1, str!"Fejezetcím", .chapter, none⟩,
     .article ⟨⟨none, .ofNum 1⟩, none, [⟨⟨none⟩, .text str!"Szöveg.", ⟨[], [], some (.textAmendment
       [⟨.sae ⟨some ⟨⟨2015, by omega⟩, ⟨143, by omega⟩⟩, some (.single ⟨none, .ofNum 3⟩), none, none, none⟩ .all, str!"üzlet", str!"bolt"⟩])⟩, none⟩],
       some ⟨⟨2021, 3, 4⟩, .autoRepeal⟩⟩]⟩

/-- Its document. -/
example : actDocument documentedAct =
    .map [(str!"identifier", .map [(str!"year", .int 2020), (str!"number", .int 5)]), (str!"subject", .str str!"tárgy"), (str!"preamble", .str []),
      (str!"publication_date", .str str!"2020-01-02"),
      (str!"children", .seq [
        .map [(str!"StructuralElement", .map [(str!"identifier", .str str!"1"), (str!"title", .str str!"Fejezetcím"), (str!"element_type", .str str!"Chapter")])],
        .map [(str!"Article", .map [(str!"identifier", .str str!"1"),
          (str!"children", .seq [.map [(str!"body", .str str!"Szöveg."),
            (str!"semantic_info", .map [(str!"special_phrase", .map [(str!"TextAmendment", .seq [.map [
              (str!"reference", .map [(str!"SAE", .map [(str!"reference", .map [
                (str!"act", .map [(str!"year", .int 2015), (str!"number", .int 143)]), (str!"article", .str str!"3")])])]),
              (str!"from", .str str!"üzlet"), (str!"to", .str str!"bolt")]])])])]]),
          (str!"last_change", .map [(str!"date", .str str!"2021-03-04"), (str!"cause", .str str!"AutoRepeal")])])]])] := by rfl

/-- It is the published form. -/
example : Documents.IsAct documentedAct (actDocument documentedAct) :=
  C129_act documentedAct (C97_proper (actDocument documentedAct) documentedAct (by decide +kernel))

/-- Fields in another order, or under other names, are not the published form. -/
example : ¬ Documents.IsActId ⟨⟨2020, by omega⟩, ⟨5, by omega⟩⟩ (.map [(str!"number", .int 5), (str!"year", .int 2020)]) ∧
    ¬ Documents.IsActId ⟨⟨2020, by omega⟩, ⟨5, by omega⟩⟩ (.map [(str!"year", .int 2020), (str!"num", .int 5)]) := by
  constructor <;> rintro ⟨m, e, h⟩ <;> cases e <;> simp [Documents.present] at h

end HunLaw.Props
