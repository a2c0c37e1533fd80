import Verif.Props.StructuralSentence
import Verif.Lemmas.Amending
import Verif.Lemmas.Beside
import Verif.Lemmas.StructuralTail
import Verif.Lemmas.StructuralSentence
import Verif.Lemmas.Structural
import Verif.Lemmas.Titled
import Verif.Lemmas.Places
import Verif.Spec.Structural
import Verif.Spec.Places
import Verif.Props.Identifiers
import Verif.Props.Reference
import Verif.Props.Line
import Verif.Props.Fixups
import Verif.Props.MkAct
import Verif.Props.Structure
import Verif.Props.Walker
import Verif.Props.Semantic
import Verif.Props.Amendments
import Verif.Props.BlockAmendment
import Verif.Props.Downloader
import Verif.Props.PdfLines
import Verif.Props.Pdf
import Verif.Props.Output
import Verif.Props.OutputLines
import Verif.Props.OutputSpacing
import Verif.Props.Cli
import Verif.Props.Serde
import Verif.Props.Announced
import Verif.Lemmas.WrittenValue
import Verif.Lemmas.WrittenText
import Verif.Props.Written
import Verif.Spec.Enforcement
import Verif.Lemmas.Enforcement
import Verif.Lemmas.EnforcementSentence
import Verif.Lemmas.ForceParts
import Verif.Lemmas.WrittenClean
import Verif.Props.Enforcement
import Verif.Props.PdfOps
import Verif.Spec.Provisions
import Verif.Lemmas.Provisions
import Verif.Props.Provisions
import Verif.Spec.TextAmendments
import Verif.Lemmas.TextTargets
import Verif.Lemmas.TextSentence
import Verif.Lemmas.RepealSentence
import Verif.Props.TextAmendments
import Verif.Spec.Subtitles
import Verif.Lemmas.SubtitleSentence
import Verif.Props.Subtitles
import Verif.Spec.Settling
import Verif.Props.OneArticle
import Verif.Props.Settling
import Verif.Spec.Passage
import Verif.Props.Passage
import Verif.Lemmas.IntroducedIn
import Verif.Props.PassageNew
import Verif.Spec.ActPassages
import Verif.Props.ActPassages
import Verif.Spec.ActSentences
import Verif.Props.ActSentences
import Verif.Spec.ActAmendments
import Verif.Props.ActAmendments
import Verif.Props.ActLines
import Verif.Props.ActShown
import Verif.Spec.Spaces
import Verif.Props.Spaces
import Verif.Props.Editor
import Verif.Props.Exact
import Verif.Props.Printed
import Verif.Props.Compare
import Verif.Props.Unrecorded
import Verif.Props.OutputStyles
import Verif.Props.CliFormats
import Verif.Props.ExactAmendment
import Verif.Props.Inline
import Verif.Props.Numerals
import Verif.Props.Dates
import Verif.Props.Compact
import Verif.Props.Marks
import Verif.Props.Json
import Verif.Spec.Documents
import Verif.Lemmas.Documents
import Verif.Props.Documents
import Verif.Spec.StructuralBeside
import Verif.Lemmas.StructuralBeside
import Verif.Props.StructuralBeside
