import Verif.Spec.ActPassages
import Verif.Spec.Provisions
import Verif.Spec.Subtitles
import Verif.Spec.StructuralBeside
import Verif.Spec.TextAmendments
import Verif.Spec.Enforcement

/-!
An act of which each text is running text in the usual form, or a sentence in the usual form that amends an act, repeals
something or says when something comes into force. Nothing here uses the parser.
-/

set_option autoImplicit false

namespace HunLaw.Spec

open HunLaw

/-- What a text tells: the abbreviations it introduces, the references in it, with their places if those are
given, and its special phrase. -/
structure Told where
  text : Str
  new : List (Str × ActId)
  meant : List Ref
  places : Option (List (Nat × Nat))
  phrase : Option SpecialPhrase

/-- The beginning of an amending sentence is in the usual form, and its abbreviation is known. -/
def Opens (atFirst defined : List (Str × ActId)) (i : ActIntro) (rest : Str) : Prop :=
  i.Usual ((atFirst ++ defined).map Prod.fst) rest ∧ ∀ b a, i.act = .short b a → meaningOf atFirst defined b = some a

/-- What the texts tell, where the abbreviations `atFirst` are known, and those defined since then. -/
inductive Tells (atFirst defined : List (Str × ActId)) : Told → Prop
  /-- Running text, as in C112 and C130. -/
  | running {p : Passage} (h : Understood atFirst defined p) :
      Tells atFirst defined ⟨p.text, p.new, p.meant, some (markedRanges 0 p.pieces), none⟩
  /-- Amendments of chapters, parts, titles and subtitles, as in C105. -/
  | structural {s : StructuralSentence} {r : StructuralRef} (hs : s.Usual) (hi : Opens atFirst defined s.intro s.rest) (hm : s.Means r)
      (hbook : ∀ q, s.container = .place q → q.book = none) (htitle : s.AboutSubtitle → s.element.title = none) :
      Tells atFirst defined ⟨s.text, s.intro.new, [⟨some s.intro.act.act, none, none, none, none⟩],
        some [(byteLen s.intro.article + 1 + byteLen s.intro.title, byteLen s.intro.article + 1 + byteLen s.intro.title + byteLen s.intro.act.text)],
        some (.structuralBlockAmendment r s.following.isSome)⟩
  /-- Amendments of articles, paragraphs, points and subpoints, as in C106. -/
  | provisions {s : ProvisionSentence} {phrase : SpecialPhrase} (hs : s.Usual) (hi : Opens atFirst defined s.intro s.rest) (hm : s.Means phrase)
      (hbook : ∀ q, s.container = some q → q.book = none) :
      Tells atFirst defined ⟨s.text, s.intro.new, s.meant, none, some phrase⟩
  /-- Amendments of words, as in C107. -/
  | words {s : TextSentence} {phrase : SpecialPhrase} (hs : s.Usual) (hi : Opens atFirst defined s.intro s.rest) (hm : s.Means phrase)
      (hclear : ∀ t ∈ s.targets, (∀ q, t.container = some q → q.book = none) ∧ ∀ b, t.besideOf = some b → b.Plain) :
      Tells atFirst defined ⟨s.text, s.intro.new, s.meant, none, some phrase⟩
  /-- Repeals, as in C108. -/
  | repeal {s : RepealSentence} {phrase : SpecialPhrase} (hs : s.Usual) (hi : Opens atFirst defined s.intro s.rest) (hm : s.Means phrase)
      (hclear : ∀ t ∈ s.targets.map Prod.snd, (∀ q, t.container = some q → q.book = none) ∧ ∀ b, t.besideOf = some b → b.Plain) :
      Tells atFirst defined ⟨s.text, s.intro.new, s.meant, none, some phrase⟩
  /-- Amendments of subtitles by their place, as in C109. -/
  | subtitles {s : SubtitleSentence} {phrase : SpecialPhrase} (hs : s.Usual [str!"lép"]) (hi : Opens atFirst defined s.intro s.rest) (hm : s.Means phrase)
      (hbook : ∀ q, s.container = some q → q.book = none) (hafter : ∀ b, s.beside = some b → b.Plain) :
      Tells atFirst defined ⟨s.text, s.intro.new, s.meant, none, some phrase⟩
  /-- Sentences about coming into force, as in C104. -/
  | force {x : EnforcementSentence} {e : EnforcementDateType} {ss : List StructuralRef} (hx : x.Usual) (ht : x.time.Means e)
      (hss : x.Structure ss) (hproper : ∀ y ∈ x.parts, WellFormed y) :
      Tells atFirst defined ⟨x.text, [], x.parts, some (markedRanges (byteLen x.opening + 1) x.pieces),
        some (.enforcementDate ⟨x.parts, ss, x.references.isEmpty, e, x.repeal.map fun r => r.2.meant⟩)⟩

/-- The texts of an act, each in the sentence around it, tell this, one after the other. -/
def Narrates (atFirst : List (Str × ActId)) : List (Str × ActId) → List Reading → List Told → Prop
  | _, [], [] => True
  | defined, r :: rs, t :: ts =>
    wholeSentence r.before r.text r.after = t.text ∧ Tells atFirst defined t ∧ Narrates atFirst (defined ++ t.new) rs ts
  | _, _, _ => False

/-- This is recorded about a text: its own references, the abbreviations it introduces, and its special phrase. -/
def RecordsTold (r : Reading) (i : SemanticInfo) (t : Told) : Prop :=
  (∃ refs : List OutgoingRef, refs.map (·.reference) = t.meant ∧ (∀ l, t.places = some l → ranges refs = l) ∧
    i.outgoingReferences = ownReferences (byteLen r.before) (byteLen r.after) (byteLen t.text) refs) ∧
  (∀ k, i.newAbbreviations.lookup k = lastDefined k t.new) ∧
  i.specialPhrase = if r.isIntro then keptInIntro t.phrase else t.phrase

end HunLaw.Spec
