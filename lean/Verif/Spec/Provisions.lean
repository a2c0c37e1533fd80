import Verif.Spec.Structural

/-!
How amendments of articles, paragraphs, points and subpoints are written in the usual form, such as

  A közbeszerzésekről szóló 2015. évi CXLIII. törvény 3. § (2) és (3) bekezdése helyébe a következő rendelkezések lépnek:
  Az Szja. tv. 3. §-a a következő (2a) bekezdéssel egészül ki:

and what they mean. Nothing here uses the parser.
-/

set_option autoImplicit false

namespace HunLaw.Spec

open HunLaw

/-- The end of a sentence which replaces provisions. -/
inductive ProvisionEnd : Str → Prop
  | provision {f w : Str} (hf : Following f) (hw : w ∈ [str!"rendelkezés lép", str!"rendelkezések lépnek"]) :
      ProvisionEnd (str!"helyébe " ++ f ++ str!" " ++ w)
  | changes {f w : Str} (hf : Following f) (hw : w ∈ [str!"szöveggel lép hatályba", str!"szerint módosul"]) :
      ProvisionEnd (f ++ str!" " ++ w)

/-- What is done: provisions are replaced, or put into the act or into one of its provisions. -/
inductive Change where
  | replaced (what : Phrase) (ending : Str)
  | inserted (into : Option Phrase) (following : Str) (what : Phrase) (ending : Str)

/-- The texts of it, with a space before each. -/
def Change.texts : Change → List Str
  | .replaced w e => [w.text, e]
  | .inserted o f w e => o.toList.map Phrase.text ++ [f, w.text, e]

/-- Whether there is nothing which is replaced. -/
def Change.isInsertion : Change → Bool
  | .replaced _ _ => false
  | .inserted _ _ _ _ => true

/-- The elements of its levels from the top. -/
def Change.levels : Change → List (List AnyReferencePart)
  | .replaced w _ => w.levels
  | .inserted o _ w _ => (o.map Phrase.levels).getD [] ++ w.levels

/-- What can be inserted where: articles, or paragraphs together with the article, into the act; paragraphs into an
article; points into an article or a paragraph; subpoints into a point. -/
inductive Inserts : Option Phrase → Phrase → Prop
  | article (a : Listing ArticleId) (p : Option (Listing NumericId)) : Inserts none ⟨some a, p, none, none, none, none⟩
  | paragraph (a : Listing ArticleId) (p : Listing NumericId) :
      Inserts (some ⟨some a, none, none, none, none, none⟩) ⟨none, some p, none, none, none, none⟩
  | point (a : Listing ArticleId) (p : Option (Listing NumericId)) (n : Option (Listing NumericId)) (c : Option (Listing HunChar)) :
      Inserts (some ⟨some a, p, none, none, none, none⟩) ⟨none, none, n, c, none, none⟩
  | subpoint (a : Listing ArticleId) (p : Option (Listing NumericId)) (n : Option (Listing NumericId)) (c : Option (Listing HunChar))
      (m : Option (Listing NumericId)) (d : Option (Listing PrefixedId)) (h : n ≠ none ∨ c ≠ none) :
      Inserts (some ⟨some a, p, n, c, none, none⟩) ⟨none, none, none, none, m, d⟩

/-- The usual form. -/
inductive Change.Usual : Change → Prop
  | replaced {w : Phrase} {e : Str} (hw : w.Usual) (ha : w.article ≠ none) (he : ProvisionEnd e) : Usual (.replaced w e)
  | inserted {o : Option Phrase} {f : Str} {w : Phrase} {e : Str} (ho : ∀ x, o = some x → x.Usual) (hw : w.Usual) (hi : Inserts o w)
      (hf : Following f) (he : e ∈ insertionEnds) : Usual (.inserted o f w e)

/-- A sentence which amends provisions. Between the act and these there may be the part of the structure where they
are. -/
structure ProvisionSentence where
  intro : ActIntro
  container : Option Place
  change : Change

/-- What is after the act. -/
def ProvisionSentence.rest (s : ProvisionSentence) : Str :=
  (s.container.toList.map Place.text ++ s.change.texts).flatMap (fun x => str!" " ++ x) ++ str!":"

/-- The text of the sentence. -/
def ProvisionSentence.text (s : ProvisionSentence) : Str := s.intro.text ++ s.rest

/-- The references meant by it: that of the act, and those of the provisions. -/
def ProvisionSentence.meant (s : ProvisionSentence) : List Ref := chain Ref.empty [[[.act s.intro.act.act]], s.change.levels]

/-- The usual form. All references meant have a proper form. -/
structure ProvisionSentence.Usual (s : ProvisionSentence) : Prop where
  change : s.change.Usual
  container : ∀ q, s.container = some q → ∃ b d, q.Means b d false
  proper : ∀ r ∈ s.meant, WellFormed r

/-- A reference over others: it begins where the first of them begins, and ends where the last of them ends. -/
structure Covering (refs : List Ref) (place : Ref) : Prop where
  wellFormed : WellFormed place
  first : ∃ r ∈ refs, r.article ≠ none ∧ place.firstInRange = r.firstInRange
  last : ∃ r ∈ refs, r.article ≠ none ∧ place.lastInRange = r.lastInRange
  noneBefore : ∀ r ∈ refs, r.article ≠ none → rle place.firstInRange r.firstInRange = true
  noneAfter : ∀ r ∈ refs, r.article ≠ none → rle r.lastInRange place.lastInRange = true

/-- What is meant by a sentence: the place of the amendment; if it is of articles, with the part of the structure. -/
inductive ProvisionSentence.Means : ProvisionSentence → SpecialPhrase → Prop
  | provisions {s : ProvisionSentence} {place : Ref} (hp : Covering s.meant place) (hl : ∀ a, place.getLastPart ≠ .article a) :
      Means s (.blockAmendment place s.change.isInsertion)
  | articles {s : ProvisionSentence} {place : Ref} {a : IdRange ArticleId} (hp : Covering s.meant place)
      (hl : place.getLastPart = .article a) (hc : s.container = none) :
      Means s (.structuralBlockAmendment ⟨some s.intro.act.act, none, none, .article a, false⟩ s.change.isInsertion)
  | articlesIn {s : ProvisionSentence} {place : Ref} {a : IdRange ArticleId} {q : Place} {b : Option NumericId} {d : StructuralRefParent}
      (hp : Covering s.meant place) (hl : place.getLastPart = .article a) (hc : s.container = some q) (hq : q.Means b d false) :
      Means s (.structuralBlockAmendment ⟨some s.intro.act.act, b, some d, .article a, false⟩ s.change.isInsertion)

end HunLaw.Spec
