import Verif.Spec.Provisions

/-!
How amendments of subtitles which have no place of their own are written in the usual form, such as

  A Btk. a 300. §-t megelőzően a következő alcímmel egészül ki:
  A Btk. 388/A. §-a és az azt megelőző alcím helyébe a következő alcím és rendelkezés lép:
  A Btk. XXVII. Fejezete a következő alcímmel és 300/A. §-sal egészül ki:

and what they mean. Nothing here uses the parser.
-/

set_option autoImplicit false

namespace HunLaw.Spec

open HunLaw

/-- An article, or a range of articles, with its sign: "388/A. §-a". -/
structure NamedArticle where
  span : Span ArticleId
  sign : Str

/-- The text of it. -/
def NamedArticle.text (a : NamedArticle) : Str := articleSpan a.span ++ str!" §" ++ a.sign

/-- The usual form. -/
structure NamedArticle.Usual (a : NamedArticle) : Prop where
  span : ArticleUsual a.span
  sign : a.sign = [] ∨ ∃ e, a.sign = '-' :: e ∧ e ≠ [] ∧ Ending e

/-- Not a range. -/
def NamedArticle.Single (a : NamedArticle) : Prop := ∃ i, a.span = .one i

/-- A place beside an article, or beside a range of articles: "a 300. §-t megelőzően", "92. §-át követő". -/
structure Beside where
  the : Str
  article : NamedArticle
  before : Bool
  word : Str

/-- The text of it. -/
def Beside.text (b : Beside) : Str := b.the ++ b.article.text ++ str!" " ++ b.word

/-- The words for before and after. -/
def besideWords : Bool → List Str
  | true => [str!"megelőzően", str!"megelőző", str!"előtti"]
  | false => [str!"követően", str!"követő"]

/-- The usual form. -/
structure Beside.Usual (b : Beside) : Prop where
  the : b.the ∈ [[], str!"a ", str!"az "]
  article : b.article.Usual
  word : b.word ∈ besideWords b.before

/-- The subtitle there: that before the first article, or that after the last one. -/
def Beside.meant (b : Beside) : StructuralRefElement :=
  if b.before then .subtitleBeforeArticle b.article.span.range.start else .subtitleAfterArticle b.article.span.range.fin

/-- It is not after a range. -/
def Beside.Plain (b : Beside) : Prop := b.before = false → b.article.Single

/-- What a subtitle is called. -/
inductive SubtitleName where
  | number (i : NumericId)
  | title (t : Str)
  | unnamed

/-- The text of it, with a space after it. -/
def SubtitleName.text : SubtitleName → Str
  | .number i => i.displaySlash ++ str!". "
  | .title t => str!"„" ++ t ++ str!"” "
  | .unnamed => []

/-- The usual form. -/
def SubtitleName.Usual : SubtitleName → Prop
  | .number i => ∀ c, i.suffix = some c → Plain c
  | .title t => QuotedUsual t
  | .unnamed => True

/-- What is amended: an article and the subtitle before it, or a subtitle, perhaps together with an article. -/
inductive SubtitleWhat where
  | articleFirst (a : NamedArticle) (the : Str) (which : Option Str) (word : Inflected)
  | subtitleFirst (name : SubtitleName) (word : Inflected) (a : Option NamedArticle)

/-- The text of it. -/
def SubtitleWhat.text : SubtitleWhat → Str
  | .articleFirst a the which w => a.text ++ str!" és " ++ the ++ (which.map fun x => x ++ str!" ").getD [] ++ str!"megelőző " ++ w.text
  | .subtitleFirst n w a => n.text ++ w.text ++ (a.map fun a => str!" és " ++ a.text).getD []

/-- The usual form. -/
inductive SubtitleWhat.Usual : SubtitleWhat → Prop
  | articleFirst {a : NamedArticle} {the : Str} {which : Option Str} {w : Inflected} (ha : a.Usual) (hone : a.Single) (ht : the ∈ [str!"a ", str!"az "])
      (hx : which ∈ [none, some str!"azt", some str!"azokat", some str!"§-t"]) (hw : w.Of [str!"alcím"]) : Usual (.articleFirst a the which w)
  | subtitleFirst {n : SubtitleName} {w : Inflected} {a : Option NamedArticle} (hn : n.Usual) (hw : w.Of [str!"alcím"])
      (ha : ∀ x, a = some x → x.Usual ∧ x.Single) : Usual (.subtitleFirst n w a)

/-- The article in it. -/
def SubtitleWhat.article : SubtitleWhat → Option NamedArticle
  | .articleFirst a _ _ _ => some a
  | .subtitleFirst _ _ a => a

/-- The end of a sentence which replaces a subtitle, with these verbs after its name. -/
inductive SubtitleEnd (verbs : List Str) : Str → Prop
  | provision {e : Str} (he : ProvisionEnd e) : SubtitleEnd verbs e
  | named {f w v : Str} (hf : Following f)
      (hw : w ∈ [str!"alcím", str!"alcímcím", str!"rendelkezés és alcím", str!"alcím és rendelkezés"]) (hv : v ∈ verbs) :
      SubtitleEnd verbs (str!"helyébe " ++ f ++ str!" " ++ w ++ str!" " ++ v)

/-- A sentence which amends a subtitle. If there is a `following`, it is inserted. -/
structure SubtitleSentence where
  intro : ActIntro
  container : Option Place
  beside : Option Beside
  following : Option Str
  what : SubtitleWhat
  ending : Str

/-- What is after the act. -/
def SubtitleSentence.rest (s : SubtitleSentence) : Str :=
  (s.container.toList.map Place.text ++ s.beside.toList.map Beside.text ++ s.following.toList ++ [s.what.text, s.ending]).flatMap
    (fun x => str!" " ++ x) ++ str!":"

/-- The text of the sentence. -/
def SubtitleSentence.text (s : SubtitleSentence) : Str := s.intro.text ++ s.rest

/-- The usual form: an article and the subtitle before it are replaced, or a subtitle beside an article; anything may be
inserted. -/
structure SubtitleSentence.Usual (verbs : List Str) (s : SubtitleSentence) : Prop where
  container : ∀ q, s.container = some q → ∃ b d, q.Means b d false
  beside : ∀ b, s.beside = some b → b.Usual
  what : s.what.Usual
  replaced : s.following = none → SubtitleEnd verbs s.ending
  place : s.following = none → (s.beside = none ↔ ∃ a the which w, s.what = .articleFirst a the which w)
  inserted : ∀ f, s.following = some f → Following f ∧ s.ending ∈ insertionEnds

/-- The subtitle meant: that before the article named together with it; else that beside the article; else the one with
this title or number. If none of these is written, it is not known which. -/
def SubtitleSentence.subtitle (s : SubtitleSentence) : StructuralRefElement :=
  match s.what, s.beside with
  | .articleFirst a _ _ _, _ => .subtitleBeforeArticleInclusive a.span.range.start
  | .subtitleFirst _ _ (some a), _ => .subtitleBeforeArticleInclusive a.span.range.start
  | .subtitleFirst _ _ none, some b => b.meant
  | .subtitleFirst (.number i) _ none, none => .subtitleId i
  | .subtitleFirst (.title t) _ none, none => .subtitleTitle t
  | .subtitleFirst .unnamed _ none, none => .subtitleUnknown

/-- The articles in the sentence. -/
def SubtitleSentence.articles (s : SubtitleSentence) : List NamedArticle :=
  s.beside.toList.map Beside.article ++ s.what.article.toList

/-- The references in the sentence: that of the act, and those of the articles. -/
def SubtitleSentence.meant (s : SubtitleSentence) : List Ref :=
  ⟨some s.intro.act.act, none, none, none, none⟩ ::
    s.articles.map fun a => ⟨some s.intro.act.act, some a.span.range, none, none, none⟩

/-- What is meant by a sentence. -/
inductive SubtitleSentence.Means : SubtitleSentence → SpecialPhrase → Prop
  | act {s : SubtitleSentence} (hc : s.container = none) :
      Means s (.structuralBlockAmendment ⟨some s.intro.act.act, none, none, s.subtitle, false⟩ s.following.isSome)
  | place {s : SubtitleSentence} {q : Place} {b : Option NumericId} {d : StructuralRefParent} (hc : s.container = some q)
      (hq : q.Means b d false) :
      Means s (.structuralBlockAmendment ⟨some s.intro.act.act, b, some d, s.subtitle, false⟩ s.following.isSome)

end HunLaw.Spec
