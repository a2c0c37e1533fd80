import Verif.Model.Structure

/-!
The words with which the special phrases of Hungarian acts begin and end. Nothing here uses the parser.
-/

set_option autoImplicit false

namespace HunLaw.Spec

open HunLaw

/-- Only white space. -/
def OnlyWs (s : Str) : Prop := ∀ c ∈ s, c ∈ [' ', '\t', '\n', '\r', '\x0c']

/-- The words after each other, with any white space before each of them. -/
def Spaced : List Str → Str → Prop
  | [], s => s = []
  | w :: l, s => ∃ a r, OnlyWs a ∧ s = a ++ w ++ r ∧ Spaced l r

/-- The text begins with one of the expressions. -/
def BeginsWith (l : List (List Str)) (text : Str) : Prop :=
  ∃ e ∈ l, ∃ s r, Spaced e s ∧ text = s ++ r

/-- One of the expressions is in the text. -/
def Contains (l : List (List Str)) (text : Str) : Prop :=
  ∃ e ∈ l, ∃ b s r, Spaced e s ∧ text = b ++ s ++ r

/-- The text ends with one of the expressions, and maybe white space. -/
def EndsWith (l : List (List Str)) (text : Str) : Prop :=
  ∃ e ∈ l, ∃ b s r, Spaced e s ∧ OnlyWs r ∧ text = b ++ s ++ r

/-- The definite articles. -/
def definiteArticles : List (List Str) := [[str!"a "], [str!"az "], [str!"A "], [str!"Az "]]

/-- The words of a replacement. -/
def replacingWords : List (List Str) :=
  [[str!"rendelkezés lép"], [str!"rendelkezések lépnek"], [str!"szöveggel lép hatályba"], [str!"szerint módosul"]]

/-- The words of a replacement which may also name a chapter, a subtitle and so on. -/
def replacingHeadingWords : List (List Str) := replacingWords ++ [[str!"lép"], [str!"lépnek"]]

/-- The words of an insertion. -/
def insertingWords : List (List Str) := [[str!"egészül ki"], [str!"kiegészülve lép hatályba"]]

/-- The words with a colon after them. -/
def colon (l : List (List Str)) : List (List Str) := l.map (· ++ [str!":"])

/-- The words of an insertion or of a replacement, which may be one together with an insertion. -/
def AnnouncesBlock (replacing : List (List Str)) (insertion : Bool) (text : Str) : Prop :=
  BeginsWith definiteArticles text ∧
    if insertion then EndsWith (colon insertingWords) text
    else Contains replacing text ∧ EndsWith (colon (replacing ++ insertingWords)) text

/-- The words of a repeal. -/
def repealingWords : List (List Str) :=
  [str!"Nem lép hatályba", str!"Hatályát veszti", str!"Hatályát veszíti"].flatMap fun w => [[w, str!"a "], [w, str!"az "]]

/-- The text has the words by which a phrase of the kind is announced. -/
def Announces : SpecialPhrase → Str → Prop
  | .blockAmendment _ insertion, text => AnnouncesBlock replacingWords insertion text
  | .structuralBlockAmendment _ insertion, text => AnnouncesBlock replacingHeadingWords insertion text
  | .enforcementDate d, text =>
    BeginsWith [[str!"Ez a", str!"törvény"], [str!"E", str!"törvény"], [str!"A "], [str!"Az "]] text ∧
    Contains [[str!"lép hatályba"]] text ∧
    if d.inlineRepeal = none then EndsWith [[str!"lép hatályba", str!"."]] text
    else EndsWith [[str!"hatályát veszti", str!"."]] text
  | .repeal _, text => BeginsWith repealingWords text ∧ EndsWith [[str!"."]] text
  | .textAmendment _, text => Contains [[str!"„"]] text ∧ Contains [[str!"”"]] text ∧
    ((BeginsWith definiteArticles text ∧ Contains [[str!"helyébe"], [str!"helyett"]] text ∧
        EndsWith [[str!"lép", str!"."], [str!"lép", str!"hatályba", str!"."]] text) ∨
      (BeginsWith repealingWords text ∧ EndsWith [[str!"."]] text))

end HunLaw.Spec
