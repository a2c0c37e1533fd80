import Verif.Model.Json

/-!
Model of the documents of what is shown before an act is parsed (`PageOfLines`, `ActRawText`).
-/

set_option autoImplicit false

namespace HunLaw.Serde

open HunLaw

/-- The derived `Serialize` of `PageOfLines` (page_of_lines.rs:31-34). -/
def pageDocument (p : Page) : Value := .map (put (list line) str!"lines" p)

/-- The derived `Serialize` of `Vec<PageOfLines>`. -/
def pagesDocument (l : List Page) : Value := .seq (l.map pageDocument)

/-- The derived `Serialize` of `ActRawText` (mk_act_section.rs:27-33). -/
def rawDocument (a : ActRawText) : Value :=
  .map (put actId str!"identifier" a.identifier ++ put text str!"subject" a.subject ++
    put date str!"publication_date" a.publicationDate ++ put (list line) str!"body" a.body)

end HunLaw.Serde
