import Verif.Model.Line
import Verif.Model.Identifiers

/-! Model of the header patterns in /repo/src/parser/structure/{sae,article}.rs. -/

set_option autoImplicit false

namespace HunLaw

/-- The common shape of the header patterns: `^op(id)cl +(.*)$`. -/
def headerRe (op : Str) (idRe cl : Re) (last : Nat) : Re :=
  .seqs [.lit op, .cap 1 idRe, cl, .many1 (· == ' '), .cap last (.many Re.anyChar), .eos]

/-- `[0-9]+[a-z]?` in `^\(([0-9]+[a-z]?)\) +(.*)$` (sae.rs:300) -/
def paragraphIdRe : Re := .seqs [.many1 isDigit, .opt (.cls Re.lowerAZ)]

/-- `[0-9]+(/?[a-z])?` in `^([0-9]+(/?[a-z])?)\. +(.*)$` (sae.rs:325 and 379) -/
def numericIdRe : Re :=
  .seqs [.many1 isDigit, .opt (.cap 2 (.seqs [.opt (.cls (· == '/')), .cls Re.lowerAZ]))]

/-- `[a-z]|cs|dz|gy|ly|ny|sz|ty|zs` in `^([a-z]|cs|dz|gy|ly|ny|sz|ty|zs)\) +(.*)$` (sae.rs:348) -/
def alphabeticIdRe : Re :=
  .alt (.cls Re.lowerAZ) (.alt (.lit str!"cs") (.alt (.lit str!"dz") (.alt (.lit str!"gy")
    (.alt (.lit str!"ly") (.alt (.lit str!"ny") (.alt (.lit str!"sz") (.alt (.lit str!"ty")
      (.lit str!"zs"))))))))

/-- `[a-z]?[a-z]` in `^([a-z]?[a-z])\) +(.*)$` (sae.rs:404) -/
def prefixedIdRe : Re := .seqs [.opt (.cls Re.lowerAZ), .cls Re.lowerAZ]

/-- `([0-9]+:)?([0-9]+(/[A-Z])?)` in `^(([0-9]+:)?([0-9]+(/[A-Z])?))\. ?§ +(.*)$` (article.rs:59) -/
def articleIdRe : Re :=
  .seqs [.opt (.cap 2 (.seqs [.many1 isDigit, .lit str!":"])),
    .cap 3 (.seqs [.many1 isDigit, .opt (.cap 4 (.seqs [.lit str!"/", .cls Re.upperAZ]))])]

/-- Models `ParagraphParser::parse_header` (sae.rs:298-302). -/
def parseParagraphHeader (l : Line) : Res (Option (ParagraphId × Line)) :=
  l.parseHeader ParagraphId.parse (headerRe str!"(" paragraphIdRe (.lit str!")") 2) 2
    [str!"bekezdés"]

/-- Models `NumericPointParser::parse_header` (sae.rs:324-326) and
`NumericSubpointParser::parse_header` (sae.rs:378-380). -/
def parseNumericHeader (l : Line) : Res (Option (NumericId × Line)) :=
  l.parseHeader NumericId.parse (headerRe [] numericIdRe (.lit str!".") 3) 3
    [str!"pont", str!"alpont"]

/-- Models `AlphabeticPointParser::parse_header` (sae.rs:346-351). -/
def parseAlphabeticHeader (l : Line) : Res (Option (HunChar × Line)) :=
  l.parseHeader HunChar.parse (headerRe [] alphabeticIdRe (.lit str!")") 2) 2
    [str!"pont", str!"alpont"]

/-- Models `AlphabeticSubpointParser::parse_header` (sae.rs:402-412). -/
def parsePrefixedHeader (pfx : Option HunChar) (l : Line) : Res (Option (PrefixedId × Line)) := do
  match ← l.parseHeader PrefixedId.parse (headerRe [] prefixedIdRe (.lit str!")") 2) 2
      [str!"pont", str!"alpont"] with
  | none => .ok none
  | some (id, rest) => if id.prefixIs pfx then .ok (some (id, rest)) else .ok none

/-- Models the `parse_header` call in `ArticleParserFactory::try_create_from_header`
(article.rs:57-61). -/
def parseArticleHeader (l : Line) : Res (Option (ArticleId × Line)) :=
  l.parseHeader ArticleId.parse
    (headerRe [] articleIdRe (.seqs [.lit str!".", .opt (.cls (· == ' ')), .lit str!"§"]) 5) 5 []

end HunLaw
