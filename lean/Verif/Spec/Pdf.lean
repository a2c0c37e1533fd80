import Verif.Model.Pdf

/-! Independent specifications for the rendering of PDF pages: C73-C81. -/

set_option autoImplicit false

namespace HunLaw.Spec

open HunLaw.Pdf

/-! ### Characters -/

/-- The two letters which old Hungarian fonts have in place of `ő` and `ű`, and their capitals. -/
def repaired (c : Char) : Char :=
  match c with
  | 'Õ' => 'Ő'
  | 'õ' => 'ő'
  | 'Û' => 'Ű'
  | 'û' => 'ű'
  | c => c

/-- A point is inside of the crop box or on its edge. -/
def Within (b : CropBox) (x y : Rat) : Prop := b.left ≤ x ∧ x ≤ b.right ∧ b.bottom ≤ y ∧ y ≤ b.top

instance (b : CropBox) (x y : Rat) : Decidable (Within b x y) :=
  inferInstanceAs (Decidable (_ ∧ _ ∧ _ ∧ _))

/-- What is seen of characters: those which are not white space and are inside of the crop box. -/
def seen (b : CropBox) (chars : List PChar) : List PChar :=
  (chars.map fun c => { c with content := repaired c.content }).filter fun c =>
    !isWhitespace c.content && decide (Within b c.x c.y)

/-- The text of a code, if the font knows it. -/
def codeText : ToUnicode → Option Str
  | .unknown => none
  | .char c => some [c]
  | .string s => some s

/-- A point of the text, on the page. -/
def place (m : Matrix) (x y : Rat) : Rat × Rat :=
  (x * m.m11 + y * m.m21 + m.m31, x * m.m12 + y * m.m22 + m.m32)

/-- The characters of a text, evenly over a width, from a point on. -/
def evenly (x y width space : Rat) (bold : Bool) (text : Str) : List PChar :=
  text.zipIdx.map fun p =>
    ⟨x + p.2 * (width / text.length), y, width / text.length, space, bold, p.1⟩

/-- How far a code moves the text forward (PDF 1.7, 9.4.4). -/
def advanceOf (f : FastFont) (s : TextState) (code : Nat) : Rat :=
  (f.widths code / 1000 * s.fontSize + s.charSpacing + (if code = 32 then s.wordSpacing else 0)) *
    s.horizontalScale

/-- The characters of codes drawn one after the other, the first one `d` after the beginning of the text.
`space` is the width of a space of the font. -/
def drawnFrom (f : FastFont) (s : TextState) (space : Rat) (bold : Bool) (d : Rat) :
    List Nat → List PChar
  | [] => []
  | code :: rest =>
    let scale := s.horizontalScale * s.fontSize * s.textMatrix.m11
    let p := place s.textMatrix d s.rise
    evenly p.1 p.2 (f.widths code / 1000 * scale) (space * scale) bold
        ((codeText (f.toUnicode code)).getD []) ++
      drawnFrom f s space bold (d + advanceOf f s code) rest

/-! ### Fonts -/

/-- The text of a code by the base encoding of a font; tables are for codes of one byte. Codes without a
character are bullets in WinAnsi. -/
def baseText (b : BaseEncoding) (code : Nat) : Option Str :=
  match b with
  | .table t => if code < 256 then (t code).map fun c => [c] else none
  | .winAnsi t =>
    if code < 256 then
      match t code with
      | some c => some [c]
      | none => if 30 < code then some ['•'] else none
    else none
  | .identityH => if code.isValidChar then some [Char.ofNat code] else none
  | .none => none
  | .unsupported => none

/-- The texts which a font's map to Unicode gives. -/
def unicodeEntries (o : FontObj) : List (Nat × Str) :=
  match o.toUnicode with
  | some (some m) => m
  | _ => []

/-- The texts which the differences of a font's encoding give; a glyph with an unknown name has none. -/
def differenceEntries (e : Encoding) : List (Nat × Str) := e.differences.map fun d => (d.1, d.2.getD [])

/-- The text of a code in a font: from its map to Unicode, else from the differences of its encoding, else
from its base encoding. -/
def fontText (o : FontObj) (code : Nat) : Option Str :=
  match o.encoding with
  | none => none
  | some e =>
    match (unicodeEntries o).lookup code with
    | some s => some s
    | none =>
      match (differenceEntries e).lookup code with
      | some s => some s
      | none => baseText e.base code

/-- Every code has at most one entry in the map to Unicode and in the differences. -/
def UniqueEntries (o : FontObj) : Prop :=
  ((unicodeEntries o).map (·.1)).Nodup ∧ ∀ e, o.encoding = some e → (e.differences.map (·.1)).Nodup

/-- The name of a font says that it is bold. -/
def NamedBold (name : Option Str) : Prop := ∃ n, name = some n ∧ (str!"bold" <:+: n ∨ str!"Bold" <:+: n)

/-- The fonts in effect and saved after operations that draw no forms: fonts are set, saved and
restored. -/
def fontsAfter (res : Resources) : Option FontObj × List (Option FontObj) → List Op →
    Option FontObj × List (Option FontObj)
  | p, [] => p
  | (font, saved), op :: ops =>
    fontsAfter res (match op with
      | .textFont name _ => ((res.fonts name).map (·.font), saved)
      | .graphicsState name => (match res.graphicsStates name with
        | some (some (f, _)) => (some f.font, saved)
        | _ => (font, saved))
      | .save => (font, font :: saved)
      | .restore => (match saved with
        | f :: rest => (f, rest)
        | [] => (font, []))
      | _ => (font, saved)) ops

/-- The font in effect after operations from the beginning of a page. -/
def fontAfter (res : Resources) (ops : List Op) : Option FontObj := (fontsAfter res (none, []) ops).1

/-- A reference to a font which is used by the resources. -/
def Uses (res : Resources) (f : FontRef) : Prop :=
  (∃ name, res.fonts name = some f) ∨ ∃ name size, res.graphicsStates name = some (some (f, size))

/-- A font is bold, if there is one. -/
def FontBold (font : Option FontObj) : Prop := ∃ o, font = some o ∧ NamedBold o.name

/-- A reference to a font which is used somewhere in a file: by the resources of a page or of a form. -/
def FileUses (objects : Objects) (pages : List (Option PdfPage)) (f : FontRef) : Prop :=
  (∃ page res, some page ∈ pages ∧ page.resources = some res ∧ Uses res f) ∨
    ∃ n res ops, objects n = some (.form (some res) ops) ∧ Uses res f

/-- Different fonts of a file are at different addresses. -/
def FontsApart (objects : Objects) (pages : List (Option PdfPage)) : Prop :=
  ∀ f g, FileUses objects pages f → FileUses objects pages g → f.address = g.address → f.font = g.font

/-! ### Forms -/

/-- In every form of the file saves and restores are balanced. -/
def BalancedForms (objects : Objects) (Balanced : List Op → Prop) : Prop :=
  ∀ n res ops, objects n = some (.form res (some ops)) → Balanced ops

/-- Forms draw only forms of lower rank, so a form never draws itself. A form without resources of its
own, which would use those of its user, draws nothing. -/
def Ranked (objects : Objects) (rank : Nat → Nat) : Prop :=
  ∀ n res ops, objects n = some (.form res (some ops)) → ∀ name, Op.xObject name ∈ ops →
    ∃ x, res = some x ∧ ∀ m, x.xobjects name = some m → rank m < rank n

/-- Saves and restores are balanced: with `n` states saved, every restore has its save and in the end `n`
states are saved. -/
def BalancedSaves : Nat → Nat → List Op → Prop
  | n, k, [] => k = n
  | n, k, .save :: ops => BalancedSaves n (k + 1) ops
  | n, k, .restore :: ops => n < k ∧ BalancedSaves n (k - 1) ops
  | n, k, _ :: ops => BalancedSaves n k ops

end HunLaw.Spec
