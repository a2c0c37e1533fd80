import Verif.Model.PdfLines

/-!
Model of /repo/src/parser/pdf: fonts (font.rs), the text state (textstate.rs), collecting characters
(collector.rs, actual_text.rs), running the operations of a page (page.rs) and parsing a file (mod.rs).

The reading of PDF objects by the `pdf` crate is not modelled: pages, forms, resources and fonts are
given as data. Objects have addresses in memory, because the font cache is keyed by them.
Simplification: `f32` is modelled by exact rationals.
-/

set_option autoImplicit false

namespace HunLaw.Pdf

/-! ### Fonts (font.rs) -/

/-- The base encodings of the `pdf` crate which font.rs:76-110 distinguishes; a table gives the character
of a code. -/
inductive BaseEncoding where
  /-- `StandardEncoding`, `SymbolEncoding`, `MacRomanEncoding` and `MacExpertEncoding` -/
  | table (t : Nat → Option Char)
  /-- `WinAnsiEncoding` -/
  | winAnsi (t : Nat → Option Char)
  | identityH
  | none
  /-- any other -/
  | unsupported

/-- `pdf::encoding::Encoding`; a difference has what `glyphname_to_unicode` says of its name. -/
structure Encoding where
  base : BaseEncoding
  differences : List (Nat × Option Str)

/-- `pdf::font::Font`, as far as font.rs:48-74 looks at it. `widths` and `toUnicode` are `none` inside of
`some` if reading them fails. -/
structure FontObj where
  widths : Option (Nat → Rat)
  isCid : Bool
  name : Option Str
  encoding : Option Encoding
  toUnicode : Option (Option (List (Nat × Str)))

/-- Models `struct FastFont` (font.rs:30-38). -/
structure FastFont where
  cmap : List Char
  smap : Nat → Option Str
  isIdentity : Bool
  isCid : Bool
  name : Option Str
  widths : Nat → Rat

/-- Models `enum ToUnicodeResult` (font.rs:40-45). -/
inductive ToUnicode where
  | unknown
  | char (c : Char)
  | string (s : Str)
  deriving DecidableEq, Repr

/-- `Vec::resize(n, '\0')` where `n` is not smaller than the length, then setting the item. -/
def setChar (cmap : List Char) (cid : Nat) (c : Char) : List Char :=
  let cmap := if cmap.length ≤ cid then cmap ++ List.replicate (cid + 1 - cmap.length) '\x00' else cmap
  cmap.set cid c

namespace FastFont

/-- Models `add_mapping` (font.rs:126-135). -/
def addMapping (f : FastFont) (cid : Nat) (s : Str) : FastFont :=
  match s with
  | [c] =>
    if cid > 1000 then { f with smap := fun k => if k = cid then some s else f.smap k }
    else { f with cmap := setChar f.cmap cid c }
  | _ => { f with smap := fun k => if k = cid then some s else f.smap k }

/-- `add_mapping` for each pair. -/
def addAll (f : FastFont) (ms : List (Nat × Str)) : FastFont :=
  ms.foldl (fun f m => f.addMapping m.1 m.2) f

/-- Models `process_base_encoding` (font.rs:111-118): codes 0 to 254. -/
def processBase (f : FastFont) (t : Nat → Option Char) : FastFont :=
  f.addAll ((List.range 255).filterMap fun cid => (t cid).map fun c => (cid, [c]))

/-- The part of `process_encoding` for `WinAnsiEncoding` (font.rs:81-96). -/
def processWinAnsi (f : FastFont) (t : Nat → Option Char) : FastFont :=
  f.addAll ((List.range 255).filterMap fun cid =>
    match t cid with
    | some c => some (cid, [c])
    | none => if cid > 30 then some (cid, ['•']) else none)

/-- The `match` of `process_encoding` (font.rs:77-102). -/
def processBaseEncoding (f : FastFont) : BaseEncoding → Res FastFont
  | .table t => .ok (f.processBase t)
  | .winAnsi t => .ok (f.processWinAnsi t)
  | .identityH => .ok { f with isIdentity := true }
  | .none => .ok f
  | .unsupported => .err

/-- Models `process_encoding` (font.rs:76-109). -/
def processEncoding (f : FastFont) (e : Encoding) : Res FastFont := do
  let f ← f.processBaseEncoding e.base
  .ok (f.addAll (e.differences.map fun d => (d.1, d.2.getD [])))

/-- The end of `convert` (font.rs:70-73). -/
def processUnicodeMap (f : FastFont) : Option (Option (List (Nat × Str))) → Res FastFont
  | none => .ok f
  | some none => .err
  | some (some m) => .ok (f.addAll m)

/-- Models `convert` (font.rs:48-74). -/
def convert (o : FontObj) : Res FastFont := do
  let widths ← Res.ofOption o.widths
  let encoding ← Res.ofOption o.encoding
  let f ← processEncoding ⟨[], fun _ => none, false, o.isCid, o.name, widths⟩ encoding
  f.processUnicodeMap o.toUnicode

/-- `char::from_u32` -/
def charFromU32 (n : Nat) : Option Char := if n.isValidChar then some (Char.ofNat n) else none

/-- Models `to_unicode` (font.rs:137-153). -/
def toUnicode (f : FastFont) (cid : Nat) : ToUnicode :=
  match f.smap cid with
  | some s => .string s
  | none =>
    let fallback := if f.isIdentity then
        match charFromU32 cid with
        | some c => ToUnicode.char c
        | none => .unknown
      else .unknown
    match f.cmap[cid]? with
    | some c => if c = '\x00' then fallback else .char c
    | none => fallback

end FastFont

/-- Models `struct FontCache` (font.rs:156-159): fonts by the address of the font object. -/
abbrev FontCache := Nat → Option FastFont

/-- Models `get` (font.rs:162-171). -/
def FontCache.get (cache : FontCache) (address : Nat) (o : FontObj) : Res (FontCache × FastFont) :=
  match cache address with
  | some f => .ok (cache, f)
  | none => do
    let f ← FastFont.convert o
    .ok (fun a => if a = address then some f else cache a, f)

/-! ### Text state (textstate.rs) -/

/-- `euclid::Transform2D` -/
structure Matrix where
  m11 : Rat
  m12 : Rat
  m21 : Rat
  m22 : Rat
  m31 : Rat
  m32 : Rat
  deriving DecidableEq, Repr

/-- `Transform2D::identity` -/
def Matrix.identity : Matrix := ⟨1, 0, 0, 1, 0, 0⟩
/-- `Transform2D::translation` -/
def Matrix.translation (x y : Rat) : Matrix := ⟨1, 0, 0, 1, x, y⟩
/-- `Transform2D::then` -/
def Matrix.andThen (a b : Matrix) : Matrix :=
  ⟨a.m11 * b.m11 + a.m12 * b.m21, a.m11 * b.m12 + a.m12 * b.m22,
   a.m21 * b.m11 + a.m22 * b.m21, a.m21 * b.m12 + a.m22 * b.m22,
   a.m31 * b.m11 + a.m32 * b.m21 + b.m31, a.m31 * b.m12 + a.m32 * b.m22 + b.m32⟩

/-- Models `struct TextState` (textstate.rs:24-35). -/
structure TextState where
  textMatrix : Matrix
  lineMatrix : Matrix
  charSpacing : Rat
  wordSpacing : Rat
  horizontalScale : Rat
  leading : Rat
  font : Option FastFont
  fontSize : Rat
  rise : Rat

namespace TextState

/-- Models `default` (textstate.rs:37-51). -/
def default : TextState := ⟨.identity, .identity, 0, 0, 1, 0, none, 0, 0⟩

/-- Models `set_both_matrices` (textstate.rs:54-57). -/
def setBothMatrices (s : TextState) (m : Matrix) : TextState :=
  { s with textMatrix := m, lineMatrix := m }

/-- Models `advance` (textstate.rs:59-61). -/
def advance (s : TextState) (delta : Rat) : TextState :=
  { s with textMatrix := (Matrix.translation delta 0).andThen s.textMatrix }

/-- Models `advance_by_char` (textstate.rs:63-71). -/
def advanceByChar (s : TextState) (cid : Nat) : TextState :=
  let w0 := match s.font with
    | some f => f.widths cid / 1000
    | none => 0
  let spacing := s.charSpacing + (if cid = 32 then s.wordSpacing else 0)
  s.advance ((w0 * s.fontSize + spacing) * s.horizontalScale)

/-- Models `rendering_matrix` (textstate.rs:73-84). -/
def renderingMatrix (s : TextState) : Matrix :=
  (Matrix.mk (s.horizontalScale * s.fontSize) 0 0 s.fontSize 0 s.rise).andThen s.textMatrix

end TextState

/-! ### Collecting characters (collector.rs, actual_text.rs) -/

/-- Models `struct CharCollector` (collector.rs:39-45). -/
structure Collector where
  chars : List PChar
  widthOfSpace : Rat
  fontIsBold : Bool
  crop : CropBox

/-- `str::contains` -/
def containsStr (s needle : Str) : Bool :=
  match s with
  | [] => needle.isEmpty
  | _ :: cs => startsWith s needle || containsStr cs needle

namespace Collector

/-- Models `new` (collector.rs:48-53). -/
def new (crop : CropBox) : Collector := ⟨[], 0, false, crop⟩

/-- Models `render_character` (collector.rs:55-76). -/
def renderCharacter (k : Collector) (x y width scaling : Rat) (c : Char) : Collector :=
  let content := fixQuirks c
  if !isWhitespace content && k.crop.isInside x y then
    { k with chars := k.chars ++ [⟨x, y, width, k.widthOfSpace * scaling, k.fontIsBold, content⟩] }
  else k

/-- The loop of `render_multiple_characters` (collector.rs:89-91), from the character number `i` on. -/
def renderFrom (k : Collector) (x y step scaling : Rat) (i : Nat) (s : Str) : Collector :=
  (s.zipIdx i).foldl (fun k p => k.renderCharacter (x + p.2 * step) y step scaling p.1) k

/-- Models `render_multiple_characters` (collector.rs:78-93). -/
def renderMultiple (k : Collector) (x y width scaling : Rat) (s : Str) : Collector :=
  k.renderFrom x y (width / s.length) scaling 0 s

/-- The `match` of `render_cid` (collector.rs:98-114). -/
def renderUnicode (k : Collector) (m : Matrix) (w0 : Rat) : ToUnicode → Res Collector
  | .unknown => .err
  | .char c => .ok (k.renderCharacter m.m31 m.m32 (w0 * m.m11) m.m11 c)
  | .string s => .ok (k.renderMultiple m.m31 m.m32 (w0 * m.m11) m.m11 s)

/-- Models `render_cid` (collector.rs:95-117). -/
def renderCid (k : Collector) (s : TextState) (f : FastFont) (cid : Nat) :
    Res (Collector × TextState) := do
  let k ← k.renderUnicode s.renderingMatrix (f.widths cid / 1000) (f.toUnicode cid)
  .ok (k, s.advanceByChar cid)

/-- Models `font_changed` (collector.rs:119-131). -/
def fontChanged (k : Collector) (f : FastFont) : Collector :=
  let w := f.widths 32 / 1000
  { k with
    widthOfSpace := if w = 0 ∨ w = 1 then 1 / 4 else w
    fontIsBold := match f.name with
      | some n => containsStr n str!"bold" || containsStr n str!"Bold"
      | none => false }

end Collector

/-- Models `struct RenderCidParams` (actual_text.rs:28-34). -/
structure RenderParams where
  x : Rat
  y : Rat
  width : Rat
  scaling : Rat
  deriving DecidableEq, Repr

/-- Models `struct ActualTextCollector` (actual_text.rs:22-26). -/
structure ActualText where
  text : Str
  params : Option RenderParams
  deriving DecidableEq, Repr

namespace ActualText

/-- Models `render_cid` (actual_text.rs:44-61). -/
def renderCid (a : ActualText) (s : TextState) (f : FastFont) (cid : Nat) : ActualText × TextState :=
  let m := s.renderingMatrix
  let w0 := f.widths cid / 1000
  let p := match a.params with
    | some p => p
    | none => ⟨m.m31, m.m32, 0, m.m11⟩
  (⟨a.text, some { p with width := m.m31 - p.x + w0 * m.m11 }⟩, s.advanceByChar cid)

/-- Models `finish` (actual_text.rs:63-76). -/
def finish (a : ActualText) (k : Collector) : Collector :=
  match a.params with
  | some p => k.renderMultiple p.x p.y p.width p.scaling a.text
  | none => k

/-- Models `from_bmc_params` (actual_text.rs:78-90). `property` is the text of the entry `ActualText` of
the property dictionary, if there is one. -/
def fromBmcParams (tag : Str) (property : Option Str) : Option ActualText :=
  if tag ≠ str!"/Span" then none else property.map fun t => ⟨t, none⟩

end ActualText

/-! ### Operations of a page (page.rs) -/

/-- An item of `TextDrawAdjusted`. -/
inductive Adjusted where
  | text (bytes : List UInt8)
  | spacing (delta : Rat)

/-- `pdf::content::Op`, the operations page.rs:176-285 handles; `other` is any other. -/
inductive Op where
  | beginMarkedContent (tag : Str) (property : Option Str)
  | endMarkedContent
  | save
  | restore
  | graphicsState (name : Str)
  | textFont (name : Str) (size : Rat)
  | beginText
  | endText
  | charSpacing (x : Rat)
  | wordSpacing (x : Rat)
  | textScaling (x : Rat)
  | leading (x : Rat)
  | textRise (x : Rat)
  | moveTextPosition (x y : Rat)
  | setTextMatrix (m : Matrix)
  | textNewline
  | textDraw (bytes : List UInt8)
  | textDrawAdjusted (items : List Adjusted)
  | xObject (name : Str)
  | other

/-- A font object and its address in memory. -/
structure FontRef where
  address : Nat
  font : FontObj

/-- `pdf::object::Resources`, as far as page.rs uses it: fonts, the fonts and sizes set by graphics
states, and the numbers of the objects which can be drawn. -/
structure Resources where
  fonts : Str → Option FontRef
  graphicsStates : Str → Option (Option (FontRef × Rat))
  xobjects : Str → Option Nat

/-- `pdf::object::XObject`: a form with its own resources or none, and its operations unless they cannot
be read; or something else. -/
inductive XObject where
  | form (resources : Option Resources) (ops : Option (List Op))
  | other

/-- The objects of a file by number; `none` if the object cannot be read. -/
abbrev Objects := Nat → Option XObject

/-- Models `struct PageRenderer` (page.rs:35-54), with the font cache and the collector it borrows.
`marked` is the marked content stack, with its top first: whether it is `ActualText` (page.rs:56-60). -/
structure Renderer where
  cache : FontCache
  collector : Collector
  resources : Option Resources
  state : TextState
  stack : List TextState
  marked : List Bool
  actual : Option ActualText

namespace Renderer

/-- Models `new` (page.rs:64-81). -/
def new (cache : FontCache) (collector : Collector) (resources : Option Resources) : Renderer :=
  ⟨cache, collector, resources, .default, [], [], none⟩

/-- Assignment to `self.state`. -/
def withState (r : Renderer) (s : TextState) : Renderer := { r with state := s }

/-- Models `render_cid` (page.rs:108-115). -/
def renderCid (r : Renderer) (cid : Nat) : Res Renderer := do
  let font ← Res.ofOption r.state.font
  match r.actual with
  | some a =>
    let p := a.renderCid r.state font cid
    .ok { r with actual := some p.1, state := p.2 }
  | none => do
    let p ← r.collector.renderCid r.state font cid
    .ok { r with collector := p.1, state := p.2 }

/-- `try_for_each(|cid| self.render_cid(cid))` -/
def renderCids (r : Renderer) : List Nat → Res Renderer
  | [] => .ok r
  | cid :: cids => do
    let r ← r.renderCid cid
    r.renderCids cids

/-- The codes of a text: single bytes, or big endian pairs of bytes (`chunks_exact(2)`). -/
def codes (isCid : Bool) : List UInt8 → List Nat
  | a :: b :: rest =>
    if isCid then (a.toNat * 256 + b.toNat) :: codes isCid rest else a.toNat :: codes isCid (b :: rest)
  | [a] => if isCid then [] else [a.toNat]
  | [] => []

/-- Models `render_text` (page.rs:117-131). -/
def renderText (r : Renderer) (bytes : List UInt8) : Res Renderer := do
  let font ← Res.ofOption r.state.font
  r.renderCids (codes font.isCid bytes)

/-- Models `set_font` (page.rs:133-139). -/
def setFont (r : Renderer) (f : FontRef) (size : Rat) : Res Renderer := do
  let p ← r.cache.get f.address f.font
  .ok { r with cache := p.1, collector := r.collector.fontChanged p.2,
               state := { r.state with font := some p.2, fontSize := size } }

/-- The loop of `Op::TextDrawAdjusted` (page.rs:263-275). -/
def drawAdjusted (r : Renderer) : List Adjusted → Res Renderer
  | [] => .ok r
  | .text bytes :: rest => do
    let r ← r.renderText bytes
    r.drawAdjusted rest
  | .spacing delta :: rest =>
    (r.withState (r.state.advance (-delta * r.state.horizontalScale * r.state.fontSize / 1000))).drawAdjusted
      rest

/-- `Op::BeginMarkedContent` (page.rs:179-187). -/
def beginMarked (r : Renderer) (tag : Str) (property : Option Str) : Renderer :=
  match ActualText.fromBmcParams tag property with
  | some a => { r with actual := some a, marked := true :: r.marked }
  | none => { r with marked := false :: r.marked }

/-- `Op::EndMarkedContent` (page.rs:188-199). -/
def endMarked (r : Renderer) : Res Renderer :=
  match r.marked with
  | [] => .err
  | false :: marked => .ok { r with marked := marked }
  | true :: marked =>
    .ok { r with marked := marked, actual := none,
                 collector := match r.actual with
                   | some a => a.finish r.collector
                   | none => r.collector }

/-- `Op::Restore` and the end of `handle_xobject` (page.rs:203-208 and 168-171). -/
def restore (r : Renderer) : Res Renderer :=
  match r.stack with
  | [] => .err
  | s :: stack => .ok { r with state := s, stack := stack }

/-- `Op::GraphicsState` (page.rs:211-221). -/
def graphicsState (r : Renderer) (name : Str) : Res Renderer := do
  let res ← Res.ofOption r.resources
  let font ← Res.ofOption (res.graphicsStates name)
  match font with
  | some (f, size) => r.setFont f size
  | none => .ok r

/-- `Op::TextFont` (page.rs:222-229). -/
def textFont (r : Renderer) (name : Str) (size : Rat) : Res Renderer := do
  let res ← Res.ofOption r.resources
  let font ← Res.ofOption (res.fonts name)
  r.setFont font size

/-- The operations of `handle_op` other than drawing objects (page.rs:176-276 and 283). -/
def handleSimple (r : Renderer) : Op → Res Renderer
  | .beginMarkedContent tag property => .ok (r.beginMarked tag property)
  | .endMarkedContent => r.endMarked
  | .save => .ok { r with stack := r.state :: r.stack }
  | .restore => r.restore
  | .graphicsState name => r.graphicsState name
  | .textFont name size => r.textFont name size
  | .beginText =>
    .ok (r.withState { r.state with textMatrix := .identity, lineMatrix := .identity })
  | .endText => .ok r
  | .charSpacing x => .ok (r.withState { r.state with charSpacing := x })
  | .wordSpacing x => .ok (r.withState { r.state with wordSpacing := x })
  | .textScaling x => .ok (r.withState { r.state with horizontalScale := x * (1 / 100) })
  | .leading x => .ok (r.withState { r.state with leading := x })
  | .textRise x => .ok (r.withState { r.state with rise := x })
  | .moveTextPosition x y =>
    .ok (r.withState (r.state.setBothMatrices ((Matrix.translation x y).andThen r.state.lineMatrix)))
  | .setTextMatrix m => .ok { r with state := r.state.setBothMatrices m }
  | .textNewline =>
    .ok (r.withState (r.state.setBothMatrices
      ((Matrix.translation 0 (-r.state.leading)).andThen r.state.lineMatrix)))
  | .textDraw bytes => r.renderText bytes
  | .textDrawAdjusted items => r.drawAdjusted items
  | .xObject _ => .ok r
  | .other => .ok r

/-- The lookup of `handle_xobject` (page.rs:142-148). -/
def findObject (r : Renderer) (objects : Objects) (name : Str) : Res XObject := do
  let res ← Res.ofOption r.resources
  let number ← Res.ofOption (res.xobjects name)
  Res.ofOption (objects number)

/-- The state in which a form is drawn (page.rs:154-160). -/
def enterForm (r : Renderer) (resources : Option Resources) : Renderer :=
  { r with
    resources := match resources with
      | some x => some x
      | none => r.resources
    stack := r.state :: r.stack }

/-- The end of `handle_xobject` (page.rs:167-173). -/
def leaveForm (r : Renderer) (saved : Option Resources) : Res Renderer := do
  let r ← r.restore
  .ok { r with resources := saved }

/-- Models `handle_op` (page.rs:176-285), given how objects are drawn. -/
def handleOp (xobject : Renderer → Str → Res Renderer) (r : Renderer) : Op → Res Renderer
  | .xObject name => xobject r name
  | op => r.handleSimple op

/-- The loops over operations (page.rs:88-90 and 163-165). -/
def runWith (xobject : Renderer → Str → Res Renderer) (r : Renderer) : List Op → Res Renderer
  | [] => .ok r
  | op :: ops => do
    let r ← r.handleOp xobject op
    r.runWith xobject ops

/-- Drawing a form (page.rs:154-173). -/
def drawForm (xobject : Renderer → Str → Res Renderer) (r : Renderer) (resources : Option Resources)
    (contents : Option (List Op)) : Res Renderer := do
  let inner ← Res.ofOption contents
  let drawn ← (r.enterForm resources).runWith xobject inner
  drawn.leaveForm r.resources

/-- Models `handle_xobject` (page.rs:141-174); `depth` is how many forms can be drawn inside of each other
before the stack of the program overflows. -/
def handleXObject (objects : Objects) : Nat → Renderer → Str → Res Renderer
  | 0, r, name => do
    let x ← r.findObject objects name
    match x with
    | .other => .ok r
    | .form _ _ => .panic
  | depth + 1, r, name => do
    let x ← r.findObject objects name
    match x with
    | .other => .ok r
    | .form resources contents => r.drawForm (handleXObject objects depth) resources contents

/-- Runs operations, as `render` (page.rs:83-91). -/
def run (objects : Objects) (depth : Nat) (r : Renderer) (ops : List Op) : Res Renderer :=
  r.runWith (handleXObject objects depth) ops

end Renderer

/-- A page: its resources and its operations, if it has contents which can be read. -/
structure PdfPage where
  resources : Option Resources
  ops : Option (List Op)

/-- Rendering one page (mod.rs:65-67 and page.rs:83-91): the font cache and the characters collected. -/
def renderPage (objects : Objects) (depth : Nat) (crop : CropBox) (cache : FontCache) (page : PdfPage) :
    Res (FontCache × List PChar) := do
  let ops ← Res.ofOption page.ops
  let r ← Renderer.run objects depth (.new cache (.new crop) page.resources) ops
  .ok (r.cache, r.collector.chars)

/-- The loop of `parse_pdf` (mod.rs:64-69); a page is `none` if it cannot be read. -/
def renderPages (S : Sorter) (objects : Objects) (depth : Nat) (crop : CropBox) (cache : FontCache) :
    List (Option PdfPage) → Res (List (List Line))
  | [] => .ok []
  | page :: pages => do
    let page ← Res.ofOption page
    let p ← renderPage objects depth crop cache page
    let rest ← renderPages S objects depth crop p.1 pages
    .ok (pageOfLines S p.2 :: rest)

/-- Models `parse_pdf` (mod.rs:60-71). -/
def parsePdf (S : Sorter) (objects : Objects) (depth : Nat) (crop : CropBox)
    (pages : List (Option PdfPage)) : Res (List (List Line)) :=
  renderPages S objects depth crop (fun _ => none) pages

end HunLaw.Pdf
