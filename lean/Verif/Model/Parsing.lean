import Verif.Model.Outcome
import Verif.Model.Math
import Verif.Model.Box
import Verif.Model.Hull
import Verif.Model.Text
import Verif.Model.FontInfo

/-!
# The parser: `/repo/src/PdfParsing.cpp`

Poppler calls the parser with events; an event carries what the parser reads from Poppler's
graphics state.  Strings are lists of characters (code points).  The random ids, the opacity, the
colour and the log output are not modelled.  `_numElements` is a mathematical number (an overflow
of the `int` would need 2^31 elements).
-/

namespace Verif.Parsing

open Verif Verif.Math
open Verif.Text (Str)

/-- `coordinatePrecision` of `/repo/src/Config.h:85`. -/
def coordinatePrecision : ℕ := 1

/-- `fontSizePrecision` of `/repo/src/Config.h:89`. -/
def fontSizePrecision : ℕ := 1

/-- `coordsEqualTolerance` of `/repo/src/Config.h:73`. -/
def coordsTol : ℚ := 1 / 10

/-- A clip box.  Models `clipLeftX` ... `clipLowerY` of `/repo/src/PdfParsing.cpp` and
`/repo/src/Types.h` (`PdfPage`, `PdfFigure`). -/
structure Clip where
  leftX : ℚ
  upperY : ℚ
  rightX : ℚ
  lowerY : ℚ
deriving DecidableEq

/-- The rounding of a clip box.  Models `/repo/src/PdfParsing.cpp:94-98,526-530,605-609,777-781`. -/
def Clip.round (c : Clip) : Clip where
  leftX := roundTo c.leftX coordinatePrecision
  upperY := roundTo c.upperY coordinatePrecision
  rightX := roundTo c.rightX coordinatePrecision
  lowerY := roundTo c.lowerY coordinatePrecision

/-- The test whether two clip boxes are equal.
Models `/repo/src/PdfParsing.cpp:536-539,548-551,677-680,689-692,831-834,843-846`. -/
def Clip.same (c d : Clip) : Bool :=
  equal c.leftX d.leftX coordsTol && equal c.upperY d.upperY coordsTol &&
    equal c.rightX d.rightX coordsTol && equal c.lowerY d.lowerY coordsTol

/-- A `PdfCharacter` as the parser creates it.  Models `/repo/src/Types.h` (`PdfCharacter`). -/
structure PChar where
  name : Str
  text : Str
  pos : Box
  base : ℚ
  fontName : Str
  fontSize : ℚ
  rank : ℕ
  unicodes : List ℕ := []
deriving DecidableEq

/-- An element the parser creates: a `PdfCharacter`, a `PdfShape` or a `PdfGraphic`.
Models `/repo/src/Types.h` (`PdfCharacter`, `PdfShape`, `PdfGraphic`). -/
inductive Elem where
  | char (c : PChar)
  | shape (pos : Box) (rank : ℕ)
  | graphic (pos : Box) (rank : ℕ)
deriving DecidableEq

/-- The position of an element.  Models `PdfElement::pos`, `/repo/src/Types.h`. -/
def Elem.pos : Elem → Box
  | .char c => c.pos
  | .shape p _ => p
  | .graphic p _ => p

/-- The extraction rank of an element.  Models `PdfElement::rank`, `/repo/src/Types.h`. -/
def Elem.rank : Elem → ℕ
  | .char c => c.rank
  | .shape _ r => r
  | .graphic _ r => r

/-- The three vectors of a page or of a figure the parser appends to.
Models `characters`, `shapes` and `graphics` of `PdfPage` and `PdfFigure`, `/repo/src/Types.h`. -/
structure Content where
  characters : List PChar := []
  shapes : List (Box × ℕ) := []
  graphics : List (Box × ℕ) := []
deriving DecidableEq

/-- `push_back` to the vector of the element's kind.
Models `/repo/src/PdfParsing.cpp:540,557,576,681,698,717,835,852,871`. -/
def Content.push (c : Content) : Elem → Content
  | .char ch => { c with characters := c.characters ++ [ch] }
  | .shape p r => { c with shapes := c.shapes ++ [(p, r)] }
  | .graphic p r => { c with graphics := c.graphics ++ [(p, r)] }

/-- `PdfFigure`.  Models `/repo/src/Types.h` (`PdfFigure`). -/
structure Figure where
  pos : Box
  clip : Clip
  content : Content

/-- `PdfPage` as far as the parser fills it.  Models `/repo/src/Types.h` (`PdfPage`). -/
structure Page where
  pageNum : ℤ
  clip : Clip
  content : Content
  figures : List Figure

/-- A new figure with one element.  `figure->pos` keeps the default rotation and writing mode.
Models `/repo/src/PdfParsing.cpp:564-578,705-719,859-873`. -/
def Figure.create (pageNum : ℤ) (clip : Clip) (e : Elem) : Figure where
  pos := { pageNum := pageNum
           leftX := e.pos.leftX
           upperY := e.pos.upperY
           rightX := e.pos.rightX
           lowerY := e.pos.lowerY }
  clip := clip
  content := Content.push {} e

/-- The loop over the figures: the first one with the same clip box gets the element and its box is
extended, without one a new figure is appended.
Models `/repo/src/PdfParsing.cpp:545-578,686-719,840-873`. -/
def addToFigures (pageNum : ℤ) (clip : Clip) (e : Elem) : List Figure → List Figure
  | [] => [Figure.create pageNum clip e]
  | f :: fs =>
    if clip.same f.clip then
      { f with pos := f.pos.extend e.pos, content := f.content.push e } :: fs
    else f :: addToFigures pageNum clip e fs

/-- The element is appended to the page or to a figure.
Models `/repo/src/PdfParsing.cpp:535-578,676-719,830-873`. -/
def route (clip : Clip) (e : Elem) (p : Page) : Page :=
  if clip.same p.clip then { p with content := p.content.push e }
  else { p with figures := addToFigures p.pageNum clip e p.figures }

/-! ## Matrices -/

/-- A transformation matrix of six numbers.  Models `double[6]` in `/repo/src/PdfParsing.cpp`. -/
structure Mat where
  m0 : ℚ
  m1 : ℚ
  m2 : ℚ
  m3 : ℚ
  m4 : ℚ
  m5 : ℚ
deriving DecidableEq

/-- `PdfParsing::concat`.  Models `/repo/src/PdfParsing.cpp:889-896`. -/
def concat (a b : Mat) : Mat where
  m0 := a.m0 * b.m0 + a.m1 * b.m2
  m1 := a.m0 * b.m1 + a.m1 * b.m3
  m2 := a.m2 * b.m0 + a.m3 * b.m2
  m3 := a.m2 * b.m1 + a.m3 * b.m3
  m4 := a.m4 * b.m0 + a.m5 * b.m2 + b.m4
  m5 := a.m4 * b.m1 + a.m5 * b.m3 + b.m5

/-! ## Characters -/

/-- What `drawChar` reads from the font of the graphics state: the type, the font matrix, the
writing mode, the name of the drawn character and its width (0 if neither an 8-bit nor a CID font).
Models the calls in `/repo/src/PdfParsing.cpp:191-198,259-278,328-340`. -/
structure StateFont where
  type3 : Bool
  matrix : Mat
  wMode : Bool
  charName : Str
  width : ℚ
deriving DecidableEq

/-- A `drawChar` event with what is read from the graphics state.  `mapped` is what the text
encoding makes of the Unicode values `u` (`none` for a null pointer), `codes` are these values.
Models the parameters and the calls of `/repo/src/PdfParsing.cpp:166-167,206-227,255-353,524`. -/
structure CharEvent where
  font : Option StateFont
  uLen : ℕ
  mapped : Option Str
  fontTrans : ℚ × ℚ × ℚ × ℚ
  fontSize : ℚ
  horizScaling : ℚ
  rise : ℚ
  textMat : ℚ × ℚ × ℚ × ℚ
  curX : ℚ
  curY : ℚ
  ctm : Mat
  transformedFontSize : ℚ
  clip : Clip
  codes : List ℕ := []
deriving DecidableEq

/-- What is known about a font: `PdfFontInfo` with its `glyphBoundingBoxes`.
Models `/repo/src/Types.h:138-217`. -/
structure Font where
  info : FontInfo.Info
  glyphs : Str → Option (ℚ × ℚ × ℚ × ℚ)

/-- The name of the character.  Models `/repo/src/PdfParsing.cpp:191-198`. -/
def charName (ev : CharEvent) : Str :=
  match ev.font with
  | some f => f.charName
  | none => []

/-- The text of the character; `charMap` is the table of `/repo/src/utils/CharMap.h`.
Models `/repo/src/PdfParsing.cpp:204-227`. -/
def charText (charMap : Str → Option (ℕ × Str)) (ev : CharEvent) : Str :=
  match (if ev.uLen = 1 then charMap (charName ev) else none) with
  | some t => t.2
  | none => ev.mapped.getD []

/-- The Unicode values of the character.  Models `/repo/src/PdfParsing.cpp:206-207,223-225`. -/
def charCodes (charMap : Str → Option (ℕ × Str)) (ev : CharEvent) : List ℕ :=
  match (if ev.uLen = 1 then charMap (charName ev) else none) with
  | some t => [t.1]
  | none => ev.codes

/-- `iswspace` in the C locale, or a non-breaking space.
Models `/repo/src/PdfParsing.cpp:236`. -/
def isWhite (c : Char) : Bool := Text.isSpaceC c || decide (c.toNat = 160)

/-- The text is not empty and consists of whitespace.  `from_bytes` is taken to succeed.
Models `/repo/src/PdfParsing.cpp:233-240`. -/
def isWhitespace (text : Str) : Bool := !text.isEmpty && text.all isWhite

/-- The upper left part of the text rendering matrix the rotation is read from.
Models `/repo/src/PdfParsing.cpp:256-270`. -/
def fontTransMat (f : StateFont) (ev : CharEvent) : ℚ × ℚ × ℚ × ℚ :=
  let (m0, m1, m2, m3) := ev.fontTrans
  if f.type3 then
    (f.matrix.m0 * m0 + f.matrix.m1 * m2, f.matrix.m0 * m1 + f.matrix.m1 * m3,
      f.matrix.m2 * m0 + f.matrix.m3 * m2, f.matrix.m2 * m1 + f.matrix.m3 * m3)
  else (m0, m1, m2, m3)

/-- The rotation from the matrix.  Models `/repo/src/PdfParsing.cpp:271-275`. -/
def rotationOf (m : ℚ × ℚ × ℚ × ℚ) : ℤ :=
  if larger |m.1 * m.2.2.2| |m.2.1 * m.2.2.1| tol then
    (if larger m.1 0 tol || smaller m.2.2.2 0 tol then 0 else 2)
  else (if larger m.2.2.1 0 tol then 1 else 3)

/-- The rotation of the character.  Models `/repo/src/PdfParsing.cpp:256-279`. -/
def charRotation (f : StateFont) (ev : CharEvent) : ℤ :=
  let r := rotationOf (fontTransMat f ev)
  if f.wMode then (r + 1) % 4 else r

/-- The text matrix with the current pen.  Models `/repo/src/PdfParsing.cpp:312-320`. -/
def textMatrix (ev : CharEvent) : Mat :=
  ⟨ev.textMat.1, ev.textMat.2.1, ev.textMat.2.2.1, ev.textMat.2.2.2, ev.curX, ev.curY⟩

/-- The text rendering matrix `trm`.  Models `/repo/src/PdfParsing.cpp:309-324`. -/
def renderMatrix (ev : CharEvent) : Mat :=
  concat (concat ⟨ev.fontSize * ev.horizScaling, 0, 0, ev.fontSize, 0, ev.rise⟩ (textMatrix ev)) ev.ctm

/-- The matrix `nextTrm` at the place of the next character.
Models `/repo/src/PdfParsing.cpp:326-346`. -/
def nextMatrix (f : StateFont) (ev : CharEvent) : Mat :=
  concat (concat ⟨1, 0, 0, 1, f.width * ev.fontSize * ev.horizScaling, 0⟩ (textMatrix ev)) ev.ctm

/-- The four coordinates `posLeftX`, `posUpperY`, `posRightX`, `posLowerY` and `base`.
Models the local variables of `/repo/src/PdfParsing.cpp:359-364`. -/
structure RawBox where
  leftX : ℚ
  upperY : ℚ
  rightX : ℚ
  lowerY : ℚ
  base : ℚ
deriving DecidableEq

/-- The box from the rendering matrix, ascent and descent.
Models `/repo/src/PdfParsing.cpp:348-421`. -/
def metricBox (wMode : Bool) (rotation : ℤ) (x0 y0 x1 y1 fs ascent descent : ℚ) : RawBox :=
  if wMode then
    if rotation = 1 then ⟨x0, y0 - fs, x0 + fs, y0, 0⟩
    else if rotation = 2 then ⟨x0, y0, x0 + fs, y0 + fs, 0⟩
    else if rotation = 3 then ⟨x0 - fs, y0, x0, y0 + fs, 0⟩
    else ⟨x0 - fs, y0 - fs, x0, y0, 0⟩
  else
    if rotation = 0 then ⟨x0, y0 - ascent, x0 + (x1 - x0), y0 - descent, y0⟩
    else if rotation = 1 then ⟨x0 + descent, y0, x0 + ascent, y0 + (y1 - y0), x0⟩
    else if rotation = 2 then ⟨x0, y0 + descent, x0 + (x1 - x0), y0 + ascent, y0⟩
    else if rotation = 3 then ⟨x0 - ascent, y0 + (y1 - y0), x0 - descent, y0, x0⟩
    else ⟨x0 - fs, y0 - fs, x0, y0, 0⟩

/-- The box from the glyph box of the embedded font file, through the font matrix and the text
rendering matrix.  A font matrix with missing cells counts as zero there (it has six cells).
Models `/repo/src/PdfParsing.cpp:425-445`. -/
def glyphBox (fm : List ℚ) (trm : Mat) (g : ℚ × ℚ × ℚ × ℚ) : RawBox :=
  let leftX2 := g.1 * fm.getD 0 0 + g.2.1 * fm.getD 2 0 + fm.getD 4 0
  let upperY2 := g.1 * fm.getD 1 0 + g.2.1 * fm.getD 3 0 + fm.getD 5 0
  let rightX2 := g.2.2.1 * fm.getD 0 0 + g.2.2.2 * fm.getD 2 0 + fm.getD 4 0
  let lowerY2 := g.2.2.1 * fm.getD 1 0 + g.2.2.2 * fm.getD 3 0 + fm.getD 5 0
  let leftX3 := leftX2 * trm.m0 + upperY2 * trm.m2 + trm.m4
  let upperY3 := leftX2 * trm.m1 + upperY2 * trm.m3 + trm.m5
  let rightX3 := rightX2 * trm.m0 + lowerY2 * trm.m2 + trm.m4
  let lowerY3 := rightX2 * trm.m1 + lowerY2 * trm.m3 + trm.m5
  ⟨minimum leftX3 rightX3, minimum upperY3 lowerY3, maximum leftX3 rightX3,
    maximum upperY3 lowerY3, maximum upperY3 lowerY3⟩

/-- The choice between the two boxes.  Models `/repo/src/PdfParsing.cpp:424-456`. -/
def chooseBox (metric : RawBox) (glyph : Option RawBox) : RawBox :=
  match glyph with
  | some g =>
    if smaller g.upperY metric.upperY coordsTol || larger g.lowerY metric.lowerY coordsTol then g
    else metric
  | none => metric

/-- The character `drawChar` creates for the current font.
Models `/repo/src/PdfParsing.cpp:180-493`. -/
def makeChar (charMap : Str → Option (ℕ × Str)) (font : Font) (f : StateFont) (ev : CharEvent)
    (pageNum : ℤ) (rank : ℕ) : PChar :=
  let rot := charRotation f ev
  let trm := renderMatrix ev
  let next := nextMatrix f ev
  let raw := chooseBox
    (metricBox f.wMode rot trm.m4 trm.m5 next.m4 next.m5 ev.transformedFontSize
      (font.info.ascent * ev.transformedFontSize) (font.info.descent * ev.transformedFontSize))
    ((font.glyphs (charName ev)).map (glyphBox font.info.fontMatrix trm))
  { name := charName ev
    text := charText charMap ev
    pos := { pageNum := pageNum
             leftX := roundTo raw.leftX coordinatePrecision
             upperY := roundTo raw.upperY coordinatePrecision
             rightX := roundTo raw.rightX coordinatePrecision
             lowerY := roundTo raw.lowerY coordinatePrecision
             rotation := rot
             wMode := if f.wMode then 1 else 0 }
    base := roundTo raw.base coordinatePrecision
    fontName := font.info.fontName
    fontSize := roundTo ev.transformedFontSize fontSizePrecision
    rank := rank
    unicodes := charCodes charMap ev }

/-! ## Paths and images -/

/-- A point is ignored: it lies outside of the clip box or too near to its edge.
Models `/repo/src/PdfParsing.cpp:631-636`. -/
def hidden (clip : Clip) (x y : ℚ) : Bool :=
  equalOrSmaller x clip.leftX coordsTol || equalOrSmaller y clip.upperY coordsTol ||
    equalOrLarger x clip.rightX coordsTol || equalOrLarger y clip.lowerY coordsTol

/-- One iteration of the loop over the points; the accumulator is (leftX, upperY, rightX, lowerY).
Models `/repo/src/PdfParsing.cpp:621-641`. -/
def strokePoint (clip : Clip) (acc : ℚ × ℚ × ℚ × ℚ) (p : ℚ × ℚ) : ℚ × ℚ × ℚ × ℚ :=
  let x := roundTo p.1 coordinatePrecision
  let y := roundTo p.2 coordinatePrecision
  if hidden clip x y then acc
  else
    (maximum (minimum acc.1 x) clip.leftX, maximum (minimum acc.2.1 y) clip.upperY,
      minimum (maximum acc.2.2.1 x) clip.rightX, minimum (maximum acc.2.2.2 y) clip.lowerY)

/-- The box of the shape of a path with the given (already transformed) points.
Models `/repo/src/PdfParsing.cpp:611-653`. -/
def shapeBox (clip : Clip) (points : List (ℚ × ℚ)) (pageNum : ℤ) : Box :=
  let acc := points.foldl (strokePoint clip) (dblMax, dblMax, dblMin, dblMin)
  { pageNum := pageNum
    leftX := roundTo acc.1 coordinatePrecision
    upperY := roundTo acc.2.1 coordinatePrecision
    rightX := roundTo acc.2.2.1 coordinatePrecision
    lowerY := roundTo acc.2.2.2 coordinatePrecision }

/-- The box of an image, `none` if the image is ignored.
Models `/repo/src/PdfParsing.cpp:783-807`. -/
def graphicBox (clip : Clip) (ctm : Mat) : Option Box :=
  let leftX := roundTo ctm.m4 coordinatePrecision
  let upperY := roundTo ctm.m5 coordinatePrecision
  let rightX := roundTo (leftX + ctm.m0) coordinatePrecision
  let lowerY := roundTo (upperY + ctm.m3) coordinatePrecision
  if equalOrSmaller leftX clip.leftX coordsTol || equalOrSmaller upperY clip.upperY coordsTol ||
      equalOrLarger rightX clip.rightX coordsTol || equalOrLarger lowerY clip.lowerY coordsTol then
    none
  else
    some { leftX := maximum (minimum leftX rightX) clip.leftX
           upperY := maximum (minimum upperY lowerY) clip.upperY
           rightX := minimum (maximum leftX rightX) clip.rightX
           lowerY := minimum (maximum upperY lowerY) clip.lowerY }

/-! ## The event loop -/

/-- The font of an `updateFont` event: what Poppler reports, and the clear-text part and the glyph
boxes of the embedded font file if there is one (and it is read).
Models the argument of `/repo/src/PdfParsing.cpp:130,148-149`. -/
structure EventFont where
  gfx : FontInfo.Gfx
  embedded : Option (Str × (Str → Option (ℚ × ℚ × ℚ × ℚ)))

/-- The events.  `fill` calls `stroke` and the four image functions call `drawGraphic`.
Models the overridden methods of `/repo/src/PdfParsing.h:110-222`. -/
inductive Event where
  | startPage (pageNum : ℤ) (clip : Clip)
  | endPage
  | updateFont (font : Option EventFont)
  | drawChar (ev : CharEvent)
  | stroke (points : List (ℚ × ℚ)) (clip : Clip)
  | drawGraphic (ctm : Mat) (clip : Clip)

/-- The state of the parser: the finished pages, the current page (`_page`, null at the start), the
map of the font infos (the document's `fontInfos`), the current font and the number of elements.
Models `/repo/src/PdfParsing.h:250-270`. -/
structure State where
  pages : List Page := []
  page : Option Page := none
  fonts : List (Str × Font) := []
  font : Option Font := none
  numElements : ℕ := 0

/-- The tables the parser uses: the character map and the reading of numbers.
Models `/repo/src/utils/CharMap.h` and `/repo/src/utils/PdfFontInfoParser.cpp:275`. -/
structure Tables where
  charMap : Str → Option (ℕ × Str)
  numbers : Str → List ℚ

/-- The pages of the document, in order.  Models `_doc->pages` of `/repo/src/PdfParsing.cpp:100`. -/
def State.docPages (s : State) : List Page := s.pages ++ s.page.toList

/-- `_doc->fontInfos` looked up.  Models `/repo/src/PdfParsing.cpp:147,151`. -/
def findFont (fonts : List (Str × Font)) (name : Str) : Option Font :=
  (fonts.find? fun p => p.1 == name).map (·.2)

/-- `PdfFontInfoParser::parse`.  Models `/repo/src/utils/PdfFontInfoParser.cpp:52-183`. -/
def parseFont (t : Tables) (f : EventFont) : Outcome Font :=
  match f.embedded with
  | none => .ok ⟨FontInfo.ofGfx f.gfx, fun _ => none⟩
  | some (ascii, glyphs) =>
    (FontInfo.parseAscii t.numbers ascii (FontInfo.ofGfx f.gfx)).bind fun i => .ok ⟨i, glyphs⟩

/-- `updateFont`.  Models `/repo/src/PdfParsing.cpp:120-163`. -/
def updateFont (t : Tables) (font : Option EventFont) (s : State) : Outcome State :=
  match font with
  | none => .ok { s with font := none }
  | some f =>
    let name := f.gfx.name.getD f.gfx.address
    match findFont s.fonts name with
    | some known => .ok { s with font := some known }
    | none => (parseFont t f).bind fun new =>
        .ok { s with fonts := s.fonts ++ [(name, new)], font := some new }

/-- Appending a created element to the current page; without a page the null pointer `_page` is
dereferenced.  Models `/repo/src/PdfParsing.cpp:250,493-578,646-719,800-873`. -/
def place (clip : Clip) (make : ℤ → ℕ → Elem) (s : State) : Outcome State :=
  match s.page with
  | none => .ub "null pointer: no page"
  | some p => .ok { s with page := some (route clip.round (make p.pageNum s.numElements) p)
                           numElements := s.numElements + 1 }

/-- One event.  A character is skipped without a current font or if it is whitespace; drawing it
without a font in the graphics state dereferences a null pointer.
Models `/repo/src/PdfParsing.cpp:85-873`. -/
def step (t : Tables) (s : State) : Event → Outcome State
  | .startPage n clip =>
    .ok { s with pages := s.docPages
                 page := some { pageNum := n, clip := clip.round, content := {}, figures := [] } }
  | .endPage => .ok s
  | .updateFont f => updateFont t f s
  | .drawChar ev =>
    match s.font with
    | none => .ok s
    | some font =>
      if isWhitespace (charText t.charMap ev) then .ok s
      else
        match ev.font with
        | none => .ub "null pointer: no font in the graphics state"
        | some f => place ev.clip (fun n r => .char (makeChar t.charMap font f ev n r)) s
  | .stroke points clip =>
    place clip (fun n r => .shape (shapeBox clip.round points n) r) s
  | .drawGraphic ctm clip =>
    match graphicBox clip.round ctm with
    | none => .ok s
    | some b => place clip (fun n r => .graphic { b with pageNum := n } r) s

/-- A sequence of events.  Models Poppler calling the methods of `/repo/src/PdfParsing.cpp`. -/
def run (t : Tables) (s : State) : List Event → Outcome State
  | [] => .ok s
  | e :: es => (step t s e).bind fun s' => run t s' es

end Verif.Parsing
