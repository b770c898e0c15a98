import Verif.Model.Cli
import Verif.Model.XYCut
import Verif.Model.Pipeline

/-!
# Model of `/repo/src/PdfDocumentVisualization.cpp`

Drawing an annotation (poppler's `addAnnot` and `draw`) is modelled by appending it to a list.  Poppler's table of the PDF document
encoding is a parameter.  Loading and saving the file and the lifetime of the objects are not modelled.
-/

namespace Verif.Visualization

open Verif.Text Verif.Math Verif.Elements
open Verif.ReadingOrder (Role)
open Verif.XYCut (CutDir)

/-- `AnnotColor` (red, green, blue), `/repo/src/PdfDocumentVisualization.h:64-75`. -/
abbrev Color := ℚ × ℚ × ℚ

/-- `ColorScheme`, `/repo/src/PdfDocumentVisualization.h:43-56` (the tertiary color is never used). -/
structure Scheme where
  primary : Color
  secondary : Color
deriving DecidableEq

/-- `color_schemes::red`, `/repo/src/PdfDocumentVisualization.h:64-65,83`. -/
def red : Scheme := ⟨(1, 0, 0), (1, 1 / 2, 1 / 2)⟩

/-- `color_schemes::blue`, `/repo/src/PdfDocumentVisualization.h:70-71,85`. -/
def blue : Scheme := ⟨(0, 0, 1), (1 / 2, 1 / 2, 1)⟩

/-- `color_schemes::gray`, `/repo/src/PdfDocumentVisualization.h:73-74,86`. -/
def gray : Scheme := ⟨(7 / 10, 7 / 10, 7 / 10), (8 / 10, 8 / 10, 8 / 10)⟩

/-- Poppler's `PDFRectangle`, in the coordinate system of the PDF page (origin at the lower left), e.g.
`/repo/src/PdfDocumentVisualization.cpp:394`. -/
structure Rect where
  x1 : ℚ
  y1 : ℚ
  x2 : ℚ
  y2 : ℚ
deriving DecidableEq

/-- The annotations: `AnnotGeometry` with the colors of the border and of the interior, `AnnotLine` with its vertices, width and
color, `AnnotFreeText` with its contents and appearance; e.g. `/repo/src/PdfDocumentVisualization.cpp:397,427,471,505`. -/
inductive Mark where
  | square (rect : Rect) (color : Color) (interior : Option Color)
  | circle (rect : Rect) (color : Color) (interior : Option Color)
  | line (x1 y1 x2 y2 : ℚ) (width : ℚ) (color : Color)
  | text (rect : Rect) (appearance : Str) (contents : List ℕ)
deriving DecidableEq

/-- An annotation and the page to which it is added, e.g. `/repo/src/PdfDocumentVisualization.cpp:404`. -/
structure Annot where
  page : ℤ
  mark : Mark
deriving DecidableEq

/-- The PDF file to which the annotations are added: number of pages and the heights of their media boxes;
poppler's table `pdfDocEncoding`; `/repo/src/PdfDocumentVisualization.cpp:63,386,677`. -/
structure Pdf where
  numPages : ℕ
  mediaHeight : ℤ → ℚ
  encoding : ℕ → ℕ

/-- `_pdfDoc->getPage(pageNum)` and `_gfxs[pageNum]`: outside of the document the former is a null pointer (it is used to get the
media height), `/repo/src/PdfDocumentVisualization.cpp:380-381`. -/
def Pdf.height (pdf : Pdf) (pageNum : ℤ) : Outcome ℚ :=
  if 1 ≤ pageNum ∧ pageNum ≤ pdf.numPages then .ok (pdf.mediaHeight pageNum) else .ub "page does not exist"

/-- A loop drawing something for each element, e.g. `/repo/src/PdfDocumentVisualization.cpp:262-267`. -/
def drawAll {α : Type} (f : α → Outcome (List Annot)) : List α → Outcome (List Annot)
  | [] => .ok []
  | a :: as => (f a).bind fun x => (drawAll f as).bind fun y => .ok (x ++ y)

/-- The rectangle of a box on a page of the given height, `/repo/src/PdfDocumentVisualization.cpp:385-394` (and `353-361`). -/
def boxRect (height : ℚ) (b : Box) : Rect :=
  let leftX := b.leftX
  let upperY := height - b.lowerY
  let rightX := b.rightX
  let lowerY := height - b.upperY
  let rightX := if smaller |leftX - rightX| 1 tol then rightX + 1 else rightX
  let lowerY := if smaller |upperY - lowerY| 1 tol then lowerY + 1 else lowerY
  ⟨leftX, upperY, rightX, lowerY⟩

/-- `drawBoundingBox`, `/repo/src/PdfDocumentVisualization.cpp:378-406`. -/
def drawBoundingBox (pdf : Pdf) (cs : Scheme) (b : Box) : Outcome (List Annot) :=
  (pdf.height b.pageNum).bind fun h => .ok [⟨b.pageNum, .square (boxRect h b) cs.primary none⟩]

/-- `convertToUtf16`, `/repo/src/PdfDocumentVisualization.cpp:668-685`.  (The length is an `int`; the texts drawn here are short.) -/
def convertToUtf16 (pdf : Pdf) (s : Str) : List ℕ :=
  [0xfe, 0xff] ++ s.flatMap fun c =>
    let u := pdf.encoding (c.toNat % 256) % 65536
    [u / 256 % 256, u % 256]

/-- `_config.semanticRoleAppearance`, `/repo/src/Config.h:750`. -/
def roleAppearance : Str := "/Helv 7 Tf 0 0 1 rg".toList

/-- `_config.readingOrderIndexAppearance` and `_config.cutIndexAppearance`, `/repo/src/Config.h:759,765`. -/
def indexAppearance : Str := "/Helv 7 Tf 1 1 1 rg".toList

/-- `_config.cutIdAppearance`, `/repo/src/Config.h:771`. -/
def cutIdAppearance : Str := "/Helv 6 Tf .7 .7 .7 rg".toList

/-- One step of `drawTextBlockSemanticRoles`, `/repo/src/PdfDocumentVisualization.cpp:409-442`. -/
def drawRole (pdf : Pdf) (b : Box × Role) : Outcome (List Annot) :=
  (pdf.height b.1.pageNum).bind fun h =>
    let leftX := b.1.leftX
    let lowerY := h - b.1.upperY
    .ok [⟨b.1.pageNum, .text ⟨leftX, lowerY, leftX + 100, lowerY + 7⟩ roleAppearance
      (convertToUtf16 pdf (Serialize.roleName b.2))⟩]

/-- `drawReadingOrderIndexCircle`, `/repo/src/PdfDocumentVisualization.cpp:500-544`; the radius is 5, `/repo/src/Config.h:756`. -/
def indexCircle (pdf : Pdf) (cs : Scheme) (page : ℤ) (x y : ℚ) (index : ℕ) : List Annot :=
  let radius : ℚ := 5
  [⟨page, .circle ⟨x - radius, y - radius, x + radius, y + radius⟩ cs.primary (some cs.primary)⟩,
   ⟨page, .text ⟨x - radius, y - radius, x + radius, y + radius * (6 / 10)⟩ indexAppearance
     (convertToUtf16 pdf (Nat.repr index).toList)⟩]

/-- The midpoint of a block, `/repo/src/PdfDocumentVisualization.cpp:455-468`. -/
def midpoint (height : ℚ) (b : Box) : ℚ × ℚ :=
  let minY := height - b.lowerY
  let maxY := height - b.upperY
  (b.leftX + (b.rightX - b.leftX) / 2, minY + (maxY - minY) / 2)

/-- `drawReadingOrder`, `/repo/src/PdfDocumentVisualization.cpp:445-497`: `i` is the loop variable, `prev` the block before; the line
width is 4, `/repo/src/Config.h:753`. -/
def orderLoop (pdf : Pdf) (cs : Scheme) : ℕ → Box → List Box → Outcome (List Annot)
  | _, _, [] => .ok []
  | i, prev, curr :: rest =>
    (pdf.height curr.pageNum).bind fun h =>
      let p := midpoint h prev
      let c := midpoint h curr
      let drawn := [(⟨curr.pageNum, .line p.1 p.2 c.1 c.2 4 cs.secondary⟩ : Annot)] ++
        indexCircle pdf cs curr.pageNum p.1 p.2 i ++
        (if rest.isEmpty then indexCircle pdf cs curr.pageNum c.1 c.2 (i + 1) else [])
      (orderLoop pdf cs (i + 1) curr rest).bind fun y => .ok (drawn ++ y)

/-- `drawReadingOrder`, `/repo/src/PdfDocumentVisualization.cpp:445-497`. -/
def drawReadingOrder (pdf : Pdf) (cs : Scheme) : List Box → Outcome (List Annot)
  | [] => .ok []
  | b :: bs => orderLoop pdf cs 1 b bs

/-- `Cut`, `/repo/src/Types.h:1148-1269`, as far as it is drawn. -/
structure DrawnCut where
  id : Str
  dir : CutDir
  pageNum : ℤ
  x1 : ℚ
  y1 : ℚ
  x2 : ℚ
  y2 : ℚ
  isChosen : Bool

/-- The loop of `drawCuts`, `/repo/src/PdfDocumentVisualization.cpp:547-665`; `k` is `chosenCutIndex`.  Line width 2 and radius 5:
`/repo/src/Config.h:762,768`. -/
def cutsLoop (pdf : Pdf) (cs : Scheme) : ℕ → List DrawnCut → Outcome (List Annot)
  | _, [] => .ok []
  | k, cut :: cuts =>
    let cos := if cut.isChosen then cs else gray
    (pdf.height cut.pageNum).bind fun h =>
      let x1 := cut.x1
      let y1 := h - cut.y1
      let x2 := cut.x2
      let y2 := h - cut.y2
      let radius : ℚ := 5
      let line : Annot := ⟨cut.pageNum, .line x1 y1 x2 y2 2 cos.primary⟩
      let index : List Annot := if cut.isChosen then
          [⟨cut.pageNum, .square ⟨x1 - radius, y1 - radius, x1 + radius, y1 + radius⟩ cos.secondary (some cos.secondary)⟩,
           ⟨cut.pageNum, .text ⟨x1 - radius, y1 - radius, x1 + radius, y1 + radius * (6 / 10)⟩ indexAppearance
             (convertToUtf16 pdf (Nat.repr (k + 1)).toList)⟩]
        else []
      let minX := if cut.dir = .x then x2 - 20 / 2 else x2 - 20
      let minY := if cut.dir = .x then y2 - 10 else y2
      let id : Annot := ⟨cut.pageNum, .text ⟨minX, minY, minX + 20, minY + 10⟩ cutIdAppearance (convertToUtf16 pdf cut.id)⟩
      (cutsLoop pdf cs (if cut.isChosen then k + 1 else k) cuts).bind fun y => .ok (line :: index ++ [id] ++ y)

/-- `drawCuts`, `/repo/src/PdfDocumentVisualization.cpp:547-665`. -/
def drawCuts (pdf : Pdf) (cs : Scheme) (cuts : List DrawnCut) : Outcome (List Annot) := cutsLoop pdf cs 0 cuts

/-- A page segment as it is drawn: its box, the boxes of its lines and of its preliminary blocks; `/repo/src/Types.h:956-997`. -/
structure DrawnSegment where
  pos : Box
  lines : List Box := []
  blocks : List Box := []

/-- A page as it is drawn; `/repo/src/Types.h:1005-1069`. -/
structure DrawnPage where
  characters : List Box := []
  figures : List Box := []
  shapes : List Box := []
  graphics : List Box := []
  words : List Box := []
  segments : List DrawnSegment := []
  blocks : List (Box × Role) := []
  segmentCuts : List DrawnCut := []
  orderCuts : List DrawnCut := []

/-- One step of `drawPageSegmentBoundingBoxes`, `/repo/src/PdfDocumentVisualization.cpp:318-375`: the preliminary blocks are drawn on the
page of the segment, in red. -/
def drawSegment (pdf : Pdf) (cs : Scheme) (s : DrawnSegment) : Outcome (List Annot) :=
  (drawBoundingBox pdf cs s.pos).bind fun x =>
    (drawAll (fun b => drawBoundingBox pdf red { b with pageNum := s.pos.pageNum }) s.blocks).bind fun y => .ok (x ++ y)

/-- `visualizeTextBlocks` for a page, `/repo/src/PdfDocumentVisualization.cpp:178-191`. -/
def drawBlocks (pdf : Pdf) (cs : Scheme) (p : DrawnPage) : Outcome (List Annot) :=
  (drawAll (fun b => drawBoundingBox pdf cs b.1) p.blocks).bind fun x => (drawAll (drawRole pdf) p.blocks).bind fun y => .ok (x ++ y)

/-- What an option `--visualize-...` draws on a page: the methods `visualize...`, `/repo/src/PdfDocumentVisualization.cpp:93-251`,
with the color schemes of `/repo/src/pdftotext++.cpp:725-757`. -/
def drawKind (pdf : Pdf) (kind : String) (p : DrawnPage) : Outcome (List Annot) :=
  match kind with
  | "visualize-characters" => drawAll (drawBoundingBox pdf blue) p.characters
  | "visualize-figures" => drawAll (drawBoundingBox pdf blue) p.figures
  | "visualize-shapes" => drawAll (drawBoundingBox pdf blue) p.shapes
  | "visualize-graphics" => drawAll (drawBoundingBox pdf blue) p.graphics
  | "visualize-words" => drawAll (drawBoundingBox pdf blue) p.words
  | "visualize-text-lines" => drawAll (fun s => drawAll (drawBoundingBox pdf blue) s.lines) p.segments
  | "visualize-text-blocks" => drawBlocks pdf red p
  | "visualize-segments" => drawAll (drawSegment pdf blue) p.segments
  | "visualize-reading-order" =>
    (drawBlocks pdf blue p).bind fun x => (drawReadingOrder pdf blue (p.blocks.map (·.1))).bind fun y => .ok (x ++ y)
  | "visualize-segment-cuts" => drawCuts pdf blue p.segmentCuts
  | "visualize-reading-order-cuts" => drawCuts pdf blue p.orderCuts
  | _ => .ok []

/-- The annotations added to the file: for each requested kind, for each page; `/repo/src/pdftotext++.cpp:720-758`.  The kinds are those
given on the command line in the order in which they are looked at (`Cli.Args.visualize`). -/
def visualize (pdf : Pdf) (kinds : List String) (pages : List DrawnPage) : Outcome (List Annot) :=
  drawAll (fun kind => drawAll (drawKind pdf kind) pages) kinds

/-! ### The pages of a processed document -/

/-- A cut computed by the XY-cut algorithm with its random id, `/repo/src/utils/XYCut.cpp:165-188, 267-281`. -/
def drawnCut {α : Type} (id : XYCut.Cut α → Str) (c : XYCut.Cut α) : DrawnCut :=
  ⟨id c, c.dir, c.pageNum, c.x1, c.y1, c.x2, c.y2, c.isChosen⟩

/-- `page->blockDetectionCuts`, `/repo/src/PageSegmentation.cpp:112-120`. -/
def segmentationCuts (doc : PageSegmentation.DocStats) (lib : XYCut.Lib PageSegmentation.PElem) (page : PageSegmentation.PageElems) :
    List (XYCut.Cut PageSegmentation.PElem) :=
  (XYCut.xyCut (PageSegmentation.params doc lib) (PageSegmentation.pageElements page)).2

/-- `page->readingOrderCuts`, `/repo/src/ReadingOrderDetection.cpp:122-138`. -/
def readingOrderCuts (st : ReadingOrder.Stats) (lib : XYCut.Lib ReadingOrder.RElem) (elements : List ReadingOrder.RElem) :
    List (XYCut.Cut ReadingOrder.RElem) :=
  let x := elements.foldl ReadingOrder.Extent.add {}
  let r := XYCut.xCut ReadingOrder.RElem.pos lib ReadingOrder.minXCutGapWidth 0 (ReadingOrder.choosePrimaryXCuts st x) elements
  r.cuts ++ r.groups.flatMap fun g =>
    let q := XYCut.yCut ReadingOrder.RElem.pos lib ReadingOrder.minYCutGapHeight (ReadingOrder.choosePrimaryYCuts st x) g
    q.cuts ++ q.groups.flatMap fun g' => (XYCut.xyCut (ReadingOrder.params lib) g').2

/-- A page of a processed document as it is drawn, `/repo/src/PdfDocumentVisualization.cpp:93-251`; the cuts and the preliminary blocks of
the segments, which `Pipeline.Page` leaves out, are given separately. -/
def drawnPage (d : Pipeline.Document) (prelim : Pipeline.Segment → List Box) (segmentCuts orderCuts : List DrawnCut) (p : Pipeline.Page) :
    DrawnPage where
  characters := p.characters.map (·.pos)
  figures := p.figures
  shapes := p.shapes
  graphics := p.graphics
  words := p.words.map (·.pos)
  segments := p.segments.map fun s => ⟨s.pos, s.lines.filterMap fun i => (d.lines[i]?).map (·.line.pos), prelim s⟩
  blocks := p.blocks.map fun b => (b.block.pos, b.role)
  segmentCuts := segmentCuts
  orderCuts := orderCuts

end Verif.Visualization
