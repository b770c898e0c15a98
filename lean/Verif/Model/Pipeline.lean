import Mathlib.Data.Nat.Pairing
import Verif.Model.Cli
import Verif.Model.Dehyphenation
import Verif.Model.Diacritics
import Verif.Model.ItemLabel
import Verif.Model.PageSegmentation
import Verif.Model.Roles
import Verif.Model.Scripts
import Verif.Model.Statistics
import Verif.Model.TextBlocks

/-!
# Model of the whole run: the stages of `/repo/src/PdfToTextPlusPlus.cpp` on one document

The stages are those of the other modules; this module only connects them, the way the modules of
the program work on the fields of one `PdfDocument`.  Pointers are numbers: a word of a page is its position in `page->words`, a
text line its rank, a block its position in `page->blocks`.
-/

namespace Verif.Pipeline

open Verif.Text Verif.Words Verif.TextLines
open Verif.PageSegmentation (PElem DocStats PageElems)
open Verif.ReadingOrder (RElem Role)
open Verif.Serialize (SChar SWord SLine SBlock SPage SDoc)
open Verif.Cli (Stage StageConfig Env)

/-- `PdfPageSegment`, `/repo/src/Types.h:956-997`: its elements, its box, its trim box (left, upper, right, lower) with the
initial values of `:977-980` and the ranks of its lines. -/
structure Segment where
  elements : List PElem
  pos : Box
  trim : ℚ × ℚ × ℚ × ℚ := (Math.dblMax, Math.dblMax, Math.dblMin, Math.dblMin)
  lines : List ℕ := []

/-- `PdfTextLine`, `/repo/src/Types.h:622-732`: the line, its base box (`:662-668`), the references to other lines, and what block
detection reads of its segment. -/
structure TextLine where
  line : Line
  base : Box := {}
  prevLine : Option ℕ
  nextLine : Option ℕ
  link : Link := {}
  seg : TextBlocks.Seg

/-- `PdfTextBlock`, `/repo/src/Types.h:744-805`, with its role (not initialised before the prediction). -/
structure TextBlock where
  block : TextBlocks.Block
  role : Role

/-- `PdfPage`, `/repo/src/Types.h:1005-1069`; figures, graphics and shapes are their boxes. -/
structure Page where
  pageNum : ℤ
  width : ℚ := 0
  height : ℚ := 0
  characters : List Glyph
  figures : List Box := []
  graphics : List Box := []
  shapes : List Box := []
  words : List Word := []
  segments : List Segment := []
  blocks : List TextBlock := []
  /-- `textLines`: ranks. -/
  textLines : List ℕ := []

/-- `PdfDocument`, `/repo/src/Types.h:1077-1138`; `lines` are the text lines by rank, `hyphens` the references set by
dehyphenation (by `wordUid`). -/
structure Document where
  pages : List Page := []
  stats : Statistics.Stats := {}
  fontInfos : Str → Option TextBlocks.FontInfo := fun _ => none
  lines : List TextLine := []
  hyphens : Dehyphenation.Flags := ⟨fun _ => none, fun _ => false⟩

/-- What is not part of the program: the routines of the C++ library, the composition of characters,
the character classes and the conversion to wide strings of the current locale, the neural network with the
words tensor (any outcome: number of columns and values), and the
content of uninitialised memory. -/
structure Lib where
  lines : LineLib
  seg : XYCut.Lib PElem
  order : XYCut.Lib RElem
  sortTop : List RElem → List RElem
  compose : List ℕ → Str
  classes : Roles.CharClasses
  wide : Str → List Char
  network : ℕ × List ℚ → List Roles.FPage → Outcome (ℕ × List (Option ℚ))
  uninitialised : Role

/-- Applying a step to every page, the loops over `doc->pages`, e.g. `/repo/src/WordsDetection.cpp:62-74`. -/
def mapPages (f : Page → Outcome Page) : List Page → Outcome (List Page)
  | [] => .ok []
  | p :: ps => (f p).bind fun p' => (mapPages f ps).bind fun ps' => .ok (p' :: ps')

/-! ### Statistics, diacritical marks, words -/

/-- Stage 3, `/repo/src/GlyphsStatisticsCalculation.cpp:46-95`. -/
def glyphStage (lib : Lib) (d : Document) : Outcome Document :=
  (Statistics.glyphStatistics lib.lines.hash d.stats (d.pages.map (·.characters))).bind fun s =>
    .ok { d with stats := s }

/-- Stage 4, `/repo/src/DiacriticalMarksMerging.cpp:54-215`. -/
def diacriticsStage (lib : Lib) (d : Document) : Outcome Document :=
  (mapPages (fun p => (Diacritics.processPage lib.compose p.characters).bind fun cs =>
    .ok { p with characters := cs }) d.pages).bind fun ps => .ok { d with pages := ps }

/-- Stage 5 for a page, `/repo/src/WordsDetection.cpp:56-74` (the active word left behind by the page before does not matter,
C22). -/
def wordsPage (lib : Lib) (p : Page) : Outcome Page :=
  (detectWords lib.lines.hash (Active.reset p.pageNum) p.pageNum p.characters).bind fun r =>
    .ok { p with words := mergeStackedMathSymbols r.1 }

/-- Stage 5, `/repo/src/WordsDetection.cpp:56-74`. -/
def wordsStage (lib : Lib) (d : Document) : Outcome Document :=
  (mapPages (wordsPage lib) d.pages).bind fun ps => .ok { d with pages := ps }

/-- Stage 6, `/repo/src/WordsStatisticsCalculation.cpp:55-143`. -/
def wordStatsStage (lib : Lib) (d : Document) : Outcome Document :=
  (Statistics.wordStatistics lib.lines.hash d.stats (d.pages.map (·.words))).bind fun s =>
    .ok { d with stats := s }

/-! ### Segmentation -/

/-- The statistics read by page segmentation. -/
def docStats (s : Statistics.Stats) : DocStats where
  avgCharWidth := s.avgCharWidth
  avgCharHeight := s.avgCharHeight
  mostFreqWordDistance := s.mostFreqWordDistance

/-- The elements of a page, `/repo/src/PageSegmentation.cpp:86-93`. -/
def pageElems (p : Page) : PageElems where
  words := p.words.mapIdx fun i w => ⟨.word, i, w.pos, w.rank⟩
  figures := p.figures.mapIdx fun i b => ⟨.figure, i, b, -1⟩
  graphics := p.graphics.mapIdx fun i b => ⟨.graphic, i, b, -1⟩
  shapes := p.shapes.mapIdx fun i b => ⟨.shape, i, b, -1⟩

/-- Stage 7 for a page, `/repo/src/PageSegmentation.cpp:82-127`: appends to `page->segments`. -/
def segmentPage (lib : Lib) (s : Statistics.Stats) (p : Page) : Page :=
  { p with segments := p.segments ++
      (PageSegmentation.processPage (docStats s) lib.seg (pageElems p)).map fun g =>
        { elements := g.elements, pos := g.pos } }

/-- Stage 7, `/repo/src/PageSegmentation.cpp:62-79`. -/
def segmentationStage (lib : Lib) (d : Document) : Outcome Document :=
  .ok { d with pages := d.pages.map (segmentPage lib d.stats) }

/-! ### Text lines -/

/-- The numbers of the words of a segment, `/repo/src/TextLinesDetection.cpp:101-108`. -/
def Segment.wordIds (s : Segment) : List ℕ := (s.elements.filter fun e => e.kind = .word).map (·.uid)

/-- The words of a segment, `/repo/src/TextLinesDetection.cpp:101-108`. -/
def Segment.words (page : List Word) (s : Segment) : List Word := s.wordIds.filterMap (page[·]?)

/-- The fields of a segment that block detection reads. -/
def Segment.seg (s : Segment) : TextBlocks.Seg where
  pos := s.pos
  trimLeftX := s.trim.1
  trimUpperY := s.trim.2.1
  trimRightX := s.trim.2.2.1
  trimLowerY := s.trim.2.2.2

/-- The body of the loop over the segments, `/repo/src/TextLinesDetection.cpp:92-340`; `n` is `numLines`.  Segments without
words are skipped (`:110-113`). -/
def linesOfSegment (lib : Lib) (acw : ℚ) (page : List Word) (n : ℕ) (s : Segment) :
    Outcome (Segment × List TextLine) :=
  if (s.words page).isEmpty then .ok (s, [])
  else
    (segmentLines lib.lines acw page (s.words page)).bind fun gs =>
    (computeTrimBox lib.lines.hash s.pos (gs.flatten.map (·.pos))).bind fun trim =>
    let s' : Segment := { s with trim := trim, lines := s.lines ++ (linkGroups n gs).map (·.rank) }
    .ok (s', (linkGroups n gs).map fun l =>
      { line := l.line, prevLine := l.prevLine, nextLine := l.nextLine, seg := s'.seg })

/-- The loop over the segments of a page, `/repo/src/TextLinesDetection.cpp:92-340`. -/
def linesOfSegments (lib : Lib) (acw : ℚ) (page : List Word) : ℕ → List Segment →
    Outcome (List Segment × List TextLine)
  | _, [] => .ok ([], [])
  | n, s :: ss =>
    (linesOfSegment lib acw page n s).bind fun r =>
    (linesOfSegments lib acw page (n + r.2.length) ss).bind fun r' => .ok (r.1 :: r'.1, r.2 ++ r'.2)

/-- A reference to a line of the page as a rank. -/
def Link.shift (n : ℕ) (l : Link) : Link where
  parent := l.parent.map (· + n)
  prevSibling := l.prevSibling.map (· + n)
  nextSibling := l.nextSibling.map (· + n)

/-- `computeTextLineHierarchy(page)`, `/repo/src/TextLinesDetection.cpp:343`; `n` is the rank of the first line of the page. -/
def setHierarchy (acw : ℚ) (n : ℕ) (ls : List TextLine) : List TextLine :=
  let links := computeTextLineHierarchy (fun i => ((ls[i]?).map fun l => l.line.pos).getD {}) acw ls.length
  ls.mapIdx fun i l => { l with link := Link.shift n (links i) }

/-- Stage 8 for the pages, `/repo/src/TextLinesDetection.cpp:79-345`; `n` is `numLines`. -/
def linesPages (lib : Lib) (acw : ℚ) : ℕ → List Page → Outcome (List Page × List TextLine)
  | _, [] => .ok ([], [])
  | n, p :: ps =>
    (linesOfSegments lib acw p.words n p.segments).bind fun r =>
    (linesPages lib acw (n + r.2.length) ps).bind fun r' =>
      .ok ({ p with segments := r.1 } :: r'.1, setHierarchy acw n r.2 ++ r'.2)

/-- Stage 8, `/repo/src/TextLinesDetection.cpp:79-345`. -/
def linesStage (lib : Lib) (d : Document) : Outcome Document :=
  (linesPages lib d.stats.avgCharWidth 0 d.pages).bind fun r => .ok { d with pages := r.1, lines := r.2 }

/-- The first snippet, `/repo/src/PdfToTextPlusPlus.cpp:181-189`. -/
def linesFromSegments (d : Document) : Document :=
  { d with pages := d.pages.map fun p => { p with textLines := p.segments.flatMap (·.lines) } }

/-- Stage 9, `/repo/src/SubSuperScriptsDetection.cpp:48-104` (every line belongs to one segment). -/
def scriptsStage (d : Document) : Outcome Document :=
  .ok { d with lines := d.lines.map fun l =>
    let r := Scripts.scriptLine d.stats.mostFreqFontSize l.line
    { l with line := r.1, base := r.2 } }

/-- The lines of a segment with their base boxes. -/
def basedLines (d : Document) (s : Segment) : List Statistics.BasedLine :=
  s.lines.filterMap fun i => (d.lines[i]?).map fun l => (l.line, l.base)

/-- Stage 10, `/repo/src/TextLinesStatisticsCalculation.cpp:53-125`. -/
def lineStatsStage (lib : Lib) (d : Document) : Outcome Document :=
  (Statistics.lineStatistics lib.lines d.stats (d.pages.flatMap fun p => p.segments.map (basedLines d))).bind fun s =>
    .ok { d with stats := s }

/-! ### Text blocks -/

/-- What block detection reads, `/repo/src/TextBlocksDetection.cpp`; figures of a page: `:335`. -/
def blocksDoc (lib : Lib) (d : Document) : TextBlocks.Doc where
  line i := ((d.lines[i]?).map (·.line)).getD { words := [] }
  link i := ((d.lines[i]?).map (·.link)).getD {}
  seg i := ((d.lines[i]?).map (·.seg)).getD {}
  figures pn := ((d.pages[pn.toNat - 1]?).map (·.figures)).getD []
  avgCharWidth := d.stats.avgCharWidth
  mostFreqWordHeight := d.stats.mostFreqWordHeight
  mostFreqLineDistance := d.stats.mostFreqLineDistance
  lineDistancePerFontSize := d.stats.mostFreqLineDistancePerFontSize
  fontInfos := d.fontInfos
  mostFreqFontName := d.stats.mostFreqFontName
  mostFreqFontSize := d.stats.mostFreqFontSize
  matchesItemRegex := ItemLabel.matchesItemRegex

/-- What block detection changes: the links between the lines (the margins are 0 at first, `/repo/src/Types.h:679-683`). -/
def blocksState (d : Document) : TextBlocks.State where
  prevLine i := (d.lines[i]?).bind (·.prevLine)
  nextLine i := (d.lines[i]?).bind (·.nextLine)

/-- Stage 11, `/repo/src/TextBlocksDetection.cpp:75-176`, on a document without blocks.  (The changed links and margins are not read by
later stages and not kept.) -/
def blocksStage (lib : Lib) (d : Document) : Outcome Document :=
  (TextBlocks.process lib.lines.hash (blocksDoc lib d) (blocksState d)
    (d.pages.map fun p => p.segments.map (·.lines))).bind fun r =>
  .ok { d with pages := List.zipWith (fun (p : Page) bs =>
    { p with blocks := p.blocks ++ bs.map fun b => ⟨b, lib.uninitialised⟩ }) d.pages r.2 }

/-! ### Roles and reading order -/

/-- The texts of the words of a block, `/repo/src/SemanticRolesPrediction.cpp:337-341`. -/
def blockWords (d : Document) (b : TextBlock) : List Word :=
  b.block.lines.flatMap fun i => ((d.lines[i]?).map fun l => l.line.words).getD []

/-- What the prediction reads of a page, `/repo/src/SemanticRolesPrediction.cpp:171-371`. -/
def featurePage (lib : Lib) (d : Document) (p : Page) : Roles.FPage where
  width := p.width
  height := p.height
  blocks := p.blocks.map fun b =>
    { pos := b.block.pos, fontName := b.block.fontName, fontSize := b.block.fontSize
      text := lib.wide b.block.text, words := (blockWords d b).map fun w => lib.wide w.text }

/-- The roles of the blocks of all pages, `/repo/src/SemanticRolesPrediction.cpp:130-168`.  (Simplification: a
role number without enumerator is not followed any further.) -/
def predictRoles (lib : Lib) (d : Document) : Outcome (List Role) :=
  let pages := d.pages.map (featurePage lib d)
  (Roles.layoutTensor lib.classes (fun f => (d.fontInfos f).map fun i => (i.weight, i.isItalic)) pages).bind fun t =>
  (lib.network t pages).bind fun out =>
  (Roles.predict out.2 out.1 (d.pages.flatMap (·.blocks)).length).bind fun rs =>
  if rs.all Option.isSome then .ok (rs.map fun r => r.getD .other) else .ub "role number without enumerator"

/-- `block->role = ...` for the blocks of the pages in order, `/repo/src/SemanticRolesPrediction.cpp:151-167`. -/
def assignRoles : List Page → List Role → List Page
  | [], _ => []
  | p :: ps, rs =>
    { p with blocks := List.zipWith (fun b r => { b with role := r }) p.blocks (rs.take p.blocks.length) } ::
      assignRoles ps (rs.drop p.blocks.length)

/-- The blocks as elements, `/repo/src/ReadingOrderDetection.cpp:101-106`. -/
def orderElems (p : Page) : ReadingOrder.Page where
  blocks := p.blocks.mapIdx fun i b => .block i b.role b.block.pos
  figures := p.figures.mapIdx fun i b => .figure i b
  shapes := p.shapes.mapIdx fun i b => .shape i b

/-- The block an element stands for. -/
def blockOf (blocks : List TextBlock) : RElem → Option TextBlock
  | .block i _ _ => blocks[i]?
  | _ => none

/-- The new `page->blocks`, `/repo/src/ReadingOrderDetection.cpp:140-153`. -/
def orderPage (lib : Lib) (s : Statistics.Stats) (p : Page) : Page :=
  { p with blocks := (ReadingOrder.pageOrder ⟨s.avgCharWidth, s.avgCharHeight⟩ lib.order lib.sortTop
      (orderElems p).blocks (orderElems p).figures (orderElems p).shapes).filterMap (blockOf p.blocks) }

/-- Stage 12, `/repo/src/ReadingOrderDetection.cpp:65-155`. -/
def orderStage (lib : Lib) (d : Document) : Outcome Document :=
  (predictRoles lib d).bind fun rs =>
    .ok { d with pages := (assignRoles d.pages rs).map (orderPage lib d.stats) }

/-! ### Output -/

/-- The object number of the word with position `i` on the page with position `k`. -/
def wordUid (k : ℕ) (w : Word) : ℕ := Nat.pair k w.rank.toNat

/-- A character as the serializers see it. -/
def toSChar (c : Glyph) : SChar where
  rank := c.rank
  pos := c.pos
  fontName := c.fontName
  fontSize := c.fontSize
  text := c.text
  withMark := c.textWithMark
  isBase := c.baseOf.isSome
  isMark := c.markOf.isSome

/-- A word as dehyphenation and the serializers see it. -/
def toSWord (h : Dehyphenation.Flags) (k : ℕ) (w : Word) : SWord where
  uid := wordUid k w
  rank := w.rank
  pos := w.pos
  fontName := w.fontName
  fontSize := w.fontSize
  text := w.text
  chars := w.chars.map toSChar
  first := h.first (wordUid k w)
  second := h.second (wordUid k w)

/-- A block as dehyphenation and the serializers see it. -/
def toSBlock (d : Document) (k : ℕ) (b : TextBlock) : SBlock where
  rank := b.block.rank
  pos := b.block.pos
  fontName := b.block.fontName
  fontSize := b.block.fontSize
  text := b.block.text
  role := b.role
  isEmphasized := b.block.isEmphasized
  lines := b.block.lines.map fun i =>
    ⟨(((d.lines[i]?).map fun l => l.line.words).getD []).map (toSWord d.hyphens k)⟩

/-- A page as dehyphenation and the serializers see it; `k` is its position.  Figures keep the rank they are created with
(`/repo/src/PdfParsing.cpp:564-576`, `/repo/src/Types.h:377`).  Simplified: the ranks of shapes are left out. -/
def toSPage (d : Document) (k : ℕ) (p : Page) : SPage where
  pageNum := p.pageNum
  blocks := p.blocks.map (toSBlock d k)
  figures := p.figures.map fun b => { rank := -1, pos := b }
  shapes := p.shapes.map fun b => { pos := b }

/-- The document as dehyphenation and the serializers see it. -/
def toSDoc (d : Document) : SDoc where
  pages := d.pages.mapIdx (toSPage d)
  fontInfos f := (d.fontInfos f).map fun i => { weight := ⌊i.weight⌋, isItalic := i.isItalic }

/-- Stage 13, `/repo/src/WordsDehyphenation.cpp:37-80`. -/
def dehyphenationStage (d : Document) : Outcome Document :=
  .ok { d with hyphens :=
    ((Dehyphenation.allLines (toSDoc d)).foldl Dehyphenation.step (d.hyphens, none)).1 }

/-- The second snippet, `/repo/src/PdfToTextPlusPlus.cpp:255-263`. -/
def linesFromBlocks (d : Document) : Document :=
  { d with pages := d.pages.map fun p => { p with textLines := p.blocks.flatMap (·.block.lines) } }

/-- The stages, `/repo/src/PdfToTextPlusPlus.cpp:107-253`. -/
def stage (lib : Lib) : Stage → Document → Outcome Document
  | .glyphStatistics => glyphStage lib
  | .diacritics => diacriticsStage lib
  | .words => wordsStage lib
  | .wordStatistics => wordStatsStage lib
  | .segmentation => segmentationStage lib
  | .lines => linesStage lib
  | .scripts => scriptsStage
  | .lineStatistics => lineStatsStage lib
  | .blocks => blocksStage lib
  | .readingOrder => orderStage lib
  | .dehyphenation => dehyphenationStage

/-- The environment of `process`, `/repo/src/PdfToTextPlusPlus.cpp:72-267`, with these stages; loading, parsing and the clock are
parameters (the parser is modelled in `Verif.Model.Parsing`). -/
def env (lib : Lib) (loadError : Option ℤ) (parse : StageConfig → Bool → Document → Outcome Document)
    (duration : ℕ → ℕ) : Env Document where
  loadError := loadError
  parse := parse
  stage st _ _ := stage lib st
  linesFromSegments := linesFromSegments
  linesFromBlocks := linesFromBlocks
  duration := duration

end Verif.Pipeline
