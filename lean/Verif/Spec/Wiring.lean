import Verif.Model.Pipeline
import Verif.Spec.Frequency
import Verif.Spec.Statistics

/-!
# Specification of the finished document

What a user of the library finds in a `PdfDocument` after a run, read off the document alone: references between the
elements, statistics, the input of the stages.
-/

namespace Verif.Spec

open Verif.Math Verif.Elements Verif.Pipeline Verif.Words Verif.TextLines

/-- The numbers of the text lines of a page, in order. -/
def lineNumbers (p : Page) : List ℕ := p.segments.flatMap (·.lines)

/-- The line with number `i` has the properties `P`. -/
def AtLine (d : Document) (i : ℕ) (P : TextLine → Prop) : Prop := ∃ l, d.lines[i]? = some l ∧ P l

/-- The place of a line in the hierarchy. -/
def lineLink (d : Document) (i : ℕ) : Link := ((d.lines[i]?).map (·.link)).getD {}

/-- The box of a line. -/
def lineBox (d : Document) (i : ℕ) : Box := ((d.lines[i]?).map fun l => l.line.pos).getD {}

/-- The text lines of a segment: numbered consecutively; every line refers to its neighbours in the segment or to nothing, and the references of
neighbours agree; if all words of the segment have the same rotation, then all of its lines are linked; every line knows its segment; the trim box of the segment has the edges of the segment, except for the right one: this is the
most frequent right edge of the lines (rounded), if at least half of the lines have it. -/
structure SegmentInOrder (d : Document) (p : Page) (s : Segment) : Prop where
  numbers : ∃ n m, s.lines = List.range' n m
  prev : ∀ i ∈ s.lines, AtLine d i fun l => l.prevLine = none ∨ (0 < i ∧ i - 1 ∈ s.lines ∧ l.prevLine = some (i - 1))
  next : ∀ i ∈ s.lines, AtLine d i fun l => l.nextLine = none ∨ (i + 1 ∈ s.lines ∧ l.nextLine = some (i + 1))
  agree : ∀ i ∈ s.lines, i + 1 ∈ s.lines → AtLine d i fun l => AtLine d (i + 1) fun l' =>
    (l.nextLine = some (i + 1) ∧ l'.prevLine = some i) ∨ (l.nextLine = none ∧ l'.prevLine = none)
  linked : ∀ r, (∀ e ∈ s.elements, e.kind = .word → ∀ w, p.words[e.uid]? = some w → w.pos.rotation = r) → ∀ i ∈ s.lines, i + 1 ∈ s.lines →
    AtLine d i (fun l => l.nextLine = some (i + 1)) ∧ AtLine d (i + 1) (fun l => l.prevLine = some i)
  owner : ∀ i ∈ s.lines, AtLine d i fun l => l.seg = ⟨s.pos, s.trim.1, s.trim.2.1, s.trim.2.2.1, s.trim.2.2.2⟩
  trim : s.lines ≠ [] → s.lines.length < 2 ^ 32 → ∃ r m, s.trim = (s.pos.leftX, s.pos.upperY, r, s.pos.lowerY) ∧
    IsMostFrequent (s.lines.map fun i => roundTo (lineBox d i).getRotRightX 0) m ∧
    r = if 1 / 2 - tol ≤ (occurrences (s.lines.map fun i => roundTo (lineBox d i).getRotRightX 0) m : ℚ) / s.lines.length then m else s.pos.rightX

/-- The hierarchy of the text lines of a page (`w` is the average character width of the document). -/
structure HierarchyInOrder (d : Document) (w : ℚ) (p : Page) : Prop where
  /-- A parent is an earlier line of the same page that ends higher up. -/
  parent : ∀ i ∈ lineNumbers p, ∀ q, (lineLink d i).parent = some q → q ∈ lineNumbers p ∧ q < i ∧ (lineBox d q).lowerY < (lineBox d i).lowerY
  /-- Siblings refer to each other; they are on the same page. -/
  siblings : ∀ i ∈ lineNumbers p, ∀ j ∈ lineNumbers p, (lineLink d i).nextSibling = some j ↔ (lineLink d j).prevSibling = some i
  next : ∀ i ∈ lineNumbers p, ∀ j, (lineLink d i).nextSibling = some j → j ∈ lineNumbers p
  prev : ∀ j ∈ lineNumbers p, ∀ i, (lineLink d j).prevSibling = some i → i ∈ lineNumbers p ∧ i < j ∧
    (lineLink d i).parent = (lineLink d j).parent ∧ |(lineBox d i).leftX - (lineBox d j).leftX| ≤ w ∧ (lineBox d i).lowerY < (lineBox d j).lowerY - 1 / 10
  /-- A line without previous sibling is more indented than its parent. -/
  indent : ∀ i ∈ lineNumbers p, ∀ q, (lineLink d i).parent = some q → (lineLink d i).prevSibling = none → (lineBox d q).leftX < (lineBox d i).leftX - w
  /-- A large vertical distance to the line before ends the hierarchy. -/
  distance : ∀ i ∈ lineNumbers p, i + 1 ∈ lineNumbers p → (lineBox d i).rotation = (lineBox d (i + 1)).rotation → (lineBox d i).wMode = (lineBox d (i + 1)).wMode →
    10 + 1 / 10 < |computeVerticalGap (lineBox d i) (lineBox d (i + 1))| → (lineLink d (i + 1)).parent = none ∧ (lineLink d (i + 1)).prevSibling = none
  /-- Where the lines of the page follow each other downwards, a line is the sibling of the line before (if it starts at the same position) or its child (if it is
  indented). -/
  consecutive : 0 ≤ w → (∀ j ∈ lineNumbers p, ∀ k ∈ lineNumbers p, j < k → (lineBox d j).lowerY < (lineBox d k).lowerY - 1 / 10) →
    ∀ i ∈ lineNumbers p, i + 1 ∈ lineNumbers p → |computeVerticalGap (lineBox d i) (lineBox d (i + 1))| ≤ 10 + 1 / 10 →
    (|(lineBox d i).leftX - (lineBox d (i + 1)).leftX| ≤ w → (lineLink d (i + 1)).prevSibling = some i ∧ (lineLink d i).nextSibling = some (i + 1) ∧
      (lineLink d (i + 1)).parent = (lineLink d i).parent) ∧
    ((lineBox d i).leftX < (lineBox d (i + 1)).leftX - w → (lineLink d (i + 1)).parent = some i)

/-- Block detection works on this document: it sees the lines with their references (`S`), the hierarchy and the segments, the figures of the pages, the statistics and the
fonts, and knows no labels yet. -/
structure SeesDocument (d : Document) (V : TextBlocks.Doc) (S : TextBlocks.State) : Prop where
  line : ∀ (i : ℕ) (l : TextLine), d.lines[i]? = some l → V.line i = l.line ∧ V.link i = l.link ∧ V.seg i = l.seg ∧ S.prevLine i = l.prevLine ∧ S.nextLine i = l.nextLine
  figures : ∀ (k : ℕ) (p : Page), d.pages[k]? = some p → V.figures (k + 1) = p.figures
  statistics : V.avgCharWidth = d.stats.avgCharWidth ∧ V.mostFreqWordHeight = d.stats.mostFreqWordHeight ∧ V.mostFreqLineDistance = d.stats.mostFreqLineDistance ∧
    V.lineDistancePerFontSize = d.stats.mostFreqLineDistancePerFontSize ∧ V.mostFreqFontName = d.stats.mostFreqFontName ∧ V.mostFreqFontSize = d.stats.mostFreqFontSize
  fonts : V.fontInfos = d.fontInfos
  fresh : S.labels = []

/-- The line with number `i`. -/
def lineAtRank (d : Document) (i : ℕ) : Line := ((d.lines[i]?).map (·.line)).getD { words := [] }

/-- The usual distance between two lines of a font size in the document: the most frequent one among the lines of this size, but at least the
most frequent one in the document. -/
def usualGap (d : Document) (fontSize : ℚ) : ℚ :=
  max (max 0 ((d.stats.mostFreqLineDistancePerFontSize fontSize).getD 0)) d.stats.mostFreqLineDistance

/-- What is printed of a word of the page with position `k`: nothing, if it is the second part of a hyphenated word, the joined word, if it is the first part, and otherwise its
characters. -/
def printedWord (d : Document) (k : ℕ) (w : Word) : Option Text.Str :=
  if d.hyphens.second (wordUid k w) then none
  else some ((d.hyphens.first (wordUid k w)).getD ((w.chars.filter fun c => c.baseOf.isSome || c.markOf.isNone).flatMap fun c =>
    if c.baseOf.isSome then c.textWithMark else c.text))

/-- What is printed of a block: its words, separated by blanks. -/
def printedText (d : Document) (k : ℕ) (b : TextBlock) : Text.Str :=
  [' '].intercalate ((b.block.lines.flatMap fun i => (lineAtRank d i).words).filterMap (printedWord d k))

/-- The blocks of a document in order, with the position of their page. -/
def blocksInOrder (d : Document) : List (ℕ × TextBlock) := (d.pages.mapIdx fun k p => p.blocks.map fun b => (k, b)).flatten

/-- A detected block as the prediction of its role sees it. -/
def featuresOf (wide : Text.Str → List Char) (d : Document) (b : TextBlocks.Block) : Roles.FBlock where
  pos := b.pos
  fontName := b.fontName
  fontSize := b.fontSize
  text := wide b.text
  words := (b.lines.flatMap fun i => (lineAtRank d i).words).map fun w => wide w.text

end Verif.Spec
