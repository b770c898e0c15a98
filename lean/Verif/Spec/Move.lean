import Verif.Model.Pipeline

/-!
# Specification for C81: moving the contents of the pages

All coordinates are moved by the same amount, everything else stays as it is.
-/

namespace Verif.Spec

open Verif.Math Verif.Words Verif.TextLines Verif.Pipeline
open Verif.PageSegmentation (PElem)
open Verif.ReadingOrder (RElem)

/-- The box moved by `dx` to the right and by `dy` downwards. -/
def moveBox (dx dy : ℚ) (b : Box) : Box :=
  { b with leftX := b.leftX + dx, upperY := b.upperY + dy, rightX := b.rightX + dx, lowerY := b.lowerY + dy }

/-- The box lies where the program can handle it (its hulls start with `dblMax` and `dblMin`), before and after the move. -/
def Movable (dx dy : ℚ) (b : Box) : Prop :=
  (∀ x, x = b.leftX ∨ x = b.rightX → dblMin ≤ x ∧ x ≤ dblMax ∧ dblMin ≤ x + dx ∧ x + dx ≤ dblMax) ∧
  (∀ y, y = b.upperY ∨ y = b.lowerY → dblMin ≤ y ∧ y ≤ dblMax ∧ dblMin ≤ y + dy ∧ y + dy ≤ dblMax)

/-- A character: its box and its base line. -/
def moveGlyph (dx dy : ℚ) (c : Glyph) : Glyph := { c with pos := moveBox dx dy c.pos, base := c.base + dy }

/-- A word: its characters and its box. -/
def moveWord (dx dy : ℚ) (w : Word) : Word :=
  { w with chars := w.chars.map (moveGlyph dx dy), pos := moveBox dx dy w.pos }

/-- Changing the result of a run, leaving exceptions and undefined behaviour as they are. -/
def mapOk {α β : Type} (f : α → β) (x : Outcome α) : Outcome β := x.bind fun a => .ok (f a)

/-- A cut: its two end points and the elements it refers to. -/
def moveCut {α : Type} (f : α → α) (dx dy : ℚ) (c : XYCut.Cut α) : XYCut.Cut α :=
  { c with
    elementBefore := f c.elementBefore
    elementAfter := f c.elementAfter
    overlappingElements := c.overlappingElements.map f
    x1 := c.x1 + dx, y1 := c.y1 + dy, x2 := c.x2 + dx, y2 := c.y2 + dy }

/-- The library treats the elements `f e` exactly like the elements `e`: sorting and the heap only look at comparisons, and a move
does not change their results. -/
structure SteadyCuts {α : Type} (f : α → α) (lib : XYCut.Lib α) : Prop where
  sortLeftX : ∀ l, lib.sortLeftX (l.map f) = (lib.sortLeftX l).map f
  sortUpperY : ∀ l, lib.sortUpperY (l.map f) = (lib.sortUpperY l).map f
  sortRightXDesc : ∀ l, lib.sortRightXDesc (l.map f) = (lib.sortRightXDesc l).map f
  popTop : ∀ q, lib.popTop (q.map f) = (lib.popTop q).map fun r => (f r.1, r.2.map f)

/-- An element of a page: its box. -/
def moveElem (dx dy : ℚ) (e : PElem) : PElem := { e with pos := moveBox dx dy e.pos }

/-- A page segment (as page segmentation makes it): its elements and its box. -/
def moveGroup (dx dy : ℚ) (s : PageSegmentation.Segment) : PageSegmentation.Segment where
  elements := s.elements.map (moveElem dx dy)
  pos := moveBox dx dy s.pos

/-- The elements of a page. -/
def movePageElems (dx dy : ℚ) (p : PageSegmentation.PageElems) : PageSegmentation.PageElems where
  words := p.words.map (moveElem dx dy)
  figures := p.figures.map (moveElem dx dy)
  graphics := p.graphics.map (moveElem dx dy)
  shapes := p.shapes.map (moveElem dx dy)

/-- A text line: its words, its box and its base line. -/
def moveLine (dx dy : ℚ) (l : Line) : Line :=
  { l with words := l.words.map (moveWord dx dy), pos := moveBox dx dy l.pos, base := l.base + dy }

/-- A row of words: its vertical position and its words. -/
def moveRow (dx dy : ℚ) (r : ℚ × List Word) : ℚ × List Word := (r.1 + dy, r.2.map (moveWord dx dy))

/-- The entry of a counter. -/
def moveEntry (c : ℚ) (e : ℚ × ℕ) : ℚ × ℕ := (e.1 + c, e.2)

/-- Not turned by 90 or 270 degrees. -/
def Upright (b : Box) : Prop := b.rotation ≠ 1 ∧ b.rotation ≠ 3

/-- The library treats moved words, lines and counted positions exactly like the original ones: sorting only looks at comparisons (of
horizontal positions or of vertical positions, if nothing is turned by 90 or 270 degrees),
and the iteration order of the hash tables does not depend on the values of the keys. -/
structure SteadyLines (dx dy : ℚ) (lib : LineLib) : Prop where
  counts : ∀ c, c = dx ∨ c = dy → ∀ es, lib.hash.order ℚ (es.map (moveEntry c)) = (lib.hash.order ℚ es).map (moveEntry c)
  rows : ∀ l, lib.iter _ (l.map (moveRow dx dy)) = (lib.iter _ l).map (moveRow dx dy)
  clusters : ∀ l : List (ℤ × List (ℚ × List Word)), lib.iter _ (l.map fun e => (e.1, e.2.map (moveRow dx dy))) =
    (lib.iter _ l).map fun e => (e.1, e.2.map (moveRow dx dy))
  wordsAsc : ∀ l, (∀ x ∈ l, Upright x.pos) → lib.sortRotLeftXAsc (l.map (moveWord dx dy)) = (lib.sortRotLeftXAsc l).map (moveWord dx dy)
  wordsDesc : ∀ l, (∀ x ∈ l, Upright x.pos) → lib.sortRotLeftXDesc (l.map (moveWord dx dy)) = (lib.sortRotLeftXDesc l).map (moveWord dx dy)
  linesAsc : ∀ l, (∀ x ∈ l, Upright x.pos) → lib.sortRotLowerYAsc (l.map (moveLine dx dy)) = (lib.sortRotLowerYAsc l).map (moveLine dx dy)
  linesDesc : ∀ l, (∀ x ∈ l, Upright x.pos) → lib.sortRotLowerYDesc (l.map (moveLine dx dy)) = (lib.sortRotLowerYDesc l).map (moveLine dx dy)

/-- The trim box of a segment (left, upper, right, lower), unless it has its initial value. -/
def moveTrim (dx dy : ℚ) (t : ℚ × ℚ × ℚ × ℚ) : ℚ × ℚ × ℚ × ℚ :=
  if t = (dblMax, dblMax, dblMin, dblMin) then t else (t.1 + dx, t.2.1 + dy, t.2.2.1 + dx, t.2.2.2 + dy)

/-- A page segment: its elements, its box and its trim box. -/
def moveSegment (dx dy : ℚ) (s : Segment) : Segment :=
  { s with elements := s.elements.map (moveElem dx dy), pos := moveBox dx dy s.pos, trim := moveTrim dx dy s.trim }

/-- What a line knows about its segment. -/
def moveSeg (dx dy : ℚ) (s : TextBlocks.Seg) : TextBlocks.Seg where
  pos := moveBox dx dy s.pos
  trimLeftX := s.trimLeftX + dx
  trimUpperY := s.trimUpperY + dy
  trimRightX := s.trimRightX + dx
  trimLowerY := s.trimLowerY + dy

/-- A box, unless it has its initial value. -/
def moveUnlessNew (dx dy : ℚ) (b : Box) : Box := if b = {} then b else moveBox dx dy b

/-- A text line with its base box and its segment. -/
def moveTextLine (dx dy : ℚ) (l : TextLine) : TextLine :=
  { l with line := moveLine dx dy l.line, base := moveUnlessNew dx dy l.base, seg := moveSeg dx dy l.seg }

/-- A text block: its box and its trim box. -/
def moveBlock (dx dy : ℚ) (b : TextBlocks.Block) : TextBlocks.Block :=
  { b with
    pos := moveBox dx dy b.pos
    trimLeftX := b.trimLeftX + dx
    trimUpperY := b.trimUpperY + dy
    trimRightX := b.trimRightX + dx
    trimLowerY := b.trimLowerY + dy }

/-- A text block with its role. -/
def moveTextBlock (dx dy : ℚ) (b : TextBlock) : TextBlock := { b with block := moveBlock dx dy b.block }

/-- A page: everything on it. -/
def movePage (dx dy : ℚ) (p : Page) : Page :=
  { p with
    characters := p.characters.map (moveGlyph dx dy)
    figures := p.figures.map (moveBox dx dy)
    graphics := p.graphics.map (moveBox dx dy)
    shapes := p.shapes.map (moveBox dx dy)
    words := p.words.map (moveWord dx dy)
    segments := p.segments.map (moveSegment dx dy)
    blocks := p.blocks.map (moveTextBlock dx dy) }

/-- A document: the contents of all pages are moved by `dx` to the right and by `dy` downwards. -/
def moveDoc (dx dy : ℚ) (d : Document) : Document :=
  { d with pages := d.pages.map (movePage dx dy), lines := d.lines.map (moveTextLine dx dy) }

/-- An element of reading order detection: its box. -/
def moveRElem (dx dy : ℚ) : RElem → RElem
  | .block i r b => .block i r (moveBox dx dy b)
  | .figure i b => .figure i (moveBox dx dy b)
  | .shape i b => .shape i (moveBox dx dy b)

/-- The library treats moved contents exactly like the original ones. -/
structure SteadyLib (dx dy : ℚ) (lib : Lib) : Prop where
  lines : SteadyLines dx dy lib.lines
  seg : SteadyCuts (moveElem dx dy) lib.seg
  order : SteadyCuts (moveRElem dx dy) lib.order
  sortTop : ∀ l, lib.sortTop (l.map (moveRElem dx dy)) = (lib.sortTop l).map (moveRElem dx dy)

/-- The parsed document can be moved: nothing leaves the range the program can handle, and no text is turned by 90 or 270 degrees. -/
structure CanMove (dx dy : ℚ) (d : Document) : Prop where
  glyphs : ∀ p ∈ d.pages, ∀ c ∈ p.characters, Movable dx dy c.pos ∧ Upright c.pos
  boxes : ∀ p ∈ d.pages, ∀ b ∈ p.figures ++ p.graphics ++ p.shapes, Movable dx dy b

end Verif.Spec
