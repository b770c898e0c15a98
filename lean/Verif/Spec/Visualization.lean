import Verif.Model.Visualization

/-!
# What a visualization shows (specification for C72)
-/

namespace Verif.Spec.Visualization

open Verif.Visualization Verif.Elements Verif.Math

/-- A text in UTF-16 with byte order mark, big endian (for characters below U+10000). -/
def utf16 (s : List Char) : List ℕ := 254 :: 255 :: s.flatMap fun c => [c.toNat / 256, c.toNat % 256]

/-- Printable ASCII. -/
def Plain (s : List Char) : Prop := ∀ c ∈ s, 32 ≤ c.toNat ∧ c.toNat < 127

/-- The page with this number exists. -/
def Pdf.Has (pdf : Pdf) (page : ℤ) : Prop := 1 ≤ page ∧ page ≤ pdf.numPages

/-- Poppler's encoding table maps printable ASCII to itself. -/
def Pdf.Ascii (pdf : Pdf) : Prop := ∀ b, 32 ≤ b → b < 127 → pdf.encoding b = b

/-- The rectangle shows the box on a page of height `H` (whose origin is the lower left corner): it coincides with the box, but extends 1 further to the right (to the top) if the box is narrower (lower) than 1. -/
structure Frames (H : ℚ) (b : Box) (r : Rect) : Prop where
  left : r.x1 = b.leftX
  bottom : r.y1 = H - b.lowerY
  right : (|b.rightX - b.leftX| < 1 - tol → r.x2 = b.rightX + 1) ∧ (1 - tol ≤ |b.rightX - b.leftX| → r.x2 = b.rightX)
  top : (|b.lowerY - b.upperY| < 1 - tol → r.y2 = H - b.upperY + 1) ∧ (1 - tol ≤ |b.lowerY - b.upperY| → r.y2 = H - b.upperY)

/-- The annotation is a frame of the given color around the box. -/
def FrameOf (pdf : Pdf) (color : Color) (b : Box) (a : Annot) : Prop :=
  a.page = b.pageNum ∧ ∃ r, a.mark = .square r color none ∧ Frames (pdf.mediaHeight b.pageNum) b r

/-- The center of a box, seen from the lower left corner of the page. -/
def center (H : ℚ) (b : Box) : ℚ × ℚ := ((b.leftX + b.rightX) / 2, H - (b.upperY + b.lowerY) / 2)

/-- The lines among the annotations: page, end points, color. -/
def lineOf (a : Annot) : Option (ℤ × (ℚ × ℚ) × (ℚ × ℚ) × Color) :=
  match a.mark with
  | .line x1 y1 x2 y2 _ c => some (a.page, (x1, y1), (x2, y2), c)
  | _ => none

/-- The circles among the annotations: page, rectangle, color. -/
def circleOf (a : Annot) : Option (ℤ × Rect × Color) :=
  match a.mark with
  | .circle r c _ => some (a.page, r, c)
  | _ => none

/-- The squares among the annotations: page, rectangle, color. -/
def squareOf (a : Annot) : Option (ℤ × Rect × Color) :=
  match a.mark with
  | .square r c _ => some (a.page, r, c)
  | _ => none

/-- The texts with the given appearance among the annotations: page, rectangle, contents. -/
def textOf (appearance : List Char) (a : Annot) : Option (ℤ × Rect × List ℕ) :=
  match a.mark with
  | .text r ap t => if ap = appearance then some (a.page, r, t) else none
  | _ => none

/-- White, for numbers; blue, for roles; gray, for the ids of cuts. -/
def white : List Char := "/Helv 7 Tf 1 1 1 rg".toList

def blueText : List Char := "/Helv 7 Tf 0 0 1 rg".toList

def grayText : List Char := "/Helv 6 Tf .7 .7 .7 rg".toList

/-- The rectangle around a point in which a number is written. -/
def numberRect (c : ℚ × ℚ) : Rect := ⟨c.1 - 5, c.2 - 5, c.1 + 5, c.2 + 3⟩

/-- The square around a point with half side length 5. -/
def around (c : ℚ × ℚ) : Rect := ⟨c.1 - 5, c.2 - 5, c.1 + 5, c.2 + 5⟩

/-- A number in decimal notation. -/
def decimal (i : ℕ) : List Char := (Nat.repr i).toList

/-- The elements that the options draw as boxes only. -/
def boxesOf : List (String × (DrawnPage → List Box)) :=
  [("visualize-characters", (·.characters)), ("visualize-figures", (·.figures)), ("visualize-shapes", (·.shapes)),
   ("visualize-graphics", (·.graphics)), ("visualize-words", (·.words)), ("visualize-text-lines", fun p => p.segments.flatMap (·.lines))]

/-- All page numbers on a page are the given one. -/
structure OnPage (n : ℤ) (p : DrawnPage) : Prop where
  characters : ∀ b ∈ p.characters, b.pageNum = n
  figures : ∀ b ∈ p.figures, b.pageNum = n
  shapes : ∀ b ∈ p.shapes, b.pageNum = n
  graphics : ∀ b ∈ p.graphics, b.pageNum = n
  words : ∀ b ∈ p.words, b.pageNum = n
  segments : ∀ s ∈ p.segments, s.pos.pageNum = n
  lines : ∀ s ∈ p.segments, ∀ b ∈ s.lines, b.pageNum = n
  blocks : ∀ b ∈ p.blocks, b.1.pageNum = n
  segmentCuts : ∀ c ∈ p.segmentCuts, c.pageNum = n
  orderCuts : ∀ c ∈ p.orderCuts, c.pageNum = n

end Verif.Spec.Visualization
