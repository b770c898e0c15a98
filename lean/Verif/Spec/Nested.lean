import Verif.Model.Pipeline
import Verif.Spec.Hull
import Verif.Spec.Wiring

/-!
# Specification: the boxes of the elements of a document lie inside each other
-/

namespace Verif.Spec

open Verif.Pipeline Verif.Words

/-- The box `inner` lies in the region `outer`, whichever of its edges is called the left or the upper one. -/
structure Inside (outer inner : Box) : Prop where
  left : outer.leftX ≤ inner.leftX ∧ outer.leftX ≤ inner.rightX
  right : inner.leftX ≤ outer.rightX ∧ inner.rightX ≤ outer.rightX
  upper : outer.upperY ≤ inner.upperY ∧ outer.upperY ≤ inner.lowerY
  lower : inner.upperY ≤ outer.lowerY ∧ inner.lowerY ≤ outer.lowerY

/-- The edges of a box are where their names say. -/
def WellFormedBox (b : Box) : Prop := b.leftX ≤ b.rightX ∧ b.upperY ≤ b.lowerY

/-- A box with its edges exchanged such that they are where their names say. -/
def tidyBox (b : Box) : Box :=
  { b with leftX := min b.leftX b.rightX, rightX := max b.leftX b.rightX, upperY := min b.upperY b.lowerY, lowerY := max b.upperY b.lowerY }

/-- Two words at the same place: their boxes and the boxes of their characters agree. -/
def SamePlace (v w : Word) : Prop := v.pos = w.pos ∧ v.chars.map (·.pos) = w.chars.map (·.pos)

/-- The boxes of a page of a document `d`:
* every word has characters of the page, and its box is the smallest one around them;
* every line consists of words of the page (at least one), and its box is the smallest one around them;
* every block consists of lines of the page (at least one), and its box is the smallest one around them. -/
structure NestedBoxes (d : Document) (p : Page) : Prop where
  words : ∀ w ∈ p.words, w.chars ≠ [] ∧ (∀ c ∈ w.chars, c ∈ p.characters) ∧ IsHull (w.chars.map (·.pos)) w.pos
  lines : ∀ i ∈ lineNumbers p, AtLine d i fun l => l.line.words ≠ [] ∧ (∀ w ∈ l.line.words, ∃ v ∈ p.words, SamePlace v w) ∧
    IsHull (l.line.words.map fun w => tidyBox w.pos) l.line.pos
  blocks : ∀ b ∈ p.blocks, b.block.lines ≠ [] ∧ (∀ i ∈ b.block.lines, i ∈ lineNumbers p) ∧ IsHull (b.block.lines.map (lineBox d)) b.block.pos

end Verif.Spec
