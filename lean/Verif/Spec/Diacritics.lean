import Verif.Spec.Geometry
import Verif.Spec.Hull
import Mathlib.Algebra.Order.Group.Abs

/-!
# Specification of the merging of diacritical marks, independent of the model
-/

namespace Verif.Spec

/-- The larger share of the horizontal overlap of two boxes, relative to the widths of the boxes. -/
def xOverlap (a b : Box) : ℚ :=
  max (interLen (min a.leftX a.rightX) (max a.leftX a.rightX) (min b.leftX b.rightX) (max b.leftX b.rightX) / |a.rightX - a.leftX|)
    (interLen (min a.leftX a.rightX) (max a.leftX a.rightX) (min b.leftX b.rightX) (max b.leftX b.rightX) / |b.rightX - b.leftX|)

/-- The choice for the mark at position `i` of `n` characters whose boxes are `box k`: `none` if it overlaps neither neighbour,
else the position of the neighbour that it overlaps more, the next one if there is no difference (up to 1/10000). -/
structure IsChoice (n i : ℕ) (box : ℕ → Box) (d : Option ℕ) : Prop where
  /-- Only direct neighbours are chosen. -/
  neighbour : ∀ b, d = some b → b < n ∧ (b + 1 = i ∨ b = i + 1)
  /-- The mark is left alone exactly if it overlaps neither neighbour. -/
  alone : d = none ↔ (∀ b, b + 1 = i → xOverlap (box b) (box i) ≤ 1 / 10000) ∧ (i + 1 < n → xOverlap (box i) (box (i + 1)) ≤ 1 / 10000)
  /-- The previous character is chosen exactly if it is overlapped more. -/
  prev : ∀ b, b + 1 = i → (d = some b ↔ xOverlap (box b) (box i) > 1 / 10000 ∧
    (i + 1 < n → xOverlap (box b) (box i) > xOverlap (box i) (box (i + 1)) + 1 / 10000))

end Verif.Spec
