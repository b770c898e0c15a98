import Mathlib.Algebra.Order.Field.Rat
import Mathlib.Algebra.Order.Floor.Defs

/-!
# Specification: geometric notions

Independent of the model.
-/

namespace Verif.Spec

/-- Length of the intersection of the closed intervals `[lo1, hi1]` and `[lo2, hi2]`. -/
def interLen (lo1 hi1 lo2 hi2 : ℚ) : ℚ := max 0 (min hi1 hi2 - max lo1 lo2)

/-- `d` is a decimal number with `n` places. -/
def IsDecimal (n : ℕ) (d : ℚ) : Prop := ∃ z : ℤ, d = (z : ℚ) / 10 ^ n

/-- The direction in which text of the given rotation runs (page coordinates, y pointing down):
0 = right, 1 = down, 2 = left, 3 = up. -/
def readDir (rotation : ℤ) : ℚ × ℚ :=
  if rotation = 1 then (0, 1) else if rotation = 2 then (-1, 0)
  else if rotation = 3 then (0, -1) else (1, 0)

/-- The direction from a text line to the next text line for the given rotation: the reading
direction turned by 90 degrees clockwise. -/
def lineDir (rotation : ℤ) : ℚ × ℚ := (-(readDir rotation).2, (readDir rotation).1)

/-- How far the point `p` lies in direction `d`. -/
def along (d p : ℚ × ℚ) : ℚ := d.1 * p.1 + d.2 * p.2

/-- The direction points towards larger page coordinates. -/
def sign (d : ℚ × ℚ) : ℚ := d.1 + d.2

end Verif.Spec
