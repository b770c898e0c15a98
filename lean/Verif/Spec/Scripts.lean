import Verif.Spec.Geometry

/-!
# Specification: raised and lowered characters
-/

namespace Verif.Spec

/-- In text of the given rotation, the base line at coordinate `b` lies above the base line at
coordinate `b'` by more than `t`, as seen by the reader.  (The coordinate is the y-coordinate for
rotations 0 and 2 and the x-coordinate for rotations 1 and 3; `lineDir` points downwards for the
reader.) -/
def Above (rotation : ℤ) (t b b' : ℚ) : Prop :=
  sign (lineDir rotation) * b < sign (lineDir rotation) * b' - t

end Verif.Spec
