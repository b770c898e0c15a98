import Verif.Model.Math
import Mathlib.Data.Int.Log

/-!
# Specification of IEEE 754 binary64 arithmetic (finite numbers)

Written from the standard, independently of the model: which rational numbers are doubles, and what rounding to nearest means.
-/

namespace Verif.Spec.Float

open Verif.Math

/-- The rational number is a (finite) double: 53 bits of significand, exponents from -1074 to 971. -/
def Double (x : ℚ) : Prop := ∃ m e : ℤ, |m| < 2 ^ 53 ∧ -1074 ≤ e ∧ e ≤ 971 ∧ x = (m : ℚ) * (2 : ℚ) ^ e

/-- `fl` rounds to nearest: the exact result of an operation is replaced by a double that is not further away than any other double;
how ties are broken is left open.  (Results beyond the largest double are infinite and are not covered.) -/
structure RoundsToNearest (fl : ℚ → ℚ) : Prop where
  /-- the result is a double -/
  double : ∀ x, |x| ≤ dblMax → Double (fl x)
  /-- no double is closer -/
  nearest : ∀ x, |x| ≤ dblMax → ∀ y, Double y → |fl x - x| ≤ |y - x|

/-- The integer closest to `q`, the even one of two equally close ones. -/
def halfEven (q : ℚ) : ℤ :=
  if q - ⌊q⌋ < 1 / 2 then ⌊q⌋ else if 1 / 2 < q - ⌊q⌋ then ⌊q⌋ + 1 else if ⌊q⌋ % 2 = 0 then ⌊q⌋ else ⌊q⌋ + 1

/-- The exponent of the last bit of the doubles next to `x`. -/
def lastBit (x : ℚ) : ℤ := max (Int.log 2 |x| - 52) (-1074)

/-- The rounding of IEEE 754 (to nearest, ties to even), for results that do not overflow. -/
def binary64 (x : ℚ) : ℚ := if x = 0 then 0 else (halfEven (x / (2 : ℚ) ^ lastBit x) : ℚ) * (2 : ℚ) ^ lastBit x

end Verif.Spec.Float
