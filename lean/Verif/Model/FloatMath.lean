import Verif.Model.Math
import Verif.Model.Box

/-!
# Model of `/repo/src/utils/MathUtils.cpp`, `/repo/src/utils/Comparators.h` and of the geometric functions of
`/repo/src/utils/PdfElementsUtils.cpp` with rounding

Every arithmetic operation is followed by the rounding `fl` (of IEEE 754, or any other one); comparisons, absolute values, minima,
maxima and changes of the sign are exact.  For `fl = id` these are the functions of `Verif.Math`, `Verif.Elements` and
`Verif.Comparators`.
-/

namespace Verif.FloatMath

open Verif.Math

/-- `equal`, `/repo/src/utils/MathUtils.cpp:20-22`. -/
def equal (fl : ℚ → ℚ) (d1 d2 tolerance : ℚ) : Bool := decide (|fl (d1 - d2)| ≤ tolerance)

/-- `larger`, `/repo/src/utils/MathUtils.cpp:25-27`. -/
def larger (fl : ℚ → ℚ) (d1 d2 tolerance : ℚ) : Bool := decide (d1 > fl (d2 + tolerance))

/-- `smaller`, `/repo/src/utils/MathUtils.cpp:30-32`. -/
def smaller (fl : ℚ → ℚ) (d1 d2 tolerance : ℚ) : Bool := decide (d1 < fl (d2 - tolerance))

/-- `equalOrLarger`, `/repo/src/utils/MathUtils.cpp:35-37`. -/
def equalOrLarger (fl : ℚ → ℚ) (d1 d2 tolerance : ℚ) : Bool := decide (d1 ≥ fl (d2 - tolerance))

/-- `equalOrSmaller`, `/repo/src/utils/MathUtils.cpp:40-42`. -/
def equalOrSmaller (fl : ℚ → ℚ) (d1 d2 tolerance : ℚ) : Bool := decide (d1 ≤ fl (d2 + tolerance))

/-- `between`, `/repo/src/utils/MathUtils.cpp:45-47`. -/
def between (fl : ℚ → ℚ) (d low up t : ℚ) : Bool := equalOrLarger fl d low t && equalOrSmaller fl d up t

/-- `round`, `/repo/src/utils/MathUtils.cpp:50-59`.  `std::round` and `std::pow(10.0, n)` are exact (the latter for the numbers of
decimals that occur). -/
def roundTo (fl : ℚ → ℚ) (d : ℚ) (numDecimals : ℕ) : ℚ :=
  if numDecimals = 0 then (stdRound d : ℚ)
  else
    let divisor : ℚ := 10 ^ numDecimals
    fl ((stdRound (fl (d * divisor)) : ℚ) / divisor)

/-- `DEFAULT_DOUBLE_EQUAL_TOLERANCE`, `/repo/src/Config.h:43`: the literal is rounded to a double. -/
def tolerance (fl : ℚ → ℚ) : ℚ := fl tol

/-- `computeOverlapRatios`, `/repo/src/utils/PdfElementsUtils.cpp:94-115`. -/
def computeOverlapRatios (fl : ℚ → ℚ) (s1 e1 s2 e2 : ℚ) : ℚ × ℚ :=
  let min1 := minimum s1 e1
  let max1 := maximum s1 e1
  let length1 := fl (max1 - min1)
  let min2 := minimum s2 e2
  let max2 := maximum s2 e2
  let length2 := fl (max2 - min2)
  let minMax := minimum max1 max2
  let maxMin := maximum min1 min2
  let overlapLength := maximum 0 (fl (minMax - maxMin))
  let ratio1 := if length1 > 0 then fl (overlapLength / length1) else 0
  let ratio2 := if length2 > 0 then fl (overlapLength / length2) else 0
  (ratio1, ratio2)

/-- `computeHorizontalGap`, `/repo/src/utils/PdfElementsUtils.cpp:38-63`. -/
def computeHorizontalGap (fl : ℚ → ℚ) (e1 e2 : Box) : ℚ :=
  let (left, right) := if smaller fl e1.leftX e2.leftX (tolerance fl) then (e1, e2) else (e2, e1)
  if left.rotation = 2 ∨ left.rotation = 3 then fl (left.rightX - right.leftX)
  else fl (right.leftX - left.rightX)

/-- `computeVerticalGap`, `/repo/src/utils/PdfElementsUtils.cpp:66-91`. -/
def computeVerticalGap (fl : ℚ → ℚ) (e1 e2 : Box) : ℚ :=
  let (upper, lower) := if smaller fl e1.upperY e2.upperY (tolerance fl) then (e1, e2) else (e2, e1)
  if upper.rotation = 2 ∨ upper.rotation = 3 then fl (upper.lowerY - lower.upperY)
  else fl (lower.upperY - upper.lowerY)

/-- The comparators of `/repo/src/utils/Comparators.h:28-128`, in the order of the file. -/
def comparators (fl : ℚ → ℚ) : List (Box → Box → Bool) :=
  [fun a b => smaller fl a.leftX b.leftX (tolerance fl),
   fun a b => larger fl a.rightX b.rightX (tolerance fl),
   fun a b => smaller fl a.upperY b.upperY (tolerance fl),
   fun a b => smaller fl a.getRotLeftX b.getRotLeftX (tolerance fl),
   fun a b => larger fl a.getRotLeftX b.getRotLeftX (tolerance fl),
   fun a b => smaller fl a.getRotLowerY b.getRotLowerY (tolerance fl),
   fun a b => larger fl a.getRotLowerY b.getRotLowerY (tolerance fl)]

/-- A box whose coordinates are stored as doubles, `/repo/src/Types.h` (class `PdfPosition`). -/
def stored (fl : ℚ → ℚ) (b : Box) : Box :=
  { b with leftX := fl b.leftX, upperY := fl b.upperY, rightX := fl b.rightX, lowerY := fl b.lowerY }

end Verif.FloatMath
