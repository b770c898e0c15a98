import Mathlib.Data.Rat.Floor
import Mathlib.Algebra.Order.Field.Rat

/-!
# Model of `/repo/src/utils/MathUtils.cpp`

`double` is modelled by `ℚ` (see DESIGN.md, "Numbers").
-/

namespace Verif.Math

/-- `DEFAULT_DOUBLE_EQUAL_TOLERANCE`, `/repo/src/Config.h:43`. -/
def tol : ℚ := 1 / 10000

/-- `numeric_limits<double>::max()`, used e.g. in `/repo/src/utils/XYCut.cpp:114` and
`/repo/src/Types.h` (`PdfPosition::leftX`). -/
def dblMax : ℚ := (2 ^ 53 - 1) * 2 ^ 971

/-- `numeric_limits<double>::min()`: the smallest *positive* normal double, used by the code as the
start value of maxima, e.g. in `/repo/src/utils/XYCut.cpp:115`, `/repo/src/utils/Counter.cpp:59`. -/
def dblMin : ℚ := 1 / 2 ^ 1022

/-- `equal`, `/repo/src/utils/MathUtils.cpp:20-22`. -/
def equal (d1 d2 tolerance : ℚ) : Bool := decide (|d1 - d2| ≤ tolerance)

/-- `larger`, `/repo/src/utils/MathUtils.cpp:25-27`. -/
def larger (d1 d2 tolerance : ℚ) : Bool := decide (d1 > d2 + tolerance)

/-- `smaller`, `/repo/src/utils/MathUtils.cpp:30-32`. -/
def smaller (d1 d2 tolerance : ℚ) : Bool := decide (d1 < d2 - tolerance)

/-- `equalOrLarger`, `/repo/src/utils/MathUtils.cpp:35-37`. -/
def equalOrLarger (d1 d2 tolerance : ℚ) : Bool := decide (d1 ≥ d2 - tolerance)

/-- `equalOrSmaller`, `/repo/src/utils/MathUtils.cpp:40-42`. -/
def equalOrSmaller (d1 d2 tolerance : ℚ) : Bool := decide (d1 ≤ d2 + tolerance)

/-- `between`, `/repo/src/utils/MathUtils.cpp:45-47`. -/
def between (d low up t : ℚ) : Bool := equalOrLarger d low t && equalOrSmaller d up t

/-- `std::round` (C++ library; called at `/repo/src/utils/MathUtils.cpp:54,58`): nearest integer,
halfway cases away from zero. -/
def stdRound (d : ℚ) : ℤ := if 0 ≤ d then ⌊d + 1 / 2⌋ else -⌊-d + 1 / 2⌋

/-- `round`, `/repo/src/utils/MathUtils.cpp:50-59`.  The division and multiplication are exact
here (rounding error of doubles is not modelled). -/
def roundTo (d : ℚ) (numDecimals : ℕ) : ℚ :=
  if numDecimals = 0 then (stdRound d : ℚ)
  else
    let divisor : ℚ := 10 ^ numDecimals
    (stdRound (d * divisor) : ℚ) / divisor

/-- `minimum` with two arguments, `/repo/src/utils/MathUtils.cpp:62-64`
(`std::min(a, b)` returns `b` if `b < a`, else `a`). -/
def minimum (d1 d2 : ℚ) : ℚ := if d2 < d1 then d2 else d1

/-- `minimum` with three arguments, `/repo/src/utils/MathUtils.cpp:67-69`. -/
def minimum3 (d1 d2 d3 : ℚ) : ℚ := minimum (minimum d1 d2) d3

/-- `minimum` with four arguments, `/repo/src/utils/MathUtils.cpp:72-74`. -/
def minimum4 (d1 d2 d3 d4 : ℚ) : ℚ := minimum (minimum d1 d2) (minimum d3 d4)

/-- `maximum` with two arguments, `/repo/src/utils/MathUtils.cpp:77-79`
(`std::max(a, b)` returns `b` if `a < b`, else `a`). -/
def maximum (d1 d2 : ℚ) : ℚ := if d1 < d2 then d2 else d1

/-- `maximum` with three arguments, `/repo/src/utils/MathUtils.cpp:82-84`. -/
def maximum3 (d1 d2 d3 : ℚ) : ℚ := maximum (maximum d1 d2) d3

/-- `maximum` with four arguments, `/repo/src/utils/MathUtils.cpp:87-89`. -/
def maximum4 (d1 d2 d3 d4 : ℚ) : ℚ := maximum (maximum d1 d2) (maximum d3 d4)

end Verif.Math
