import Verif.Model.Math

/-!
# Model of positions and of the geometric helper functions

`/repo/src/Types.h` / `/repo/src/Types.cpp` (class `PdfPosition`),
`/repo/src/utils/PdfElementsUtils.cpp`, `/repo/src/utils/Comparators.h`.
-/

namespace Verif

open Verif.Math

/-- `PdfPosition`, `/repo/src/Types.h:218-246` with its default member values.
(`pageNum` is a `double` in the source but only ever holds page numbers; an integer here.) -/
structure Box where
  pageNum : ℤ := -1
  leftX : ℚ := dblMax
  upperY : ℚ := dblMax
  rightX : ℚ := dblMin
  lowerY : ℚ := dblMin
  rotation : ℤ := 0
  wMode : ℤ := 0
deriving DecidableEq

namespace Box

/-- `PdfPosition::getWidth`, `/repo/src/Types.cpp:35-37`. -/
def getWidth (p : Box) : ℚ := p.rightX - p.leftX

/-- `PdfPosition::getHeight`, `/repo/src/Types.cpp:40-42`. -/
def getHeight (p : Box) : ℚ := p.lowerY - p.upperY

/-- `PdfPosition::getRotLeftX`, `/repo/src/Types.cpp:45-57`. -/
def getRotLeftX (p : Box) : ℚ :=
  if p.rotation = 1 then p.upperY
  else if p.rotation = 2 then p.rightX
  else if p.rotation = 3 then p.lowerY
  else p.leftX

/-- `PdfPosition::getRotUpperY`, `/repo/src/Types.cpp:60-72`. -/
def getRotUpperY (p : Box) : ℚ :=
  if p.rotation = 1 then p.rightX
  else if p.rotation = 2 then p.lowerY
  else if p.rotation = 3 then p.leftX
  else p.upperY

/-- `PdfPosition::getRotRightX`, `/repo/src/Types.cpp:75-87`. -/
def getRotRightX (p : Box) : ℚ :=
  if p.rotation = 1 then p.lowerY
  else if p.rotation = 2 then p.leftX
  else if p.rotation = 3 then p.upperY
  else p.rightX

/-- `PdfPosition::getRotLowerY`, `/repo/src/Types.cpp:90-102`. -/
def getRotLowerY (p : Box) : ℚ :=
  if p.rotation = 1 then p.leftX
  else if p.rotation = 2 then p.upperY
  else if p.rotation = 3 then p.rightX
  else p.lowerY

/-- `PdfPosition::getRotWidth`, `/repo/src/Types.cpp:105-115`. -/
def getRotWidth (p : Box) : ℚ :=
  if p.rotation = 2 ∨ p.rotation = 3 then p.getRotLeftX - p.getRotRightX
  else p.getRotRightX - p.getRotLeftX

/-- `PdfPosition::getRotHeight`, `/repo/src/Types.cpp:118-128`. -/
def getRotHeight (p : Box) : ℚ :=
  if p.rotation = 1 ∨ p.rotation = 2 then p.getRotUpperY - p.getRotLowerY
  else p.getRotLowerY - p.getRotUpperY

end Box

namespace Elements

/-- `computeHorizontalGap`, `/repo/src/utils/PdfElementsUtils.cpp:38-63`. -/
def computeHorizontalGap (e1 e2 : Box) : ℚ :=
  let (left, right) := if smaller e1.leftX e2.leftX tol then (e1, e2) else (e2, e1)
  if left.rotation = 2 ∨ left.rotation = 3 then left.rightX - right.leftX
  else right.leftX - left.rightX

/-- `computeVerticalGap`, `/repo/src/utils/PdfElementsUtils.cpp:66-91`. -/
def computeVerticalGap (e1 e2 : Box) : ℚ :=
  let (upper, lower) := if smaller e1.upperY e2.upperY tol then (e1, e2) else (e2, e1)
  if upper.rotation = 2 ∨ upper.rotation = 3 then upper.lowerY - lower.upperY
  else lower.upperY - upper.lowerY

/-- `computeOverlapRatios`, `/repo/src/utils/PdfElementsUtils.cpp:94-115`. -/
def computeOverlapRatios (s1 e1 s2 e2 : ℚ) : ℚ × ℚ :=
  let min1 := minimum s1 e1
  let max1 := maximum s1 e1
  let length1 := max1 - min1
  let min2 := minimum s2 e2
  let max2 := maximum s2 e2
  let length2 := max2 - min2
  let minMax := minimum max1 max2
  let maxMin := maximum min1 min2
  let overlapLength := maximum 0 (minMax - maxMin)
  let ratio1 := if length1 > 0 then overlapLength / length1 else 0
  let ratio2 := if length2 > 0 then overlapLength / length2 else 0
  (ratio1, ratio2)

/-- `computeXOverlapRatios`, `/repo/src/utils/PdfElementsUtils.cpp:118-127`. -/
def computeXOverlapRatios (a b : Box) : ℚ × ℚ :=
  computeOverlapRatios a.leftX a.rightX b.leftX b.rightX

/-- `computeYOverlapRatios`, `/repo/src/utils/PdfElementsUtils.cpp:130-139`. -/
def computeYOverlapRatios (a b : Box) : ℚ × ℚ :=
  computeOverlapRatios a.upperY a.lowerY b.upperY b.lowerY

/-- `computeMaxXOverlapRatio`, `/repo/src/utils/PdfElementsUtils.cpp:142-145`. -/
def computeMaxXOverlapRatio (a b : Box) : ℚ :=
  let r := computeXOverlapRatios a b
  maximum r.1 r.2

/-- `computeMaxYOverlapRatio`, `/repo/src/utils/PdfElementsUtils.cpp:148-151`. -/
def computeMaxYOverlapRatio (a b : Box) : ℚ :=
  let r := computeYOverlapRatios a b
  maximum r.1 r.2

/-- `computeHasEqualLeftX`, `/repo/src/utils/PdfElementsUtils.cpp:154-159`. -/
def computeHasEqualLeftX (a b : Box) (t : ℚ) : Bool := equal a.leftX b.leftX t

/-- `computeHasEqualUpperY`, `/repo/src/utils/PdfElementsUtils.cpp:162-167`. -/
def computeHasEqualUpperY (a b : Box) (t : ℚ) : Bool := equal a.upperY b.upperY t

/-- `computeHasEqualRightX`, `/repo/src/utils/PdfElementsUtils.cpp:170-175`. -/
def computeHasEqualRightX (a b : Box) (t : ℚ) : Bool := equal a.rightX b.rightX t

/-- `computeHasEqualLowerY`, `/repo/src/utils/PdfElementsUtils.cpp:178-183`. -/
def computeHasEqualLowerY (a b : Box) (t : ℚ) : Bool := equal a.lowerY b.lowerY t

/-- `computeLeftXOffset`, `/repo/src/utils/PdfElementsUtils.cpp:186-191`. -/
def computeLeftXOffset (a b : Box) : ℚ := a.leftX - b.leftX

/-- `computeRightXOffset`, `/repo/src/utils/PdfElementsUtils.cpp:194-199`. -/
def computeRightXOffset (a b : Box) : ℚ := a.rightX - b.rightX

end Elements

/-! The comparators of `/repo/src/utils/Comparators.h` all compare one coordinate with the default
tolerance `1e-4`. -/
namespace Comparators

/-- `LeftXAscComparator`, `/repo/src/utils/Comparators.h:28-38`. -/
def leftXAsc (a b : Box) : Bool := smaller a.leftX b.leftX tol

/-- `RightXDescComparator`, `/repo/src/utils/Comparators.h:43-53`. -/
def rightXDesc (a b : Box) : Bool := larger a.rightX b.rightX tol

/-- `UpperYAscComparator`, `/repo/src/utils/Comparators.h:58-68`. -/
def upperYAsc (a b : Box) : Bool := smaller a.upperY b.upperY tol

/-- `RotLeftXAscComparator`, `/repo/src/utils/Comparators.h:73-83`. -/
def rotLeftXAsc (a b : Box) : Bool := smaller a.getRotLeftX b.getRotLeftX tol

/-- `RotLeftXDescComparator`, `/repo/src/utils/Comparators.h:88-98`. -/
def rotLeftXDesc (a b : Box) : Bool := larger a.getRotLeftX b.getRotLeftX tol

/-- `RotLowerYAscComparator`, `/repo/src/utils/Comparators.h:103-113`. -/
def rotLowerYAsc (a b : Box) : Bool := smaller a.getRotLowerY b.getRotLowerY tol

/-- `RotLowerYDescComparator`, `/repo/src/utils/Comparators.h:118-128`. -/
def rotLowerYDesc (a b : Box) : Bool := larger a.getRotLowerY b.getRotLowerY tol

end Comparators

end Verif
