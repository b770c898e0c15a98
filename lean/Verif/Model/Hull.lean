import Verif.Model.Box

/-!
# Bounding boxes computed by repeated minimum/maximum

The same four lines appear in several places of the code, e.g.
`/repo/src/utils/PageSegmentationUtils.cpp:50-53`, `/repo/src/utils/WordsDetectionUtils.cpp:62-65`.
-/

namespace Verif.Box

open Verif.Math

/-- `/repo/src/utils/PageSegmentationUtils.cpp:50-53` (and the like): extend the box `b` by `e`. -/
def extend (b e : Box) : Box :=
  { b with
    leftX := minimum b.leftX e.leftX
    upperY := minimum b.upperY e.upperY
    rightX := maximum b.rightX e.rightX
    lowerY := maximum b.lowerY e.lowerY }

/-- The loop around these lines, starting from box `b`;
`/repo/src/utils/PageSegmentationUtils.cpp:49-54`. -/
def extendAll (b : Box) (es : List Box) : Box := es.foldl extend b

end Verif.Box
