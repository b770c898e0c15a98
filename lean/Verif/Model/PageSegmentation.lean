import Verif.Model.XYCut
import Verif.Model.Hull

/-!
# Model of `/repo/src/PageSegmentation.cpp` and `/repo/src/utils/PageSegmentationUtils.cpp`
-/

namespace Verif.PageSegmentation

open Verif.Math Verif.Elements Verif.XYCut

/-- The document statistics, `/repo/src/Types.h:1101-1134`, as far as used by the modelled code. -/
structure DocStats where
  avgCharWidth : ℚ := 0
  avgCharHeight : ℚ := 0
  mostFreqWordDistance : ℚ := 0

/-- The kinds of page elements handled by page segmentation,
`/repo/src/PageSegmentation.cpp:87-93`. -/
inductive Kind where
  | word
  | figure
  | graphic
  | shape
deriving DecidableEq

/-- A page element (`PdfElement`, `/repo/src/Types.h:362-397`, with its dynamic type); `uid` stands for
the address of the object. -/
structure PElem where
  kind : Kind
  uid : ℕ
  pos : Box
  rank : ℤ := -1
deriving DecidableEq

/-- `PdfPage`, `/repo/src/Types.h:1005-1069`, as far as used here. -/
structure PageElems where
  words : List PElem
  figures : List PElem
  graphics : List PElem
  shapes : List PElem

/-- `overlappingMinNumElements`, `/repo/src/Config.h:340`. -/
def overlappingMinNumElements : ℕ := 500

/-- `xCutMaxNumOverlappingElements`, `/repo/src/Config.h:299`. -/
def xCutMaxNumOverlappingElements : ℕ := 1

/-- `getXCutMinGapWidth`, `/repo/src/Config.h:312-315`. -/
def xCutMinGapWidth (doc : DocStats) : ℚ := 2 * doc.mostFreqWordDistance

/-- `getYCutMinGapHeight`, `/repo/src/Config.h:328-331`. -/
def yCutMinGapHeight : ℚ := 2

/-- `chooseXCut_overlappingElements` returns `False`, `/repo/src/PageSegmentation.cpp:208-263`. -/
def rejectOverlapping (doc : DocStats) (cut : Cut PElem) (elements : List PElem) : Bool :=
  let marginThreshold := 5 * doc.avgCharHeight
  if cut.overlappingElements.isEmpty then false
  else if elements.length < overlappingMinNumElements then true
  else cut.overlappingElements.any fun e =>
    smaller (e.pos.upperY - cut.y1) marginThreshold tol ||
    smaller (cut.y2 - e.pos.lowerY) marginThreshold tol

/-- `chooseXCut_smallGapWidthHeight` returns `False`, `/repo/src/PageSegmentation.cpp:266-289`. -/
def rejectSmallGap (doc : DocStats) (cut : Cut PElem) : Bool :=
  smaller cut.gapWidth (2 * doc.avgCharWidth) tol && smaller cut.gapHeight (6 * doc.avgCharHeight) tol

/-- `chooseXCut_contiguousWords` returns `False`, `/repo/src/PageSegmentation.cpp:292-345`. -/
def rejectContiguousWords (cut : Cut PElem) (elements : List PElem) : Bool :=
  match cut.elementBefore.kind with
  | .word =>
    (elements.drop cut.posInElements).any fun r =>
      decide (r.kind = .word) && decide (cut.elementBefore.rank + 1 = r.rank) &&
      !smaller (computeMaxYOverlapRatio cut.elementBefore.pos r.pos) (1 / 10) tol
  | _ => false

/-- `chooseXCut_slimGroups` returns `False`, `/repo/src/PageSegmentation.cpp:348-406`. -/
def rejectSlimGroups (doc : DocStats) (prevChosenCut : Option (Cut PElem)) (cut : Cut PElem)
    (elements : List PElem) : Bool :=
  match elements.head?, elements.getLast? with
  | some first, some last =>
    let widthThreshold := 10 * doc.avgCharWidth
    let leftFirst := match prevChosenCut with
      | some c => c.elementAfter
      | none => first
    let leftGroupWidth := cut.elementBefore.pos.rightX - leftFirst.pos.leftX
    let rightGroupWidth := last.pos.rightX - cut.elementAfter.pos.leftX
    smaller leftGroupWidth widthThreshold tol || smaller rightGroupWidth widthThreshold tol
  | _, _ => false

/-- The loop of `chooseXCuts`, `/repo/src/PageSegmentation.cpp:145-204`. -/
def chooseXLoop (doc : DocStats) (elements : List PElem) :
    Option (Cut PElem) → List (Cut PElem) → List Bool
  | _, [] => []
  | prev, c :: cs =>
    if rejectOverlapping doc c elements || rejectSmallGap doc c ||
        rejectContiguousWords c elements || rejectSlimGroups doc prev c elements then
      false :: chooseXLoop doc elements prev cs
    else true :: chooseXLoop doc elements (some c) cs

/-- `chooseXCuts`, `/repo/src/PageSegmentation.cpp:130-205`. -/
def chooseXCuts (doc : DocStats) : Choose PElem := fun cuts elements i =>
  if elements.isEmpty then false else (chooseXLoop doc elements none cuts).getD i false

/-- The search for a partner cut, `/repo/src/PageSegmentation.cpp:454-483`: starting at `other`, the
last of the consecutive cuts `j` with `ok idx j`. -/
def findPartner (ok : ℕ → ℕ → Bool) (idx : ℕ) : ℕ → ℕ → Option ℕ → Option ℕ
  | 0, _, cur => cur
  | fuel + 1, other, cur =>
    if ok idx other then findPartner ok idx fuel (other + 1) (some other) else cur

/-- The loop over the cuts (with the sentinels), `/repo/src/PageSegmentation.cpp:443-491`; `n` is the
number of cuts including the sentinels; the result is the list of indices of the chosen cuts.
`fuel` is the number of cuts not yet visited. -/
def chooseYLoop (ok : ℕ → ℕ → Bool) (n : ℕ) : ℕ → ℕ → List ℕ
  | 0, _ => []
  | fuel + 1, idx =>
    if idx < n then
      match findPartner ok idx (n - (idx + 1)) (idx + 1) none with
      | some partner => idx :: partner :: chooseYLoop ok n fuel (partner + 1)
      | none => chooseYLoop ok n fuel (idx + 1)
    else []

/-- `chooseYCuts`, `/repo/src/PageSegmentation.cpp:409-493`. The sentinels have the positions `0` and
`elements.size()`; the lookahead calls `xCut` on the elements between two cuts. -/
def chooseYCuts (doc : DocStats) (lib : Lib PElem) : Choose PElem := fun cuts elements i =>
  if cuts.isEmpty || elements.isEmpty then false
  else
    let positions := 0 :: cuts.map (·.posInElements) ++ [elements.length]
    let between (a b : ℕ) : List PElem :=
      (elements.drop (positions.getD a 0)).take (positions.getD b 0 - positions.getD a 0)
    let ok (a b : ℕ) : Bool :=
      (xCut PElem.pos lib (xCutMinGapWidth doc) xCutMaxNumOverlappingElements (chooseXCuts doc)
        (between a b)).ok
    (chooseYLoop ok positions.length positions.length 0).contains (i + 1)

/-- `PdfPageSegment`, `/repo/src/Types.h:956-997`, as created here. -/
structure Segment where
  elements : List PElem
  pos : Box

/-- `createPageSegment`, `/repo/src/utils/PageSegmentationUtils.cpp:39-64`. -/
def createPageSegment (elements : List PElem) : Segment where
  elements := elements
  pos := Box.extendAll
    { pageNum := match elements with
        | [] => -1
        | e :: _ => e.pos.pageNum } (elements.map (·.pos))

/-- All elements of a page, `/repo/src/PageSegmentation.cpp:86-93`. -/
def pageElements (page : PageElems) : List PElem :=
  page.words ++ page.figures ++ page.graphics ++ page.shapes

/-- The call of `xyCut`, `/repo/src/PageSegmentation.cpp:112-120`. -/
def params (doc : DocStats) (lib : Lib PElem) : Params PElem where
  pos := PElem.pos
  lib := lib
  minXGap := xCutMinGapWidth doc
  minYGap := yCutMinGapHeight
  maxOverlap := xCutMaxNumOverlappingElements
  chooseX := chooseXCuts doc
  chooseY := chooseYCuts doc lib

/-- `processPage`, `/repo/src/PageSegmentation.cpp:82-127`. -/
def processPage (doc : DocStats) (lib : Lib PElem) (page : PageElems) : List Segment :=
  (xyCut (params doc lib) (pageElements page)).1.map createPageSegment

end Verif.PageSegmentation
