import Verif.Model.XYCut

/-!
# Model of `/repo/src/ReadingOrderDetection.cpp`

(The prediction of the semantic roles, which `process` calls first, is modelled in
`Verif.Model.Roles`; here the role of a block is given.)
-/

namespace Verif.ReadingOrder

open Verif.Math Verif.XYCut

/-- `SemanticRole`, `/repo/src/Types.h:69-84`. -/
inductive Role where
  | paragraph | reference | marginal | footnote | heading | formula | title | authorInfo
  | abstract | date | caption | table | other | toc
deriving DecidableEq, Repr

/-- The page elements looked at, `/repo/src/ReadingOrderDetection.cpp:101-106`: a text block with its
number and role, a figure or a shape. -/
inductive RElem where
  | block (uid : ℕ) (role : Role) (pos : Box)
  | figure (uid : ℕ) (pos : Box)
  | shape (uid : ℕ) (pos : Box)
deriving DecidableEq

namespace RElem

/-- `PdfElement::pos`, `/repo/src/Types.h:362-397`. -/
def pos : RElem → Box
  | block _ _ p => p
  | figure _ p => p
  | shape _ p => p

/-- `dynamic_cast<PdfTextBlock*>(e) != nullptr`; `/repo/src/ReadingOrderDetection.cpp:146-147`. -/
def isBlock : RElem → Bool
  | block .. => true
  | _ => false

/-- `block && block->role == role`, `/repo/src/ReadingOrderDetection.cpp:271-278`. -/
def hasRole (r : Role) : RElem → Bool
  | block _ r' _ => decide (r' = r)
  | _ => false

/-- The element is a text block with a rotation or writing mode other than 0,
`/repo/src/ReadingOrderDetection.cpp:180-193`. -/
def isTurnedBlock : RElem → Bool
  | block _ _ p => decide (p.wMode ≠ 0) || decide (p.rotation ≠ 0)
  | _ => false

end RElem

/-- The bounding box of the page elements, `/repo/src/ReadingOrderDetection.cpp:109-118`. -/
structure Extent where
  minX : ℚ := dblMax
  minY : ℚ := dblMax
  maxX : ℚ := dblMin
  maxY : ℚ := dblMin

/-- One iteration of the loop `/repo/src/ReadingOrderDetection.cpp:113-118`. -/
def Extent.add (x : Extent) (e : RElem) : Extent where
  minX := minimum x.minX e.pos.leftX
  minY := minimum x.minY e.pos.upperY
  maxX := maximum x.maxX e.pos.rightX
  maxY := maximum x.maxY e.pos.lowerY

/-- The document statistics used here, `/repo/src/Types.h:1101-1134`. -/
structure Stats where
  avgCharWidth : ℚ := 0
  avgCharHeight : ℚ := 0

/-- The element is a high figure or shape that reaches from the upper into the lower half,
`/repo/src/ReadingOrderDetection.cpp:225-251`. -/
def isVerticalRule (st : Stats) (x : Extent) (e : RElem) : Bool :=
  let mid := x.minY + (x.maxY - x.minY) / 2
  !e.isBlock && decide (e.pos.getHeight > 10 * st.avgCharHeight) && decide (e.pos.upperY < mid) &&
    decide (e.pos.lowerY > mid)

/-- The element is a wide figure or shape that reaches from the left into the right half,
`/repo/src/ReadingOrderDetection.cpp:306-333`. -/
def isHorizontalRule (st : Stats) (x : Extent) (e : RElem) : Bool :=
  let mid := x.minX + (x.maxX - x.minX) / 2
  !e.isBlock && decide (e.pos.getWidth > 10 * st.avgCharWidth) && decide (e.pos.leftX < mid) &&
    decide (e.pos.rightX > mid)

/-- `chooseXCuts`, `/repo/src/ReadingOrderDetection.cpp:158-164`. -/
def chooseXCuts : Choose RElem := fun _ _ _ => true

/-- The loop body of `choosePrimaryXCuts`, `/repo/src/ReadingOrderDetection.cpp:179-252` (two blocks of
different writing mode or rotation: lines 195-209). -/
def isPrimaryX (st : Stats) (x : Extent) (cut : Cut RElem) : Bool :=
  cut.elementBefore.isTurnedBlock || cut.elementAfter.isTurnedBlock ||
  (cut.elementBefore.isBlock && cut.elementAfter.isBlock &&
    (decide (cut.elementBefore.pos.wMode ≠ cut.elementAfter.pos.wMode) ||
     decide (cut.elementBefore.pos.rotation ≠ cut.elementAfter.pos.rotation))) ||
  isVerticalRule st x cut.elementBefore || isVerticalRule st x cut.elementAfter

/-- `choosePrimaryXCuts`, `/repo/src/ReadingOrderDetection.cpp:167-253`. -/
def choosePrimaryXCuts (st : Stats) (x : Extent) : Choose RElem := fun cuts elements i =>
  if elements.isEmpty then false
  else match cuts[i]? with
    | some c => isPrimaryX st x c
    | none => false

/-- The loop body of `choosePrimaryYCuts`, `/repo/src/ReadingOrderDetection.cpp:268-334`. -/
def isPrimaryY (st : Stats) (x : Extent) (cut : Cut RElem) : Bool :=
  (cut.elementBefore.hasRole .title != cut.elementAfter.hasRole .title) ||
  (cut.elementBefore.hasRole .authorInfo != cut.elementAfter.hasRole .authorInfo) ||
  (cut.elementBefore.hasRole .marginal != cut.elementAfter.hasRole .marginal) ||
  isHorizontalRule st x cut.elementBefore || isHorizontalRule st x cut.elementAfter

/-- `choosePrimaryYCuts`, `/repo/src/ReadingOrderDetection.cpp:256-335`. -/
def choosePrimaryYCuts (st : Stats) (x : Extent) : Choose RElem := fun cuts elements i =>
  if elements.isEmpty then false
  else match cuts[i]? with
    | some c => isPrimaryY st x c
    | none => false

/-- `_minXCutGapWidth`, `/repo/src/ReadingOrderDetection.h:178`. -/
def minXCutGapWidth : ℚ := 0

/-- `_minYCutGapHeight`, `/repo/src/ReadingOrderDetection.h:179`. -/
def minYCutGapHeight : ℚ := 0

/-- The call of `xCut` used as a test, `/repo/src/ReadingOrderDetection.cpp:361,375,393`. -/
def canXCut (lib : Lib RElem) (group : List RElem) : Bool :=
  (xCut RElem.pos lib minXCutGapWidth 0 chooseXCuts group).ok

/-- The inner loop of the third phase of `chooseYCuts`, `/repo/src/ReadingOrderDetection.cpp:389-401`:
`ok j` tells whether the elements between the upper cut and cut `j` can be divided; the search goes
from `j = i + k - 1` down to `i`. -/
def findLowCut (ok : ℕ → Bool) (i : ℕ) : ℕ → Option ℕ
  | 0 => none
  | k + 1 => if ok (i + k) then some (i + k) else findLowCut ok i k

/-- The third phase of `chooseYCuts`, `/repo/src/ReadingOrderDetection.cpp:386-402`; the result are the
chosen cuts; at most `fuel` iterations. -/
def pairLoop (ok : ℕ → ℕ → Bool) (last : ℕ) : ℕ → ℕ → List ℕ
  | 0, _ => []
  | fuel + 1, i =>
    if i < last then
      match findLowCut (ok i) i (last + 1 - i) with
      | some j => i :: j :: pairLoop ok last fuel (j + 1)
      | none => pairLoop ok last fuel (i + 1)
    else []

/-- The indices of the cuts chosen by `chooseYCuts`, `/repo/src/ReadingOrderDetection.cpp:338-403`, for
`n > 0` candidates at the positions `p 0, p 1, …` in a sequence of elements. -/
def chooseYIndices (lib : Lib RElem) (p : ℕ → ℕ) (n : ℕ) (elements : List RElem) : List ℕ :=
  let below (i : ℕ) := canXCut lib (elements.drop (p i))
  let above (i : ℕ) := canXCut lib (elements.take (p i))
  let between (i j : ℕ) := canXCut lib ((elements.take (p j)).drop (p i))
  let lastFound := (List.range n).find? below
  let last := lastFound.getD (n - 1)
  let firstFound := (List.range (last + 1)).reverse.find? above
  let first := firstFound.getD 0
  lastFound.toList ++ firstFound.toList ++ pairLoop between last (last + 1) first

/-- `chooseYCuts`, `/repo/src/ReadingOrderDetection.cpp:338-403`. -/
def chooseYCuts (lib : Lib RElem) : Choose RElem := fun cuts elements i =>
  if elements.isEmpty || cuts.isEmpty then false
  else (chooseYIndices lib (fun k => (cuts[k]?.map (·.posInElements)).getD 0) cuts.length elements).contains i

/-- The parameters of the call of `xyCut`, `/repo/src/ReadingOrderDetection.cpp:135-137`. -/
def params (lib : Lib RElem) : Params RElem where
  pos := RElem.pos
  lib := lib
  minXGap := minXCutGapWidth
  minYGap := minYCutGapHeight
  maxOverlap := 0
  chooseX := chooseXCuts
  chooseY := chooseYCuts lib

/-- The groups of a primary x-group, `/repo/src/ReadingOrderDetection.cpp:127-138`. -/
def divideXGroup (st : Stats) (x : Extent) (lib : Lib RElem) (g : List RElem) : List (List RElem) :=
  (yCut RElem.pos lib minYCutGapHeight (choosePrimaryYCuts st x) g).groups.flatMap fun g' =>
    (xyCut (params lib) g').1

/-- The groups of a page, `/repo/src/ReadingOrderDetection.cpp:120-139`. -/
def pageGroups (st : Stats) (lib : Lib RElem) (elements : List RElem) : List (List RElem) :=
  let x := elements.foldl Extent.add {}
  (xCut RElem.pos lib minXCutGapWidth 0 (choosePrimaryXCuts st x) elements).groups.flatMap
    (divideXGroup st x lib)

/-- The body of the loop over the pages, `/repo/src/ReadingOrderDetection.cpp:101-153`: the blocks of the
page in reading order. `sort` is the `std::sort` of line 143. -/
def pageOrder (st : Stats) (lib : Lib RElem) (sort : List RElem → List RElem)
    (blocks figures shapes : List RElem) : List RElem :=
  (pageGroups st lib (blocks ++ figures ++ shapes)).flatMap fun g => (sort g).filter (·.isBlock)

/-- A page: its text blocks, figures and shapes; `/repo/src/Types.h:1005-1069`. -/
structure Page where
  blocks : List RElem
  figures : List RElem
  shapes : List RElem

/-- `detectReadingOrder`, `/repo/src/ReadingOrderDetection.cpp:76-155`. -/
def detectReadingOrder (st : Stats) (lib : Lib RElem) (sort : List RElem → List RElem)
    (pages : List Page) : List Page :=
  pages.map fun p => { p with blocks := pageOrder st lib sort p.blocks p.figures p.shapes }

end Verif.ReadingOrder
