import Verif.Model.Box
import Verif.Model.PriorityQueue

/-!
# Model of `/repo/src/utils/XYCut.cpp`

The elements are values of an arbitrary type `α` with a position `pos : α → Box` (the code handles
pointers to `PdfElement`).  `std::sort`, the queue's `partial_sort_copy` and the heap operations of
`std::priority_queue` are parameters (`Lib`).  A cut choosing strategy is a function that tells for
the i-th candidate whether it is chosen; it may look at all candidates and elements.  The random
`id` of a cut and the `silent` flag are left out.
-/

namespace Verif.XYCut

open Verif.Math Verif.Elements

/-- `CutDir`, `/repo/src/Types.h:113`. -/
inductive CutDir where
  | x
  | y
deriving DecidableEq

/-- `Cut`, `/repo/src/Types.h:1148-1240` (the random id and debug fields are left out). -/
structure Cut (α : Type) where
  dir : CutDir
  posInElements : ℕ
  elementBefore : α
  elementAfter : α
  pageNum : ℤ
  x1 : ℚ
  y1 : ℚ
  x2 : ℚ
  y2 : ℚ
  gapWidth : ℚ
  gapHeight : ℚ
  overlappingElements : List α
  isChosen : Bool := false

/-- The C++ library routines used by `/repo/src/utils/XYCut.cpp`: the two calls of `std::sort`
(lines 110 and 241), the sort of the queue content (line 161) and `top()`/`pop()` of the heap
(lines 152, 192, 193). -/
structure Lib (α : Type) where
  sortLeftX : List α → List α
  sortUpperY : List α → List α
  sortRightXDesc : List α → List α
  popTop : PQ.PopTop α

/-- A cut choosing strategy (`ChooseCutsFunc`, `/repo/src/utils/XYCut.h:55-56`): given the candidates
and the sorted elements, is the candidate with this index chosen? -/
abbrev Choose (α : Type) := List (Cut α) → List α → ℕ → Bool

/-- Calls the strategy and sets `isChosen` of the candidates; `/repo/src/utils/XYCut.cpp:193, 290`. -/
def applyChoice {α : Type} (choose : Choose α) (cands : List (Cut α)) (s : List α) :
    List (Cut α) :=
  cands.mapIdx fun i c => { c with isChosen := choose cands s i }

/-- The loop over the queue elements, `/repo/src/utils/XYCut.cpp:157-184`: the first previous element
with a large enough gap, the gap, and the overlapping elements tried before it. -/
def findGap {α : Type} (pos : α → Box) (minGap : ℚ) (e : α) :
    List α → List α → Option (α × ℚ × List α)
  | [], _ => none
  | prev :: rest, ov =>
    let gap := computeHorizontalGap (pos prev) (pos e)
    if equalOrLarger gap minGap tol then some (prev, gap, ov)
    else findGap pos minGap e rest (ov ++ [prev])

/-- Pushing onto the fixed capacity queue (`PQ.push`); the capacity `maxNumOverlappingElements + 1`
is at least 1, so that the push never fails (`pushQ_eq`). -/
def pushQ {α : Type} (popTop : PQ.PopTop α) (capacity : ℕ) (q : List α) (v : α) : List α :=
  match PQ.push popTop capacity q v with
  | .ok q' => q'
  | _ => q

/-- `/repo/src/utils/XYCut.cpp:186-189`: the element enters the queue if its right edge lies right of
the smallest one in the queue. -/
def updateQ {α : Type} (pos : α → Box) (popTop : PQ.PopTop α) (capacity : ℕ) (q : List α) (e : α) :
    List α :=
  match popTop q with
  | some (top, _) =>
    if larger (pos e).rightX (pos top).rightX tol then pushQ popTop capacity q e else q
  | none => q

/-- The loop of `xCut`, `/repo/src/utils/XYCut.cpp:146-190`; `p` is the loop variable `pos`, `q` the
content of the queue, the list the elements not yet visited. -/
def xLoop {α : Type} (pos : α → Box) (lib : Lib α) (minGap : ℚ) (m : ℕ) (minY maxY : ℚ) :
    ℕ → List α → List α → List (Cut α)
  | _, _, [] => []
  | p, q, e :: es =>
    let q' := updateQ pos lib.popTop (m + 1) q e
    match findGap pos minGap e (PQ.sort lib.sortRightXDesc q) [] with
    | some (prev, gap, ov) =>
      let gapX := (pos prev).rightX + gap / 2
      { dir := .x, posInElements := p, elementBefore := prev, elementAfter := e,
        pageNum := (pos e).pageNum, x1 := gapX, y1 := minY, x2 := gapX, y2 := maxY,
        gapWidth := gap, gapHeight := maxY - minY, overlappingElements := ov } ::
        xLoop pos lib minGap m minY maxY (p + 1) q' es
    | none => xLoop pos lib minGap m minY maxY (p + 1) q' es

/-- The loop dividing the elements at the chosen cuts, `/repo/src/utils/XYCut.cpp:195-228`
(and `296-322`). -/
def splitGroups {α : Type} (s : List α) : ℕ → List (Cut α) → List (List α)
  | prevCutPos, [] => [s.drop prevCutPos]
  | prevCutPos, c :: cs =>
    if c.isChosen then
      (s.drop prevCutPos).take (c.posInElements - prevCutPos) :: splitGroups s c.posInElements cs
    else splitGroups s prevCutPos cs

/-- Result of `xCut`/`yCut`: what is appended to `resultGroups` and `resultCuts`, and the returned
flag. -/
structure Result (α : Type) where
  groups : List (List α)
  cuts : List (Cut α)
  ok : Bool

/-- Smallest/largest other coordinate, `/repo/src/utils/XYCut.cpp:113-118` (`244-249`). -/
def extent {α : Type} (lo hi : α → ℚ) (s : List α) : ℚ × ℚ :=
  s.foldl (fun acc e => (minimum acc.1 (lo e), maximum acc.2 (hi e))) (dblMax, dblMin)

/-- The candidates of `xCut`, `/repo/src/utils/XYCut.cpp:104-190`. -/
def xCandidates {α : Type} (pos : α → Box) (lib : Lib α) (minGap : ℚ) (m : ℕ) (elements : List α) :
    List (Cut α) :=
  let s := lib.sortLeftX elements
  let ext := extent (fun e => (pos e).upperY) (fun e => (pos e).lowerY) s
  match s with
  | [] => []
  | e0 :: es => xLoop pos lib minGap m ext.1 ext.2 1 (pushQ lib.popTop (m + 1) [] e0) es

/-- `xCut`, `/repo/src/utils/XYCut.cpp:100-228`. -/
def xCut {α : Type} (pos : α → Box) (lib : Lib α) (minGap : ℚ) (m : ℕ) (choose : Choose α)
    (elements : List α) : Result α :=
  if elements.isEmpty then ⟨[], [], false⟩
  else
    let s := lib.sortLeftX elements
    let cuts := applyChoice choose (xCandidates pos lib minGap m elements) s
    ⟨splitGroups s 0 cuts, cuts, cuts.any (·.isChosen)⟩

/-- The loop of `yCut`, `/repo/src/utils/XYCut.cpp:255-288`; `big` is `elementLargestLowerY`. -/
def yLoop {α : Type} (pos : α → Box) (minGap : ℚ) (minX maxX : ℚ) :
    ℕ → α → List α → List (Cut α)
  | _, _, [] => []
  | p, big, e :: es =>
    let gap := computeVerticalGap (pos big) (pos e)
    let gapY := (pos big).lowerY + gap / 2
    let big' := if larger (pos e).lowerY (pos big).lowerY tol then e else big
    if equalOrLarger gap minGap tol then
      { dir := .y, posInElements := p, elementBefore := big, elementAfter := e,
        pageNum := (pos e).pageNum, x1 := minX, y1 := gapY, x2 := maxX, y2 := gapY,
        gapWidth := maxX - minX, gapHeight := gap, overlappingElements := [] } ::
        yLoop pos minGap minX maxX (p + 1) big' es
    else yLoop pos minGap minX maxX (p + 1) big' es

/-- The candidates of `yCut`, `/repo/src/utils/XYCut.cpp:235-288`. -/
def yCandidates {α : Type} (pos : α → Box) (lib : Lib α) (minGap : ℚ) (elements : List α) :
    List (Cut α) :=
  let s := lib.sortUpperY elements
  let ext := extent (fun e => (pos e).leftX) (fun e => (pos e).rightX) s
  match s with
  | [] => []
  | e0 :: es => yLoop pos minGap ext.1 ext.2 1 e0 es

/-- `yCut`, `/repo/src/utils/XYCut.cpp:231-325`. -/
def yCut {α : Type} (pos : α → Box) (lib : Lib α) (minGap : ℚ) (choose : Choose α)
    (elements : List α) : Result α :=
  if elements.isEmpty then ⟨[], [], false⟩
  else
    let s := lib.sortUpperY elements
    let cuts := applyChoice choose (yCandidates pos lib minGap elements) s
    ⟨splitGroups s 0 cuts, cuts, cuts.any (·.isChosen)⟩

/-- Parameters of `xyCut`, `/repo/src/utils/XYCut.cpp:46-49`. -/
structure Params (α : Type) where
  pos : α → Box
  lib : Lib α
  minXGap : ℚ
  minYGap : ℚ
  maxOverlap : ℕ
  chooseX : Choose α
  chooseY : Choose α

/-- Groups and cuts appended to the result vectors. -/
abbrev Out (α : Type) := List (List α) × List (Cut α)

/-- `for (group : groups) f(group)`, appending to the results (`/repo/src/utils/XYCut.cpp:72-75,
81-96`); `none` if one of the calls did not return. -/
def forGroups {α : Type} (f : List α → Option (Out α)) : List (List α) → Option (Out α)
  | [] => some ([], [])
  | g :: gs =>
    match f g, forGroups f gs with
    | some (a, b), some (c, d) => some (a ++ c, b ++ d)
    | _, _ => none

/-- The body of the loop over the x-groups, `/repo/src/utils/XYCut.cpp:81-96`: try to divide the group
by y-cuts and, on success, call `xyCut` (`rec`) on the sub-groups. -/
def divideGroup {α : Type} (P : Params α) (rec : List α → Option (Out α)) (xGroup : List α) :
    Option (Out α) :=
  let y := yCut P.pos P.lib P.minYGap P.chooseY xGroup
  if y.ok then (forGroups rec y.groups).map fun out => (out.1, y.cuts ++ out.2)
  else some ([xGroup], y.cuts)

/-- `xyCut`, `/repo/src/utils/XYCut.cpp:46-97`, with the recursion depth bounded by `fuel`; `none`
means that the recursion is deeper.  (C18 shows that a depth of `elements.length` suffices.)  The
branch without x-cuts (lines 61-77) does to all elements what the loop does to each x-group. -/
def xyCutF {α : Type} (P : Params α) : ℕ → List α → Option (Out α)
  | 0, elements => if elements.isEmpty then some ([], []) else none
  | fuel + 1, elements =>
    if elements.isEmpty then some ([], [])
    else
      let x := xCut P.pos P.lib P.minXGap P.maxOverlap P.chooseX elements
      if x.ok then
        (forGroups (divideGroup P (xyCutF P fuel)) x.groups).map fun out => (out.1, x.cuts ++ out.2)
      else
        (divideGroup P (xyCutF P fuel) elements).map fun out => (out.1, x.cuts ++ out.2)

/-- `xyCut` with enough fuel, see C18. -/
def xyCut {α : Type} (P : Params α) (elements : List α) : Out α :=
  (xyCutF P elements.length elements).getD ([], [])

end Verif.XYCut
