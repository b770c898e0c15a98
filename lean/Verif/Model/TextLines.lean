import Verif.Model.Words

/-!
# Model of text line detection

`/repo/src/TextLinesDetection.cpp`, `/repo/src/utils/TextLinesDetectionUtils.cpp`.

The words of a page are a list; a pointer to a word is its index in that list (`Word.parts`,
`Word.partOf`).  Text lines are identified by their rank, which counts the lines of the document.
-/

namespace Verif.TextLines

open Verif.Math Verif.Elements Verif.Counter Verif.Text Verif.Words

/-- `PdfTextLine`, `/repo/src/Types.h:622-732`, the fields set by text line detection (links between
lines are separate, see `linkLines` and `Link`). -/
structure Line where
  words : List Word
  pos : Box := {}
  text : Str := []
  fontName : Str := []
  fontSize : ℚ := -1
  maxFontSize : ℚ := 0
  base : ℚ := 0

/-- The C++ library routines used here: the hash tables' iteration orders (for the counters and for
the clusters), and the four calls of `std::sort`, `/repo/src/TextLinesDetection.cpp:205,207,406,408`. -/
structure LineLib where
  hash : HashOrder
  iter : (β : Type) → List β → List β
  iterPerm : ∀ β l, (iter β l).Perm l
  sortRotLeftXAsc : List Word → List Word
  sortRotLeftXDesc : List Word → List Word
  sortRotLowerYAsc : List Line → List Line
  sortRotLowerYDesc : List Line → List Line

/-- `if (counter.sumCounts() > 0) { x = counter.max(); }`,
`/repo/src/TextLinesDetection.cpp:455-458`. -/
def maxOr (h : HashOrder) (dflt : ℚ) (xs : List ℚ) : Outcome ℚ :=
  let entries := h.order ℚ (countAll xs)
  if sumCounts entries > 0 then Counter.max entries else .ok dflt

/-- The box with ordered edges, `/repo/src/TextLinesDetection.cpp:420-423`. -/
def normBox (b : Box) : Box :=
  { b with leftX := minimum b.leftX b.rightX
           upperY := minimum b.lowerY b.upperY
           rightX := maximum b.leftX b.rightX
           lowerY := maximum b.lowerY b.upperY }

/-- The words' texts separated by single spaces, `/repo/src/TextLinesDetection.cpp:438-441`. -/
def joinWords (words : List Word) : Str := [' '].intercalate (words.map (·.text))

/-- `computeTextLineProperties`, `/repo/src/TextLinesDetection.cpp:386-463`. -/
def computeTextLineProperties (lib : LineLib) (line : Line) : Outcome Line :=
  match line.words with
  | [] => .ok line
  | first :: _ =>
    let words := if first.pos.rotation = 0 ∨ first.pos.rotation = 1
      then lib.sortRotLeftXAsc line.words else lib.sortRotLeftXDesc line.words
    let pos := Box.extendAll
      { line.pos with
        rotation := first.pos.rotation
        wMode := first.pos.wMode
        pageNum := first.pos.pageNum } (words.map fun w => normBox w.pos)
    let chars := words.flatMap (·.chars)
    (mostFreqOr lib.hash [] line.fontName (chars.map (·.fontName))).bind fun fontName =>
    (mostFreqOr lib.hash 0 line.fontSize (chars.map (·.fontSize))).bind fun fontSize =>
    (maxOr lib.hash line.maxFontSize (chars.map (·.fontSize))).bind fun maxFontSize =>
    (mostFreqOr lib.hash 0 line.base (chars.map (·.base))).bind fun base =>
    .ok { words := words, pos := pos, text := joinWords words, fontName := fontName,
          fontSize := fontSize, maxFontSize := maxFontSize, base := base }

/-- `createTextLine`, `/repo/src/TextLinesDetection.cpp:350-374` (the random id is left out). -/
def createTextLine (lib : LineLib) (words : List Word) : Outcome Line :=
  computeTextLineProperties lib { words := words }

/-- `mergeTextLines(line1, line2)`, `/repo/src/TextLinesDetection.cpp:377-383`: the new value of
`line2`. -/
def mergeTextLines (lib : LineLib) (line1 line2 : Line) : Outcome Line :=
  computeTextLineProperties lib { line2 with words := line2.words ++ line1.words }

/-- The words of a segment that start a cluster entry, with the words attached to them;
`/repo/src/TextLinesDetection.cpp:142-156`. `page` is the list of all words of the page. -/
def wordGroup (page : List Word) (w : Word) : List Word :=
  if w.partOf.isSome then [] else w :: w.parts.filterMap (page[·]?)

/-- `clusters[rotation][lowerY].push_back(...)`, inner table,
`/repo/src/TextLinesDetection.cpp:148-156`. -/
def addInner (y : ℚ) (ws : List Word) : List (ℚ × List Word) → List (ℚ × List Word)
  | [] => [(y, ws)]
  | (k, v) :: r => if k = y then (k, v ++ ws) :: r else (k, v) :: addInner y ws r

/-- `clusters[rotation][lowerY].push_back(...)`, outer table,
`/repo/src/TextLinesDetection.cpp:148-156`. -/
def addCluster (rot : ℤ) (y : ℚ) (ws : List Word) :
    List (ℤ × List (ℚ × List Word)) → List (ℤ × List (ℚ × List Word))
  | [] => [(rot, addInner y ws [])]
  | (k, v) :: r => if k = rot then (k, addInner y ws v) :: r else (k, v) :: addCluster rot y ws r

/-- The loop over the words of the segment, `/repo/src/TextLinesDetection.cpp:119-158`. -/
def cluster (page : List Word) (words : List Word) : List (ℤ × List (ℚ × List Word)) :=
  words.foldl (fun cl w =>
    if w.partOf.isSome then cl
    else addCluster w.pos.rotation w.pos.getRotLowerY (wordGroup page w) cl) []

/-- `getYOverlapRatioThreshold`, `/repo/src/Config.h:445-447`. -/
def yOverlapRatioThreshold (avgCharWidth xGap : ℚ) : ℚ :=
  if xGap < 3 * avgCharWidth then 4 / 10 else 8 / 10

/-- Is the line merged into the previous line? `/repo/src/TextLinesDetection.cpp:260-281`.  (Without a
previous line, the overlap ratio is 0 and the line is never merged.) -/
def shouldMerge (avgCharWidth : ℚ) (prev curr : Line) : Bool :=
  equalOrLarger (computeMaxYOverlapRatio prev.pos curr.pos)
    (yOverlapRatioThreshold avgCharWidth (computeHorizontalGap prev.pos curr.pos)) tol

/-- One round, `/repo/src/TextLinesDetection.cpp:230-302`, from the line after `prev` (the last line of
`mergedLines`) on; the flag is `merged`. -/
def mergeFrom (lib : LineLib) (acw : ℚ) (prev : Line) : List Line → Outcome (List Line × Bool)
  | [] => .ok ([prev], false)
  | l :: ls =>
    if shouldMerge acw prev l then
      (mergeTextLines lib l prev).bind fun p =>
      (mergeFrom lib acw p ls).bind fun r => .ok (r.1, true)
    else
      (mergeFrom lib acw l ls).bind fun r => .ok (prev :: r.1, r.2)

/-- One round, `/repo/src/TextLinesDetection.cpp:230-302`. -/
def mergeRound (lib : LineLib) (acw : ℚ) : List Line → Outcome (List Line × Bool)
  | [] => .ok ([], false)
  | l :: ls => mergeFrom lib acw l ls

theorem mergeFrom_length (lib : LineLib) (acw : ℚ) (ls : List Line) : ∀ (prev : Line) (r : List Line × Bool),
    mergeFrom lib acw prev ls = .ok r →
      r.1.length ≤ ls.length + 1 ∧ (r.2 = true → r.1.length < ls.length + 1) := by
  induction ls with
  | nil =>
    intro prev r h
    simp only [mergeFrom, Outcome.ok.injEq] at h
    subst h; simp
  | cons l ls ih =>
    intro prev r h
    rw [mergeFrom] at h
    split at h
    · cases hm : mergeTextLines lib l prev with
      | ok p =>
        rw [hm] at h
        simp only [Outcome.bind] at h
        cases hr : mergeFrom lib acw p ls with
        | ok r' =>
          rw [hr] at h
          simp only [Outcome.ok.injEq] at h
          subst h
          have := (ih p r' hr).1
          simp only [List.length_cons]
          exact ⟨by omega, fun _ => by omega⟩
        | throw m => rw [hr] at h; cases h
        | ub m => rw [hr] at h; cases h
      | throw m => rw [hm] at h; cases h
      | ub m => rw [hm] at h; cases h
    · cases hr : mergeFrom lib acw l ls with
      | ok r' =>
        rw [hr] at h
        simp only [Outcome.bind, Outcome.ok.injEq] at h
        subst h
        have := ih l r' hr
        simp only [List.length_cons]
        exact ⟨by omega, fun hb => by have := this.2 hb; omega⟩
      | throw m => rw [hr] at h; cases h
      | ub m => rw [hr] at h; cases h

theorem mergeRound_shrinks (lib : LineLib) (acw : ℚ) (ls ls' : List Line)
    (h : mergeRound lib acw ls = .ok (ls', true)) : ls'.length < ls.length := by
  cases ls with
  | nil => simp [mergeRound] at h
  | cons l ls => simpa using (mergeFrom_length lib acw ls l _ h).2 rfl

set_option linter.unusedVariables false in
/-- The rounds, `/repo/src/TextLinesDetection.cpp:218-308`. -/
def mergeRounds (lib : LineLib) (acw : ℚ) (ls : List Line) : Outcome (List Line) :=
  match h : mergeRound lib acw ls with
  | .ok (ls', true) => mergeRounds lib acw ls'
  | .ok (ls', false) => .ok ls'
  | .throw m => .throw m
  | .ub m => .ub m
termination_by ls.length
decreasing_by exact mergeRound_shrinks lib acw ls ls' h

/-- Creating a line for every entry of an inner table, `/repo/src/TextLinesDetection.cpp:176-191`. -/
def createAll (lib : LineLib) : List (ℚ × List Word) → Outcome (List Line)
  | [] => .ok []
  | e :: es => (createTextLine lib e.2).bind fun l => (createAll lib es).bind fun ls => .ok (l :: ls)

/-- The lines of one rotation, `/repo/src/TextLinesDetection.cpp:162-308`. -/
def linesOfRotation (lib : LineLib) (acw : ℚ) (rot : ℤ) (inner : List (ℚ × List Word)) :
    Outcome (List Line) :=
  (createAll lib (lib.iter _ inner)).bind fun lines =>
  mergeRounds lib acw
    (if rot = 0 ∨ rot = 1 then lib.sortRotLowerYAsc lines else lib.sortRotLowerYDesc lines)

/-- The groups of lines of a segment, one per rotation, `/repo/src/TextLinesDetection.cpp:161-308`. -/
def rotationGroups (lib : LineLib) (acw : ℚ) : List (ℤ × List (ℚ × List Word)) →
    Outcome (List (List Line))
  | [] => .ok []
  | c :: cs =>
    (linesOfRotation lib acw c.1 c.2).bind fun ls =>
    (rotationGroups lib acw cs).bind fun rest => .ok (ls :: rest)

/-- The text lines of a segment, grouped by rotation; `/repo/src/TextLinesDetection.cpp:92-325`. -/
def segmentLines (lib : LineLib) (acw : ℚ) (page words : List Word) : Outcome (List (List Line)) :=
  rotationGroups lib acw (lib.iter _ (cluster page words))

/-- The loop over the segments of a page, `/repo/src/TextLinesDetection.cpp:92-325` (`segments` are the
words of each segment; segments without words get no lines): the lines of each segment. -/
def pageLines (lib : LineLib) (acw : ℚ) (page : List Word) : List (List Word) →
    Outcome (List (List Line))
  | [] => .ok []
  | s :: ss =>
    (segmentLines lib acw page s).bind fun gs =>
    (pageLines lib acw page ss).bind fun rest => .ok (gs.flatten :: rest)

/-- The rank and the references to the previous and next line (ranks, as references), set in
`/repo/src/TextLinesDetection.cpp:312-323`. -/
structure Linked where
  line : Line
  rank : ℕ
  prevLine : Option ℕ
  nextLine : Option ℕ

/-- `/repo/src/TextLinesDetection.cpp:312-323` for one group of lines; `numLines` is the number of
lines so far. -/
def linkLines (numLines : ℕ) (lines : List Line) : List Linked :=
  lines.mapIdx fun i l =>
    { line := l
      rank := numLines + i
      prevLine := if i > 0 then some (numLines + i - 1) else none
      nextLine := if i < lines.length - 1 then some (numLines + i + 1) else none }

/-- The lines of all groups, in the order in which they are appended to `segment->lines`. -/
def linkGroups : ℕ → List (List Line) → List Linked
  | _, [] => []
  | n, g :: gs => linkLines n g ++ linkGroups (n + g.length) gs

/-- `computeTrimBox`, `/repo/src/utils/TextLinesDetectionUtils.cpp:144-177`: right edge of the trim box
(the other edges are those of the segment), from the segment's box and the boxes of its lines. -/
def trimRightX (h : HashOrder) (segRightX : ℚ) (lines : List Box) : Outcome ℚ :=
  let entries := h.order ℚ (countAll (lines.map fun b => roundTo b.getRotRightX 0))
  if sumCounts entries > 0 then
    (mostFreqAndCount 0 entries).bind fun p =>
      let nLines : ℚ := lines.length
      let ratio : ℚ := if nLines > 0 then p.2 / nLines else 0
      .ok (if equalOrLarger ratio (1 / 2) tol then p.1 else segRightX)
  else .ok segRightX

/-- `computeTrimBox`, `/repo/src/utils/TextLinesDetectionUtils.cpp:144-177`: (left, upper, right,
lower). -/
def computeTrimBox (h : HashOrder) (seg : Box) (lines : List Box) : Outcome (ℚ × ℚ × ℚ × ℚ) :=
  (trimRightX h seg.rightX lines).bind fun r => .ok (seg.leftX, seg.upperY, r, seg.lowerY)

/-! ## The text line hierarchy -/

/-- `parentLine`, `prevSiblingLine`, `nextSiblingLine`, `/repo/src/Types.h:690-715`; lines are
identified by their position among the lines of the page. -/
structure Link where
  parent : Option ℕ := none
  prevSibling : Option ℕ := none
  nextSibling : Option ℕ := none
deriving DecidableEq

/-- The state of the loop: the links, the stack (top first) and the previous line. -/
structure HState where
  links : ℕ → Link := fun _ => {}
  stack : List ℕ := []

/-- Emptying the stack at a large distance, `/repo/src/utils/TextLinesDetectionUtils.cpp:68-79`
(limit and tolerance from `/repo/src/Config.h:419` and `73`). -/
def resetsStack (prev : Option Box) (line : Box) : Bool :=
  match prev with
  | none => false
  | some p =>
    decide (p.rotation = line.rotation) && decide (p.wMode = line.wMode) &&
    larger |computeVerticalGap p line| 10 (1 / 10)

/-- One iteration of the loop, `/repo/src/utils/TextLinesDetectionUtils.cpp:64-139`: `i` is the
position of the current line. `thr` is `1.0 * avgCharWidth`. -/
def hierarchyStep (pos : ℕ → Box) (thr : ℚ) (st : HState) (i : ℕ) : HState :=
  let stack0 := if resetsStack (if i = 0 then none else some (pos (i - 1))) (pos i) then [] else st.stack
  let stack := stack0.dropWhile fun j => larger (pos j).leftX (pos i).leftX thr
  match stack with
  | [] => { st with stack := [i] }
  | top :: rest =>
    if equalOrLarger (pos top).lowerY (pos i).lowerY (1 / 10) then { st with stack := stack }
    else if equal (pos top).leftX (pos i).leftX thr then
      let l1 := Function.update st.links top { st.links top with nextSibling := some i }
      { links := Function.update l1 i
          { l1 i with prevSibling := some top, parent := (l1 top).parent }
        stack := i :: rest }
    else if smaller (pos top).leftX (pos i).leftX thr then
      { links := Function.update st.links i { st.links i with parent := some top }
        stack := i :: stack }
    else { st with stack := stack }

/-- `computeTextLineHierarchy`, `/repo/src/utils/TextLinesDetectionUtils.cpp:49-141`, for a page with
`n` lines. -/
def computeTextLineHierarchy (pos : ℕ → Box) (thr : ℚ) (n : ℕ) : ℕ → Link :=
  ((List.range n).foldl (hierarchyStep pos thr) {}).links

end Verif.TextLines
