import Verif.Model.TextLines

/-!
# Model of text block detection

`/repo/src/TextBlocksDetection.cpp`, `/repo/src/utils/TextBlocksDetectionUtils.cpp`.

Text lines are identified by their numbers (`PdfTextLine::rank`, C26).  What block detection only
reads is in `Doc`, what it changes (the links between lines and the margins) is in `State`.
Unqualified `abs` is taken to be the overload for `double`.
-/

namespace Verif.TextBlocks

open Verif.Math Verif.Elements Verif.Counter Verif.Text Verif.Words Verif.TextLines

/-- `Trool`, `/repo/src/utils/Trool.h:21`. -/
inductive Trool where
  | none | false | true
deriving DecidableEq, Repr

/-- The fields of `PdfPageSegment` that are read: `/repo/src/Types.h:956-997`. -/
structure Seg where
  pos : Box := {}
  trimLeftX : ℚ := 0
  trimUpperY : ℚ := 0
  trimRightX : ℚ := 0
  trimLowerY : ℚ := 0

/-- The fields of `PdfFontInfo` that are read, `/repo/src/Types.h:150-210`. -/
structure FontInfo where
  weight : ℚ
  isItalic : Bool

/-- Everything block detection reads and does not change: the text lines with their place in the
hierarchy and their segments, the figures per page number, the statistics of the document
(`/repo/src/Types.h:1077-1138`), and the result of searching the regular expressions of
`/repo/src/Config.h:699-718` in a text (the regex library is not modelled: any function). -/
structure Doc where
  line : ℕ → Line
  link : ℕ → Link := fun _ => {}
  seg : ℕ → Seg := fun _ => {}
  figures : ℤ → List Box := fun _ => []
  avgCharWidth : ℚ := 0
  mostFreqWordHeight : ℚ := 0
  mostFreqLineDistance : ℚ := 0
  lineDistancePerFontSize : ℚ → Option ℚ := fun _ => .none
  fontInfos : Str → Option FontInfo := fun _ => .none
  mostFreqFontName : Str := []
  mostFreqFontSize : ℚ := 0
  matchesItemRegex : Str → Bool := fun _ => Bool.false

/-- What block detection changes: `prevLine`, `nextLine`, `leftMargin`, `rightMargin` of the lines
(`/repo/src/Types.h:622-732`) and `_potentFnLabels`. -/
structure State where
  prevLine : ℕ → Option ℕ
  nextLine : ℕ → Option ℕ
  leftMargin : ℕ → ℚ := fun _ => 0
  rightMargin : ℕ → ℚ := fun _ => 0
  labels : List Str := []

/-- `PdfTextBlock`, `/repo/src/Types.h:744-805`; references to blocks are positions in the list the
block is appended to. -/
structure Block where
  lines : List ℕ
  pos : Box
  rank : ℕ
  fontName : Str
  fontSize : ℚ
  text : Str
  trimLeftX : ℚ
  trimUpperY : ℚ
  trimRightX : ℚ
  trimLowerY : ℚ
  prevBlock : Option ℕ := none
  nextBlock : Option ℕ := none
  isEmphasized : Bool := false
  isLinesCentered : Bool := false
  hangingIndent : ℚ := 0

/-! ## Utilities -/

/-- `computeHasEqualFontSize`, `/repo/src/utils/PdfElementsUtils.cpp:212-217` with the tolerance
`fsEqualTolerance = 1.0`, `/repo/src/Config.h:77`. -/
def hasEqualFontSize (fs1 fs2 : ℚ) : Bool := equal fs1 fs2 1

/-- `computeIsCentered`, `/repo/src/utils/TextBlocksDetectionUtils.cpp:73-96`. -/
def computeIsCentered (d : Doc) (l1 l2 : Line) : Bool :=
  if smaller (computeMaxXOverlapRatio l1.pos l2.pos) (99 / 100) tol then false
  else equal |computeLeftXOffset l1.pos l2.pos| |computeRightXOffset l1.pos l2.pos|
    (2 * d.avgCharWidth)

/-- The line contains one of the characters `=`, `+`;
`/repo/src/utils/TextBlocksDetectionUtils.cpp:127-141`. -/
def containsFormula (text : Str) : Bool := text.contains '=' || text.contains '+'

/-- The offsets of two consecutive lines are large and none of them is a formula,
`/repo/src/utils/TextBlocksDetectionUtils.cpp:125-152`. -/
def largeOffset (d : Doc) (prev curr : Line) : Bool :=
  !(containsFormula prev.text || containsFormula curr.text) &&
  (larger |computeLeftXOffset prev.pos curr.pos| (2 * d.avgCharWidth) tol ||
   larger |computeRightXOffset prev.pos curr.pos| (2 * d.avgCharWidth) tol)

/-- The loop of `computeIsTextLinesCentered`, `/repo/src/utils/TextBlocksDetectionUtils.cpp:113-157`,
from the line after `prev` on. -/
def centeredLoop (d : Doc) (prev : Line) (hasLarge : Bool) (numJustified : ℕ) : List Line → Bool
  | [] => hasLarge && decide (numJustified ≤ 5)
  | l :: ls =>
    if !computeIsCentered d prev l then false
    else if largeOffset d prev l then centeredLoop d l true numJustified ls
    else centeredLoop d l hasLarge (numJustified + 1) ls

/-- `computeIsTextLinesCentered`, `/repo/src/utils/TextBlocksDetectionUtils.cpp:99-161`. -/
def computeIsTextLinesCentered (d : Doc) : List Line → Bool
  | [] => false
  | l :: ls => centeredLoop d l false 0 ls

/-- `isalpha` of `<cctype>` in the C locale (false for bytes above 127). -/
def isAlphaC (c : Char) : Bool := isUpperC c || (97 ≤ c.toNat && c.toNat ≤ 122)

/-- `islower` of `<cctype>` in the C locale (false for bytes above 127). -/
def isLowerC (c : Char) : Bool := 97 ≤ c.toNat && c.toNat ≤ 122

/-- `isalnum` of `<cctype>` in the C locale (false for bytes above 127). -/
def isAlnumC (c : Char) : Bool := isAlphaC c || (48 ≤ c.toNat && c.toNat ≤ 57)

/-- The loop `/repo/src/utils/TextBlocksDetectionUtils.cpp:201-212`. -/
def allAlphaUpper (text : Str) : Bool := text.any isAlphaC && text.all fun c => !isLowerC c

/-- `computeIsEmphasized`, `/repo/src/utils/TextBlocksDetectionUtils.cpp:164-215`. -/
def computeIsEmphasized (d : Doc) (fontName : Str) (fontSize : ℚ) (text : Str) : Bool :=
  match d.fontInfos d.mostFreqFontName, d.fontInfos fontName with
  | some docFont, some font =>
    larger fontSize d.mostFreqFontSize 1 ||
    (equalOrLarger fontSize d.mostFreqFontSize 1 && larger font.weight docFont.weight 100) ||
    (equalOrLarger fontSize d.mostFreqFontSize 1 && font.isItalic) ||
    allAlphaUpper text
  | _, _ => false

/-- `computeHasPrevLineCapacity`, `/repo/src/utils/TextBlocksDetectionUtils.cpp:218-240`. -/
def computeHasPrevLineCapacity (d : Doc) (s : State) (prev : Option ℕ) (i : ℕ) : Bool :=
  match prev, (d.line i).words with
  | some p, w :: _ => larger (s.rightMargin p) w.pos.getWidth (2 * d.avgCharWidth)
  | _, _ => false

/-- `lastNamePrefixes`, `/repo/src/Config.h:576`. -/
def lastNamePrefixes : List Str := [['v', 'a', 'n'], ['v', 'o', 'n'], ['d', 'e']]

/-- The counts and flags of `computeHangingIndent`,
`/repo/src/utils/TextBlocksDetectionUtils.cpp:253-273`. -/
structure HangCounts where
  isFirstLineIndented : Bool := false
  hasFirstLineCapacity : Bool := false
  isAllOtherLinesIndented : Bool := true
  numLowercasedNonIndented : ℕ := 0
  numLowercasedIndented : ℕ := 0
  numNonIndented : ℕ := 0
  numIndented : ℕ := 0

/-- One iteration of the second loop of `computeHangingIndent`,
`/repo/src/utils/TextBlocksDetectionUtils.cpp:303-361`, for the `k`-th line of the block, which is
line `i`.  (`line->words[0]` exists because a line with a non-empty text has words.) -/
def hangStep (d : Doc) (s : State) (margin : ℚ) (c : HangCounts) (k i : ℕ) : HangCounts :=
  let line := d.line i
  if line.text.length < 3 then c
  else if equal (s.leftMargin i) (s.rightMargin i) d.avgCharWidth
      && larger (s.leftMargin i) d.avgCharWidth tol then c
  else
    let isNonIndented := equal (s.leftMargin i) 0 d.avgCharWidth
    let isIndented := equal (s.leftMargin i) margin d.avgCharWidth
    let isLower := (line.text.head?.map isLowerC).getD false
    let hasPrefix := (line.words.head?.map fun w => lastNamePrefixes.contains w.text).getD false
    { isFirstLineIndented := if k = 0 then isIndented else c.isFirstLineIndented
      hasFirstLineCapacity := if k = 1 then computeHasPrevLineCapacity d s (s.prevLine i) i
        else c.hasFirstLineCapacity
      isAllOtherLinesIndented := if 0 < k then c.isAllOtherLinesIndented && isIndented
        else c.isAllOtherLinesIndented
      numLowercasedNonIndented := if isLower && !hasPrefix && isNonIndented
        then c.numLowercasedNonIndented + 1 else c.numLowercasedNonIndented
      numLowercasedIndented := if isLower && isIndented
        then c.numLowercasedIndented + 1 else c.numLowercasedIndented
      numNonIndented := if isNonIndented then c.numNonIndented + 1 else c.numNonIndented
      numIndented := if isIndented then c.numIndented + 1 else c.numIndented }

/-- The second loop of `computeHangingIndent`, `/repo/src/utils/TextBlocksDetectionUtils.cpp:303-361`. -/
def hangLoop (d : Doc) (s : State) (margin : ℚ) : ℕ → List ℕ → HangCounts → HangCounts
  | _, [], c => c
  | k, i :: is, c => hangLoop d s margin (k + 1) is (hangStep d s margin c k i)

/-- `computeHangingIndent`, `/repo/src/utils/TextBlocksDetectionUtils.cpp:243-393`. -/
def computeHangingIndent (h : HashOrder) (d : Doc) (s : State) (lines : List ℕ) : Outcome ℚ :=
  let numLongLines := (lines.filter fun i => 3 ≤ (d.line i).text.length).length
  let large := lines.filter fun i => equalOrLarger (s.leftMargin i) d.avgCharWidth tol
  let entries := h.order ℚ (countAll (large.map s.leftMargin))
  (if sumCounts entries > 0 then mostFreqAndCount 0 entries else .ok (0, 0)).bind fun p =>
  if equalOrSmaller p.2 (1 / 2 * large.length) tol then .ok 0
  else
    let c := hangLoop d s p.1 0 lines {}
    if c.numIndented = 0 then .ok 0
    else if c.numLowercasedNonIndented > 0 then .ok 0
    else if !c.isFirstLineIndented && !c.hasFirstLineCapacity && c.isAllOtherLinesIndented then .ok p.1
    else if c.numNonIndented ≥ 10 ∧ c.numLowercasedNonIndented ≤ 0 then .ok p.1
    else if numLongLines ≥ 4 ∧ c.numLowercasedIndented ≥ 1 then .ok p.1
    else .ok 0

/-- The (enlarged) right edge of the trim box used for the margins,
`/repo/src/utils/TextBlocksDetectionUtils.cpp:404-413`; `prev` is the block's `prevBlock` (its
`nextBlock` is still null). -/
def marginRightX (d : Doc) (seg : Seg) (b : Block) (prev : Option Block) : ℚ :=
  if b.lines.length = 2 then
    if !equal (b.pos.leftX - seg.pos.leftX) (seg.pos.rightX - b.pos.rightX) d.avgCharWidth then
      match prev with
      | some p => maximum b.trimRightX p.trimRightX
      | none => b.trimRightX
    else b.trimRightX
  else b.trimRightX

/-- `computeTextLineMargins`, `/repo/src/utils/TextBlocksDetectionUtils.cpp:396-419`. -/
def computeTextLineMargins (d : Doc) (s : State) (trimLeftX rightX : ℚ) (lines : List ℕ) : State :=
  { s with
    leftMargin := fun i => if i ∈ lines then (d.line i).pos.leftX - trimLeftX else s.leftMargin i
    rightMargin := fun i => if i ∈ lines then rightX - (d.line i).pos.rightX else s.rightMargin i }

/-- `superItemLabelAlphabet`, `/repo/src/Config.h:696` (`"*∗abcdefghijklmnopqrstuvwxyz01234567890()"`,
in UTF-8). -/
def superItemLabelAlphabet : Str :=
  ([42, 0xE2, 0x88, 0x97] ++ (List.range 26).map (97 + ·) ++ (List.range 10).map (48 + ·) ++
    [48, 40, 41]).map Char.ofNat

/-- What `strstr` sees of a text passed with `c_str()`: the bytes before the first zero byte,
`/repo/src/utils/TextBlocksDetectionUtils.cpp:606`. -/
def beforeZero (s : Str) : Str := s.takeWhile (·.toNat ≠ 0)

/-- `computeIsPrefixedByItemLabel`, `/repo/src/utils/TextBlocksDetectionUtils.cpp:585-619`. -/
def computeIsPrefixedByItemLabel (d : Doc) (i : ℕ) : Bool :=
  match (d.line i).words with
  | [] => false
  | w :: _ =>
    match w.chars with
    | [] => false
    | ch :: _ =>
      (ch.isSuperscript && superItemLabelAlphabet.tails.any ((beforeZero ch.text).isPrefixOf ·)) ||
        d.matchesItemRegex (d.line i).text

/-- The superscripts in front of the line, `/repo/src/utils/TextBlocksDetectionUtils.cpp:633-641`. -/
def superScriptPrefix (w : Word) : Str :=
  ((w.chars.takeWhile (·.isSuperscript)).map (·.text)).flatten

/-- `computeIsPrefixedByFootnoteLabel`, `/repo/src/utils/TextBlocksDetectionUtils.cpp:622-651`. -/
def computeIsPrefixedByFootnoteLabel (d : Doc) (i : ℕ) (labels : Option (List Str)) : Bool :=
  match (d.line i).words with
  | [] => false
  | w :: _ =>
    match labels with
    | some ls => ls.contains (superScriptPrefix w)
    | none => !(superScriptPrefix w).isEmpty

/-- The sibling starts with an item label in the same font and font size,
`/repo/src/utils/TextBlocksDetectionUtils.cpp:467-476` and `482-491`. -/
def siblingIsItem (d : Doc) (i : ℕ) (sibling : Option ℕ) : Bool :=
  match sibling with
  | none => false
  | some j =>
    match (d.line i).words, (d.line j).words with
    | w :: _, w' :: _ => computeIsPrefixedByItemLabel d j && decide (w'.fontName = w.fontName) &&
        hasEqualFontSize w'.fontSize w.fontSize
    | _, _ => false

/-- The experimental exception, `/repo/src/utils/TextBlocksDetectionUtils.cpp:441-462`: the line
seems to continue the previous line. -/
def continuesText (d : Doc) (s : State) (i : ℕ) : Bool :=
  match s.prevLine i with
  | none => false
  | some p =>
    let prev := d.line p
    let line := d.line i
    !computeIsPrefixedByItemLabel d p && decide (prev.fontName = line.fontName) &&
    hasEqualFontSize prev.fontSize line.fontSize &&
    equalOrSmaller (computeVerticalGap prev.pos line.pos) 0 tol &&
    !endsWithSentenceDelimiter prev.text && computeHasEqualLeftX prev.pos line.pos d.avgCharWidth

/-- `computeIsFirstLineOfItem`, `/repo/src/utils/TextBlocksDetectionUtils.cpp:422-501`. -/
def computeIsFirstLineOfItem (d : Doc) (s : State) (i : ℕ) (labels : Option (List Str)) : Bool :=
  if (d.line i).words.isEmpty then false
  else if !computeIsPrefixedByItemLabel d i && !computeIsPrefixedByFootnoteLabel d i labels then false
  else if continuesText d s i then false
  else if siblingIsItem d i (d.link i).prevSibling then true
  else if siblingIsItem d i (d.link i).nextSibling then true
  else computeIsPrefixedByFootnoteLabel d i labels

/-- The recursion of `computeIsContinuationOfItem`, `/repo/src/utils/TextBlocksDetectionUtils.cpp:504-518`,
with at most `fuel` steps. -/
def continuationLoop (d : Doc) (s : State) (labels : Option (List Str)) : ℕ → ℕ → Bool
  | 0, _ => false
  | fuel + 1, i =>
    match (d.link i).parent with
    | none => false
    | some p => computeIsFirstLineOfItem d s p labels || continuationLoop d s labels fuel p

/-- `computeIsContinuationOfItem`, `/repo/src/utils/TextBlocksDetectionUtils.cpp:504-518`.  The parent of
a line is an earlier line (C28), so that `i` steps are enough (on a cycle of parents the source
would not terminate). -/
def computeIsContinuationOfItem (d : Doc) (s : State) (labels : Option (List Str)) (i : ℕ) : Bool :=
  continuationLoop d s labels (i + 1) i

/-- `specialFootnoteLabelsAlphabet`, `/repo/src/Config.h:103` (`"*∗†‡§‖¶?"`, in UTF-8). -/
def footnoteAlphabet : Str :=
  [42, 0xE2, 0x88, 0x97, 0xE2, 0x80, 0xA0, 0xE2, 0x80, 0xA1, 0xC2, 0xA7, 0xE2, 0x80, 0x96, 0xC2,
    0xB6, 63].map Char.ofNat

/-- `result->insert(label)` unless the label is empty,
`/repo/src/utils/TextBlocksDetectionUtils.cpp:570-573,578-580`. -/
def insertLabel (labels : List Str) (label : Str) : List Str :=
  if label.isEmpty then labels else label :: labels

/-- The loop over the characters of a word, `/repo/src/utils/TextBlocksDetectionUtils.cpp:538-574`. -/
def labelLoop (seen : Bool) (label : Str) (labels : List Str) : List Glyph → List Str
  | [] => insertLabel labels label
  | ch :: cs =>
    if !seen && !ch.isSubscript && !ch.isSuperscript then labelLoop true label labels cs
    else if !seen then labelLoop seen label labels cs
    else match ch.text with
      | [] => labelLoop seen label labels cs
      | c :: _ =>
        if footnoteAlphabet.contains c || (ch.isSuperscript && isAlnumC c) then
          labelLoop seen (label ++ ch.text) labels cs
        else labelLoop seen [] (insertLabel labels label) cs

/-- `computePotentialFootnoteLabels`, `/repo/src/utils/TextBlocksDetectionUtils.cpp:521-582`. -/
def computePotentialFootnoteLabels (words : List Word) (labels : List Str) : List Str :=
  words.foldl (fun ls w => labelLoop false [] ls w.chars) labels

/-- `computeOverlapsFigure`, `/repo/src/utils/TextBlocksDetectionUtils.cpp:654-670`: the position of the
figure in the list. -/
def computeOverlapsFigure (e : Box) (figures : List Box) : Option ℕ :=
  figures.findIdx? fun f =>
    equalOrLarger (computeXOverlapRatios e f).1 (1 / 2) tol &&
    equalOrLarger (computeYOverlapRatios e f).1 (1 / 2) tol

/-! ## The rules -/

/-- `startsBlock_existsPrevLine`, `/repo/src/TextBlocksDetection.cpp:308-324`. -/
def existsPrevLine (prev : Option ℕ) : Trool := if prev.isNone then .true else .none

/-- `startsBlock_sameFigure`, `/repo/src/TextBlocksDetection.cpp:327-350`. -/
def sameFigure (d : Doc) (prev line : Line) : Trool :=
  let figures := d.figures line.pos.pageNum
  let f := computeOverlapsFigure prev.pos figures
  if f.isSome && decide (f = computeOverlapsFigure line.pos figures) then .false else .none

/-- `startsBlock_rotation`, `/repo/src/TextBlocksDetection.cpp:353-371`. -/
def rotationRule (prev line : Line) : Trool :=
  if prev.pos.rotation ≠ line.pos.rotation then .true else .none

/-- `startsBlock_wMode`, `/repo/src/TextBlocksDetection.cpp:374-392`. -/
def wModeRule (prev line : Line) : Trool :=
  if prev.pos.wMode ≠ line.pos.wMode then .true else .none

/-- `startsBlock_fontSize`, `/repo/src/TextBlocksDetection.cpp:395-426`. -/
def fontSizeRule (prev line : Line) : Trool :=
  if !equal prev.fontSize line.fontSize 1 && !equal prev.maxFontSize line.maxFontSize 1 then .true
  else .none

/-- The expected line distance, `/repo/src/TextBlocksDetection.cpp:437-442`. -/
def expectedLineDistance (d : Doc) (line : Line) : ℚ :=
  let e : ℚ := match d.lineDistancePerFontSize line.fontSize with
    | some x => maximum 0 x
    | none => 0
  maximum e d.mostFreqLineDistance

/-- `startsBlock_lineDistance`, `/repo/src/TextBlocksDetection.cpp:429-473` (threshold:
`/repo/src/Config.h:504-507`). -/
def lineDistanceRule (d : Doc) (prev line : Line) : Trool :=
  let expected := expectedLineDistance d line
  let actual := roundTo (computeVerticalGap prev.pos line.pos) 1
  if equalOrSmaller actual 0 tol then .false
  else if larger actual expected (maximum 1 (1 / 10 * expected)) then .true
  else .none

/-- `startsBlock_increasedLineDistance`, `/repo/src/TextBlocksDetection.cpp:476-512` (threshold:
`/repo/src/Config.h:525-527`). -/
def increasedLineDistance (d : Doc) (prevPrev : Option Line) (prev line : Line) : Trool :=
  match prevPrev with
  | none => .none
  | some pp =>
    if larger (roundTo (computeVerticalGap prev.pos line.pos) 1)
        (roundTo (computeVerticalGap pp.pos prev.pos) 1) (1 / 2 * d.mostFreqWordHeight) then .true
    else .none

/-- The offset between the lines lies in the interval of `/repo/src/Config.h:545-547`. -/
def offsetInTolerance (d : Doc) (prev line : Line) : Bool :=
  between (computeLeftXOffset prev.pos line.pos) (-d.avgCharWidth) (6 * d.avgCharWidth) tol

/-- `startsBlock_centered`, `/repo/src/TextBlocksDetection.cpp:515-540`. -/
def centeredRule (d : Doc) (s : State) (centered : Bool) (i : ℕ) : Trool :=
  if !centered then .none
  else if computeIsFirstLineOfItem d s i none then .true
  else .false

/-- `startsBlock_item`, `/repo/src/TextBlocksDetection.cpp:543-648`. -/
def itemRule (d : Doc) (s : State) (centered : Bool) (p i : ℕ) : Trool :=
  let prevFirst := computeIsFirstLineOfItem d s p (some s.labels)
  let currFirst := computeIsFirstLineOfItem d s i (some s.labels)
  let prevCont := computeIsContinuationOfItem d s (some s.labels) p
  let currCont := computeIsContinuationOfItem d s (some s.labels) i
  let capacity := computeHasPrevLineCapacity d s (some p) i
  if currFirst then .true
  else if currCont then
    if centered then .false
    else if capacity then .true
    else if prevFirst then .false
    else if prevCont then
      if offsetInTolerance d (d.line p) (d.line i) then .false else .true
    else .false
  else if (prevFirst || prevCont) && !(currFirst || currCont) then
    if capacity then .true
    else if !endsWithSentenceDelimiter (d.line p).text && !startsWithUpper (d.line i).text then .false
    else .none
  else .none

/-- `startsBlock_emphasized`, `/repo/src/TextBlocksDetection.cpp:651-680`. -/
def emphasizedRule (d : Doc) (prev line : Line) : Trool :=
  if computeIsEmphasized d prev.fontName prev.fontSize prev.text &&
      computeIsEmphasized d line.fontName line.fontSize line.text &&
      decide (prev.fontName = line.fontName) && hasEqualFontSize prev.fontSize line.fontSize then .false
  else .none

/-- `startsBlock_hangingIndent`, `/repo/src/TextBlocksDetection.cpp:683-791`. -/
def hangingIndentRule (d : Doc) (s : State) (hangingIndent : ℚ) (p i : ℕ) : Trool :=
  let prevMore := larger (s.leftMargin p) hangingIndent d.avgCharWidth
  if equalOrSmaller hangingIndent 0 tol then .none
  else if smaller (s.leftMargin i) hangingIndent d.avgCharWidth then .true
  else if equal (s.leftMargin i) hangingIndent d.avgCharWidth then
    if prevMore then
      if offsetInTolerance d (d.line p) (d.line i) then .false else .true
    else if computeHasPrevLineCapacity d s (some p) i then .true
    else .false
  else if larger (s.leftMargin i) hangingIndent d.avgCharWidth then
    if prevMore then
      if offsetInTolerance d (d.line p) (d.line i) then .false else .true
    else .true
  else .false

/-- `startsBlock_indent`, `/repo/src/TextBlocksDetection.cpp:794-873` (interval:
`/repo/src/Config.h:565-567`). -/
def indentRule (d : Doc) (s : State) (p i : ℕ) : Trool :=
  let sameLeft := equal |computeLeftXOffset (d.line p).pos (d.line i).pos| 0 d.avgCharWidth
  if larger (s.leftMargin i) (6 * d.avgCharWidth) tol then
    if sameLeft then .false else .true
  else if larger (s.leftMargin p) (6 * d.avgCharWidth) tol then
    if sameLeft then .false else .true
  else if between (s.leftMargin i) d.avgCharWidth (6 * d.avgCharWidth) tol then .true
  else if computeHasPrevLineCapacity d s (some p) i then .true
  else .none

/-- The sequence of tests `if (res == True) return true; else if (res == False) return false;` with
the final `return false`, `/repo/src/TextBlocksDetection.cpp:182-243` and `251-304`; the results of
the rules that come after an answer are not used. -/
def decideChain : List Trool → Bool
  | [] => false
  | .true :: _ => true
  | .false :: _ => false
  | .none :: rs => decideChain rs

/-- `startsPreliminaryBlock`, `/repo/src/TextBlocksDetection.cpp:179-244`. -/
def startsPreliminaryBlock (d : Doc) (s : State) (i : ℕ) : Bool :=
  match s.prevLine i with
  | none => decideChain [existsPrevLine none]
  | some p =>
    let prev := d.line p
    let line := d.line i
    decideChain [existsPrevLine (some p), sameFigure d prev line, rotationRule prev line,
      wModeRule prev line, fontSizeRule prev line, lineDistanceRule d prev line,
      increasedLineDistance d ((s.prevLine p).map d.line) prev line]

/-- `startsBlock`, `/repo/src/TextBlocksDetection.cpp:247-305`; `centered` and `hangingIndent` are the
values of the preliminary block. -/
def startsBlock (d : Doc) (centered : Bool) (hangingIndent : ℚ) (s : State) (i : ℕ) : Bool :=
  match s.prevLine i with
  | none => decideChain [existsPrevLine none]
  | some p =>
    decideChain [existsPrevLine (some p), centeredRule d s centered i, itemRule d s centered p i,
      emphasizedRule d (d.line p) (d.line i), hangingIndentRule d s hangingIndent p i,
      indentRule d s p i]

/-! ## Creating blocks -/

/-- The links inside the block, `/repo/src/utils/TextBlocksDetectionUtils.cpp:704-733`; `prev` is the
line before the first line of the list. -/
def linkBlock (prev : Option ℕ) : List ℕ → State → State
  | [], s => s
  | l :: ls, s => linkBlock (some l) ls
      { s with prevLine := Function.update s.prevLine l prev
               nextLine := Function.update s.nextLine l ls.head? }

/-- The text of the block, `/repo/src/utils/TextBlocksDetectionUtils.cpp:744-756`: the loops with
their separators. -/
def blockText : List Line → Str
  | [] => []
  | [l] => lineText l.words
  | l :: ls => lineText l.words ++ [' '] ++ blockText ls
where
  /-- The inner loop, `/repo/src/utils/TextBlocksDetectionUtils.cpp:746-752`. -/
  lineText : List Word → Str
    | [] => []
    | [w] => w.text
    | w :: ws => w.text ++ [' '] ++ lineText ws

/-- `prevBlock->nextBlock = block`, `/repo/src/utils/TextBlocksDetectionUtils.cpp:760`. -/
def setLastNext (n : ℕ) : List Block → List Block
  | [] => []
  | [b] => [{ b with nextBlock := some n }]
  | b :: bs => b :: setLastNext n bs

/-- `createTextBlock`, `/repo/src/utils/TextBlocksDetectionUtils.cpp:673-783` (the random id, the
references to document and segment and the lines' references to the block are left out; the trim
box, set again for every line, is the one of the last iteration). -/
def createTextBlock (h : HashOrder) (d : Doc) (s : State) (lines : List ℕ) (blocks : List Block) :
    Outcome (State × List Block) :=
  match lines with
  | [] => .ub "lines[0] of an empty vector"
  | first :: _ =>
    let ls := lines.map d.line
    let seg := d.seg first
    let pos := Box.extendAll
      { pageNum := (d.line first).pos.pageNum
        wMode := (d.line first).pos.wMode
        rotation := (d.line first).pos.rotation } (ls.map fun l => normBox l.pos)
    let s1 := linkBlock none lines s
    (mostFreqOr h [] [] (ls.map (·.fontName))).bind fun fontName =>
    (mostFreqOr h 0 (-1) (ls.map (·.fontSize))).bind fun fontSize =>
    let b : Block := {
      lines := lines
      pos := pos
      rank := blocks.length
      fontName := fontName
      fontSize := fontSize
      text := blockText ls
      trimLeftX := maximum pos.leftX seg.trimLeftX
      trimUpperY := maximum pos.upperY seg.trimUpperY
      trimRightX := minimum pos.rightX seg.trimRightX
      trimLowerY := minimum pos.lowerY seg.trimLowerY
      prevBlock := if blocks.length > 0 then some (blocks.length - 1) else none
      isEmphasized := computeIsEmphasized d fontName fontSize (blockText ls)
      isLinesCentered := computeIsTextLinesCentered d ls }
    let s2 := computeTextLineMargins d s1 b.trimLeftX (marginRightX d seg b blocks.getLast?) lines
    (computeHangingIndent h d s2 lines).bind fun hi =>
    .ok (s2, setLastNext blocks.length blocks ++ [{ b with hangingIndent := hi }])

/-- The loop over lines that is used in both passes, `/repo/src/TextBlocksDetection.cpp:90-120` and
`133-172`: `pre` is what is done before the rules are evaluated, `starts` the rules, `cur` is
`currentBlockLines`. -/
def blockLoop (h : HashOrder) (d : Doc) (pre : State → ℕ → State) (starts : State → ℕ → Bool) :
    List ℕ → List ℕ → State → List Block → Outcome (State × List Block)
  | [], cur, s, bs => if cur.isEmpty then .ok (s, bs) else createTextBlock h d s cur bs
  | l :: ls, cur, s, bs =>
    if starts (pre s l) l && !cur.isEmpty then
      (createTextBlock h d (pre s l) cur bs).bind fun r => blockLoop h d pre starts ls [l] r.1 r.2
    else blockLoop h d pre starts ls (cur ++ [l]) (pre s l) bs

/-- The first pass over one segment, `/repo/src/TextBlocksDetection.cpp:89-120`. -/
def preliminaryBlocks (h : HashOrder) (d : Doc) (s : State) (lines : List ℕ) :
    Outcome (State × List Block) :=
  blockLoop h d (fun s _ => s) (startsPreliminaryBlock d) lines [] s []

/-- The second pass over one preliminary block, `/repo/src/TextBlocksDetection.cpp:132-172`. -/
def splitBlock (h : HashOrder) (d : Doc) (s : State) (b : Block) (bs : List Block) :
    Outcome (State × List Block) :=
  blockLoop h d
    (fun s i => { s with labels := computePotentialFootnoteLabels (d.line i).words s.labels })
    (startsBlock d b.isLinesCentered b.hangingIndent) b.lines [] s bs

/-- The first pass over the segments of a page, `/repo/src/TextBlocksDetection.cpp:88-121`. -/
def pass1Page (h : HashOrder) (d : Doc) : List (List ℕ) → State → Outcome (State × List (List Block))
  | [], s => .ok (s, [])
  | seg :: segs, s =>
    (preliminaryBlocks h d s seg).bind fun r =>
    (pass1Page h d segs r.1).bind fun r' => .ok (r'.1, r.2 :: r'.2)

/-- The first pass over the pages, `/repo/src/TextBlocksDetection.cpp:86-122`. -/
def pass1 (h : HashOrder) (d : Doc) : List (List (List ℕ)) → State →
    Outcome (State × List (List (List Block)))
  | [], s => .ok (s, [])
  | page :: pages, s =>
    (pass1Page h d page s).bind fun r =>
    (pass1 h d pages r.1).bind fun r' => .ok (r'.1, r.2 :: r'.2)

/-- The second pass over the preliminary blocks of a page (those of all segments, in order),
`/repo/src/TextBlocksDetection.cpp:130-174`; `bs` is `page->blocks`. -/
def pass2Page (h : HashOrder) (d : Doc) : List Block → State → List Block →
    Outcome (State × List Block)
  | [], s, bs => .ok (s, bs)
  | b :: rest, s, bs =>
    (splitBlock h d s b bs).bind fun r => pass2Page h d rest r.1 r.2

/-- The second pass over the pages, `/repo/src/TextBlocksDetection.cpp:128-175`. -/
def pass2 (h : HashOrder) (d : Doc) : List (List (List Block)) → State →
    Outcome (State × List (List Block))
  | [], s => .ok (s, [])
  | page :: pages, s =>
    (pass2Page h d page.flatten s []).bind fun r =>
    (pass2 h d pages r.1).bind fun r' => .ok (r'.1, r.2 :: r'.2)

/-- `process`, `/repo/src/TextBlocksDetection.cpp:75-176`: `pages` are, per page and segment, the
numbers of the text lines; the result are the blocks of each page. -/
def process (h : HashOrder) (d : Doc) (s : State) (pages : List (List (List ℕ))) :
    Outcome (State × List (List Block)) :=
  (pass1 h d pages s).bind fun r => pass2 h d r.2 r.1

end Verif.TextBlocks
