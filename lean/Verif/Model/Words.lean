import Verif.Model.Text
import Verif.Model.Counter
import Verif.Model.Hull

/-!
# Model of characters, words and word detection

`/repo/src/Types.h` (classes `PdfCharacter`, `PdfWord`), `/repo/src/WordsDetection.cpp`,
`/repo/src/utils/WordsDetectionUtils.cpp`.  Objects are values; a pointer to an object is the number
`uid` of the object (characters) or the index in the list of words of the page (words).
-/

namespace Verif.Words

open Verif.Math Verif.Elements Verif.Counter Verif.Text

/-- `PdfCharacter`, `/repo/src/Types.h:362-527` (with the inherited fields); color, opacity and the
reference to the word are left out. -/
structure Glyph where
  uid : ℕ
  pos : Box
  text : Str
  name : Str := []
  fontName : Str := []
  fontSize : ℚ := -1
  base : ℚ := 0
  rank : ℤ := -1
  unicodes : List ℕ := []
  /-- `isDiacriticMarkOfBaseChar`: the merged base character. -/
  markOf : Option ℕ := none
  /-- `isBaseCharOfDiacriticMark`: the merged mark. -/
  baseOf : Option ℕ := none
  textWithMark : Str := []
  isSubscript : Bool := false
  isSuperscript : Bool := false
deriving DecidableEq

/-- `PdfWord`, `/repo/src/Types.h:535-614`, as created by `createWord`. -/
structure Word where
  chars : List Glyph
  pos : Box
  text : Str
  fontName : Str
  fontSize : ℚ
  rank : ℤ := -1
  /-- `isPartOfStackedMathSymbol`: index of the base word. -/
  partOf : Option ℕ := none
  /-- `isBaseOfStackedMathSymbol`: indices of the attached words. -/
  parts : List ℕ := []
deriving DecidableEq

/-- The text that a character contributes, `/repo/src/utils/WordsDetectionUtils.cpp:70-74`. -/
def glyphText (c : Glyph) : Str :=
  if c.baseOf.isSome then c.textWithMark
  else if !c.markOf.isSome then c.text
  else []

/-- `createWord`, `/repo/src/utils/WordsDetectionUtils.cpp:43-106`.  Reading `characters[0]` of an
empty vector is undefined; the random id and the document are left out. -/
def createWord (h : HashOrder) (characters : List Glyph) : Outcome Word :=
  match characters with
  | [] => .ub "characters[0] of an empty vector"
  | first :: _ =>
    (mostFreqOr h [] [] (characters.map (·.fontName))).bind fun fontName =>
    (mostFreqOr h 0 (-1) (characters.map (·.fontSize))).bind fun fontSize =>
    .ok {
      chars := characters
      pos := { Box.extendAll { pageNum := first.pos.pageNum } (characters.map (·.pos)) with
        wMode := first.pos.wMode
        rotation := first.pos.rotation }
      text := (characters.map glyphText).flatten
      fontName := fontName
      fontSize := fontSize }

/-- `_activeWord`, the fields that are used; `/repo/src/WordsDetection.h:123` (a `PdfWord`). -/
structure Active where
  chars : List Glyph
  pos : Box
  fontSize : ℚ

/-- Resetting the active word, `/repo/src/WordsDetection.cpp:81-89` (and, except for the page number,
`138-145`). -/
def Active.reset (pageNum : ℤ) : Active where
  chars := []
  pos := { pageNum := pageNum, leftX := dblMax, upperY := dblMax, rightX := dblMin,
           lowerY := dblMin, rotation := 0, wMode := 0 }
  fontSize := 0

/-- `_activeWord.characters.push_back(currChar)` and the update of its position,
`/repo/src/WordsDetection.cpp:149-156`. -/
def Active.push (a : Active) (c : Glyph) : Active where
  chars := a.chars ++ [c]
  pos := { a.pos.extend c.pos with rotation := c.pos.rotation, wMode := c.pos.wMode }
  fontSize := maximum a.fontSize c.fontSize

/-- `minYOverlapRatio`, `/repo/src/Config.h:179`. -/
def minYOverlapRatio : ℚ := 1 / 2

/-- `getHorizontalGapThreshold`, `/repo/src/Config.h:224-226`. -/
def horizontalGapThreshold (a : Active) : ℚ := 15 / 100 * a.fontSize

/-- `startsWord`, `/repo/src/WordsDetection.cpp:176-258`. -/
def startsWord (a : Active) (c : Glyph) : Bool :=
  if a.chars.isEmpty then true
  else if a.pos.rotation ≠ c.pos.rotation then true
  else if a.pos.wMode ≠ c.pos.wMode then true
  else if smaller (computeMaxYOverlapRatio c.pos a.pos) minYOverlapRatio tol then true
  else if larger (computeHorizontalGap c.pos a.pos) (horizontalGapThreshold a) tol then true
  else if larger (computeHorizontalGap a.pos c.pos) (horizontalGapThreshold a) tol then true
  else false

/-- Creating a word from the active word and appending it to `page->words`,
`/repo/src/WordsDetection.cpp:126-128, 161-163`. -/
def emitWord (h : HashOrder) (words : List Word) (a : Active) : Outcome (List Word) :=
  (createWord h a.chars).bind fun w => .ok (words ++ [{ w with rank := words.length }])

/-- One iteration of the loop, `/repo/src/WordsDetection.cpp:100-157`. -/
def stepChar (h : HashOrder) (st : List Word × Active) (c : Glyph) : Outcome (List Word × Active) :=
  if c.markOf.isSome then .ok st
  else if startsWord st.2 c && !st.2.chars.isEmpty then
    (emitWord h st.1 st.2).bind fun words =>
      .ok (words, (Active.reset st.2.pos.pageNum).push c)
  else .ok (st.1, st.2.push c)

/-- The loop over the characters, `/repo/src/WordsDetection.cpp:100-157`. -/
def charLoop (h : HashOrder) : List Word × Active → List Glyph → Outcome (List Word × Active)
  | st, [] => .ok st
  | st, c :: cs => (stepChar h st c).bind fun st' => charLoop h st' cs

/-- `detectWords`, `/repo/src/WordsDetection.cpp:77-173`.  `active` is the content of the member
`_activeWord` left behind by the previous page; the result is `page->words` (which is empty before)
and the new content of `_activeWord`. -/
def detectWords (h : HashOrder) (_active : Active) (pageNum : ℤ) (characters : List Glyph) :
    Outcome (List Word × Active) :=
  let active := Active.reset pageNum
  if characters.isEmpty then .ok ([], active)
  else
    (charLoop h ([], active) characters).bind fun st =>
      if st.2.chars.isEmpty then .ok st
      else (emitWord h st.1 st.2).bind fun words => .ok (words, st.2)

/-! ## Stacked mathematical symbols -/

/-- `stackedMathCharTexts`, `/repo/src/Config.h:196` (UTF-8 bytes of ∑ ∏ ∫ ⊗). -/
def stackedMathCharTexts : List Str :=
  [[⟨0xE2, by decide⟩, ⟨0x88, by decide⟩, ⟨0x91, by decide⟩],
   [⟨0xE2, by decide⟩, ⟨0x88, by decide⟩, ⟨0x8F, by decide⟩],
   [⟨0xE2, by decide⟩, ⟨0x88, by decide⟩, ⟨0xAB, by decide⟩],
   [⟨0xE2, by decide⟩, ⟨0x8A, by decide⟩, ⟨0x97, by decide⟩]]

/-- `stackedMathCharNames`, `/repo/src/Config.h:197-201`. -/
def stackedMathCharNames : List Str :=
  ["summationdisplay".toList, "productdisplay".toList, "integraldisplay".toList,
   "circlemultiplydisplay".toList]

/-- `stackedMathWords`, `/repo/src/Config.h:202`. -/
def stackedMathWords : List Str := ["sup".toList, "lim".toList]

/-- Is the word the base of a stacked symbol? `/repo/src/WordsDetection.cpp:287-302`. -/
def isBase (w : Word) : Bool :=
  w.chars.any (fun c => stackedMathCharTexts.contains c.text || stackedMathCharNames.contains c.name)
  || stackedMathWords.contains w.text

/-- May `other` be attached to the base word `w`? The two tests of
`/repo/src/WordsDetection.cpp:328-346, 370-388`; tolerance `fsEqualTolerance` from
`/repo/src/Config.h:77`, overlap ratio from `/repo/src/Config.h:207`. -/
def attachable (w other : Word) : Bool :=
  !smaller (computeMaxXOverlapRatio w.pos other.pos) (1 / 2) tol &&
  smaller other.fontSize w.fontSize 1

/-- The test for the word with index `j`, `/repo/src/WordsDetection.cpp:317-346, 359-388`. -/
def attachableAt (ws : List Word) (w : Word) (j : ℕ) : Bool :=
  match ws[j]? with
  | some o => attachable w o
  | none => false

/-- The indices attached to the base word `i`: the two loops `/repo/src/WordsDetection.cpp:316-351,
358-393`. -/
def partsOf (ws : List Word) (i : ℕ) (w : Word) : List ℕ :=
  (List.range i).reverse.takeWhile (attachableAt ws w) ++
  (List.range' (i + 1) (ws.length - (i + 1))).takeWhile (attachableAt ws w)

/-- One iteration of the loop over the words, `/repo/src/WordsDetection.cpp:268-394`: attaches the
words to the word with index `i`. -/
def mergeStep (ws : List Word) (i : ℕ) : List Word :=
  match ws[i]? with
  | none => ws
  | some w =>
    if isBase w then
      let ps := partsOf ws i w
      ws.mapIdx fun j o =>
        let o := if j = i then { o with parts := o.parts ++ ps } else o
        if ps.contains j then { o with partOf := some i } else o
    else ws

/-- `mergeStackedMathSymbols`, `/repo/src/WordsDetection.cpp:261-397`. -/
def mergeStackedMathSymbols (ws : List Word) : List Word :=
  (List.range ws.length).foldl mergeStep ws

end Verif.Words
