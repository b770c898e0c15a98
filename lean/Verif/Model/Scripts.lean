import Verif.Model.TextLines

/-!
# Model of sub- and superscript detection

`/repo/src/SubSuperScriptsDetection.cpp`.
-/

namespace Verif.Scripts

open Verif.Math Verif.Words Verif.TextLines

/-- `SubSuperScriptsDetectionConfig::baseEqualTolerance`, `/repo/src/Config.h:462-478`. -/
def baseTol : ℚ := 1 / 10

/-- `SubSuperScriptsDetectionConfig::fsEqualTolerance`, `/repo/src/Config.h:462-478`. -/
def fsTol : ℚ := 9 / 10

/-- The body of the loop over the characters,
`/repo/src/SubSuperScriptsDetection.cpp:65-98`: the new character and the new base bounding box of
the line (`/repo/src/Types.h:662-668`). -/
def scriptStep (mostFreqFontSize lineBase : ℚ) (box : Box) (c : Glyph) : Glyph × Box :=
  if smaller c.fontSize mostFreqFontSize fsTol && smaller c.base lineBase baseTol then
    ({ c with isSuperscript := true }, box)
  else if smaller c.fontSize mostFreqFontSize fsTol && larger c.base lineBase baseTol then
    ({ c with isSubscript := true }, box)
  else (c, box.extend c.pos)

/-- The loop over the characters of a word, `/repo/src/SubSuperScriptsDetection.cpp:64-99`. -/
def scriptChars (mf lineBase : ℚ) (box : Box) : List Glyph → List Glyph × Box
  | [] => ([], box)
  | c :: cs =>
    let (c', box') := scriptStep mf lineBase box c
    let (cs', box'') := scriptChars mf lineBase box' cs
    (c' :: cs', box'')

/-- The loop over the words of a line, `/repo/src/SubSuperScriptsDetection.cpp:63-100`. -/
def scriptWords (mf lineBase : ℚ) (box : Box) : List Word → List Word × Box
  | [] => ([], box)
  | w :: ws =>
    let (cs, box') := scriptChars mf lineBase box w.chars
    let (ws', box'') := scriptWords mf lineBase box' ws
    ({ w with chars := cs } :: ws', box'')

/-- The loop over the lines, `/repo/src/SubSuperScriptsDetection.cpp:58-101`: the line and its base
bounding box, which starts with the values of `/repo/src/Types.h:665-668`. -/
def scriptLine (mf : ℚ) (line : Line) : Line × Box :=
  let (ws, box) := scriptWords mf line.base {} line.words
  ({ line with words := ws }, box)

/-- `SubSuperScriptsDetection::process`, `/repo/src/SubSuperScriptsDetection.cpp:48-104`, on the lines
of all segments of all pages. -/
def process (mf : ℚ) (lines : List Line) : List (Line × Box) := lines.map (scriptLine mf)

end Verif.Scripts
