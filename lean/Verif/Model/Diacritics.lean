import Verif.Model.Words
import Verif.Model.Outcome

/-!
# Model of `/repo/src/DiacriticalMarksMerging.cpp`

The composition of unicodes to a text (Poppler's `UnicodeMap::mapUnicode` followed by `utf8proc_map`, lines 180-199) is the parameter
`compose`. The characters of a page are a list; a pointer to a character is its `uid`.
-/

namespace Verif.Diacritics

open Verif.Math Verif.Elements Verif.Words Verif.Text

/-- `combiningMap`, `/repo/src/Config.h:243-283`. -/
def combiningMap : List (ℕ × ℕ) :=
  [(0x0022, 0x030B), (0x0027, 0x0301), (0x005E, 0x0302), (0x005F, 0x0332), (0x0060, 0x0300), (0x007E, 0x0303),
   (0x00A8, 0x0308), (0x00AF, 0x0304), (0x00B0, 0x030A), (0x00B4, 0x0301), (0x00B8, 0x0327), (0x02B2, 0x0321),
   (0x02B7, 0x032B), (0x02B9, 0x0301), (0x02CC, 0x0329), (0x02BA, 0x030B), (0x02BB, 0x0312), (0x02BC, 0x0313),
   (0x02BD, 0x0314), (0x02C6, 0x0302), (0x02C7, 0x030C), (0x02C8, 0x030D), (0x02C9, 0x0304), (0x02CA, 0x0301),
   (0x02CB, 0x0300), (0x02CD, 0x0331), (0x02D4, 0x031D), (0x02D5, 0x031E), (0x02D6, 0x031F), (0x02D7, 0x0320),
   (0x02DA, 0x030A), (0x02DC, 0x0303), (0x02DD, 0x030B), (0x0384, 0x0301), (0x0485, 0x0314), (0x0486, 0x0313),
   (0x0559, 0x0314), (0x055A, 0x0313), (0x204E, 0x0359)]

/-- The replacement by the combining equivalent, `/repo/src/DiacriticalMarksMerging.cpp:100-103`. -/
def combining (u : ℕ) : ℕ := (combiningMap.lookup u).getD u

/-- The combining unicode of a diacritical mark, `none` for other characters,
`/repo/src/DiacriticalMarksMerging.cpp:92-123`. -/
def markUnicode (c : Glyph) : Option ℕ :=
  match c.unicodes with
  | [u] =>
    if (0x02B0 ≤ combining u ∧ combining u ≤ 0x02FF) ∨ (0x0300 ≤ combining u ∧ combining u ≤ 0x036F)
    then some (combining u) else none
  | _ => none

/-- The overlap ratio with the previous character, `/repo/src/DiacriticalMarksMerging.cpp:126-138`. -/
def prevRatio (prev : Option Glyph) (cur : Glyph) : ℚ :=
  match prev with
  | some p => computeMaxXOverlapRatio p.pos cur.pos
  | none => 0

/-- The overlap ratio with the next character, `/repo/src/DiacriticalMarksMerging.cpp:141-153`. -/
def nextRatio (cur : Glyph) (next : Option Glyph) : ℚ :=
  match next with
  | some n => computeMaxXOverlapRatio cur.pos n.pos
  | none => 0

/-- The updates of the mark (index `i`) and the base (index `b`), `/repo/src/DiacriticalMarksMerging.cpp:176-205`. -/
def attach (compose : List ℕ → Str) (cs : List Glyph) (i b u : ℕ) (cur base : Glyph) : List Glyph :=
  (cs.set i { cur with markOf := some base.uid }).set b
    { base with
      baseOf := some cur.uid
      textWithMark := compose (base.unicodes ++ [u])
      pos := base.pos.extend cur.pos }

/-- One iteration of the loop over the characters, `/repo/src/DiacriticalMarksMerging.cpp:72-212`. Dereferencing
a missing base character would be undefined. -/
def step (compose : List ℕ → Str) (cs : List Glyph) (i : ℕ) : Outcome (List Glyph) :=
  match cs[i]? with
  | none => .ok cs
  | some cur =>
    let prev := if i > 0 then cs[i - 1]? else none
    let next := cs[i + 1]?
    match markUnicode cur with
    | none => .ok cs
    | some u =>
      if equal (prevRatio prev cur) 0 tol && equal (nextRatio cur next) 0 tol then .ok cs
      else if larger (prevRatio prev cur) (nextRatio cur next) tol then
        match prev with
        | some base => .ok (attach compose cs i (i - 1) u cur base)
        | none => .ub "base is null"
      else
        match next with
        | some base => .ok (attach compose cs i (i + 1) u cur base)
        | none => .ub "base is null"

/-- The first `n` iterations. -/
def run (compose : List ℕ → Str) (cs : List Glyph) : ℕ → Outcome (List Glyph)
  | 0 => .ok cs
  | n + 1 => (run compose cs n).bind fun s => step compose s n

/-- The loop over the characters of a page, `/repo/src/DiacriticalMarksMerging.cpp:72-212`. -/
def processPage (compose : List ℕ → Str) (cs : List Glyph) : Outcome (List Glyph) := run compose cs cs.length

end Verif.Diacritics
