import Verif.Model.Pipeline
import Verif.Spec.Wiring

/-!
# Specification: the direction of reading in a block

Coordinates grow to the right and downwards.  A character with rotation 0 stands upright, one with rotation 1 is turned by 90 degrees (clockwise), one with rotation 2 stands on its head, one with
rotation 3 is turned by 90 degrees in the other direction.
-/

namespace Verif.Spec

open Verif.Elements Verif.Pipeline Verif.Words

/-- All characters of the page have the rotation `r`. -/
def TurnedBy (r : ℤ) (p : Page) : Prop := ∀ c ∈ p.characters, c.pos.rotation = r

/-- The words of the lines with the numbers `ls`, each with the number of its line, in the order in which they are read. -/
def readWords (d : Document) (ls : List ℕ) : List (ℕ × Word) := ls.flatMap fun i => (lineAtRank d i).words.map fun w => (i, w)

/-- The words of the lines with the numbers `ls` are read line by line, the lines in the order `below` of their boxes and the words of a line in the order `beside` of their boxes. -/
def ReadBy (d : Document) (below beside : Box → Box → Prop) (ls : List ℕ) : Prop :=
  (readWords d ls).Pairwise fun v w => (v.1 = w.1 ∧ beside v.2.pos w.2.pos) ∨ (v.1 < w.1 ∧ below (lineBox d v.1) (lineBox d w.1))

/-- Neighbouring lines with the numbers `ls` overlap vertically by less than a part of their heights: four tenths, or eight tenths, if they are three (average) character widths apart. -/
def LinesApart (d : Document) (width : ℚ) (ls : List ℕ) : Prop :=
  ls.IsChain fun i j => max (computeYOverlapRatios (lineBox d i) (lineBox d j)).1 (computeYOverlapRatios (lineBox d i) (lineBox d j)).2 <
    if computeHorizontalGap (lineBox d i) (lineBox d j) < 3 * width then 4 / 10 else 8 / 10

end Verif.Spec
