import Verif.Model.Pipeline
import Verif.Spec.ItemLabel
import Verif.Spec.Dehyphenation

/-!
# Specification: a page set in fixed-width type

Characters are 5 wide and 10 high; the characters of a word touch each other, words are 5 apart, and the rows of the page
are 1 apart.
-/

namespace Verif.Spec

open Verif.Words

/-- What the characters of a page carry besides, given by their left and upper edges: the identity, the extraction rank, the name of the glyph, and (the same for all characters of a row) the
baseline. -/
class Marks where
  uid : ℕ → ℕ → ℕ
  rank : ℕ → ℕ → ℤ
  name : ℕ → ℕ → List Char
  base : ℕ → ℚ

variable [Marks]

/-- A character with its left and upper edge. -/
def typedGlyph (x y : ℕ) (c : Char) : Glyph :=
  { uid := Marks.uid x y, rank := Marks.rank x y, name := Marks.name x y, base := Marks.base y, pos := { pageNum := 1, rotation := 0, leftX := x, upperY := y, rightX := x + 5, lowerY := y + 10 }, unicodes := [c.toNat], text := [c], fontName := ['F'], fontSize := 10 }

/-- A word. -/
def typedWord (y : ℕ) : ℕ → List Char → List Glyph
  | _, [] => []
  | x, c :: cs => typedGlyph x y c :: typedWord y (x + 5) cs

/-- A row of words. -/
def typedRow (y : ℕ) : ℕ → List (List Char) → List Glyph
  | _, [] => []
  | x, w :: ws => typedWord y x w ++ typedRow y (x + 5 * w.length + 5) ws

/-- Rows, the first at the given upper edge. -/
def typedRows : ℕ → List (List (List Char)) → List Glyph
  | _, [] => []
  | y, r :: rs => typedRow y 10 r ++ typedRows (y + 11) rs

/-- The right edge of a row that begins at `x`. -/
def rowEnd : ℕ → List (List Char) → ℕ
  | x, [] => x
  | x, [w] => x + 5 * w.length
  | x, w :: ws => rowEnd (x + 5 * w.length + 5) ws

/-- The words of a row separated by single spaces. -/
def rowText (row : List (List Char)) : List Char := [' '].intercalate row

/-- Rows set flush left and right (flush on both sides), except that the last one may be shorter; one row has at least two words. -/
structure Justified (rows : List (List (List Char))) : Prop where
  full : ∀ row ∈ rows, row ≠ []
  letters : ∀ row ∈ rows, ∀ w ∈ row, w ≠ []
  wide : ∃ W, (∀ row ∈ rows.dropLast, rowEnd 10 row = W) ∧ (∀ row ∈ rows, rowEnd 10 row ≤ W)
  long : ∀ row ∈ rows.dropLast, 20 ≤ rowEnd 10 row
  spaced : ∃ row ∈ rows, 2 ≤ row.length

/-- Rows set flush left in a column with the right edge `W`:
* the first row fills the column, no row is longer;
* (if there are more than two rows) rows that end at the right edge are more frequent than rows that end at any other place;
* a row that is not the last one has at least two characters;
* one row has at least two words. -/
structure Column (W : ℕ) (rows : List (List (List Char))) : Prop where
  full : ∀ row ∈ rows, row ≠ []
  letters : ∀ row ∈ rows, ∀ w ∈ row, w ≠ []
  first : ∀ row ∈ rows.head?, rowEnd 10 row = W
  within : ∀ row ∈ rows, rowEnd 10 row ≤ W
  usual : rows.length ≤ 2 ∨ ∀ v ≠ W, (rows.map (rowEnd 10)).count v < (rows.map (rowEnd 10)).count W
  long : ∀ row ∈ rows.dropLast, 20 ≤ rowEnd 10 row
  spaced : ∃ row ∈ rows, 2 ≤ row.length

/-- The first word of the row `next` would have fit into the row `prev`, with two characters to spare. -/
def Fits (W : ℕ) (prev next : List (List Char)) : Prop := rowEnd 10 prev + 5 * (next.headD []).length + 10 < W

instance (W : ℕ) (prev next : List (List Char)) : Decidable (Fits W prev next) := by unfold Fits; infer_instance

/-- The paragraphs of the rows `row :: rows`: a row begins a paragraph if its first word would have fit into the row before. -/
def paragraphsFrom (W : ℕ) (row : List (List Char)) : List (List (List Char)) → List (List (List (List Char)))
  | [] => [[row]]
  | next :: rows =>
    match paragraphsFrom W next rows with
    | [] => []
    | g :: gs => if Fits W row next then [row] :: g :: gs else (row :: g) :: gs

/-- The paragraphs of a column. -/
def paragraphs (W : ℕ) : List (List (List Char)) → List (List (List (List Char)))
  | [] => []
  | row :: rows => paragraphsFrom W row rows

/-- What is printed of rows if hyphenated words are joined: a hyphenated word at the end of a row is continued by the first word of the next row, and this word is not printed in its row
(even if it is itself hyphenated and the only word of its row: the program loses the rest of such a chain). `skip`: the first word of the first row is not printed. -/
def joinRowsFrom : Bool → List (List (List Char)) → List (List (List Char))
  | _, [] => []
  | skip, [row] => [row.drop (if skip then 1 else 0)]
  | skip, row :: next :: rows =>
    if Hyphenated (row.getLastD []) then (row.dropLast ++ [(row.getLastD []).dropLast ++ next.headD []]).drop (if skip then 1 else 0) :: joinRowsFrom true (next :: rows)
    else row.drop (if skip then 1 else 0) :: joinRowsFrom false (next :: rows)

/-- What is printed of the rows. -/
def joinRows (rows : List (List (List Char))) : List (List (List Char)) := joinRowsFrom false rows

/-- A list cut into pieces as long as the given lists. -/
def cutLike {α β : Type} : List (List α) → List β → List (List β)
  | [], _ => []
  | g :: gs, l => l.take g.length :: cutLike gs (l.drop g.length)

/-- The corners (left, upper, right, lower) of the boxes of the words of a row. -/
def wordBoxes (y : ℕ) : ℕ → List (List Char) → List (ℕ × ℕ × ℕ × ℕ)
  | _, [] => []
  | x, w :: ws => (x, y, x + 5 * w.length, y + 10) :: wordBoxes y (x + 5 * w.length + 5) ws

/-- The corners of the boxes of the words of rows. -/
def rowsWordBoxes : ℕ → List (List (List Char)) → List (ℕ × ℕ × ℕ × ℕ)
  | _, [] => []
  | y, row :: rows => wordBoxes y 10 row ++ rowsWordBoxes (y + 11) rows

/-- The characters of a word with the corners of their boxes. -/
def wordChars (y : ℕ) : ℕ → List Char → List (List Char × ℕ × ℕ × ℕ × ℕ)
  | _, [] => []
  | x, c :: cs => ([c], x, y, x + 5, y + 10) :: wordChars y (x + 5) cs

/-- The characters of a row. -/
def rowChars (y : ℕ) : ℕ → List (List Char) → List (List Char × ℕ × ℕ × ℕ × ℕ)
  | _, [] => []
  | x, w :: ws => wordChars y x w ++ rowChars y (x + 5 * w.length + 5) ws

/-- The characters of rows. -/
def rowsChars : ℕ → List (List (List Char)) → List (List Char × ℕ × ℕ × ℕ × ℕ)
  | _, [] => []
  | y, row :: rows => rowChars y 10 row ++ rowsChars (y + 11) rows

/-- The corners of the boxes of rows. -/
def rowBoxes : ℕ → List (List (List Char)) → List (ℕ × ℕ × ℕ × ℕ)
  | _, [] => []
  | y, row :: rows => (10, y, rowEnd 10 row, y + 10) :: rowBoxes (y + 11) rows

/-- The right edge of the longest row. -/
def widest (rows : List (List (List Char))) : ℕ := (rows.map (rowEnd 10)).foldr max 0

/-- The corners of the boxes of paragraphs. -/
def paragraphBoxes : ℕ → List (List (List (List Char))) → List (ℕ × ℕ × ℕ × ℕ)
  | _, [] => []
  | y, g :: gs => (10, y, widest g, y + 11 * g.length - 1) :: paragraphBoxes (y + 11 * g.length) gs

/-- The box has the corners and stands upright. -/
def HasCorners (b : Verif.Box) (c : ℕ × ℕ × ℕ × ℕ) : Prop :=
  b.leftX = c.1 ∧ b.upperY = c.2.1 ∧ b.rightX = c.2.2.1 ∧ b.lowerY = c.2.2.2 ∧ b.rotation = 0

/-- Rows of text:
* the words have no white space inside;
* no row begins with an item label (`1.`, `(iv)`, `-`). -/
structure RunningText (rows : List (List (List Char))) : Prop where
  solid : ∀ row ∈ rows, ∀ w ∈ row, ∀ c ∈ w, ¬ Labels.Blank c
  item : ∀ row ∈ rows, ∀ w ∈ row.head?, ¬ Labels.ItemLabel w

/-- No row ends with a hyphenated word. -/
def WholeWords (rows : List (List (List Char))) : Prop := ∀ row ∈ rows, ∀ w ∈ row.getLast?, ¬ Hyphenated w

/-- A page that consists of the rows. -/
structure TypedPage (rows : List (List (List Char))) (p : Pipeline.Page) : Prop where
  number : p.pageNum = 1
  characters : p.characters = typedRows 10 rows
  figures : p.figures = []
  graphics : p.graphics = []
  shapes : p.shapes = []

end Verif.Spec
