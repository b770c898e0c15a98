import Verif.Spec.Parsing

/-!
# What a recorded character should carry

Everything here is said in terms of the drawing event, the graphics state it was drawn in and the
information about the font; the functions of the parser are not used.
-/

namespace Verif.Spec.Parsing

open Verif Verif.Parsing
open Verif.Text (Str)

/-- The text of a drawn character: what the character map says about its name if the character stands
for a single code point and the map knows the name, otherwise what the text encoding makes of its code
points (nothing if it has none). -/
def Shows (charMap : Str → Option (ℕ × Str)) (f : StateFont) (ev : CharEvent) (text : Str) : Prop :=
  (∀ n t, ev.uLen = 1 → charMap f.charName = some (n, t) → text = t) ∧
  (ev.uLen ≠ 1 ∨ charMap f.charName = none →
    (∀ t, ev.mapped = some t → text = t) ∧ (ev.mapped = none → text = []))

/-- The code points of a drawn character: the one of the character map, under the same condition,
otherwise those of the event. -/
def Means (charMap : Str → Option (ℕ × Str)) (f : StateFont) (ev : CharEvent) (codes : List ℕ) : Prop :=
  (∀ n t, ev.uLen = 1 → charMap f.charName = some (n, t) → codes = [n]) ∧
  (ev.uLen ≠ 1 ∨ charMap f.charName = none → codes = ev.codes)

/-- A matrix of four numbers times another one. -/
def times2 (a b : ℚ × ℚ × ℚ × ℚ) : ℚ × ℚ × ℚ × ℚ :=
  (a.1 * b.1 + a.2.1 * b.2.2.1, a.1 * b.2.1 + a.2.1 * b.2.2.2,
   a.2.2.1 * b.1 + a.2.2.2 * b.2.2.1, a.2.2.1 * b.2.1 + a.2.2.2 * b.2.2.2)

/-- The matrix that says how the letters are turned: the one of the graphics state, after the font's
own matrix for a Type 3 font. -/
def LetterMatrix (f : StateFont) (ev : CharEvent) (m : ℚ × ℚ × ℚ × ℚ) : Prop :=
  (f.type3 = false → m = ev.fontTrans) ∧
  (f.type3 = true → m = times2 (f.matrix.m0, f.matrix.m1, f.matrix.m2, f.matrix.m3) ev.fontTrans)

/-- The quarter turns of letters drawn with a matrix (a, b, c, d), up to the tolerance 10⁻⁶: none if
the letters lie along the x-axis and a is positive or d negative, two if not; if they lie along the
y-axis, one if c is positive and three if not. -/
def QuarterTurns (m : ℚ × ℚ × ℚ × ℚ) (r : ℤ) : Prop :=
  (|m.2.1 * m.2.2.1| + Math.tol < |m.1 * m.2.2.2| →
    (Math.tol < m.1 ∨ m.2.2.2 < -Math.tol → r = 0) ∧
    (m.1 ≤ Math.tol → -Math.tol ≤ m.2.2.2 → r = 2)) ∧
  (|m.1 * m.2.2.2| ≤ |m.2.1 * m.2.2.1| + Math.tol →
    (Math.tol < m.2.2.1 → r = 1) ∧ (m.2.2.1 ≤ Math.tol → r = 3))

/-- The rotation of a character: the quarter turns of its letters, one more for a vertically written
font, counted modulo four. -/
def Turned (f : StateFont) (ev : CharEvent) (r : ℤ) : Prop :=
  ∃ m q, LetterMatrix f ev m ∧ QuarterTurns m q ∧
    (f.wMode = false → r = q) ∧ (f.wMode = true → (q < 3 → r = q + 1) ∧ (q = 3 → r = 0))

/-- A rectangle with a base line. -/
structure Rect where
  left : ℚ
  top : ℚ
  right : ℚ
  bottom : ℚ
  base : ℚ

/-- The place of the pen before a character. -/
def pen (ev : CharEvent) : ℚ × ℚ :=
  let tm : Mat := ⟨ev.textMat.1, ev.textMat.2.1, ev.textMat.2.2.1, ev.textMat.2.2.2, ev.curX, ev.curY⟩
  apply ev.ctm (apply tm (0, ev.rise))

/-- The place of the pen after a character (the rise is not considered there). -/
def nextPen (f : StateFont) (ev : CharEvent) : ℚ × ℚ :=
  let tm : Mat := ⟨ev.textMat.1, ev.textMat.2.1, ev.textMat.2.2.1, ev.textMat.2.2.2, ev.curX, ev.curY⟩
  apply ev.ctm (apply tm (f.width * ev.fontSize * ev.horizScaling, 0))

/-- The rectangle of a horizontally written character from the ascent and the descent of its font:
along its direction from pen to pen, across from the ascent to the descent. -/
def horizontalRect (font : Font) (f : StateFont) (ev : CharEvent) : ℤ → Rect
  | 0 => ⟨(pen ev).1, (pen ev).2 - font.info.ascent * ev.transformedFontSize, (nextPen f ev).1,
      (pen ev).2 - font.info.descent * ev.transformedFontSize, (pen ev).2⟩
  | 1 => ⟨(pen ev).1 + font.info.descent * ev.transformedFontSize, (pen ev).2,
      (pen ev).1 + font.info.ascent * ev.transformedFontSize, (nextPen f ev).2, (pen ev).1⟩
  | 2 => ⟨(pen ev).1, (pen ev).2 + font.info.descent * ev.transformedFontSize, (nextPen f ev).1,
      (pen ev).2 + font.info.ascent * ev.transformedFontSize, (pen ev).2⟩
  | _ => ⟨(pen ev).1 - font.info.ascent * ev.transformedFontSize, (nextPen f ev).2,
      (pen ev).1 - font.info.descent * ev.transformedFontSize, (pen ev).2, (pen ev).1⟩

/-- The rectangle of a vertically written character: a square with the font size as its side and one
corner at the pen; its base line is 0. -/
def verticalRect (ev : CharEvent) : ℤ → Rect
  | 0 => ⟨(pen ev).1 - ev.transformedFontSize, (pen ev).2 - ev.transformedFontSize, (pen ev).1,
      (pen ev).2, 0⟩
  | 1 => ⟨(pen ev).1, (pen ev).2 - ev.transformedFontSize, (pen ev).1 + ev.transformedFontSize,
      (pen ev).2, 0⟩
  | 2 => ⟨(pen ev).1, (pen ev).2, (pen ev).1 + ev.transformedFontSize,
      (pen ev).2 + ev.transformedFontSize, 0⟩
  | _ => ⟨(pen ev).1 - ev.transformedFontSize, (pen ev).2, (pen ev).1,
      (pen ev).2 + ev.transformedFontSize, 0⟩

/-- The text rendering matrix of a character, applied to a point of the glyph space scaled to 1. -/
def render (ev : CharEvent) (p : ℚ × ℚ) : ℚ × ℚ :=
  let tm : Mat := ⟨ev.textMat.1, ev.textMat.2.1, ev.textMat.2.2.1, ev.textMat.2.2.2, ev.curX, ev.curY⟩
  apply ev.ctm (apply tm (apply ⟨ev.fontSize * ev.horizScaling, 0, 0, ev.fontSize, 0, ev.rise⟩ p))

/-- The rectangle around the images of two opposite corners of the glyph box of the font file; its base
line is the lower edge. -/
def tightRect (font : Font) (ev : CharEvent) (g : ℚ × ℚ × ℚ × ℚ) : Rect :=
  let fm : Mat := ⟨font.info.fontMatrix.getD 0 0, font.info.fontMatrix.getD 1 0,
    font.info.fontMatrix.getD 2 0, font.info.fontMatrix.getD 3 0, font.info.fontMatrix.getD 4 0,
    font.info.fontMatrix.getD 5 0⟩
  let a := render ev (apply fm (g.1, g.2.1))
  let b := render ev (apply fm (g.2.2.1, g.2.2.2))
  ⟨min a.1 b.1, min a.2 b.2, max a.1 b.1, max a.2 b.2, max a.2 b.2⟩

/-- The tight rectangle reaches more than 0.1 above or below the usual one. -/
def Sticks (tight usual : Rect) : Prop :=
  tight.top < usual.top - 1 / 10 ∨ usual.bottom + 1 / 10 < tight.bottom

/-- The rectangle of a character: the usual one (by the font's ascent and descent, or a square for
vertical writing), unless the font file has a box for the glyph that sticks out of it. -/
def Drawn (font : Font) (f : StateFont) (ev : CharEvent) (rotation : ℤ) (r : Rect) : Prop :=
  ∃ usual, (f.wMode = false → usual = horizontalRect font f ev rotation) ∧
    (f.wMode = true → usual = verticalRect ev rotation) ∧
    (∀ g, font.glyphs f.charName = some g → Sticks (tightRect font ev g) usual →
      r = tightRect font ev g) ∧
    ((∀ g, font.glyphs f.charName = some g → ¬ Sticks (tightRect font ev g) usual) → r = usual)

/-- The character carries what the event, the graphics state and the font say. -/
structure Recorded (charMap : Str → Option (ℕ × Str)) (font : Font) (f : StateFont) (ev : CharEvent)
    (c : PChar) : Prop where
  name : c.name = f.charName
  text : Shows charMap f ev c.text
  codes : Means charMap f ev c.unicodes
  fontName : c.fontName = font.info.fontName
  fontSize : c.fontSize = deci ev.transformedFontSize
  wMode : (f.wMode = false → c.pos.wMode = 0) ∧ (f.wMode = true → c.pos.wMode = 1)
  rotation : Turned f ev c.pos.rotation
  box : ∃ r, Drawn font f ev c.pos.rotation r ∧ c.pos.leftX = deci r.left ∧
    c.pos.upperY = deci r.top ∧ c.pos.rightX = deci r.right ∧ c.pos.lowerY = deci r.bottom ∧
    c.base = deci r.base

/-- The page number announced by the last page start. -/
def lastPage : List Event → Option ℤ
  | [] => none
  | e :: es => (lastPage es).orElse fun _ => match e with
    | .startPage n _ => some n
    | _ => none

/-- The number of elements drawn so far (and hence the rank of the next one). -/
def drawnSoFar (t : Tables) (es : List Event) : ℕ := (history t {} es).length

end Verif.Spec.Parsing
