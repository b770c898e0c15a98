import Verif.Model.Parsing
import Verif.Spec.Hull

/-!
# What the parser should do with the drawn elements
-/

namespace Verif.Spec.Parsing

open Verif Verif.Parsing
open Verif.Text (Str)

/-- Two clip boxes count as equal: no coordinate differs by more than 0.1. -/
def SameClip (c d : Clip) : Prop :=
  |c.leftX - d.leftX| ≤ 1 / 10 ∧ |c.upperY - d.upperY| ≤ 1 / 10 ∧
    |c.rightX - d.rightX| ≤ 1 / 10 ∧ |c.lowerY - d.lowerY| ≤ 1 / 10

instance (c d : Clip) : Decidable (SameClip c d) := by unfold SameClip; infer_instance

/-- Something drawn: on which page (counted from 0), under which (rounded) clip box, and what. -/
structure Item where
  page : ℕ
  clip : Clip
  elem : Elem

/-- What an event draws in a state of the parser: nothing if it does not draw, or draws a character
without a known font, white space, or an image that is ignored. -/
def drawnBy (t : Tables) (s : State) (e : Event) : Option Item :=
  let item (clip : Clip) (elem : Elem) : Item := ⟨s.pages.length, clip.round, elem⟩
  let num : ℤ := (s.page.map Page.pageNum).getD 0
  match e with
  | .drawChar ev =>
    match s.font, ev.font with
    | some font, some f =>
      if isWhitespace (charText t.charMap ev) then none
      else some (item ev.clip (.char (makeChar t.charMap font f ev num s.numElements)))
    | _, _ => none
  | .stroke points clip => some (item clip (.shape (shapeBox clip.round points num) s.numElements))
  | .drawGraphic ctm clip =>
    (graphicBox clip.round ctm).map fun b =>
      item clip (.graphic { b with pageNum := num } s.numElements)
  | _ => none

/-- Everything drawn by a sequence of events, in order. -/
def history (t : Tables) (s : State) : List Event → List Item
  | [] => []
  | e :: es => (drawnBy t s e).toList ++
    match step t s e with
    | .ok s' => history t s' es
    | _ => []

/-- The content made of the given elements, in their order. -/
def contentOf (es : List Elem) : Content where
  characters := es.filterMap fun e => match e with | .char c => some c | _ => none
  shapes := es.filterMap fun e => match e with | .shape p r => some (p, r) | _ => none
  graphics := es.filterMap fun e => match e with | .graphic p r => some (p, r) | _ => none

/-- The figures for the items of a page that are not drawn under the page's own clip box: the first
figure has the clip box of the first item and contains exactly the items with this clip box, its
box is the smallest around them, and the other items are distributed over the other figures in the
same way. -/
def Figures : List Figure → List (Clip × Elem) → Prop
  | [], items => items = []
  | f :: fs, items =>
    (∃ e rest, items = (f.clip, e) :: rest) ∧
    f.content = contentOf ((items.filter fun i => decide (SameClip i.1 f.clip)).map (·.2)) ∧
    IsHull ((items.filter fun i => decide (SameClip i.1 f.clip)).map (·.2.pos)) f.pos ∧
    Figures fs (items.filter fun i => decide (¬ SameClip i.1 f.clip))

/-- A page contains exactly the given items: directly those drawn under the page's own clip box, in
figures the others. -/
def Routed (p : Page) (items : List (Clip × Elem)) : Prop :=
  p.content = contentOf ((items.filter fun i => decide (SameClip i.1 p.clip)).map (·.2)) ∧
  Figures p.figures (items.filter fun i => decide (¬ SameClip i.1 p.clip))

/-- The ranks of all elements of a content. -/
def Content.ranks (c : Content) : List ℕ :=
  c.characters.map PChar.rank ++ c.shapes.map (·.2) ++ c.graphics.map (·.2)

/-- The ranks of all elements of a page, those of its figures included. -/
def Page.ranks (p : Page) : List ℕ :=
  Content.ranks p.content ++ p.figures.flatMap fun f => Content.ranks f.content

/-- All characters of a page, those of its figures included. -/
def Page.allChars (p : Page) : List PChar :=
  p.content.characters ++ p.figures.flatMap fun f => f.content.characters

/-- The positions of all elements of a content. -/
def Content.boxes (c : Content) : List Box :=
  c.characters.map PChar.pos ++ c.shapes.map (·.1) ++ c.graphics.map (·.1)

/-- The order in which Poppler sends the events: a page is started before anything is drawn, a
character is drawn with a font in the graphics state, and the clear-text part of an embedded font
file is readable. -/
def Orderly (t : Tables) : Bool → List Event → Prop
  | _, [] => True
  | _, .startPage _ _ :: es => Orderly t true es
  | started, .endPage :: es => Orderly t started es
  | started, .updateFont f :: es =>
    (∀ g, f = some g → (parseFont t g).isOk = true) ∧ Orderly t started es
  | started, .drawChar ev :: es => started = true ∧ ev.font.isSome = true ∧ Orderly t started es
  | started, .stroke _ _ :: es => started = true ∧ Orderly t started es
  | started, .drawGraphic _ _ :: es => started = true ∧ Orderly t started es

/-- Applying a transformation matrix to a point, as the PDF specification defines it. -/
def apply (m : Mat) (p : ℚ × ℚ) : ℚ × ℚ :=
  (m.m0 * p.1 + m.m2 * p.2 + m.m4, m.m1 * p.1 + m.m3 * p.2 + m.m5)

/-- A number rounded to one decimal place, the precision of the coordinates. -/
def deci (x : ℚ) : ℚ := Math.roundTo x 1

/-- The points of a path that count as visible: their rounded coordinates lie more than 0.1 inside
of the clip box. -/
def visiblePoints (clip : Clip) (points : List (ℚ × ℚ)) : List (ℚ × ℚ) :=
  (points.map fun p => (deci p.1, deci p.2)).filter fun p =>
    decide (clip.leftX + 1 / 10 < p.1 ∧ clip.upperY + 1 / 10 < p.2 ∧
      p.1 < clip.rightX - 1 / 10 ∧ p.2 < clip.lowerY - 1 / 10)

/-- The box lies in the clip box and its edges are in the right order. -/
def InsideClip (clip : Clip) (b : Box) : Prop :=
  clip.leftX ≤ b.leftX ∧ b.leftX ≤ b.rightX ∧ b.rightX ≤ clip.rightX ∧
  clip.upperY ≤ b.upperY ∧ b.upperY ≤ b.lowerY ∧ b.lowerY ≤ clip.lowerY

/-- What Poppler's `GfxState::getFontTransMat` returns: the text matrix times the current
transformation matrix, scaled by the font size (and horizontally by the horizontal scaling). -/
def popplerFontTrans (ev : CharEvent) : ℚ × ℚ × ℚ × ℚ :=
  ((ev.textMat.1 * ev.ctm.m0 + ev.textMat.2.1 * ev.ctm.m2) * ev.fontSize * ev.horizScaling,
   (ev.textMat.1 * ev.ctm.m1 + ev.textMat.2.1 * ev.ctm.m3) * ev.fontSize * ev.horizScaling,
   (ev.textMat.2.2.1 * ev.ctm.m0 + ev.textMat.2.2.2 * ev.ctm.m2) * ev.fontSize,
   (ev.textMat.2.2.1 * ev.ctm.m1 + ev.textMat.2.2.2 * ev.ctm.m3) * ev.fontSize)

end Verif.Spec.Parsing
