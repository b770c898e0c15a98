import Verif.Model.Descriptions

/-!
# What it means that a description identifies an element

A description of an element is a text for log messages. It *identifies* the element if two elements with the same description
agree in everything the description is about. Coordinates and sizes are printed with six significant digits, so that two elements
can only agree in the printed numbers (`P.dbl`); page numbers, rotations and code points are printed exactly.
-/

namespace Verif.Spec

open Verif.Descriptions
open Verif.Serialize (Printer)

/-- The elements with a text, a font and a font size. -/
def HasText : Kind → Prop
  | .char | .word | .line | .block => True
  | .figure | .shape | .graphic | .segment => False

/-- The same page and, to the printed precision, the same bounding box. -/
def PrintedSamePlace (P : Printer) (a b : Box) : Prop :=
  a.pageNum = b.pageNum ∧ P.dbl a.leftX = P.dbl b.leftX ∧ P.dbl a.upperY = P.dbl b.upperY ∧
    P.dbl a.rightX = P.dbl b.rightX ∧ P.dbl a.lowerY = P.dbl b.lowerY

/-- What the short description tells: the kind, the place and, for elements with text, the font, the font size and the text. -/
def AgreeShort (P : Printer) (a b : Element) : Prop :=
  a.kind = b.kind ∧ PrintedSamePlace P a.pos b.pos ∧
    (HasText a.kind → a.fontName = b.fontName ∧ P.dbl a.fontSize = P.dbl b.fontSize ∧ a.text = b.text)

/-- What the long description tells: the kind, the place, the rotation and the writing mode, and what belongs to the kind. -/
def AgreeLong (P : Printer) (a b : Element) : Prop :=
  a.kind = b.kind ∧ PrintedSamePlace P a.pos b.pos ∧ a.pos.rotation = b.pos.rotation ∧ a.pos.wMode = b.pos.wMode ∧
    (HasText a.kind → a.text = b.text) ∧
    (HasText a.kind → a.kind ≠ .block → a.fontName = b.fontName ∧ P.dbl a.fontSize = P.dbl b.fontSize) ∧
    (a.kind = .char → P.dbl a.color.1 = P.dbl b.color.1 ∧ P.dbl a.color.2.1 = P.dbl b.color.2.1 ∧
      P.dbl a.color.2.2 = P.dbl b.color.2.2 ∧ P.dbl a.opacity = P.dbl b.opacity ∧ a.unicodes = b.unicodes) ∧
    (a.kind = .line → P.dbl a.leftMargin = P.dbl b.leftMargin ∧ P.dbl a.rightMargin = P.dbl b.rightMargin) ∧
    (a.kind = .block → a.role = b.role ∧ a.isCentered = b.isCentered ∧ a.isEmphasized = b.isEmphasized)

end Verif.Spec
