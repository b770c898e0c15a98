import Verif.Model.Serializers

/-!
# The descriptions of elements in log messages

Models the methods `toString()` and `toShortString()` of the element classes, `/repo/src/Types.cpp`. Texts are byte strings; how
numbers are formatted is a parameter (`Serialize.Printer`), as in `Model/Serializers.lean`. A `bool` is printed as `0` or `1`
(no `std::boolalpha` is set on the stream). One record holds the fields of all classes; which method is called is decided by
`kind` (the virtual call).
-/

namespace Verif.Descriptions

open Verif.Text
open Verif.Serialize (Printer Role roleName)

/-- The classes of elements with a description, `/repo/src/Types.h:362-980`. -/
inductive Kind
  | char | word | line | block | figure | shape | graphic | segment
  deriving DecidableEq, Repr

/-- The fields of the element classes the descriptions read: `PdfElement` and `PdfTextElement` (`/repo/src/Types.h:362-445`),
`unicodes` of a character (`/repo/src/Types.h:490`), the margins of a text line (`/repo/src/Types.h:679-682`), the role, `isLinesCentered` and `isEmphasized`
of a text block (`/repo/src/Types.h:759-766`). -/
structure Element where
  kind : Kind
  pos : Box
  fontName : Str
  fontSize : ℚ
  text : Str
  color : ℚ × ℚ × ℚ
  opacity : ℚ
  unicodes : List ℕ
  leftMargin : ℚ
  rightMargin : ℚ
  role : Role
  isCentered : Bool
  isEmphasized : Bool

/-- `PdfPosition::toString()`, `/repo/src/Types.cpp:131-142`. -/
def posLong (P : Printer) (b : Box) : Str :=
  "PdfPosition(page=".toList ++ P.int b.pageNum ++ "; leftX=".toList ++ P.dbl b.leftX ++ "; upperY=".toList ++ P.dbl b.upperY ++
  "; rightX=".toList ++ P.dbl b.rightX ++ "; lowerY=".toList ++ P.dbl b.lowerY ++ "; rotation=".toList ++ P.int b.rotation ++
  "; wMode=".toList ++ P.int b.wMode ++ ")".toList

/-- `PdfPosition::toShortString()`, `/repo/src/Types.cpp:145-153`. -/
def posShort (P : Printer) (b : Box) : Str :=
  "p=".toList ++ P.int b.pageNum ++ "; leftX=".toList ++ P.dbl b.leftX ++ "; upperY=".toList ++ P.dbl b.upperY ++
  "; rightX=".toList ++ P.dbl b.rightX ++ "; lowerY=".toList ++ P.dbl b.lowerY

/-- The loop over `unicodes`, `/repo/src/Types.cpp:217-222`: `", "` after every number but the last one. -/
def unicodesOut (P : Printer) : List ℕ → Str
  | [] => []
  | [u] => P.int u
  | u :: v :: us => P.int u ++ ", ".toList ++ unicodesOut P (v :: us)

/-- `ss << b` for a `bool`. -/
def bit (b : Bool) : Str := if b then "1".toList else "0".toList

/-- `PdfCharacter::toString()`, `/repo/src/Types.cpp:208-225`. -/
def charLong (P : Printer) (e : Element) : Str :=
  "PdfCharacter(pos=".toList ++ posLong P e.pos ++ "; fontName=".toList ++ e.fontName ++ "; fontSize=".toList ++ P.dbl e.fontSize ++
  "; color=(".toList ++ P.dbl e.color.1 ++ ", ".toList ++ P.dbl e.color.2.1 ++ ", ".toList ++ P.dbl e.color.2.2 ++
  "); opacity=".toList ++ P.dbl e.opacity ++ "; unicodes=[".toList ++ unicodesOut P e.unicodes ++
  "]; text=\"".toList ++ e.text ++ "\")".toList

/-- `PdfWord::toString()`, `/repo/src/Types.cpp:264-272`. -/
def wordLong (P : Printer) (e : Element) : Str :=
  "PdfWord(pos=".toList ++ posLong P e.pos ++ "; fontName=".toList ++ e.fontName ++ "; fontSize=".toList ++ P.dbl e.fontSize ++
  "; text=\"".toList ++ e.text ++ "\")".toList

/-- `PdfTextLine::toString()`, `/repo/src/Types.cpp:344-355`. The text comes first. -/
def lineLong (P : Printer) (e : Element) : Str :=
  "PdfTextLine(text=\"".toList ++ e.text ++ "\"; pos=".toList ++ posLong P e.pos ++ "; leftMargin=".toList ++ P.dbl e.leftMargin ++
  "; rightMargin=".toList ++ P.dbl e.rightMargin ++ "; fontName=".toList ++ e.fontName ++ "; fontSize=".toList ++ P.dbl e.fontSize ++
  ")".toList

/-- `PdfTextBlock::toString()`, `/repo/src/Types.cpp:378-387`. -/
def blockLong (P : Printer) (e : Element) : Str :=
  "PdfTextBlock(pos=".toList ++ posLong P e.pos ++ "; role=".toList ++ roleName e.role ++ "; isCentered=".toList ++ bit e.isCentered ++
  "; isEmphasized=".toList ++ bit e.isEmphasized ++ "; text=\"".toList ++ e.text ++ "\")".toList

/-- `PdfFigure::toString()`, `PdfShape::toString()` and `PdfGraphic::toString()`, `/repo/src/Types.cpp:434-438,457-461,480-484`. -/
def rectLong (P : Printer) (name : String) (e : Element) : Str :=
  name.toList ++ "(pos=".toList ++ posLong P e.pos ++ ")".toList

/-- `PdfPageSegment::toString()`, `/repo/src/Types.cpp:508-513`. The parenthesis is never closed. -/
def segmentLong (P : Printer) (e : Element) : Str :=
  "PdfPageSegment(pos=".toList ++ posLong P e.pos ++ "; ".toList

/-- The virtual call `element->toString()`. -/
def toLong (P : Printer) (e : Element) : Str :=
  match e.kind with
  | .char => charLong P e
  | .word => wordLong P e
  | .line => lineLong P e
  | .block => blockLong P e
  | .figure => rectLong P "PdfFigure" e
  | .shape => rectLong P "PdfShape" e
  | .graphic => rectLong P "PdfGraphic" e
  | .segment => segmentLong P e

/-- The part shared by the short descriptions of characters, words, lines and blocks,
`/repo/src/Types.cpp:228-236,275-283,358-366,390-398`. -/
def textShort (P : Printer) (name : String) (e : Element) : Str :=
  "type: ".toList ++ name.toList ++ "; ".toList ++ posShort P e.pos ++ "; fn=".toList ++ e.fontName ++
  "; fs=".toList ++ P.dbl e.fontSize ++ "; text=\"".toList ++ e.text ++ "\"".toList

/-- The short descriptions of figures, shapes, graphics and segments, `/repo/src/Types.cpp:441-445,464-468,487-491,516-520`. -/
def rectShort (P : Printer) (name : String) (e : Element) : Str :=
  "type: ".toList ++ name.toList ++ "; ".toList ++ posShort P e.pos

/-- The virtual call `element->toShortString()`. -/
def toShort (P : Printer) (e : Element) : Str :=
  match e.kind with
  | .char => textShort P "char" e
  | .word => textShort P "word" e
  | .line => textShort P "line" e
  | .block => textShort P "block" e
  | .figure => rectShort P "figure" e
  | .shape => rectShort P "shape" e
  | .graphic => rectShort P "graphic" e
  | .segment => rectShort P "segment" e

end Verif.Descriptions
