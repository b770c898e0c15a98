import Verif.Model.GlyphTable
import Verif.Model.Parsing

/-!
# From the bytes of an embedded font file to what the parser uses of it

This joins the models of the parts of `Type1FontFileParser`: the two parts of the file (`Verif.FontInfo`), the programs in the
decrypted part (`Verif.GlyphTable`) and their interpretation (`Verif.Type1`).  The interpreter need not stop; `n` bounds the number of
its steps for each glyph, and `none` says that some glyph is not finished.
-/

namespace Verif.EmbeddedFont

open Verif
open Verif.Text (Str)

/-- The stream of an embedded font file: the entries `Length1` and `Length2` of its dictionary, as far as they are integers, and its
bytes.  Models `/repo/src/utils/PdfFontInfoParser.cpp:197-219`. -/
structure FontFile where
  length1 : Option ℤ
  length2 : Option ℤ
  stream : List ℕ
deriving DecidableEq

/-- The characters of a byte string; `string::push_back` of `/repo/src/utils/PdfFontInfoParser.cpp:252-254`. -/
def chars (bytes : List ℕ) : Str := bytes.map Char.ofNat

/-- `parseCharString` with fresh variables, then `make_tuple`, `/repo/src/utils/PdfFontInfoParser.cpp:459-467`; `none` if the
interpretation is not finished after `n` steps. -/
def glyphRun (subrs : Type1.Subrs) (n : ℕ) (cs : List ℕ) : Outcome (Option (ℚ × ℚ × ℚ × ℚ)) :=
  (Type1.runN subrs n (Type1.start cs)).bind fun c =>
    match c.frames with
    | [] => .ok (some (c.st.leftX, c.st.upperY, c.st.rightX, c.st.lowerY))
    | _ :: _ => .ok none

/-- The loop over the glyphs: each is interpreted and its box is recorded under its name.  (Simplification: all charstrings are
decrypted before the first is interpreted.)  Models `/repo/src/utils/PdfFontInfoParser.cpp:449-468`. -/
def boxesN (subrs : Type1.Subrs) (n : ℕ) :
    List (List ℕ × List ℕ) → Outcome (Option (List (List ℕ × (ℚ × ℚ × ℚ × ℚ))))
  | [] => .ok (some [])
  | (name, cs) :: gs =>
    (glyphRun subrs n cs).bind fun b =>
      match b with
      | none => .ok none
      | some b => (boxesN subrs n gs).bind fun r => .ok (r.map ((name, b) :: ·))

/-- `fontInfo->glyphBoundingBoxes` looked up: `operator[]` of the map replaces the box of an earlier glyph of the same name.
Models `/repo/src/utils/PdfFontInfoParser.cpp:467` and `/repo/src/PdfParsing.cpp:425-427`. -/
def boxOf (boxes : List (List ℕ × (ℚ × ℚ × ℚ × ℚ))) (name : Str) : Option (ℚ × ℚ × ℚ × ℚ) :=
  (boxes.reverse.find? fun g => g.1 == name.map Char.toNat).map (·.2)

/-- What the parser uses of a font file: the clear text and the glyph boxes.  Nothing without usable lengths; no glyph boxes if the
stream ends before the encrypted part.  Models `Type1FontFileParser::parse`, `/repo/src/utils/PdfFontInfoParser.cpp:192-243,314-469`. -/
def embeddedN (mode : Type1.IntMode) (n : ℕ) (file : FontFile) :
    Outcome (Option (Option (Str × (Str → Option (ℚ × ℚ × ℚ × ℚ))))) :=
  (FontInfo.parseFile mode file.length1 file.length2 file.stream).bind fun r =>
    match r with
    | none => .ok (some none)
    | some (ascii, none) => .ok (some (some (chars ascii, fun _ => none)))
    | some (ascii, some text) =>
      (GlyphTable.programs mode text).bind fun p =>
        (boxesN p.1 n p.2).bind fun b => .ok (b.map fun boxes => some (chars ascii, boxOf boxes))

/-- Reading the font file ends, with the given result (the `embedded` of an `EventFont`).
Models `/repo/src/utils/PdfFontInfoParser.cpp:150-180`. -/
def Reads (mode : Type1.IntMode) (file : FontFile) (e : Option (Str × (Str → Option (ℚ × ℚ × ℚ × ℚ)))) : Prop :=
  ∃ n, embeddedN mode n file = .ok (some e)

end Verif.EmbeddedFont
