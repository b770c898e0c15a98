import Verif.Model.CharMap
import Verif.Model.Parsing
import Verif.Model.Pipeline

/-!
# Model of a run from the drawing operations of the PDF to the finished document

The parser (`Verif.Parsing`) and the stages (`Verif.Pipeline`) work on the same `PdfDocument`; this module only says how what the
parser writes is read by the stages.  The parser's model has texts as code points (it compares wide characters), the other stages
have them as bytes.
-/

namespace Verif.EndToEnd

open Verif.Text (Str)
open Verif.Words (Glyph)
open Verif.Pipeline (Document)

/-- The UTF-8 bytes of a character: what `mapUnicode` writes with the text encoding UTF-8, `/repo/src/PdfParsing.cpp:218-219`, and
what the compiler makes of the literals of `/repo/src/utils/CharMap.h`. -/
def utf8Char (c : Char) : Str :=
  (if c.toNat < 0x80 then [c.toNat]
    else if c.toNat < 0x800 then [0xC0 + c.toNat / 64, 0x80 + c.toNat % 64]
    else if c.toNat < 0x10000 then [0xE0 + c.toNat / 4096, 0x80 + c.toNat / 64 % 64, 0x80 + c.toNat % 64]
    else [0xF0 + c.toNat / 262144, 0x80 + c.toNat / 4096 % 64, 0x80 + c.toNat / 64 % 64, 0x80 + c.toNat % 64]).map Char.ofNat

/-- The bytes of a text, `ch->text.append(buf, n)`, `/repo/src/PdfParsing.cpp:217-220`. -/
def utf8 (t : Str) : Str := t.flatMap utf8Char

/-- `PdfCharacter`, `/repo/src/Types.h:445-532`, as the stages see it; its identity is its extraction rank. -/
def toGlyph (c : Parsing.PChar) : Glyph where
  uid := c.rank
  pos := c.pos
  text := utf8 c.text
  name := c.name
  fontName := c.fontName
  fontSize := c.fontSize
  base := c.base
  rank := c.rank
  unicodes := c.unicodes

/-- `PdfPage`, `/repo/src/Types.h:1000-1074` (width and height: `/repo/src/Types.cpp:570-577`), as the stages see it. -/
def toPage (p : Parsing.Page) : Pipeline.Page where
  pageNum := p.pageNum
  width := p.clip.rightX - p.clip.leftX
  height := p.clip.lowerY - p.clip.upperY
  characters := p.content.characters.map toGlyph
  figures := p.figures.map (·.pos)
  graphics := p.content.graphics.map (·.1)
  shapes := p.content.shapes.map (·.1)

/-- `PdfDocument`, `/repo/src/Types.h:1077-1138`, after parsing. -/
def toDocument (s : Parsing.State) : Document where
  pages := s.docPages.map toPage
  fontInfos name := (Parsing.findFont s.fonts name).map fun f => ⟨f.info.weight, f.info.isItalic⟩

/-- Embedded font files are not read, `/repo/src/PdfParsing.cpp:148-149` and `/repo/src/utils/PdfFontInfoParser.cpp:150`. -/
def withoutFontFile : Parsing.Event → Parsing.Event
  | .updateFont (some f) => .updateFont (some { f with embedded := none })
  | e => e

/-- The events as the parser handles them, with the option `--skip-embedded-font-files-parsing` or without it. -/
def seen (skipFontFiles : Bool) (events : List Parsing.Event) : List Parsing.Event :=
  if skipFontFiles then events.map withoutFontFile else events

/-- `parsePdfDocument` on a fresh document, `/repo/src/PdfToTextPlusPlus.cpp:93-103` and `/repo/src/PdfParsing.cpp`: Poppler displays
the pages, `events` are the calls it makes.  `numbers` reads the numbers of a line of a font file. -/
def parse (numbers : Str → List ℚ) (events : List Parsing.Event) (_ : Cli.StageConfig) (skipFontFiles : Bool) (_ : Document) :
    Outcome Document :=
  (Parsing.run ⟨CharMap.charMap, numbers⟩ {} (seen skipFontFiles events)).bind fun s => .ok (toDocument s)

end Verif.EndToEnd
