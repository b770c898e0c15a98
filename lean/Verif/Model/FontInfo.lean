import Verif.Model.Outcome
import Verif.Model.Math
import Verif.Model.Text
import Verif.Model.Type1

/-!
# Font information: `/repo/src/utils/PdfFontInfoParser.cpp:52-312`

Strings are lists of characters, one per byte.  What Poppler reports about a font (`GfxFont`) is an
arbitrary record.  Reading a floating point number from a stream (`lineSS >> d`) is a parameter.
-/

namespace Verif.FontInfo

open Verif
open Verif.Text (Str)

/-- `PdfFontInfo`; the glyph boxes are kept in the separate model of the charstrings.
Models `/repo/src/Types.h:138-217`. -/
structure Info where
  ascent : ℚ
  descent : ℚ
  fontName : Str
  normFontName : Str
  fontBaseName : Str
  isFixedWidth : Bool
  isSerif : Bool
  isSymbolic : Bool
  isItalic : Bool
  weight : ℤ
  isType3 : Bool
  fontMatrix : List ℚ
deriving DecidableEq

/-- What Poppler's `GfxFont` reports: the name (absent for many type-3 fonts), the text of its
pointer address, the flags, the type, the weight and the font matrix.
Models the calls in `/repo/src/utils/PdfFontInfoParser.cpp:58-149`. -/
structure Gfx where
  address : Str
  name : Option Str
  fixedWidth : Bool
  serif : Bool
  symbolic : Bool
  italic : Bool
  bold : Bool
  type3 : Bool
  weight : ℤ
  fontMatrix : List ℚ
deriving DecidableEq

/-- `hay.find(needle)`: the first position at which `needle` occurs.
Models the calls of `std::string::find` in `/repo/src/utils/PdfFontInfoParser.cpp`. -/
def find (needle : Str) : Str → Option ℕ
  | [] => if needle.isPrefixOf [] then some 0 else none
  | c :: t => if needle.isPrefixOf (c :: t) then some 0 else (find needle t).map (· + 1)

/-- `hay.find(needle, pos)` for `pos ≤ hay.size()`.
Models the calls of `std::string::find` in `/repo/src/utils/PdfFontInfoParser.cpp:266-298`. -/
def findFrom (needle hay : Str) (pos : ℕ) : Option ℕ := (find needle (hay.drop pos)).map (· + pos)

/-- `isdigit` in the C locale.
Models the call in `/repo/src/utils/PdfFontInfoParser.cpp:93`. -/
def isDigit (c : Char) : Bool := decide (48 ≤ c.toNat) && decide (c.toNat ≤ 57)

/-- `GooString::lowerCase`: every byte through `tolower` in the C locale.
Models the call in `/repo/src/utils/PdfFontInfoParser.cpp:80`. -/
def lower (s : Str) : Str :=
  s.map fun c => if 65 ≤ c.toNat ∧ c.toNat ≤ 90 then Char.ofNat (c.toNat + 32) else c

/-- The normalized font name.  Models `/repo/src/utils/PdfFontInfoParser.cpp:78-84`. -/
def normName (fontName : Str) : Str :=
  let l := lower fontName
  match find ['+'] l with
  | some p => l.drop (p + 1)
  | none => l

/-- The font base name: the loop that moves the kept characters of `baseName[0, endPos)` to the
front is a filter.  Models `/repo/src/utils/PdfFontInfoParser.cpp:88-98`. -/
def baseName (norm : Str) : Str :=
  (norm.take (min ((find ['-'] norm).getD norm.length) norm.length)).filter fun c => !isDigit c

/-- `PdfFontInfoParser::parse` for a font that is present, up to the embedded font file.
Models `/repo/src/utils/PdfFontInfoParser.cpp:62-149`. -/
def ofGfx (g : Gfx) : Info where
  fontName := g.name.getD g.address
  normFontName := normName (g.name.getD g.address)
  fontBaseName := baseName (normName (g.name.getD g.address))
  ascent := 95 / 100
  descent := -35 / 100
  isFixedWidth := g.fixedWidth
  isSerif := g.serif
  isSymbolic := g.symbolic
  isType3 := g.type3
  isItalic := g.italic || (find "italic".toList (lower (g.name.getD g.address))).isSome
  weight :=
    let w0 : ℤ := if 0 < g.weight then g.weight else 400
    let w1 := if g.bold then 700 else w0
    let w2 := if (find "bold".toList (lower (g.name.getD g.address))).isSome then 700 else w1
    if (find "black".toList (lower (g.name.getD g.address))).isSome then 800 else w2
  fontMatrix := g.fontMatrix

/-! ## The clear-text part of an embedded Type 1 font -/

/-- `std::getline` in a loop: the pieces between newlines; nothing after a final newline.
Models `/repo/src/utils/PdfFontInfoParser.cpp:257-262`. -/
def getlines : Str → List Str
  | [] => []
  | c :: t =>
    if c = '\n' then [] :: getlines t
    else match getlines t with
      | [] => [[c]]
      | l :: ls => (c :: l) :: ls

/-- `fontMatrix[k++] = d` for the numbers read: the array has six cells.
Models `/repo/src/utils/PdfFontInfoParser.cpp:273-277`. -/
def putNumbers : ℕ → List ℚ → List ℚ → Outcome (List ℚ)
  | _, [], m => .ok m
  | k, d :: ds, m => if k < 6 then putNumbers (k + 1) ds (m.set k d)
      else .ub "write outside of fontMatrix"

/-- The text between the brackets of a `/FontMatrix [...]` entry.
Models `/repo/src/utils/PdfFontInfoParser.cpp:265-272`. -/
def matrixText (line : Str) : Option Str :=
  (find "/FontMatrix".toList line).bind fun p =>
    (findFrom ['['] line (p + 11)).bind fun l =>
      (findFrom [']'] line (l + 1)).map fun r => (line.drop (l + 1)).take (r - (l + 1))

/-- The text between the parentheses of a `/Weight (...)` entry.
Models `/repo/src/utils/PdfFontInfoParser.cpp:293-298`. -/
def weightText (line : Str) : Option Str :=
  (find "/Weight (".toList line).bind fun p =>
    (findFrom [')'] line (p + 9)).map fun e => (line.drop (p + 9)).take (e - (p + 9))

/-- The weight a `/Weight` entry stands for; other texts leave the weight as it is.
Models `/repo/src/utils/PdfFontInfoParser.cpp:299-305`. -/
def weightOf (text : Str) (old : ℤ) : ℤ :=
  if text = "Regular".toList then 400
  else if text = "Medium".toList then 500
  else if text = "Bold".toList then 700
  else old

/-- The font matrix after a line.  Models `/repo/src/utils/PdfFontInfoParser.cpp:264-282`. -/
def matrixAfter (numbers : Str → List ℚ) (line : Str) (m : List ℚ) : Outcome (List ℚ) :=
  match matrixText line with
  | some t => putNumbers 0 (numbers t) m
  | none => .ok m

/-- `line.starts_with("/ItalicAngle")`.
Models `/repo/src/utils/PdfFontInfoParser.cpp:287`. -/
def isAngleLine (line : Str) : Bool := "/ItalicAngle".toList.isPrefixOf line

/-- `line == "/ItalicAngle 0 def"`.  Models `/repo/src/utils/PdfFontInfoParser.cpp:288`. -/
def isZeroAngle (line : Str) : Bool := decide (line = "/ItalicAngle 0 def".toList)

/-- The loop of `parseAsciiPart` over the lines; `fontMatrixFound` is never set in the code and
therefore not kept.  Models `/repo/src/utils/PdfFontInfoParser.cpp:262-311`. -/
def asciiLoop (numbers : Str → List ℚ) (italicAngleFound weightFound : Bool) :
    List Str → Info → Outcome Info
  | [], i => .ok i
  | line :: ls, i =>
    (matrixAfter numbers line i.fontMatrix).bind fun m =>
    let hit := !italicAngleFound && isAngleLine line
    let italic := i.isItalic || (hit && !isZeroAngle line)
    let w := if weightFound then none else weightText line
    asciiLoop numbers (italicAngleFound || hit) (weightFound || w.isSome) ls
      { i with fontMatrix := m, isItalic := italic,
               weight := (w.map fun t => weightOf t i.weight).getD i.weight }

/-- `Type1FontFileParser::parseAsciiPart` on the text read.
Models `/repo/src/utils/PdfFontInfoParser.cpp:246-312`. -/
def parseAscii (numbers : Str → List ℚ) (ascii : Str) (i : Info) : Outcome Info :=
  asciiLoop numbers false false (getlines ascii) i

/-- The length of the clear-text part and the stream positioned at its start: a file in PFB form
announces the length in a header.  `|` does not fix the order of its operands' calls; they are
taken from left to right, as common compilers do.  A stream that ends inside of the header yields
-1 (`EOF`) for the missing bytes, hence a negative length.
Models `/repo/src/utils/PdfFontInfoParser.cpp:219-226`. -/
def asciiStart (length1 : ℤ) (stream : List ℕ) : ℤ × List ℕ :=
  if stream[0]? = some 128 ∧ stream[1]? = some 1 then
    match stream.drop 2 with
    | c :: d :: e :: f :: s => (Int.bmod (c + 256 * d + 65536 * e + 16777216 * f) 4294967296, s)
    | _ => (-1, [])
  else (length1, stream)

/-- The first `b` bytes of the buffer, as `decrypt` reads them; reading a cell that was never
written is undefined behaviour.  Models `/repo/src/utils/PdfFontInfoParser.cpp:381,857`. -/
def bufferBytes (buf : List (ℕ × ℕ)) : ℕ → Outcome (List ℕ)
  | 0 => .ok []
  | b + 1 => (bufferBytes buf b).bind fun bs =>
    match Type1.cell buf b with
    | some v => .ok (bs ++ [v])
    | none => .ub "read of an indeterminate byte"

/-- `parseEncryptedPart` up to the decrypted text of the encrypted part; `none` if the stream is
too short.  Models `/repo/src/utils/PdfFontInfoParser.cpp:314-383`. -/
def decryptedPart (mode : Type1.IntMode) (length : ℤ) (s : List ℕ) : Outcome (Option (List ℕ)) :=
  (Type1.readEncrypted length s).bind fun r =>
    match r with
    | none => .ok none
    | some (buf, b) => (bufferBytes buf b).bind fun bytes =>
      (Type1.decrypt mode bytes b 55665 4).bind fun t => .ok (some t)

/-- `Type1FontFileParser::parse`: the clear-text part and the decrypted text of the encrypted part;
`none` if the entries `Length1` and `Length2` are missing or not positive.
Models `/repo/src/utils/PdfFontInfoParser.cpp:192-243`. -/
def parseFile (mode : Type1.IntMode) (length1 length2 : Option ℤ) (stream : List ℕ) :
    Outcome (Option (List ℕ × Option (List ℕ))) :=
  match length1, length2 with
  | some l1, some l2 =>
    if (asciiStart l1 stream).1 ≤ 0 ∨ l2 ≤ 0 then .ok none
    else
      let n := (asciiStart l1 stream).1.toNat
      (decryptedPart mode l2 ((asciiStart l1 stream).2.drop n)).bind fun t =>
        .ok (some ((asciiStart l1 stream).2.take n, t))
  | _, _ => .ok none

end Verif.FontInfo
