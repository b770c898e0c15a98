import Verif.Model.FontInfo

/-!
# The table of the glyphs of an embedded Type 1 font: `/repo/src/utils/PdfFontInfoParser.cpp:385-469`

The decrypted text of the encrypted part is a list of bytes.  The two regular expressions are
deterministic on every text: after `\S+`, `\s+` and `\d+` a character of a disjoint class follows, so
only the longest run can be followed by the rest of the pattern.  (The recursion depth of the regular
expression library is not modelled.)
-/

namespace Verif.GlyphTable

open Verif

/-- `\s` for a byte, in the C locale.  Models `/repo/src/utils/PdfFontInfoParser.cpp:411,446`. -/
def isSpace (b : ℕ) : Bool := decide (9 ≤ b ∧ b ≤ 13) || decide (b = 32)

/-- `\d` for a byte.  Models `/repo/src/utils/PdfFontInfoParser.cpp:411,446`. -/
def isDigit (b : ℕ) : Bool := decide (48 ≤ b ∧ b ≤ 57)

/-- The bytes of an ASCII literal. -/
def bytes (s : String) : List ℕ := s.toList.map Char.toNat

/-- `hay.find(needle)`: the first position at which `needle` occurs.
Models the calls of `std::string::find` in `/repo/src/utils/PdfFontInfoParser.cpp:387-440`. -/
def find (needle : List ℕ) : List ℕ → Option ℕ
  | [] => if needle.isPrefixOf [] then some 0 else none
  | c :: t => if needle.isPrefixOf (c :: t) then some 0 else (find needle t).map (· + 1)

/-- `hay.find(needle, pos)` for `pos ≤ hay.size()`.
Models `/repo/src/utils/PdfFontInfoParser.cpp:390,404,440`. -/
def findFrom (needle hay : List ℕ) (pos : ℕ) : Option ℕ := (find needle (hay.drop pos)).map (· + pos)

/-- The value of a list of digits.  Models the reading of digits by `stoi`,
`/repo/src/utils/PdfFontInfoParser.cpp:392,417,418,453`. -/
def digitsValue (ds : List ℕ) : ℤ := ds.foldl (fun (v : ℤ) (d : ℕ) => 10 * v + ((d : ℤ) - 48)) 0

/-- `std::stoi`: white space, a sign and digits; the rest is ignored.  Without a digit it throws
`invalid_argument`, outside of the `int` range `out_of_range`.
Models the calls of `/repo/src/utils/PdfFontInfoParser.cpp:392,417,418,453`. -/
def stoi (s : List ℕ) : Outcome ℤ :=
  let s := s.dropWhile isSpace
  let neg := decide (s.head? = some 45)
  let s := if s.head? = some 45 ∨ s.head? = some 43 then s.tail else s
  let ds := s.takeWhile isDigit
  if ds.isEmpty then .throw "invalid_argument"
  else
    let v := if neg then -digitsValue ds else digitsValue ds
    if Type1.inInt v then .ok v else .throw "out_of_range"

/-- `/lenIV`: 4 without the entry.  Models `/repo/src/utils/PdfFontInfoParser.cpp:385-394`. -/
def lenIV (text : List ℕ) : Outcome ℤ :=
  match find (bytes "/lenIV ") text with
  | none => .ok 4
  | some p =>
    match findFrom (bytes " ") text (p + 7) with
    | none => .ok 4
    | some e => stoi ((text.drop (p + 7)).take (e - (p + 7)))

/-- `\sRD\s` at the start of the text; the rest behind it.
Models the end of both patterns, `/repo/src/utils/PdfFontInfoParser.cpp:411,446`. -/
def matchRD : List ℕ → Option (List ℕ)
  | a :: 82 :: 68 :: b :: rest => if isSpace a && isSpace b then some rest else none
  | _ => none

/-- `(\d+)\sRD\s` at the start of the text: the digits and the rest.
Models the end of both patterns, `/repo/src/utils/PdfFontInfoParser.cpp:411,446`. -/
def matchLen (s : List ℕ) : Option (List ℕ × List ℕ) :=
  let ds := s.takeWhile isDigit
  if ds.isEmpty then none else (matchRD (s.dropWhile isDigit)).map fun rest => (ds, rest)

/-- `dup\s(\d+)\s(\d+)\sRD\s` at the start of the text: the two groups and the rest.
Models `/repo/src/utils/PdfFontInfoParser.cpp:411`. -/
def matchDup : List ℕ → Option ((List ℕ × List ℕ) × List ℕ)
  | 100 :: 117 :: 112 :: a :: s =>
    let ds := s.takeWhile isDigit
    if !isSpace a || ds.isEmpty then none
    else match s.dropWhile isDigit with
      | b :: s' => if isSpace b then (matchLen s').map fun r => ((ds, r.1), r.2) else none
      | [] => none
  | _ => none

/-- `\/(\S+)\s+(\d+)\sRD\s` at the start of the text: the two groups and the rest.
Models `/repo/src/utils/PdfFontInfoParser.cpp:446`. -/
def matchGlyph : List ℕ → Option ((List ℕ × List ℕ) × List ℕ)
  | 47 :: s =>
    let name := s.takeWhile fun b => !isSpace b
    let s' := s.dropWhile fun b => !isSpace b
    if name.isEmpty || (s'.takeWhile isSpace).isEmpty then none
    else (matchLen (s'.dropWhile isSpace)).map fun r => ((name, r.1), r.2)
  | _ => none

/-- The matches a `sregex_iterator` visits: the leftmost one, then the next one behind it.  `fuel` is
at least the length of the text.  With every match the text behind it is reported.
Models `/repo/src/utils/PdfFontInfoParser.cpp:412-415,447-450`. -/
def matchesF {α : Type} (m : List ℕ → Option (α × List ℕ)) : ℕ → List ℕ → List (α × List ℕ)
  | 0, _ => []
  | _ + 1, [] => []
  | fuel + 1, c :: t =>
    match m (c :: t) with
    | some r => r :: matchesF m fuel r.2
    | none => matchesF m fuel t

/-- The matches in a text.  Models `/repo/src/utils/PdfFontInfoParser.cpp:412-415,447-450`. -/
def allMatches {α : Type} (m : List ℕ → Option (α × List ℕ)) (s : List ℕ) : List (α × List ℕ) :=
  matchesF m (s.length + 1) s

/-- The decrypted bytes of one entry: the announced number of bytes behind the match.  `decrypt` skips
the first `lenIV` bytes (none if it is negative).
Models `/repo/src/utils/PdfFontInfoParser.cpp:418-424,453-458`. -/
def entry (mode : Type1.IntMode) (iv : ℤ) (len rest : List ℕ) : Outcome (List ℕ) :=
  (stoi len).bind fun n => Type1.decrypt mode (rest.take n.toNat) n.toNat 4330 iv.toNat

/-- The loop over the subroutines; a later entry replaces an earlier one of the same number.
Models `/repo/src/utils/PdfFontInfoParser.cpp:414-427`. -/
def subrsLoop (mode : Type1.IntMode) (iv : ℤ) :
    List ((List ℕ × List ℕ) × List ℕ) → Type1.Subrs → Outcome Type1.Subrs
  | [], acc => .ok acc
  | ((index, len), rest) :: ms, acc =>
    (stoi index).bind fun i => (entry mode iv len rest).bind fun d => subrsLoop mode iv ms ((i, d) :: acc)

/-- The loop over the charstrings.  (Simplification: the charstrings are decrypted first and
interpreted afterwards.)  Models `/repo/src/utils/PdfFontInfoParser.cpp:449-458`. -/
def glyphsLoop (mode : Type1.IntMode) (iv : ℤ) :
    List ((List ℕ × List ℕ) × List ℕ) → Outcome (List (List ℕ × List ℕ))
  | [] => .ok []
  | ((name, len), rest) :: ms =>
    (entry mode iv len rest).bind fun d => (glyphsLoop mode iv ms).bind fun r => .ok ((name, d) :: r)

/-- The text of the subroutines: from `/Subrs` to the next `ND`; `none` if there is none.
Models `/repo/src/utils/PdfFontInfoParser.cpp:397-410`. -/
def subrsText (text : List ℕ) : Option (List ℕ) :=
  (find (bytes "/Subrs") text).bind fun p =>
    (findFrom (bytes "ND") text (p + 6)).map fun e => (text.drop (p + 6)).take (e - (p + 6))

/-- The text of the charstrings: everything behind `/CharStrings`, provided an `end` follows.
Models `/repo/src/utils/PdfFontInfoParser.cpp:429-445`. -/
def charStringsText (text : List ℕ) : Option (List ℕ) :=
  (find (bytes "/CharStrings") text).bind fun p =>
    (findFrom (bytes "end") text (p + 12)).map fun _ => text.drop (p + 12)

/-- The subroutines and the charstrings of the glyphs with their names, in the order of the file; both
empty if `/Subrs` or `/CharStrings` is missing.
Models `/repo/src/utils/PdfFontInfoParser.cpp:385-458`. -/
def programs (mode : Type1.IntMode) (text : List ℕ) :
    Outcome (Type1.Subrs × List (List ℕ × List ℕ)) :=
  (lenIV text).bind fun iv =>
    match subrsText text with
    | none => .ok ([], [])
    | some st =>
      (subrsLoop mode iv (allMatches matchDup st) []).bind fun subrs =>
        match charStringsText text with
        | none => .ok (subrs, [])
        | some ct => (glyphsLoop mode iv (allMatches matchGlyph ct)).bind fun gs => .ok (subrs, gs)

/-- The box of a glyph after `n` steps of the interpreter, `none` if it is not finished.
Models `/repo/src/utils/PdfFontInfoParser.cpp:458-467`. -/
def glyphBoxN (subrs : Type1.Subrs) (n : ℕ) (cs : List ℕ) : Option (ℚ × ℚ × ℚ × ℚ) :=
  match Type1.runN subrs n (Type1.start cs) with
  | .ok ⟨[], s⟩ => some (s.leftX, s.upperY, s.rightX, s.lowerY)
  | _ => none

/-- `glyphBoundingBoxes` after the loop, looked up: the last glyph of a name counts.
Models `/repo/src/utils/PdfFontInfoParser.cpp:449-468`. -/
def lookup (gs : List (List ℕ × List ℕ)) (name : List ℕ) : Option (List ℕ) :=
  (gs.reverse.find? fun g => g.1 == name).map (·.2)

end Verif.GlyphTable
