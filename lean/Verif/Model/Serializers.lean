import Verif.Model.Box
import Verif.Model.Outcome
import Verif.Model.Text
import Verif.Model.ReadingOrder

/-!
# Model of `/repo/src/serializers/*.cpp`

Only the fields the serializers read are kept. The formatting of numbers by `operator<<` is a
parameter (`Printer`), the order of an `unordered_set` is a parameter, and what is written to the stream is returned as a string.
-/

namespace Verif.Serialize

open Verif.Text

export Verif.ReadingOrder (Role)

/-- `SEMANTIC_ROLE_NAMES[role]`, `/repo/src/Types.h:87-102`, `/repo/src/utils/PdfElementsUtils.cpp:295-297`. -/
def roleName : Role → Str
  | .paragraph => "paragraph".toList
  | .reference => "reference".toList
  | .marginal => "marginal".toList
  | .footnote => "footnote".toList
  | .heading => "heading".toList
  | .formula => "formula".toList
  | .title => "title".toList
  | .authorInfo => "author-info".toList
  | .abstract => "abstract".toList
  | .date => "date".toList
  | .caption => "caption".toList
  | .table => "table".toList
  | .other => "other".toList
  | .toc => "toc".toList

/-- The fields of a `PdfCharacter` read by the serializers, `/repo/src/Types.h:362-527`. `isMark` and
`isBase` tell whether `isDiacriticMarkOfBaseChar` and `isBaseCharOfDiacriticMark` are set. -/
structure SChar where
  id : Str := []
  rank : ℤ := 0
  pos : Box := {}
  fontName : Str := []
  fontSize : ℚ := 0
  color : ℚ × ℚ × ℚ := (0, 0, 0)
  opacity : ℚ := 1
  text : Str
  withMark : Str := []
  isBase : Bool := false
  isMark : Bool := false

/-- The fields of a `PdfWord`, `/repo/src/Types.h:535-614`. `uid` stands for the address of the object (not read by the
serializers). `first` is the text of the merged word if the word is
the first part of a hyphenated word. -/
structure SWord where
  uid : ℕ := 0
  id : Str := []
  rank : ℤ := 0
  pos : Box := {}
  fontName : Str := []
  fontSize : ℚ := 0
  text : Str
  chars : List SChar
  first : Option Str := none
  second : Bool := false

/-- `PdfTextLine`, `/repo/src/Types.h:622-732`. -/
structure SLine where
  words : List SWord

/-- `PdfTextBlock`, `/repo/src/Types.h:744-805`. -/
structure SBlock where
  id : Str := []
  rank : ℤ := 0
  pos : Box := {}
  fontName : Str := []
  fontSize : ℚ := 0
  text : Str := []
  role : Role
  isEmphasized : Bool := false
  lines : List SLine

/-- A figure or shape, `/repo/src/Types.h:817-917`. -/
structure SRect where
  id : Str := []
  rank : ℤ := 0
  pos : Box := {}

/-- `PdfPage`, `/repo/src/Types.h:1005-1069`. -/
structure SPage where
  pageNum : ℤ := 1
  clipLeftX : ℚ := 0
  clipUpperY : ℚ := 0
  clipRightX : ℚ := 0
  clipLowerY : ℚ := 0
  blocks : List SBlock
  figures : List SRect := []
  shapes : List SRect := []

/-- The fields of `PdfFontInfo` read here, `/repo/src/serializers/JsonlSerializer.cpp:139-141`. -/
structure FontFlags where
  weight : ℤ := 400
  isItalic : Bool := false
  isType3 : Bool := false

/-- `PdfDocument`: pages and the map `fontInfos`, `/repo/src/Types.h:1077-1138`. -/
structure SDoc where
  pages : List SPage
  fontInfos : Str → Option FontFlags := fun _ => none

/-- `find(roles.begin(), roles.end(), block->role) != roles.end()`,
`/repo/src/serializers/PlainTextSerializer.cpp:46`. -/
def selected (roles : List Role) (b : SBlock) : Bool := roles.contains b.role

/-! ## Plain text -/

/-- The loop over the characters, `/repo/src/serializers/PlainTextSerializer.cpp:76-82`. -/
def charOut (c : SChar) : Str :=
  if c.isBase then c.withMark else if !c.isMark then c.text else []

/-- The text written for a word, `/repo/src/serializers/PlainTextSerializer.cpp:72-83`. -/
def wordOut (w : SWord) : Str :=
  match w.first with
  | some t => t
  | none => w.chars.flatMap charOut

/-- The loop over the words of a block, `/repo/src/serializers/PlainTextSerializer.cpp:55-88`; `prev` tells
whether `prevWord` is set. (The nested loops over lines and words visit the words of all lines in order.) -/
def writeWords : Bool → List SWord → Str
  | _, [] => []
  | prev, w :: ws =>
    if w.second then writeWords prev ws
    else (if prev then [' '] else []) ++ wordOut w ++ writeWords true ws

/-- The words of a block, `/repo/src/serializers/PlainTextSerializer.cpp:56-57`. -/
def SBlock.words (b : SBlock) : List SWord := b.lines.flatMap (·.words)

/-- The loop over the blocks of a page, `/repo/src/serializers/PlainTextSerializer.cpp:44-90`: output and whether
`prevBlock` is set afterwards. `head` is what is written before the words of a block. -/
def writeBlocks (roles : List Role) (head : SBlock → Str) : Bool → List SBlock → Str × Bool
  | prev, [] => ([], prev)
  | prev, b :: bs =>
    if !selected roles b then writeBlocks roles head prev bs
    else
      let r := writeBlocks roles head true bs
      ((if prev then ['\n', '\n'] else []) ++ head b ++ writeWords false b.words ++ r.1, r.2)

/-- The loop over the pages, `/repo/src/serializers/PlainTextSerializer.cpp:43-91` and
`/repo/src/serializers/PlainTextExtendedSerializer.cpp:50-107`; `foot` is what is written after a page. -/
def writePages (roles : List Role) (head : SBlock → Str) (foot : Str) : Bool → List SPage → Str
  | _, [] => []
  | prev, p :: ps =>
    let r := writeBlocks roles head prev p.blocks
    r.1 ++ foot ++ writePages roles head foot r.2 ps

/-- `PlainTextSerializer::serializeToStream`, `/repo/src/serializers/PlainTextSerializer.cpp:38-93`. -/
def plainText (roles : List Role) (doc : SDoc) : Str :=
  writePages roles (fun _ => []) [] false doc.pages ++ ['\n']

/-- `toupper` in the C locale. -/
def toUpperC (c : Char) : Char := if 97 ≤ c.toNat ∧ c.toNat ≤ 122 then Char.ofNat (c.toNat - 32) else c

/-- The prefix of a block, `/repo/src/serializers/PlainTextExtendedSerializer.cpp:62-70`. -/
def blockPrefix (b : SBlock) : Str :=
  ['['] ++ (roleName b.role).map toUpperC ++ [']', ' '] ++
    (if b.isEmphasized then [Char.ofNat 1] else [])

/-- `PlainTextExtendedSerializer::serializeToStream`,
`/repo/src/serializers/PlainTextExtendedSerializer.cpp:44-110`. -/
def plainTextExtended (roles : List Role) (doc : SDoc) : Str :=
  writePages roles blockPrefix ['\n', Char.ofNat 12] false doc.pages ++ ['\n']

/-! ## JSONL -/

/-- How `operator<<` prints integers and doubles. -/
structure Printer where
  int : ℤ → Str
  dbl : ℚ → Str

/-- A JSON string token as the code writes it: quotes around a raw text. -/
def quoted (s : Str) : Str := ['"'] ++ s ++ ['"']

/-- `"key": value` followed by a separator. -/
def field (key : String) (value sep : Str) : Str := quoted key.toList ++ [':', ' '] ++ value ++ sep

/-- The usual separator `", "`. -/
def sepC : Str := [',', ' ']

/-- `true` or `false`, `/repo/src/serializers/JsonlSerializer.cpp:140-141`. -/
def boolOut (b : Bool) : Str := if b then "true".toList else "false".toList

/-- The members `page` to `maxY`, for example `/repo/src/serializers/JsonlSerializer.cpp:131-135`. -/
def posFields (P : Printer) (b : Box) : Str :=
  field "page" (P.int b.pageNum) sepC ++ field "minX" (P.dbl b.leftX) sepC ++
  field "minY" (P.dbl b.upperY) sepC ++ field "maxX" (P.dbl b.rightX) sepC ++
  field "maxY" (P.dbl b.lowerY) sepC

/-- The last member and the closing brace, for example `/repo/src/serializers/JsonlSerializer.cpp:94-95`. -/
def tailFields : Str := field "origin" (quoted "pdftotext++".toList) [] ++ ['}']

/-- The record of a page, `/repo/src/serializers/JsonlSerializer.cpp:89-96`. -/
def pageRecord (P : Printer) (p : SPage) : Str :=
  ['{'] ++ field "type" (quoted "page".toList) sepC ++ field "num" (P.int p.pageNum) sepC ++
  field "width" (P.dbl (p.clipRightX - p.clipLeftX)) sepC ++
  field "height" (P.dbl (p.clipLowerY - p.clipUpperY)) sepC ++ tailFields

/-- The printed text of a character, `/repo/src/serializers/JsonlSerializer.cpp:124`. -/
def charText (c : SChar) : Str := if c.isBase then c.withMark else c.text

/-- The record of a character, `/repo/src/serializers/JsonlSerializer.cpp:127-150`. -/
def charRecord (P : Printer) (b : SBlock) (w : SWord) (c : SChar) (f : FontFlags) : Str :=
  ['{'] ++ field "type" (quoted "char".toList) sepC ++ field "id" (quoted c.id) sepC ++
  field "rank" (P.int c.rank) sepC ++ posFields P c.pos ++ field "wMode" (P.int c.pos.wMode) sepC ++
  field "rotation" (P.int c.pos.rotation) sepC ++ field "font" (quoted c.fontName) sepC ++
  field "fontSize" (P.dbl c.fontSize) sepC ++ field "weight" (P.int f.weight) sepC ++
  field "italic" (boolOut f.isItalic) sepC ++ field "type-3" (boolOut f.isType3) sepC ++
  field "color" (['['] ++ P.dbl c.color.1 ++ [','] ++ P.dbl c.color.2.1 ++ [','] ++ P.dbl c.color.2.2 ++ [']']) [','] ++
  field "opacity" (P.dbl c.opacity) sepC ++ field "text" (quoted (escapeJson (charText c))) sepC ++
  field "word" (quoted w.id) sepC ++ field "block" (quoted b.id) sepC ++ tailFields

/-- The record of a figure or shape, `/repo/src/serializers/JsonlSerializer.cpp:165-176, 188-199`. -/
def rectRecord (P : Printer) (type : String) (f : SRect) : Str :=
  ['{'] ++ field "type" (quoted type.toList) sepC ++ field "rank" (P.int f.rank) sepC ++
  field "id" (quoted f.id) sepC ++ posFields P f.pos ++ tailFields

/-- The record of a word, `/repo/src/serializers/JsonlSerializer.cpp:218-233`. -/
def wordRecord (P : Printer) (b : SBlock) (w : SWord) : Str :=
  ['{'] ++ field "type" (quoted "word".toList) sepC ++ field "id" (quoted w.id) sepC ++
  field "rank" (P.int w.rank) sepC ++ posFields P w.pos ++ field "font" (quoted w.fontName) sepC ++
  field "fontSize" (P.dbl w.fontSize) sepC ++ field "text" (quoted (escapeJson w.text)) sepC ++
  field "block" (quoted b.id) sepC ++ tailFields

/-- The record of a block, `/repo/src/serializers/JsonlSerializer.cpp:252-267`. -/
def blockRecord (P : Printer) (b : SBlock) : Str :=
  ['{'] ++ field "type" (quoted "block".toList) sepC ++ field "id" (quoted b.id) sepC ++
  field "rank" (P.int b.rank) sepC ++ posFields P b.pos ++ field "font" (quoted b.fontName) sepC ++
  field "fontSize" (P.dbl b.fontSize) sepC ++ field "text" (quoted (escapeJson b.text)) sepC ++
  field "role" (quoted (roleName b.role)) sepC ++ tailFields

/-- `out << record << endl`. -/
def lineOf (r : Str) : Str := r ++ ['\n']

/-- The blocks whose roles are selected, in document order;
`/repo/src/serializers/JsonlSerializer.cpp:103-108`. -/
def selectedBlocks (roles : List Role) (doc : SDoc) : List SBlock :=
  doc.pages.flatMap fun p => p.blocks.filter (selected roles)

/-- `serializePages`, `/repo/src/serializers/JsonlSerializer.cpp:84-98`. -/
def serializePages (P : Printer) (doc : SDoc) : Str := doc.pages.flatMap fun p => lineOf (pageRecord P p)

/-- The loop over the characters of a word, `/repo/src/serializers/JsonlSerializer.cpp:113-151`;
`fontInfos.at` (line 121) throws for an unknown font. -/
def serializeChars (P : Printer) (doc : SDoc) (b : SBlock) (w : SWord) : List SChar → Outcome Str
  | [] => .ok []
  | c :: cs =>
    if c.isMark then serializeChars P doc b w cs
    else match doc.fontInfos c.fontName with
      | none => .throw "out_of_range"
      | some f => (serializeChars P doc b w cs).bind fun r => .ok (lineOf (charRecord P b w c f) ++ r)

/-- The loops over the words, `/repo/src/serializers/JsonlSerializer.cpp:111-153`. -/
def serializeWordChars (P : Printer) (doc : SDoc) (b : SBlock) : List SWord → Outcome Str
  | [] => .ok []
  | w :: ws => (serializeChars P doc b w w.chars).bind fun r1 =>
      (serializeWordChars P doc b ws).bind fun r2 => .ok (r1 ++ r2)

/-- The loop over the blocks of all pages, `/repo/src/serializers/JsonlSerializer.cpp:103-155`. -/
def serializeBlockChars (P : Printer) (doc : SDoc) : List SBlock → Outcome Str
  | [] => .ok []
  | b :: bs => (serializeWordChars P doc b b.words).bind fun r1 =>
      (serializeBlockChars P doc bs).bind fun r2 => .ok (r1 ++ r2)

/-- `serializeCharacters`, `/repo/src/serializers/JsonlSerializer.cpp:101-156`. -/
def serializeCharacters (P : Printer) (roles : List Role) (doc : SDoc) : Outcome Str :=
  serializeBlockChars P doc (selectedBlocks roles doc)

/-- `serializeFigures`, `/repo/src/serializers/JsonlSerializer.cpp:159-179`. -/
def serializeFigures (P : Printer) (doc : SDoc) : Str :=
  doc.pages.flatMap fun p => p.figures.flatMap fun f => lineOf (rectRecord P "figure" f)

/-- `serializeShapes`, `/repo/src/serializers/JsonlSerializer.cpp:182-202`. -/
def serializeShapes (P : Printer) (doc : SDoc) : Str :=
  doc.pages.flatMap fun p => p.shapes.flatMap fun s => lineOf (rectRecord P "shape" s)

/-- `serializeWords`, `/repo/src/serializers/JsonlSerializer.cpp:205-238`. -/
def serializeWords (P : Printer) (roles : List Role) (doc : SDoc) : Str :=
  (selectedBlocks roles doc).flatMap fun b => b.words.flatMap fun w => lineOf (wordRecord P b w)

/-- `serializeTextBlocks`, `/repo/src/serializers/JsonlSerializer.cpp:241-270`. -/
def serializeTextBlocks (P : Printer) (roles : List Role) (doc : SDoc) : Str :=
  (selectedBlocks roles doc).flatMap fun b => lineOf (blockRecord P b)

/-- `PdfElementType`, `/repo/src/Types.h:44-52`. -/
inductive Unit' where
  | pages | textBlocks | textLines | words | characters | figures | shapes
deriving DecidableEq, Repr

/-- One iteration of the loop over the units, `/repo/src/serializers/JsonlSerializer.cpp:57-79`. -/
def serializeUnit (P : Printer) (roles : List Role) (doc : SDoc) : Unit' → Outcome Str
  | .pages => .ok (serializePages P doc)
  | .characters => serializeCharacters P roles doc
  | .words => .ok (serializeWords P roles doc)
  | .textBlocks => .ok (serializeTextBlocks P roles doc)
  | .figures => .ok (serializeFigures P doc)
  | .shapes => .ok (serializeShapes P doc)
  | .textLines => .ok []

/-- `JsonlSerializer::serializeToStream`, `/repo/src/serializers/JsonlSerializer.cpp:53-80`; `units` lists the
`unordered_set` in its iteration order. -/
def jsonl (P : Printer) (roles : List Role) (doc : SDoc) : List Unit' → Outcome Str
  | [] => .ok []
  | u :: us => (serializeUnit P roles doc u).bind fun r1 =>
      (jsonl P roles doc us).bind fun r2 => .ok (r1 ++ r2)

end Verif.Serialize
