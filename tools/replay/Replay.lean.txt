import Verif.Model.EmbeddedFont
import Verif.Model.EndToEnd

open Verif Verif.Parsing
open Verif.Text (Str)
open Verif.Pipeline (Document)

namespace Verif.Replay

def rat (s : String) : ℚ :=
  match s.splitOn "/" with
  | [a, b] => mkRat a.toInt! b.toNat!
  | _ => (s.toInt! : ℚ)

def cps (s : String) : Str := if s == "-" then [] else (s.splitOn ",").map fun x => Char.ofNat x.toNat!

def hexVal (c : Char) : ℕ := if c.isDigit then c.toNat - 48 else c.toNat - 87

partial def hexBytes (l : List Char) (acc : Array ℕ) : Array ℕ :=
  match l with
  | a :: b :: r => hexBytes r (acc.push (16 * hexVal a + hexVal b))
  | _ => acc

def num1 (s : String) : Option ℚ :=
  let (neg, s) := if s.startsWith "-" then (true, (s.drop 1).toString) else (false, s)
  match s.splitOn "." with
  | [a] => if a.isNat then some (if neg then -(a.toNat! : ℚ) else a.toNat!) else none
  | [a, b] =>
    let v : ℚ := ((a ++ b).toNat!) / (10 ^ b.length)
    some (if neg then -v else v)
  | _ => none

def numbers (s : Str) : List ℚ := ((String.ofList s).splitOn " ").filterMap fun t => if t == "" then none else num1 t

def clipOf (a : Array ℚ) (i : ℕ) : Clip := ⟨a[i]!, a[i+1]!, a[i+2]!, a[i+3]!⟩
def matOf (a : Array ℚ) (i : ℕ) : Mat := ⟨a[i]!, a[i+1]!, a[i+2]!, a[i+3]!, a[i+4]!, a[i+5]!⟩

def readFont (p : Array String) : Except String EventFont :=
  let flags := p[4]!.toNat!
  let gfx : FontInfo.Gfx :=
    { address := cps p[2]!, name := if p[3]! == "none" then none else some (cps p[3]!)
      fixedWidth := flags % 2 == 1, serif := flags / 2 % 2 == 1, symbolic := flags / 4 % 2 == 1
      italic := flags / 64 % 2 == 1, bold := flags / 262144 % 2 == 1
      type3 := p[5]! == "1", weight := 0
      fontMatrix := (List.range 6).map fun i => rat p[6 + i]! }
  if p[14]! == "none" then .ok ⟨gfx, none⟩
  else
    let bytes := (hexBytes p[14]!.toList #[]).toList
    let f : EmbeddedFont.FontFile := ⟨p[12]!.toInt?, p[13]!.toInt?, bytes⟩
    match EmbeddedFont.embeddedN .wrap 100000 f with
    | .ok (some e) => .ok ⟨gfx, e⟩
    | .ok none => .error "font: not finished"
    | .throw m => .error ("font throw " ++ m)
    | .ub m => .error ("font ub " ++ m)

def readEvent (fonts : Array EventFont) (line : String) : Option Event :=
  let p := (line.splitOn " ").toArray
  match p[0]! with
  | "P" => some (.startPage p[1]!.toInt! (clipOf (p.map fun s => if s == "P" then 0 else rat s) 2))
  | "E" => some .endPage
  | "F" => some (.updateFont (fonts[p[1]!.toNat!]?))
  | "C" =>
    let a := p.mapIdx fun i s => if i < 4 then 0 else rat s
    let r := fun (i : ℕ) => a[i]!
    some (.drawChar
      { font := some { type3 := p[28]! == "1", matrix := matOf a 29, wMode := false, charName := cps p[1]!, width := r 35 }
        uLen := p[2]!.toNat!
        mapped := if p[2]! == "0" then none else some (cps p[3]!)
        fontTrans := (r 4, r 5, r 6, r 7), fontSize := r 8, horizScaling := r 9, rise := r 10
        textMat := (r 11, r 12, r 13, r 14), curX := r 15, curY := r 16, ctm := matOf a 17
        transformedFontSize := r 23, clip := clipOf a 24 
        codes := (cps p[3]!).map Char.toNat })
  | "S" =>
    let a := p.mapIdx fun i s => if i < 1 then 0 else rat s
    let rec pts : List ℚ → List (ℚ × ℚ)
      | x :: y :: l => (x, y) :: pts l
      | _ => []
    some (.stroke (pts (a.toList.drop 5)) (clipOf a 1))
  | "G" =>
    let a := p.mapIdx fun i s => if i < 1 then 0 else rat s
    some (.drawGraphic (matOf a 1) (clipOf a 7))
  | _ => none

def dec (q : ℚ) : String :=
  let n : ℤ := Math.stdRound (q * 1000)
  let s := if n < 0 then "-" else ""
  let k := n.natAbs
  let f := toString (k % 1000)
  s ++ toString (k / 1000) ++ "." ++ (String.ofList (List.replicate (3 - f.length) '0')) ++ f

def boxStr (b : Box) : String := s!"{b.pageNum} {dec b.leftX} {dec b.upperY} {dec b.rightX} {dec b.lowerY} r{b.rotation}"

def srt {α : Type} (lt : α → α → Bool) (l : List α) : List α := l.mergeSort fun a b => !lt b a

def xyLib {α : Type} (pos : α → Box) : XYCut.Lib α where
  sortLeftX := srt fun a b => Comparators.leftXAsc (pos a) (pos b)
  sortUpperY := srt fun a b => Comparators.upperYAsc (pos a) (pos b)
  sortRightXDesc := srt fun a b => Comparators.rightXDesc (pos a) (pos b)
  popTop := fun q =>
    match srt (fun a b => Comparators.rightXDesc (pos b) (pos a)) q with
    | [] => none
    | t :: rest => some (t, rest)

def lib : Pipeline.Lib where
  lines :=
    { hash := ⟨fun _ l => l, fun _ _ => .refl _⟩
      iter := fun _ l => l, iterPerm := fun _ _ => .refl _
      sortRotLeftXAsc := srt fun a b => Comparators.rotLeftXAsc a.pos b.pos
      sortRotLeftXDesc := srt fun a b => Comparators.rotLeftXDesc a.pos b.pos
      sortRotLowerYAsc := srt fun a b => Comparators.rotLowerYAsc a.pos b.pos
      sortRotLowerYDesc := srt fun a b => Comparators.rotLowerYDesc a.pos b.pos }
  seg := xyLib PageSegmentation.PElem.pos
  order := xyLib ReadingOrder.RElem.pos
  sortTop := id
  compose := fun us => us.map Char.ofNat
  classes := ⟨Char.isDigit, Char.isUpper, fun _ => false, fun c => c = ' ', fun _ => false⟩
  wide := id
  network := fun _ pages => .ok (1, (pages.flatMap (·.blocks)).map fun _ => some 1)
  uninitialised := .paragraph

/-- Bytes to text, for display. -/
def show8 (s : Str) : String :=
  match String.fromUTF8? (ByteArray.mk (s.map (fun c => c.toNat.toUInt8)).toArray) with
  | some t => t
  | none => String.ofList s

def get {α : Type} (what : String) (o : Outcome α) : IO α :=
  match o with
  | .ok a => pure a
  | .throw m => throw (IO.userError s!"{what}: throw {m}")
  | .ub m => throw (IO.userError s!"{what}: ub {m}")

def optStr (o : Option ℕ) : String := match o with | none => "-" | some n => toString n

def timed {α : Type} (what : String) (f : Unit → IO α) : IO α := do
  let t0 ← IO.monoMsNow
  let r ← f ()
  let t1 ← IO.monoMsNow
  IO.eprintln s!"{what}: {t1 - t0} ms"
  pure r

def main (args : List String) : IO Unit := do
  let text ← IO.FS.readFile args[0]!
  let lines := (text.splitOn "\n").filter (· ≠ "")
  let mut fonts : Array EventFont := #[]
  for l in lines do
    if l.startsWith "T " then
      let f ← timed "font" fun _ => match readFont (l.splitOn " ").toArray with
        | .ok f => pure f
        | .error e => throw (IO.userError e)
      fonts := fonts.push f
  let events := lines.filterMap (readEvent fonts)
  IO.eprintln s!"{events.length} events"
  let mut st : Parsing.State := {}
  -- step by step, so that the interpreter keeps a flat stack
  st ← timed "parse" fun _ => do
    let mut st : Parsing.State := {}
    for e in events do
      st ← get "parse" (Parsing.step ⟨CharMap.charMap, numbers⟩ st e)
    pure st
  let mut d := EndToEnd.toDocument st
  for (p, k) in (st.docPages).zipIdx do
    for c in p.content.characters do
      IO.println s!"char {k} {boxStr c.pos} base {dec c.base} fs {dec c.fontSize} {String.ofList c.fontName} [{String.ofList c.name}] {String.ofList c.text}"
    for f in p.figures do
      IO.println s!"figure {k} {boxStr f.pos} chars {f.content.characters.length}"
    for s in p.content.shapes do IO.println s!"shape {k} {boxStr s.1}"
    for s in p.content.graphics do IO.println s!"graphic {k} {boxStr s.1}"
  d ← timed "glyphstats" fun _ => get "glyphs" (Pipeline.glyphStage lib d)
  d ← timed "diacritics" fun _ => get "diacritics" (Pipeline.diacriticsStage lib d)
  d ← timed "words" fun _ => get "words" (Pipeline.wordsStage lib d)
  d ← timed "wordstats" fun _ => get "wordstats" (Pipeline.wordStatsStage lib d)
  IO.println s!"stats acw {dec d.stats.avgCharWidth} ach {dec d.stats.avgCharHeight} mffs {dec d.stats.mostFreqFontSize} mfwh {dec d.stats.mostFreqWordHeight} mfwd {dec d.stats.mostFreqWordDistance}"
  for (p, k) in d.pages.zipIdx do
    for (w, i) in p.words.zipIdx do
      IO.println s!"word {k} {i} {boxStr w.pos} fs {dec w.fontSize} {String.ofList w.fontName} {show8 w.text}"
  if args.length > 1 then return
  d ← timed "segmentation" fun _ => get "segmentation" (Pipeline.segmentationStage lib d)
  d ← timed "lines" fun _ => get "lines" (Pipeline.linesStage lib d)
  d := Pipeline.linesFromSegments d
  for (p, k) in d.pages.zipIdx do
    for (s, i) in p.segments.zipIdx do
      IO.println s!"segment {k} {i} {boxStr s.pos} trim {dec s.trim.1} {dec s.trim.2.1} {dec s.trim.2.2.1} {dec s.trim.2.2.2} lines {s.lines}"
    for (r, i) in p.textLines.zipIdx do
      match d.lines[r]? with
      | none => pure ()
      | some l => IO.println s!"line {k} {i} rank {r} {boxStr l.line.pos} fs {dec l.line.fontSize} parent {optStr l.link.parent} prev {optStr l.link.prevSibling} next {optStr l.link.nextSibling} {show8 l.line.text}"
  d ← timed "scripts" fun _ => get "scripts" (Pipeline.scriptsStage d)
  d ← timed "linestats" fun _ => get "linestats" (Pipeline.lineStatsStage lib d)
  IO.println s!"stats mfld {dec d.stats.mostFreqLineDistance}"
  d ← timed "blocks" fun _ => get "blocks" (Pipeline.blocksStage lib d)
  for (p, k) in d.pages.zipIdx do
    for (b, i) in p.blocks.zipIdx do
      IO.println s!"block {k} {i} {boxStr b.block.pos} trim {dec b.block.trimLeftX} {dec b.block.trimRightX} fs {dec b.block.fontSize} emph {b.block.isEmphasized} centered {b.block.isLinesCentered} lines {b.block.lines} {show8 b.block.text}"

  -- the functions of TextBlocksDetectionUtils, after block detection
  let doc := Pipeline.blocksDoc lib d
  let r ← get "process" (TextBlocks.process lib.lines.hash doc (Pipeline.blocksState d) (d.pages.map fun p => p.segments.map (·.lines)))
  let s := r.1
  for (p, k) in d.pages.zipIdx do
    for (r, i) in p.textLines.zipIdx do
      let l := doc.line r
      IO.println s!"fn {k} line{i} computeIsEmphasized {TextBlocks.computeIsEmphasized doc l.fontName l.fontSize l.text}"
      IO.println s!"fn {k} line{i} computeIsFirstLineOfItem {TextBlocks.computeIsFirstLineOfItem doc s r none}"
      IO.println s!"fn {k} line{i} computeIsContinuationOfItem {TextBlocks.computeIsContinuationOfItem doc s none r}"
      IO.println s!"fn {k} line{i} computeIsPrefixedByItemLabel {TextBlocks.computeIsPrefixedByItemLabel doc r}"
      IO.println s!"fn {k} line{i} computeIsPrefixedByFootnoteLabel {TextBlocks.computeIsPrefixedByFootnoteLabel doc r none}"
      IO.println s!"fn {k} line{i},footnoteLabels computeIsPrefixedByFootnoteLabel {TextBlocks.computeIsPrefixedByFootnoteLabel doc r (some [['1'],['2'],['a'],['b']])}"
      let labels := TextBlocks.computePotentialFootnoteLabels l.words []
      IO.println s!"fn {k} line{i} computePotentialFootnoteLabels {labels.map show8}"
      IO.println s!"fn {k} line{i} computeOverlapsFigure {(TextBlocks.computeOverlapsFigure l.pos p.figures).isSome}"
      IO.println s!"fn {k} line{i} margins {dec (s.leftMargin r)} {dec (s.rightMargin r)}"
      for (r', j) in p.textLines.zipIdx do
        if i < 13 ∧ j < 13 then
          IO.println s!"fn {k} line{i},line{j} computeIsCentered {TextBlocks.computeIsCentered doc l (doc.line r')}"
          IO.println s!"fn {k} line{i},line{j} computeHasPrevLineCapacity {TextBlocks.computeHasPrevLineCapacity doc s (some r) r'}"
    for (b, i) in p.blocks.zipIdx do
      IO.println s!"fn {k} block{i} computeIsTextLinesCentered {TextBlocks.computeIsTextLinesCentered doc (b.block.lines.map doc.line)}"
      let h ← get "hanging" (TextBlocks.computeHangingIndent lib.lines.hash doc s b.block.lines)
      IO.println s!"fn {k} block{i} computeHangingIndent {dec h} stored {dec b.block.hangingIndent}"
      IO.println s!"fn {k} block{i} created prev {optStr b.block.prevBlock} rank {b.block.rank} font {String.ofList b.block.fontName} trimY {dec b.block.trimUpperY} {dec b.block.trimLowerY}"

  d ← timed "readingorder" fun _ => get "order" (Pipeline.orderStage lib d)
  d ← timed "dehyphenation" fun _ => get "dehyph" (Pipeline.dehyphenationStage d)
  let roles : List ReadingOrder.Role := [.paragraph, .reference, .marginal, .footnote, .heading, .formula, .title, .authorInfo, .abstract, .date, .caption, .table, .other, .toc]
  IO.FS.writeFile (args[0]! ++ ".txt") (show8 (Verif.Serialize.plainText roles (Pipeline.toSDoc d)))

end Verif.Replay

def main (args : List String) : IO Unit := Verif.Replay.main args
