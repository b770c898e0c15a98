import Verif.Model.TextLines

/-!
# Model of the statistics

`/repo/src/GlyphsStatisticsCalculation.cpp`, `/repo/src/WordsStatisticsCalculation.cpp`,
`/repo/src/TextLinesStatisticsCalculation.cpp`.
-/

namespace Verif.Statistics

open Verif.Math Verif.Elements Verif.Counter Verif.Text Verif.Words Verif.TextLines

/-- The statistics of a document: fields of `PdfDocument` with their initial values,
`/repo/src/Types.h:1100-1131`. -/
structure Stats where
  avgCharWidth : ℚ := 0
  avgCharHeight : ℚ := 0
  mostFreqFontSize : ℚ := 0
  mostFreqFontName : Str := []
  mostFreqWordDistance : ℚ := 0
  mostFreqEstimatedLineDistance : ℚ := 0
  mostFreqLineDistance : ℚ := 0
  mostFreqLineDistancePerFontSize : ℚ → Option ℚ := fun _ => none
  mostFreqWordHeight : ℚ := 0

/-- The sums and the number of glyphs computed by the loop,
`/repo/src/GlyphsStatisticsCalculation.cpp:60-75` (`int` overflow of the number of glyphs is not
modelled). -/
structure GlyphSums where
  fontSizes : List ℚ := []
  fontNames : List Str := []
  sumWidths : ℚ := 0
  sumHeights : ℚ := 0
  numGlyphs : ℕ := 0

/-- One step of the loop, `/repo/src/GlyphsStatisticsCalculation.cpp:68-73`; a counter is represented
by the list of the values counted so far. -/
def glyphStep (s : GlyphSums) (c : Glyph) : GlyphSums :=
  { fontSizes := s.fontSizes ++ [c.fontSize]
    fontNames := s.fontNames ++ [c.fontName]
    sumWidths := s.sumWidths + c.pos.getWidth
    sumHeights := s.sumHeights + c.pos.getHeight
    numGlyphs := s.numGlyphs + 1 }

/-- `GlyphsStatisticsCalculation::process`, `/repo/src/GlyphsStatisticsCalculation.cpp:46-95`. -/
def glyphStatistics (h : HashOrder) (doc : Stats) (pages : List (List Glyph)) : Outcome Stats :=
  let s := pages.foldl (fun s page => page.foldl glyphStep s) {}
  if s.numGlyphs = 0 then .ok doc
  else
    (mostFreqOr h 0 0 s.fontSizes).bind fun fontSize =>
    (mostFreqOr h [] [] s.fontNames).bind fun fontName =>
    .ok { doc with
          mostFreqFontSize := fontSize
          mostFreqFontName := fontName
          avgCharWidth := s.sumWidths / s.numGlyphs
          avgCharHeight := s.sumHeights / s.numGlyphs }

/-- The three counters of `/repo/src/WordsStatisticsCalculation.cpp:71-76`, as lists of the values
counted. -/
structure WordCounts where
  hGaps : List ℚ := []
  vGaps : List ℚ := []
  heights : List ℚ := []

/-- The body of the loop over the words, `/repo/src/WordsStatisticsCalculation.cpp:80-123`
(`fsEqualTolerance`: `/repo/src/Config.h:77`, the ratios: `/repo/src/Config.h:149,155`). -/
def wordStep (mf : ℚ) (prev : Option Word) (w : Word) (k : WordCounts) : WordCounts :=
  if smaller w.fontSize mf 1 then k
  else
    let k := { k with heights := k.heights ++ [w.pos.getHeight] }
    match prev with
    | none => k
    | some p =>
      if p.pos.rotation ≠ w.pos.rotation then k
      else if p.pos.wMode ≠ w.pos.wMode then k
      else if !equal p.fontSize mf 1 then k
      else
        let ratio := computeMaxYOverlapRatio p.pos w.pos
        let k := if equalOrLarger ratio (1 / 2) tol then
          { k with hGaps := k.hGaps ++ [computeHorizontalGap p.pos w.pos] } else k
        if equalOrSmaller ratio 0 tol then
          { k with vGaps := k.vGaps ++ [computeVerticalGap p.pos w.pos] } else k

/-- The loop over the words of a page, `/repo/src/WordsStatisticsCalculation.cpp:79-124`. -/
def wordLoop (mf : ℚ) : Option Word → List Word → WordCounts → WordCounts
  | _, [], k => k
  | prev, w :: ws, k => wordLoop mf (some w) ws (wordStep mf prev w k)

/-- `WordsStatisticsCalculation::process`, `/repo/src/WordsStatisticsCalculation.cpp:55-143`. -/
def wordStatistics (h : HashOrder) (doc : Stats) (pages : List (List Word)) : Outcome Stats :=
  let k := pages.foldl (fun k page => wordLoop doc.mostFreqFontSize none page k) {}
  (mostFreqOr h 0 doc.mostFreqWordHeight k.heights).bind fun height =>
  (mostFreqOr h 0 doc.mostFreqWordDistance k.hGaps).bind fun hGap =>
  (mostFreqOr h 0 doc.mostFreqEstimatedLineDistance k.vGaps).bind fun vGap =>
  .ok { doc with
        mostFreqWordHeight := height
        mostFreqWordDistance := hGap
        mostFreqEstimatedLineDistance := vGap }

/-- A text line and its base bounding box (`/repo/src/Types.h:662-668`). -/
abbrev BasedLine := Line × Box

/-- The distance of two consecutive lines, `/repo/src/TextLinesStatisticsCalculation.cpp:90-91`
(`lineDistancePrecision`: `/repo/src/Config.h:93`). -/
def lineDistance (prev curr : BasedLine) : ℚ :=
  maximum 0 (roundTo (curr.2.upperY - prev.2.lowerY) 1)

/-- `map[key][dist]++` for the counters per font size,
`/repo/src/TextLinesStatisticsCalculation.cpp:98`. -/
def addDistance (fs dist : ℚ) : List (ℚ × List ℚ) → List (ℚ × List ℚ)
  | [] => [(fs, [dist])]
  | e :: es => if e.1 = fs then (e.1, e.2 ++ [dist]) :: es else e :: addDistance fs dist es

/-- The counters of `/repo/src/TextLinesStatisticsCalculation.cpp:62-66`. -/
structure LineCounts where
  dists : List ℚ := []
  perSize : List (ℚ × List ℚ) := []

/-- The body of the loop over the lines, `/repo/src/TextLinesStatisticsCalculation.cpp:71-100`. -/
def lineStep (prev curr : BasedLine) (k : LineCounts) : LineCounts :=
  if prev.1.pos.rotation ≠ curr.1.pos.rotation then k
  else if prev.1.pos.wMode ≠ curr.1.pos.wMode then k
  else
    { dists := k.dists ++ [lineDistance prev curr]
      perSize := if equal prev.1.fontSize curr.1.fontSize 1
        then addDistance curr.1.fontSize (lineDistance prev curr) k.perSize else k.perSize }

/-- The loop over the lines of a segment, `/repo/src/TextLinesStatisticsCalculation.cpp:70-101`. -/
def lineLoop : List BasedLine → LineCounts → LineCounts
  | prev :: curr :: rest, k => lineLoop (curr :: rest) (lineStep prev curr k)
  | _, k => k

/-- The loop over the counters per font size, `/repo/src/TextLinesStatisticsCalculation.cpp:111-119`. -/
def perSizeLoop (h : HashOrder) : List (ℚ × List ℚ) → (ℚ → Option ℚ) → Outcome (ℚ → Option ℚ)
  | [], m => .ok m
  | e :: es, m =>
    let entries := h.order ℚ (countAll e.2)
    if sumCounts entries > 0 then
      (mostFreq 0 entries).bind fun d =>
        perSizeLoop h es (fun fs => if fs = e.1 then some d else m fs)
    else perSizeLoop h es m

/-- `TextLinesStatisticsCalculation::process`,
`/repo/src/TextLinesStatisticsCalculation.cpp:53-125`, for the lines of all segments of all pages;
`iter` is the iteration order of the table of counters. -/
def lineStatistics (lib : LineLib) (doc : Stats) (segments : List (List BasedLine)) : Outcome Stats :=
  let k := segments.foldl (fun k seg => lineLoop seg k) {}
  (mostFreqOr lib.hash 0 doc.mostFreqLineDistance k.dists).bind fun dist =>
  (perSizeLoop lib.hash (lib.iter _ k.perSize) doc.mostFreqLineDistancePerFontSize).bind fun per =>
  .ok { doc with mostFreqLineDistance := dist, mostFreqLineDistancePerFontSize := per }

end Verif.Statistics
