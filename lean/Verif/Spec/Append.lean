import Verif.Model.Pipeline

/-!
# Specification for C83: further pages
-/

namespace Verif.Spec

open Verif.Pipeline

/-- The words of a document in the order in which they are written. -/
def writtenWords (d : Document) : List Serialize.SWord := (toSDoc d).pages.flatMap fun p => p.blocks.flatMap fun b => b.lines.flatMap (·.words)

/-- The last word of the document ends with a hyphen and is more than the hyphen. -/
def EndsHyphenated (d : Document) : Prop := ∃ w, (writtenWords d).getLast? = some w ∧ 2 ≤ w.text.length ∧ w.text.getLast? = some '-'

/-- The statistics of the documents that the stages use are the same; of the line distances per font size, only those for the font sizes of the lines of the
first document count. -/
structure SameStatistics (d d' : Document) : Prop where
  avgCharWidth : d'.stats.avgCharWidth = d.stats.avgCharWidth
  avgCharHeight : d'.stats.avgCharHeight = d.stats.avgCharHeight
  fontSize : d'.stats.mostFreqFontSize = d.stats.mostFreqFontSize
  fontName : d'.stats.mostFreqFontName = d.stats.mostFreqFontName
  wordDistance : d'.stats.mostFreqWordDistance = d.stats.mostFreqWordDistance
  wordHeight : d'.stats.mostFreqWordHeight = d.stats.mostFreqWordHeight
  lineDistance : d'.stats.mostFreqLineDistance = d.stats.mostFreqLineDistance
  perFontSize : ∀ l ∈ d.lines, d'.stats.mostFreqLineDistancePerFontSize l.line.fontSize = d.stats.mostFreqLineDistancePerFontSize l.line.fontSize

/-- The pages and lines of the first document are the first pages and lines of the second one: same characters, words, segments, lines, blocks, roles, order of the
blocks, positions. -/
structure BeginsLike (d d' : Document) : Prop where
  pages : d.pages <+: d'.pages
  lines : d.lines <+: d'.lines

end Verif.Spec
