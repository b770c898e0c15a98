import Verif.Model.Cli

/-!
# Specification: options, pipeline and output
-/

namespace Verif.Spec

open Verif.Serialize Verif.Cli Verif.Log
open Verif.ReadingOrder (Role)

/-- The documented names of the roles. -/
def roleTable : List (String × Role) :=
  [("paragraph", .paragraph), ("reference", .reference), ("marginal", .marginal), ("footnote", .footnote),
   ("heading", .heading), ("formula", .formula), ("title", .title), ("author-info", .authorInfo),
   ("abstract", .abstract), ("date", .date), ("caption", .caption), ("table", .table), ("other", .other),
   ("toc", .toc)]

/-- The documented names of the types of elements. -/
def typeTable : List (String × Unit') :=
  [("pages", .pages), ("blocks", .textBlocks), ("lines", .textLines), ("words", .words),
   ("characters", .characters), ("figures", .figures), ("shapes", .shapes)]

/-- The formats listed by `--help`. -/
def formatTable : List (String × Format) := [("txt", .txt), ("txt-extended", .txtExtended)]

/-- The levels from the least to the most severe. -/
def severity : List Level := [.trace, .debug, .info, .warn, .error]

/-- `a` is at least as severe as `b`. -/
def AtLeast (a b : Level) : Prop := severity.idxOf b ≤ severity.idxOf a

/-- Does the page filter let a message of a page pass?  Numbers up to 0 mean "not given". -/
def PagePasses (filter page : ℤ) : Prop := filter ≤ 0 ∨ page ≤ 0 ∨ filter = page

/-- The level in force after a history. -/
def levelAfter (l : Logger) (ss : List Step) : Level :=
  ((ss.filterMap fun s => match s with | .level lv => some lv | _ => none).getLast?).getD l.logLevel

/-- The page filter in force after a history. -/
def filterAfter (l : Logger) (ss : List Step) : ℤ :=
  ((ss.filterMap fun s => match s with | .page p => some p | _ => none).getLast?).getD l.pageFilter

/-- The documented order of the stages with the names of their timings. -/
def stageTable : List (Stage × String) :=
  [(.glyphStatistics, "Calculate glyph statistics"), (.diacritics, "Merge combining diacritics"),
   (.words, "Detect words"), (.wordStatistics, "Calculate words statistics"),
   (.segmentation, "Segment pages"), (.lines, "Detect lines"), (.scripts, "Detect sub/superscripts"),
   (.lineStatistics, "Calculate text line statistics"), (.blocks, "Detect text blocks"),
   (.readingOrder, "Detect reading order"), (.dehyphenation, "Dehyphenate words")]

/-- Run steps one after the other, until one of them fails. -/
def runAll {D : Type} : List (D → Outcome D) → D → Outcome D
  | [], d => .ok d
  | f :: fs, d => match f d with
    | .ok d' => runAll fs d'
    | .throw m => .throw m
    | .ub m => .ub m

/-- The steps a document goes through: parsing, the stages that are not disabled in the documented
order (the list of text lines of a page is filled after the detection of the text lines), and
refilling the list of text lines. -/
def steps {D : Type} (E : Env D) (cfg : Config) : List (D → Outcome D) :=
  [E.parse cfg.parsing cfg.skipFontFiles] ++
  ((stageTable.map (·.1)).filter fun st => (cfg.stage st).disabled = false).flatMap (fun st =>
    [E.stage st (cfg.stage st) cfg.roles] ++
      if st = .lines then [fun d => .ok (E.linesFromSegments d)] else []) ++
  [fun d => .ok (E.linesFromBlocks d)]

/-- The names of the timings of a complete run. -/
def timingNames (cfg : Config) : List Verif.Text.Str :=
  ["Load PDF".toList, "Parse PDF".toList] ++
    (stageTable.filter fun st => (cfg.stage st.1).disabled = false).map fun st => st.2.toList

end Verif.Spec
