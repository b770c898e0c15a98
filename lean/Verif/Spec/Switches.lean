import Verif.Model.Pipeline
import Verif.Model.Visualization

/-!
# Specification for C86: what the switches of the last stages can change
-/

namespace Verif.Spec

open Verif.Cli (Stage Config)
open Verif.Serialize
open Verif.Text (Str)

/-- Two configurations that differ at most in whether the listed stages are switched off. -/
structure SameButFor (sts : List Stage) (c c' : Config) : Prop where
  parsing : c'.parsing = c.parsing
  fontFiles : c'.skipFontFiles = c.skipFontFiles
  stages : ∀ st, st ∉ sts → (c'.stage st).disabled = (c.stage st).disabled

/-- Two finished documents with the same output in JSONL format (for every selection of roles and units, in every order of the units) and the same drawings in the
visualization. -/
structure SameRecords (d d' : Pipeline.Document) : Prop where
  jsonl : ∀ (P : Printer) (roles : List Role) (units : List Unit'), jsonl P roles (Pipeline.toSDoc d') units = jsonl P roles (Pipeline.toSDoc d) units
  drawings : ∀ (pdf : Visualization.Pdf) (kinds : List String) (prelim : Pipeline.Segment → List Box) (segmentCuts orderCuts : Pipeline.Page → List Visualization.DrawnCut),
    Visualization.visualize pdf kinds (d'.pages.map fun p => Visualization.drawnPage d' prelim (segmentCuts p) (orderCuts p) p) =
      Visualization.visualize pdf kinds (d.pages.map fun p => Visualization.drawnPage d prelim (segmentCuts p) (orderCuts p) p)

/-- The words of a block as they stand on the page: the texts of the characters, not joined with any other word. -/
def unjoined (b : SBlock) : Str := [' '].intercalate (b.words.map fun w => w.chars.flatMap charOut)

/-- The JSONL records of the words of a page. -/
def wordRecords (P : Printer) (p : SPage) : List Str := p.blocks.flatMap fun b => b.words.map (wordRecord P b)

/-- The JSONL records of the blocks of a page, all with the same role. -/
def blockRecords (P : Printer) (r : Role) (p : SPage) : List Str := p.blocks.map fun b => blockRecord P { b with role := r }

/-- Two pages with the same number, size, figures and shapes, and with the same words and blocks (same texts, positions, fonts, and the words belong to the same
blocks); only the order and the roles of the blocks may be different. -/
structure SameUpToOrder (p p' : SPage) : Prop where
  page : p' = { p with blocks := p'.blocks }
  words : ∀ P, (wordRecords P p').Perm (wordRecords P p)
  blocks : ∀ P r, (blockRecords P r p').Perm (blockRecords P r p)

end Verif.Spec
