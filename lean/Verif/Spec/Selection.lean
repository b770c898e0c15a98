import Verif.Spec.Output
import Verif.Spec.Cli
import Verif.Model.Serializers

/-!
# Specification for C97: the output options only select
-/

namespace Verif.Spec

open Verif.ReadingOrder (Role)
open Verif.Text (Str)

/-- What can be printed of a text block. -/
structure Paragraph where
  role : Role
  emphasized : Bool
  text : Str

/-- The paragraphs of the pages that have one of the roles. -/
def pick (roles : List Role) (pages : List (List Paragraph)) : List (List Paragraph) := pages.map fun ps => ps.filter fun p => decide (p.role ∈ roles)

/-- The plain text with the chosen roles: the paragraphs, separated by blank lines. -/
def pickedText (roles : List Role) (pages : List (List Paragraph)) : Str :=
  ['\n', '\n'].intercalate ((pick roles pages).flatten.map (·.text)) ++ ['\n']

/-- The extended plain text with the chosen roles: the paragraphs with their tags, separated by blank lines, and a form feed at the end of every page. -/
def PickedExtended (roles : List Role) (pages : List (List Paragraph)) (out : Str) : Prop :=
  ∃ ps : List (Piece Paragraph), IsLayout (pick roles pages) ps ∧
    out = ps.flatMap (Piece.print (fun p => (roleTags.getD p.role.ctorIdx "").toList ++ (if p.emphasized then [Char.ofNat 1] else []) ++ p.text) ['\n', Char.ofNat 12]) ++ ['\n']

/-- A record of the JSONL output, with the role of the block it belongs to. -/
structure Entry where
  role : Option Role
  record : Str

/-- The records that are printed if these roles are chosen. -/
def chosenEntries (roles : List Role) (es : List Entry) : List Entry :=
  es.filter fun e => match e.role with
    | none => true
    | some r => decide (r ∈ roles)

/-- The records on lines of their own. -/
def onLines (es : List Entry) : Str := es.flatMap fun e => e.record ++ ['\n']

/-- The options that change what is detected. -/
def skipNames : List String :=
  ["skip-embedded-font-files-parsing", "skip-glyphs-statistics-calculation", "skip-diacritic-marks-merging", "skip-words-detection", "skip-words-statistics-calculation",
   "skip-page-segmentation", "skip-text-lines-detection", "skip-sub-super-scripts-detection", "skip-text-lines-statistics-calculation", "skip-text-blocks-detection",
   "skip-reading-order-detection", "skip-words-dehyphenation"]

end Verif.Spec
