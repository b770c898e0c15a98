import Mathlib.Data.List.Basic

/-!
# Specification of the text outputs, independent of the model
-/

namespace Verif.Spec

/-- The parts of an extended plain text output: a blank line between two blocks, a block, the end of a page. -/
inductive Piece (β : Type) where
  | blank
  | block (b : β)
  | pageEnd
deriving DecidableEq

namespace Piece

variable {β : Type}

/-- How a piece is printed, given how a block and the end of a page are printed. -/
def print (block : β → List Char) (pageEnd : List Char) : Piece β → List Char
  | .blank => ['\n', '\n']
  | .block b => block b
  | .pageEnd => pageEnd

/-- `b` is not `blank`. -/
def isItem : Piece β → Bool
  | .blank => false
  | _ => true

/-- `b` is not `pageEnd`. -/
def isBody : Piece β → Bool
  | .pageEnd => false
  | _ => true

end Piece

/-- The pieces of a document with the given printed blocks per page: the blocks of every page in order,
followed by one page end; exactly one blank line between two successive blocks of the document, directly before the second one. -/
structure IsLayout {β : Type} (pages : List (List β)) (ps : List (Piece β)) : Prop where
  items : ps.filter Piece.isItem = pages.flatMap fun bs => bs.map Piece.block ++ [Piece.pageEnd]
  blanks : ps.filter Piece.isBody = (pages.flatten.map Piece.block).intersperse Piece.blank
  before : ∀ p ∈ ps.zip ps.tail, p.1 = Piece.blank → p.2.isBody = true

/-- The tag of a semantic role in the extended output. -/
def roleTags : List String :=
  ["[PARAGRAPH] ", "[REFERENCE] ", "[MARGINAL] ", "[FOOTNOTE] ", "[HEADING] ", "[FORMULA] ", "[TITLE] ",
   "[AUTHOR-INFO] ", "[ABSTRACT] ", "[DATE] ", "[CAPTION] ", "[TABLE] ", "[OTHER] ", "[TOC] "]

end Verif.Spec
