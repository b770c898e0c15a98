import Verif.Spec.Append

/-!
# Specification for C94: pages without text
-/

namespace Verif.Spec

open Verif.Pipeline

/-- The document `d0'` is `d0` with further pages at its end that have no characters; figures, graphics and shapes are allowed. -/
def WithBlankPages (d0 d0' : Document) : Prop := ∃ ps, d0'.pages = d0.pages ++ ps ∧ (∀ p ∈ ps, p.characters = []) ∧ d0'.stats = d0.stats

/-- The second result is the first with further pages at its end that have no words and no paragraphs; the lines of text, the statistics and the marks of hyphenated
words are the same. -/
structure OnlyBlankPagesMore (d d' : Document) : Prop where
  pages : ∃ ps, d'.pages = d.pages ++ ps ∧ ∀ p ∈ ps, p.words = [] ∧ p.textLines = [] ∧ p.blocks = []
  lines : d'.lines = d.lines
  stats : d'.stats = d.stats
  hyphens : d'.hyphens = d.hyphens

end Verif.Spec
