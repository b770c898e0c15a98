import Verif.Model.Pipeline

/-!
# Specification for C96: ranks tell the extraction order
-/

namespace Verif.Spec

open Verif.Pipeline Verif.Serialize

/-- A word is printed on a page. -/
def PrintedOn (p : SPage) (w : SWord) : Prop := ∃ b ∈ p.blocks, ∃ l ∈ b.lines, w ∈ l.words

/-- The ranks of words and characters tell in which order they were drawn. -/
structure WordsRanked (doc : SDoc) : Prop where
  /-- The characters of a word in the order in which they were drawn. -/
  inside : ∀ p ∈ doc.pages, ∀ w, PrintedOn p w → 0 ≤ w.rank ∧ (w.chars.map (·.rank)).Pairwise (· < ·)
  /-- A word on an earlier page, or of smaller rank on the same page, was drawn earlier. -/
  order : ∀ (i j : ℕ) (p q : SPage), doc.pages[i]? = some p → doc.pages[j]? = some q → ∀ v w, PrintedOn p v → PrintedOn q w →
    (i < j ∨ i = j ∧ v.rank < w.rank) → ∀ a ∈ v.chars, ∀ b ∈ w.chars, a.rank < b.rank
  /-- The rank identifies the word on its page. -/
  same : ∀ p ∈ doc.pages, ∀ v w, PrintedOn p v → PrintedOn p w → v.rank = w.rank → v = w

/-- The characters of the document, page after page, have increasing ranks. -/
def DrawnInOrder (d : Document) : Prop := ((d.pages.flatMap (·.characters)).map (·.rank)).Pairwise (· < ·)

/-- The blocks of every page are numbered 0, 1, 2, ... in some order. -/
def BlocksNumbered (doc : SDoc) : Prop :=
  ∀ p ∈ doc.pages, (p.blocks.map (·.rank)).Perm ((List.range p.blocks.length).map fun i : ℕ => (i : ℤ))

/-- The blocks of every page are listed in the order of their ranks 0, 1, 2, ... -/
def BlocksInOrder (doc : SDoc) : Prop :=
  ∀ p ∈ doc.pages, p.blocks.map (·.rank) = (List.range p.blocks.length).map fun i : ℕ => (i : ℤ)

end Verif.Spec
