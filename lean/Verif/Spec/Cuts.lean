import Mathlib.Algebra.Order.Field.Rat

/-!
# Specification of cuts, independent of the model
-/

namespace Verif.Spec

/-- A line at coordinate `line` separates the elements `before` from the elements `after`: each
element of `before` ends at least `gap` before each element of `after` begins, and the line itself
runs strictly between them.  `first` and `last` give the extent of an element across the line. -/
structure Separates {α : Type} (first last : α → ℚ) (gap line : ℚ) (before after : List α) :
    Prop where
  apart : ∀ a ∈ before, ∀ b ∈ after, last a + gap ≤ first b
  beforeLine : ∀ a ∈ before, last a < line
  afterLine : ∀ b ∈ after, line < first b

end Verif.Spec
