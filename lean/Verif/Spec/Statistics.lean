import Mathlib.Algebra.Order.Field.Rat
import Mathlib.Algebra.BigOperators.Group.List.Basic

/-!
# Specification: statistics over lists
-/

namespace Verif.Spec

/-- The arithmetic mean. -/
def mean (xs : List ℚ) : ℚ := xs.sum / xs.length

/-- The pairs of consecutive elements. -/
def consecutive {α : Type} (xs : List α) : List (α × α) := xs.zip xs.tail

end Verif.Spec
