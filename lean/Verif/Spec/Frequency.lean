/-!
# Specification: most frequent values
-/

namespace Verif.Spec

/-- How often `y` occurs in the list. -/
def occurrences {α : Type _} [DecidableEq α] (xs : List α) (y : α) : Nat :=
  (xs.filter fun x => decide (x = y)).length

/-- `k` occurs in the list, and no value occurs more often. -/
def IsMostFrequent {α : Type _} [DecidableEq α] (xs : List α) (k : α) : Prop :=
  k ∈ xs ∧ ∀ y ∈ xs, occurrences xs y ≤ occurrences xs k

end Verif.Spec
