import Mathlib.Algebra.Order.Field.Rat

/-!
# Specification: the first largest value of a row
-/

namespace Verif.Spec

/-- `k` is the position of the largest value of the list, the first one among equals. -/
def IsFirstMax (xs : List ℚ) (k : ℕ) : Prop :=
  ∃ m, xs[k]? = some m ∧ (∀ x ∈ xs, x ≤ m) ∧ ∀ j < k, ∀ x, xs[j]? = some x → x < m

/-- `x` is 1 if the statement holds and 0 otherwise. -/
def IsFlag (x : ℚ) (p : Prop) : Prop := (p → x = 1) ∧ (¬ p → x = 0)

/-- `x` is the share of `n` in `d`, and 0 if there is nothing to share. -/
def IsShare (x : ℚ) (n d : ℕ) : Prop := (0 < d → x * d = n) ∧ (d = 0 → x = 0)

end Verif.Spec
