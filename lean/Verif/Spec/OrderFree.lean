import Mathlib.Algebra.Order.Field.Rat
import Mathlib.Data.List.Basic

/-!
# Specification for C79, independent of the model
-/

namespace Verif.Spec

/-- The second list arises from the first one by exchanging, any number of times, two neighbours with the same key. -/
inductive TieSwaps {α : Type} (key : α → ℚ) (l : List α) : List α → Prop where
  | refl : TieSwaps key l l
  | swap (xs : List α) (a b : α) (ys : List α) : key a = key b → TieSwaps key l (xs ++ a :: b :: ys) →
      TieSwaps key l (xs ++ b :: a :: ys)

/-- All elements that share an edge (`edge` is the position of the edge of an element) agree on `P`. -/
def TiesAgree {α : Type} (edge : α → ℚ) (P : α → Prop) (es : List α) : Prop :=
  ∀ a ∈ es, ∀ b ∈ es, edge a = edge b → (P a ↔ P b)

end Verif.Spec
