import Mathlib.Algebra.Order.Field.Rat
import Mathlib.Data.List.Basic

/-!
# Specification of a reading order, independent of the model
-/

namespace Verif.Spec

/-- A vertical line can be drawn such that all of `xs` end left of it and all of `ys` begin right of it
(touching it is allowed). With `first`/`last` = upper/lower edge: a horizontal line. -/
def Before {α : Type} (first last : α → ℚ) (xs ys : List α) : Prop :=
  ∀ a ∈ xs, ∀ b ∈ ys, last a ≤ first b

/-- No line divides the elements into two non-empty parts. -/
def Undivided {α : Type} (first last : α → ℚ) (es : List α) : Prop :=
  ∀ xs ys, es.Perm (xs ++ ys) → xs ≠ [] → ys ≠ [] → ¬ Before first last xs ys

/-- `out` is a reading order of the elements `es` with the given edges: the elements of a column that
no vertical line divides are read from top to bottom; elements divided by a vertical line are read left part
first, and elements divided by a horizontal line upper part first. -/
inductive IsReadingOrder {α : Type} (left right top bottom : α → ℚ) : List α → List α → Prop where
  | column {es out : List α} : out.Perm es → out.Pairwise (fun a b => top a ≤ top b) →
      Undivided left right es → IsReadingOrder left right top bottom es out
  | leftRight {es xs ys ox oy : List α} : es.Perm (xs ++ ys) → xs ≠ [] → ys ≠ [] → Before left right xs ys →
      IsReadingOrder left right top bottom xs ox → IsReadingOrder left right top bottom ys oy →
      IsReadingOrder left right top bottom es (ox ++ oy)
  | topBottom {es xs ys ox oy : List α} : es.Perm (xs ++ ys) → xs ≠ [] → ys ≠ [] → Before top bottom xs ys →
      IsReadingOrder left right top bottom xs ox → IsReadingOrder left right top bottom ys oy →
      IsReadingOrder left right top bottom es (ox ++ oy)

end Verif.Spec
