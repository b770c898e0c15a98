import Verif.Model.Box

/-!
# Specification: the smallest box around some boxes
-/

namespace Verif.Spec

/-- `v` is the least value of `f` on `l`. -/
def IsLeastOf {α : Type} (l : List α) (f : α → ℚ) (v : ℚ) : Prop :=
  (∃ e ∈ l, f e = v) ∧ ∀ e ∈ l, v ≤ f e

/-- `v` is the greatest value of `f` on `l`. -/
def IsGreatestOf {α : Type} (l : List α) (f : α → ℚ) (v : ℚ) : Prop :=
  (∃ e ∈ l, f e = v) ∧ ∀ e ∈ l, f e ≤ v

/-- `b` is the smallest box that contains all boxes of the (non-empty) list `l`: it contains each of
them and each of its edges is touched by one of them. -/
structure IsHull (l : List Box) (b : Box) : Prop where
  left : IsLeastOf l Box.leftX b.leftX
  upper : IsLeastOf l Box.upperY b.upperY
  right : IsGreatestOf l Box.rightX b.rightX
  lower : IsGreatestOf l Box.lowerY b.lowerY

end Verif.Spec
