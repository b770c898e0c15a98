import Mathlib.Data.List.Chain

/-!
# Specification: greedy grouping of a sequence
-/

namespace Verif.Spec

/-- `gs` is the division of the sequence `xs` into consecutive non-empty groups in which an element
belongs to the group of the elements before it exactly when it fits to the part of the group that
precedes it: inside a group every element (but the first) fits to the elements before it, and the
first element of a group does not fit to the previous group. -/
structure IsGreedy {α : Type _} (fits : List α → α → Prop) (xs : List α) (gs : List (List α)) :
    Prop where
  flatten : gs.flatten = xs
  nonempty : ∀ g ∈ gs, g ≠ []
  inside : ∀ g ∈ gs, ∀ pre c post, g = pre ++ c :: post → pre ≠ [] → fits pre c
  boundary : gs.IsChain fun g₁ g₂ => ∀ c, g₂.head? = some c → ¬ fits g₁ c

end Verif.Spec

namespace Verif.Spec

/-- `gs` is the division of the sequence `xs` into consecutive non-empty groups with the boundaries
given by `starts`: a group ends exactly before an element that starts a new group (the very first
element always begins the first group). -/
structure IsSplitAt {α : Type _} (starts : α → Prop) (xs : List α) (gs : List (List α)) : Prop where
  flatten : gs.flatten = xs
  nonempty : ∀ g ∈ gs, g ≠ []
  inside : ∀ g ∈ gs, ∀ c ∈ g.tail, ¬ starts c
  heads : ∀ g ∈ gs.tail, ∀ c, g.head? = some c → starts c

end Verif.Spec
