/-!
# Specification: order notions and the contract of `std::sort`

Independent of the model; these are the textbook notions the C++ standard refers to
([alg.sorting], "Compare").
-/

namespace Verif.Spec

/-- Irreflexive, asymmetric and transitive. -/
structure StrictPartialOrder {α : Type _} (lt : α → α → Bool) : Prop where
  irrefl : ∀ a, lt a a = false
  asymm : ∀ a b, lt a b = true → lt b a = false
  trans : ∀ a b c, lt a b = true → lt b c = true → lt a c = true

/-- Neither element is before the other. -/
def Incomp {α : Type _} (lt : α → α → Bool) (a b : α) : Prop := lt a b = false ∧ lt b a = false

/-- `lt` is a strict weak order on the elements of `l`: the requirement of the C++ standard on the
comparator of a sort of `l` or a heap over `l`. -/
structure StrictWeakOrderOn {α : Type _} (lt : α → α → Bool) (l : List α) : Prop where
  irrefl : ∀ a ∈ l, lt a a = false
  trans : ∀ a ∈ l, ∀ b ∈ l, ∀ c ∈ l, lt a b = true → lt b c = true → lt a c = true
  incompTrans : ∀ a ∈ l, ∀ b ∈ l, ∀ c ∈ l, Incomp lt a b → Incomp lt b c → Incomp lt a c

/-- What the C++ standard promises about `std::sort(begin, end, lt)`: *provided that* the comparator
is a strict weak order on the elements, the result is a rearrangement in which no later element
is before an earlier one. Nothing is promised otherwise (undefined behaviour). -/
def SortContract {α : Type _} (lt : α → α → Bool) (sort : List α → List α) : Prop :=
  ∀ l, StrictWeakOrderOn lt l →
    (sort l).Perm l ∧ (sort l).Pairwise (fun a b => lt b a = false)

/-- A sort routine that additionally rearranges the elements (loses and duplicates nothing) even
when the comparator is not a strict weak order.  This is how the common implementations behave
when they do not crash; it is *not* promised by the C++ standard. -/
def AlwaysPerm {α : Type _} (sort : List α → List α) : Prop := ∀ l, (sort l).Perm l

/-- The sort routine rearranges every list whose elements satisfy `Q`. With `Q` = "has rounded
coordinates" this follows from `SortContract` for the comparators of this code base (C02); with
`Q` = true it is `AlwaysPerm`. -/
def PermOn {α : Type _} (Q : α → Prop) (sort : List α → List α) : Prop :=
  ∀ l, (∀ e ∈ l, Q e) → (sort l).Perm l

end Verif.Spec
