import Verif.Model.Outcome

/-!
# Model of `/repo/src/utils/FixedCapacityPriorityQueue.h`

The heap is modelled by the list of its elements; *which* top element `pop` removes when several
elements tie, and the internal arrangement, are left to a parameter `popTop` (the heap routines of
the C++ library), constrained by `HeapContract`.
-/

namespace Verif.PQ

/-- `popTop q` models `top()` and `pop()` of `std::priority_queue` on the content `q`: the top
element and the remaining content; `none` for an empty queue. -/
abbrev PopTop (α : Type) := List α → Option (α × List α)

/-- What the C++ standard promises about `std::priority_queue` with comparator `lt`: `pop` removes
one element, and that element is a largest one (no element is after it). -/
def HeapContract {α : Type} (lt : α → α → Bool) (popTop : PopTop α) : Prop :=
  popTop [] = none ∧
  ∀ q, q ≠ [] → ∃ t rest, popTop q = some (t, rest) ∧ q.Perm (t :: rest) ∧ ∀ x ∈ q, lt t x = false

/-- `FixedCapacityPriorityQueue::push`, `/repo/src/utils/FixedCapacityPriorityQueue.h:52-57`.
With capacity 0 the first push pops from an empty queue, which is undefined behaviour. -/
def push {α : Type} (popTop : PopTop α) (capacity : Nat) (q : List α) (value : α) :
    Outcome (List α) :=
  if q.length = capacity then
    match popTop q with
    | none => .ub "pop() on an empty priority_queue"
    | some (_, rest) => .ok (rest ++ [value])
  else .ok (q ++ [value])

/-- A sequence of pushes (model glue). -/
def pushes {α : Type} (popTop : PopTop α) (capacity : Nat) : List α → List α → Outcome (List α)
  | q, [] => .ok q
  | q, v :: vs => (push popTop capacity q v).bind fun q' => pushes popTop capacity q' vs

/-- `FixedCapacityPriorityQueue::sort`, `/repo/src/utils/FixedCapacityPriorityQueue.h:68-73`
(`partial_sort_copy` of all elements; `sortFn` is the library routine). -/
def sort {α : Type} (sortFn : List α → List α) (q : List α) : List α := sortFn q

end Verif.PQ
