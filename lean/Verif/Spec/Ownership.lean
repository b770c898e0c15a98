import Verif.Model.Ownership
import Mathlib.Data.List.Perm.Basic

/-!
# Specification for C82: the lifetime of the objects
-/

namespace Verif.Spec

open Verif.Ownership

/-- The number of objects that a history loses: an element without an owner and its position, or a cut without an owner. -/
def lostObjects (ops : List Op) : ℕ :=
  (ops.map fun o => match o with
    | .lose _ => 2
    | .loseCut => 1
    | _ => 0).sum

/-- Whenever the blocks of a page are put into another order, each of them appears exactly once in the new order (C33). -/
def KeepsBlocks (ops : List Op) : Prop :=
  ∀ before after i order, ops = before ++ .reorder i order :: after →
    ∀ s a p, run before {} = .ok s → s.pages[i]? = some a → s.heap.obj a = some (.page p) → order.Perm (List.range p.blocks.length)

/-- The history names something that does not exist: a page, figure or segment beyond the end of a list. (The program walks through the lists
and never does this.) -/
def noSuch : List String := ["no such page", "no current page", "no such figure", "no such segment"]

end Verif.Spec
