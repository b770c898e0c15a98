import Verif.Spec.Move
import Verif.Spec.Switches

/-!
# Specification for C90: what the prediction of the roles can change
-/

namespace Verif.Spec

open Verif.Pipeline Verif.Serialize
open Verif.ReadingOrder (RElem)

/-- The same program with another neural network. -/
def withNetwork (lib : Lib) (net : ℕ × List ℚ → List Roles.FPage → Outcome (ℕ × List (Option ℚ))) : Lib := { lib with network := net }

/-- Sorting blocks, figures and shapes (and the heap) only look at their positions. -/
structure LooksAtPositions (lib : Lib) : Prop where
  order : ∀ f : RElem → RElem, (∀ e, (f e).pos = e.pos) → SteadyCuts f lib.order
  sortTop : ∀ f : RElem → RElem, (∀ e, (f e).pos = e.pos) → ∀ l, lib.sortTop (l.map f) = (lib.sortTop l).map f

/-- The roles that have a say in the reading order: a block with such a role is separated from blocks above and below that have another role. -/
def separatingRoles : List Role := [.title, .authorInfo, .marginal]

/-- The relation between roles never confuses a separating role with another role. -/
def KeepsSeparators (R : Role → Role → Prop) : Prop := ∀ r r', R r r' → ∀ t ∈ separatingRoles, (r = t ↔ r' = t)

/-- Two documents with the same pages, and with the same blocks in the same order; the roles of a block in the two documents are related by `R`. -/
structure SameButRoles (R : Role → Role → Prop) (doc doc' : SDoc) : Prop where
  fontInfos : doc'.fontInfos = doc.fontInfos
  pages : List.Forall₂ (fun p p' : SPage => p' = { p with blocks := p'.blocks } ∧
    List.Forall₂ (fun b b' : SBlock => b' = { b with role := b'.role } ∧ R b.role b'.role) p.blocks p'.blocks) doc.pages doc'.pages

end Verif.Spec
