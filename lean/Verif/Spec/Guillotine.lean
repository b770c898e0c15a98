import Verif.Model.Box

/-!
# Cutting a page into segments by straight cuts (specification for C71)
-/

namespace Verif.Spec

open Verif.Elements

/-- The elements of the left part which come closer than `gap` to some element of the right part. -/
def reaching {α : Type} (pos : α → Box) (gap : ℚ) (left right : List α) : List α :=
  left.filter fun a => right.any fun b => decide ((pos b).leftX < (pos a).rightX + gap)

/-- `CutInto pos gx gy m es gs`: the elements `es` are divided into the groups `gs` by straight cuts, one after the other: a horizontal cut leaves a white strip of height `gy` between the elements above and those
below; a vertical cut leaves a white strip of width `gx` between the elements on the left and those on the right, except that at most `m` elements on the left may reach into or over it. -/
inductive CutInto {α : Type} (pos : α → Box) (gx gy : ℚ) (m : ℕ) : List α → List (List α) → Prop where
  | whole {es g : List α} : g ≠ [] → g.Perm es → CutInto pos gx gy m es [g]
  | horizontal {es above below : List α} {ga gb : List (List α)} : (above ++ below).Perm es → above ≠ [] → below ≠ [] →
      (∀ a ∈ above, ∀ b ∈ below, (pos a).lowerY + gy ≤ (pos b).upperY) →
      CutInto pos gx gy m above ga → CutInto pos gx gy m below gb → CutInto pos gx gy m es (ga ++ gb)
  | vertical {es left right : List α} {gl gr : List (List α)} : (left ++ right).Perm es → left ≠ [] → right ≠ [] →
      (reaching pos gx left right).length ≤ m →
      CutInto pos gx gy m left gl → CutInto pos gx gy m right gr → CutInto pos gx gy m es (gl ++ gr)

end Verif.Spec
