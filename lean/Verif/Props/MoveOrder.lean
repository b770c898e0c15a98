import Verif.Props.MoveCuts
import Verif.Props.XYCut

/-!
# C81: moving the contents — reading order
-/

namespace Verif.Props

open Verif.Math Verif.Elements Verif.XYCut Verif.Spec Verif.ReadingOrder

theorem mv_relem_pos (dx dy : ℚ) (e : RElem) : RElem.pos (moveRElem dx dy e) = moveBox dx dy (RElem.pos e) := by
  cases e <;> rfl

theorem mv_isBlock (dx dy : ℚ) (e : RElem) : (moveRElem dx dy e).isBlock = e.isBlock := by cases e <;> rfl

theorem mv_hasRole (dx dy : ℚ) (r : Role) (e : RElem) : (moveRElem dx dy e).hasRole r = e.hasRole r := by cases e <;> rfl

theorem mv_isTurned (dx dy : ℚ) (e : RElem) : (moveRElem dx dy e).isTurnedBlock = e.isTurnedBlock := by cases e <;> rfl

/-- The extent of a page, moved. -/
def mv_ext (dx dy : ℚ) (x : Extent) : Extent := ⟨x.minX + dx, x.minY + dy, x.maxX + dx, x.maxY + dy⟩

theorem mv_ext_add (dx dy : ℚ) (x : Extent) (e : RElem) :
    (mv_ext dx dy x).add (moveRElem dx dy e) = mv_ext dx dy (x.add e) := by
  simp only [Extent.add, mv_ext, mv_relem_pos, moveBox, mv_minimum, mv_maximum]

theorem mv_pageExtent {dx dy : ℚ} {es : List RElem} (hne : es ≠ []) (hes : ∀ e ∈ es, Movable dx dy e.pos) :
    (es.map (moveRElem dx dy)).foldl Extent.add {} = mv_ext dx dy (es.foldl Extent.add {}) := by
  have key : ∀ (l : List RElem) (x : Extent), (l.map (moveRElem dx dy)).foldl Extent.add (mv_ext dx dy x) =
      mv_ext dx dy (l.foldl Extent.add x) := by
    intro l
    induction l with
    | nil => intro x; rfl
    | cons e l ih => intro x; simp only [List.map_cons, List.foldl_cons, mv_ext_add, ih]
  cases es with
  | nil => exact absurd rfl hne
  | cons e es =>
    have hm := mv_fits (hes e (by simp))
    have h0 : Extent.add {} (moveRElem dx dy e) = mv_ext dx dy (Extent.add {} e) := by
      simp only [Extent.add, mv_ext, mv_relem_pos]
      simp only [minimum_eq_min, maximum_eq_max, min_eq_right hm.1.1, min_eq_right hm.1.2.1, max_eq_right hm.1.2.2.1,
        max_eq_right hm.1.2.2.2, min_eq_right hm.2.1, min_eq_right hm.2.2.1, max_eq_right hm.2.2.2.1, max_eq_right hm.2.2.2.2]
      rfl
    simp only [List.map_cons, List.foldl_cons, h0, key]

theorem mv_lt (a b c : ℚ) : decide (a + c < b + c) = decide (a < b) := by
  rw [Bool.eq_iff_iff]; simp

theorem mv_mid (a b c : ℚ) : a + c + (b + c - (a + c)) / 2 = a + (b - a) / 2 + c := by ring

theorem mv_isVerticalRule (dx dy : ℚ) (st : Stats) (x : Extent) (e : RElem) :
    isVerticalRule st (mv_ext dx dy x) (moveRElem dx dy e) = isVerticalRule st x e := by
  simp only [isVerticalRule, mv_isBlock, mv_relem_pos, mv_height]
  simp only [mv_ext, moveBox, mv_mid, gt_iff_lt, mv_lt]

theorem mv_isHorizontalRule (dx dy : ℚ) (st : Stats) (x : Extent) (e : RElem) :
    isHorizontalRule st (mv_ext dx dy x) (moveRElem dx dy e) = isHorizontalRule st x e := by
  simp only [isHorizontalRule, mv_isBlock, mv_relem_pos, mv_width]
  simp only [mv_ext, moveBox, mv_mid, gt_iff_lt, mv_lt]

theorem mv_isPrimaryX (dx dy : ℚ) (st : Stats) (x : Extent) (c : Cut RElem) :
    isPrimaryX st (mv_ext dx dy x) (moveCut (moveRElem dx dy) dx dy c) = isPrimaryX st x c := by
  have h1 : (moveCut (moveRElem dx dy) dx dy c).elementBefore = moveRElem dx dy c.elementBefore := rfl
  have h2 : (moveCut (moveRElem dx dy) dx dy c).elementAfter = moveRElem dx dy c.elementAfter := rfl
  simp only [isPrimaryX, h1, h2, mv_isTurned, mv_isBlock, mv_isVerticalRule, mv_relem_pos, moveBox]

theorem mv_isPrimaryY (dx dy : ℚ) (st : Stats) (x : Extent) (c : Cut RElem) :
    isPrimaryY st (mv_ext dx dy x) (moveCut (moveRElem dx dy) dx dy c) = isPrimaryY st x c := by
  have h1 : (moveCut (moveRElem dx dy) dx dy c).elementBefore = moveRElem dx dy c.elementBefore := rfl
  have h2 : (moveCut (moveRElem dx dy) dx dy c).elementAfter = moveRElem dx dy c.elementAfter := rfl
  simp only [isPrimaryY, h1, h2, mv_hasRole, mv_isHorizontalRule]

theorem mv_choosePrimaryX (dx dy : ℚ) (st : Stats) (x : Extent) (Q : RElem → Prop) :
    mv_Choose (moveRElem dx dy) dx dy Q (choosePrimaryXCuts st x) (choosePrimaryXCuts st (mv_ext dx dy x)) := by
  intro cuts s i _
  simp only [choosePrimaryXCuts, List.isEmpty_map, List.getElem?_map]
  cases cuts[i]? with
  | none => rfl
  | some c => simp only [Option.map_some, mv_isPrimaryX]

theorem mv_choosePrimaryY (dx dy : ℚ) (st : Stats) (x : Extent) (Q : RElem → Prop) :
    mv_Choose (moveRElem dx dy) dx dy Q (choosePrimaryYCuts st x) (choosePrimaryYCuts st (mv_ext dx dy x)) := by
  intro cuts s i _
  simp only [choosePrimaryYCuts, List.isEmpty_map, List.getElem?_map]
  cases cuts[i]? with
  | none => rfl
  | some c => simp only [Option.map_some, mv_isPrimaryY]

theorem mv_chooseAll (dx dy : ℚ) (Q : RElem → Prop) :
    mv_Choose (moveRElem dx dy) dx dy Q chooseXCuts chooseXCuts := fun _ _ _ _ => rfl

theorem mv_canXCut {dx dy : ℚ} {lib : Lib RElem} (hl : SteadyCuts (moveRElem dx dy) lib) {Q : RElem → Prop}
    (hQ : ∀ a, Q a → Movable dx dy a.pos) (hp : PermOn Q lib.sortLeftX) {g : List RElem} (hg : ∀ e ∈ g, Q e) :
    canXCut lib (g.map (moveRElem dx dy)) = canXCut lib g := by
  simp only [canXCut]
  rw [mv_xCut (mv_relem_pos dx dy) hl (fun a h => .inl (hQ a h)) hp (mv_chooseAll dx dy Q) _ _ hg]
  rfl

theorem mv_orderChooseY {dx dy : ℚ} {lib : Lib RElem} (hl : SteadyCuts (moveRElem dx dy) lib) {Q : RElem → Prop}
    (hQ : ∀ a, Q a → Movable dx dy a.pos) (hp : PermOn Q lib.sortLeftX) :
    mv_Choose (moveRElem dx dy) dx dy Q (chooseYCuts lib) (chooseYCuts lib) := by
  intro cuts s i hs
  simp only [chooseYCuts, List.isEmpty_map, List.length_map, chooseYIndices, List.getElem?_map, Option.map_map, Function.comp_def, moveCut,
    ← List.map_drop, ← List.map_take]
  have h1 : ∀ a, canXCut lib ((s.drop a).map (moveRElem dx dy)) = canXCut lib (s.drop a) := fun a =>
    mv_canXCut hl hQ hp fun e he => hs e (List.mem_of_mem_drop he)
  have h2 : ∀ a, canXCut lib ((s.take a).map (moveRElem dx dy)) = canXCut lib (s.take a) := fun a =>
    mv_canXCut hl hQ hp fun e he => hs e (List.mem_of_mem_take he)
  have h3 : ∀ a b, canXCut lib (((s.take b).drop a).map (moveRElem dx dy)) = canXCut lib ((s.take b).drop a) := fun a b =>
    mv_canXCut hl hQ hp fun e he => hs e (List.mem_of_mem_take (List.mem_of_mem_drop he))
  simp only [h1, h2, h3]

theorem mv_divideXGroup {dx dy : ℚ} {lib : Lib RElem} (hl : SteadyCuts (moveRElem dx dy) lib) {Q : RElem → Prop}
    (hQ : ∀ a, Q a → Movable dx dy a.pos) (hpx : PermOn Q lib.sortLeftX) (hpy : PermOn Q lib.sortUpperY) (st : Stats) (x : Extent)
    {g : List RElem} (hg : ∀ e ∈ g, Q e) :
    divideXGroup st (mv_ext dx dy x) lib (g.map (moveRElem dx dy)) = (divideXGroup st x lib g).map (List.map (moveRElem dx dy)) := by
  simp only [divideXGroup]
  rw [mv_yCut (mv_relem_pos dx dy) hl (fun a h => .inl (hQ a h)) hpy (mv_choosePrimaryY dx dy st x Q) _ hg]
  have hmem := mv_yCut_mem (pos := RElem.pos) (lib := lib) hpy (choose := choosePrimaryYCuts st x) (g := minYCutGapHeight) hg
  simp only [mv_result]
  generalize (yCut RElem.pos lib minYCutGapHeight (choosePrimaryYCuts st x) g).groups = gs at hmem ⊢
  rw [List.flatMap_map, List.map_flatMap]
  apply List.flatMap_congr
  intro a ha
  rw [mv_xyCut (f := moveRElem dx dy) (dx := dx) (dy := dy) (P := params lib) (P' := params lib) ⟨rfl, rfl, rfl, rfl, rfl⟩ (mv_relem_pos dx dy) hl (fun a h => .inl (hQ a h)) hpx hpy
    (mv_chooseAll dx dy Q) (mv_orderChooseY hl hQ hpx) (hmem a ha)]
  rfl

theorem mv_pageGroups {dx dy : ℚ} {lib : Lib RElem} (hl : SteadyCuts (moveRElem dx dy) lib) {Q : RElem → Prop}
    (hQ : ∀ a, Q a → Movable dx dy a.pos) (hpx : PermOn Q lib.sortLeftX) (hpy : PermOn Q lib.sortUpperY) (st : Stats)
    {es : List RElem} (hes : ∀ e ∈ es, Q e) :
    pageGroups st lib (es.map (moveRElem dx dy)) = (pageGroups st lib es).map (List.map (moveRElem dx dy)) := by
  by_cases hne : es = []
  · subst hne; rfl
  simp only [pageGroups]
  rw [mv_pageExtent hne fun e he => hQ e (hes e he),
    mv_xCut (mv_relem_pos dx dy) hl (fun a h => .inl (hQ a h)) hpx (mv_choosePrimaryX dx dy st _ Q) _ _ hes]
  have hmem := mv_xCut_mem (pos := RElem.pos) (lib := lib) hpx (choose := choosePrimaryXCuts st (es.foldl Extent.add {}))
    (g := minXCutGapWidth) (m := 0) hes
  simp only [mv_result]
  generalize (xCut RElem.pos lib minXCutGapWidth 0 (choosePrimaryXCuts st (es.foldl Extent.add {})) es).groups = gs at hmem ⊢
  rw [List.flatMap_map, List.map_flatMap]
  apply List.flatMap_congr
  intro a ha
  exact mv_divideXGroup hl hQ hpx hpy st _ (hmem a ha)

theorem mv_pageOrder {dx dy : ℚ} {lib : Lib RElem} (hl : SteadyCuts (moveRElem dx dy) lib) {Q : RElem → Prop}
    (hQ : ∀ a, Q a → Movable dx dy a.pos) (hpx : PermOn Q lib.sortLeftX) (hpy : PermOn Q lib.sortUpperY) (st : Stats)
    {sort : List RElem → List RElem} (hsort : ∀ l, sort (l.map (moveRElem dx dy)) = (sort l).map (moveRElem dx dy))
    {bs fs ss : List RElem} (hes : ∀ e ∈ bs ++ fs ++ ss, Q e) :
    pageOrder st lib sort (bs.map (moveRElem dx dy)) (fs.map (moveRElem dx dy)) (ss.map (moveRElem dx dy)) =
      (pageOrder st lib sort bs fs ss).map (moveRElem dx dy) := by
  simp only [pageOrder, ← List.map_append]
  rw [mv_pageGroups hl hQ hpx hpy st hes, List.flatMap_map, List.map_flatMap]
  apply List.flatMap_congr
  intro g _
  simp only [hsort, List.filter_map, Function.comp_def, mv_isBlock]

end Verif.Props
