import Verif.Props.MoveCuts
import Verif.Props.XYCut

/-!
# C81: moving the contents — page segmentation
-/

namespace Verif.Props

open Verif.Math Verif.Elements Verif.XYCut Verif.Spec Verif.PageSegmentation

theorem mv_rejectOverlapping (dx dy : ℚ) (doc : DocStats) (c : Cut PElem) (s : List PElem) :
    rejectOverlapping doc (moveCut (moveElem dx dy) dx dy c) (s.map (moveElem dx dy)) = rejectOverlapping doc c s := by
  simp only [rejectOverlapping, moveCut, List.isEmpty_map, List.length_map, List.any_map, moveElem, moveBox, Function.comp_def, mv_sub]

theorem mv_rejectSmallGap (dx dy : ℚ) (doc : DocStats) (c : Cut PElem) :
    rejectSmallGap doc (moveCut (moveElem dx dy) dx dy c) = rejectSmallGap doc c := rfl

theorem mv_rejectContiguousWords (dx dy : ℚ) (c : Cut PElem) (s : List PElem) :
    rejectContiguousWords (moveCut (moveElem dx dy) dx dy c) (s.map (moveElem dx dy)) = rejectContiguousWords c s := by
  have h1 : (moveCut (moveElem dx dy) dx dy c).elementBefore = moveElem dx dy c.elementBefore := rfl
  have h2 : (moveCut (moveElem dx dy) dx dy c).posInElements = c.posInElements := rfl
  have h3 : ∀ e, (moveElem dx dy e).kind = e.kind := fun _ => rfl
  have h4 : ∀ e, (moveElem dx dy e).rank = e.rank := fun _ => rfl
  have h5 : ∀ e, (moveElem dx dy e).pos = moveBox dx dy e.pos := fun _ => rfl
  simp only [rejectContiguousWords, h1, h2, h3, h4, h5, ← List.map_drop, List.any_map, Function.comp_def, mv_maxY]

theorem mv_rejectSlimGroups (dx dy : ℚ) (doc : DocStats) (p : Option (Cut PElem)) (c : Cut PElem) (s : List PElem) :
    rejectSlimGroups doc (p.map (moveCut (moveElem dx dy) dx dy)) (moveCut (moveElem dx dy) dx dy c) (s.map (moveElem dx dy)) =
      rejectSlimGroups doc p c s := by
  simp only [rejectSlimGroups, List.head?_map, List.getLast?_map]
  cases s.head? with
  | none => rfl
  | some a =>
    cases s.getLast? with
    | none => rfl
    | some b =>
      cases p with
      | none => simp only [Option.map_some, Option.map_none, moveCut, moveElem, moveBox, mv_sub]
      | some q => simp only [Option.map_some, moveCut, moveElem, moveBox, mv_sub]

theorem mv_chooseXLoop (dx dy : ℚ) (doc : DocStats) (s : List PElem) (cs : List (Cut PElem)) : ∀ p : Option (Cut PElem),
    chooseXLoop doc (s.map (moveElem dx dy)) (p.map (moveCut (moveElem dx dy) dx dy)) (cs.map (moveCut (moveElem dx dy) dx dy)) =
      chooseXLoop doc s p cs := by
  induction cs with
  | nil => intro p; rfl
  | cons c cs ih =>
    intro p
    simp only [List.map_cons, chooseXLoop, mv_rejectOverlapping, mv_rejectSmallGap, mv_rejectContiguousWords, mv_rejectSlimGroups, ih]
    have := ih (some c)
    rw [Option.map_some] at this
    rw [this]

theorem mv_chooseX (dx dy : ℚ) (doc : DocStats) (Q : PElem → Prop) :
    mv_Choose (moveElem dx dy) dx dy Q (chooseXCuts doc) (chooseXCuts doc) := by
  intro cuts s i _
  have := mv_chooseXLoop dx dy doc s cuts none
  rw [Option.map_none] at this
  simp only [chooseXCuts, List.isEmpty_map, this]

theorem mv_elem_pos (dx dy : ℚ) (e : PElem) : PElem.pos (moveElem dx dy e) = moveBox dx dy (PElem.pos e) := rfl

theorem mv_chooseY {dx dy : ℚ} (doc : DocStats) {lib : Lib PElem} (hl : SteadyCuts (moveElem dx dy) lib) {Q : PElem → Prop}
    (hQ : ∀ a, Q a → Movable dx dy a.pos) (hp : PermOn Q lib.sortLeftX) :
    mv_Choose (moveElem dx dy) dx dy Q (chooseYCuts doc lib) (chooseYCuts doc lib) := by
  intro cuts s i hs
  have hpos : ∀ (c : List (Cut PElem)), (c.map (moveCut (moveElem dx dy) dx dy)).map (fun x => x.posInElements) =
      c.map (fun x => x.posInElements) := by
    intro c; rw [List.map_map]; rfl
  simp only [chooseYCuts, List.isEmpty_map, hpos, List.length_map, ← List.map_drop, ← List.map_take]
  have hx : ∀ a b : ℕ, (xCut PElem.pos lib (xCutMinGapWidth doc) xCutMaxNumOverlappingElements (chooseXCuts doc)
        (List.map (moveElem dx dy) (List.take b (List.drop a s)))).ok =
      (xCut PElem.pos lib (xCutMinGapWidth doc) xCutMaxNumOverlappingElements (chooseXCuts doc) (List.take b (List.drop a s))).ok := by
    intro a b
    rw [mv_xCut (mv_elem_pos dx dy) hl (fun a h => .inl (hQ a h)) hp (mv_chooseX dx dy doc Q) _ _
      (fun e he => hs e (List.mem_of_mem_drop (List.mem_of_mem_take he)))]
    rfl
  simp only [hx]

theorem mv_createPageSegment {dx dy : ℚ} {es : List PElem} (hne : es ≠ []) (hes : ∀ e ∈ es, Movable dx dy e.pos) :
    createPageSegment (es.map (moveElem dx dy)) = moveGroup dx dy (createPageSegment es) := by
  cases es with
  | nil => exact absurd rfl hne
  | cons e es =>
    have hp : ((e :: es).map (moveElem dx dy)).map (fun x => x.pos) = ((e :: es).map (fun x => x.pos)).map (moveBox dx dy) := by
      rw [List.map_map, List.map_map]; rfl
    have hb := mv_extendAll (dx := dx) (dy := dy) (b := { pageNum := e.pos.pageNum }) ⟨rfl, rfl, rfl, rfl⟩
      (es := (e :: es).map (·.pos)) (by simp) (by
        intro x hx
        obtain ⟨y, hy, rfl⟩ := List.mem_map.mp hx
        exact hes y hy)
    rw [← hp] at hb
    simp only [createPageSegment, moveGroup, ← hb]
    rfl

theorem mv_pageElements (dx dy : ℚ) (p : PageElems) :
    pageElements (movePageElems dx dy p) = (pageElements p).map (moveElem dx dy) := by
  simp only [pageElements, movePageElems, List.map_append]

theorem mv_processPage {dx dy : ℚ} (doc : DocStats) {lib : Lib PElem} (hl : SteadyCuts (moveElem dx dy) lib) {Q : PElem → Prop}
    (hQ : ∀ a, Q a → Movable dx dy a.pos) (hpx : PermOn Q lib.sortLeftX) (hpy : PermOn Q lib.sortUpperY) {p : PageElems}
    (hp : ∀ e ∈ pageElements p, Q e) :
    processPage doc lib (movePageElems dx dy p) = (processPage doc lib p).map (moveGroup dx dy) := by
  simp only [processPage, mv_pageElements]
  rw [mv_xyCut (f := moveElem dx dy) (dx := dx) (dy := dy) (P := params doc lib) (P' := params doc lib) ⟨rfl, rfl, rfl, rfl, rfl⟩ (mv_elem_pos dx dy) hl (fun a h => .inl (hQ a h)) hpx hpy
    (mv_chooseX dx dy doc Q) (mv_chooseY doc hl hQ hpx) hp]
  have hpart := c18_xyCut_partitions (params doc lib) hpx hpy (pageElements p) hp
  simp only [mv_out, List.map_map]
  apply List.map_congr_left
  intro g hg
  simp only [Function.comp]
  refine mv_createPageSegment (hpart.nonempty g hg) ?_
  intro e he
  exact hQ e (hp e (hpart.perm.subset (List.mem_flatten.mpr ⟨g, hg, he⟩)))

/-- Every segment of a page has a box that can be moved, and elements of the page. -/
theorem mv_processPage_movable {dx dy : ℚ} (doc : DocStats) {lib : Lib PElem} {Q : PElem → Prop}
    (hQ : ∀ a, Q a → Movable dx dy a.pos) (hpx : PermOn Q lib.sortLeftX) (hpy : PermOn Q lib.sortUpperY) {p : PageElems}
    (hp : ∀ e ∈ pageElements p, Q e) :
    ∀ s ∈ processPage doc lib p, Movable dx dy s.pos ∧ ∀ e ∈ s.elements, e ∈ pageElements p := by
  intro s hs
  have hpart := c18_xyCut_partitions (params doc lib) hpx hpy (pageElements p) hp
  obtain ⟨g, hg, rfl⟩ := List.mem_map.mp hs
  have hmem : ∀ e ∈ g, e ∈ pageElements p := fun e he => hpart.perm.subset (List.mem_flatten.mpr ⟨g, hg, he⟩)
  refine ⟨?_, hmem⟩
  simp only [createPageSegment]
  refine mv_movable_extendAll ⟨rfl, rfl, rfl, rfl⟩ (by simpa using hpart.nonempty g hg) ?_
  intro e he
  obtain ⟨x, hx, rfl⟩ := List.mem_map.mp he
  exact hQ x (hp x (hmem x hx))

end Verif.Props
