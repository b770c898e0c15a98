import Verif.Model.PageSegmentation
import Verif.Props.XYCut
import Verif.Lemmas.Hull

/-!
# Page segmentation: C21, C55, C56
-/

namespace Verif.Props

open Verif.XYCut Verif.Math Verif.Elements Verif.Spec Verif.PageSegmentation

/-! ## C21 -/

/-- C21 (coverage): every word, figure, graphic and shape of a page is in exactly one segment, and no
segment is empty. `Q` is the property of elements under which the sorts rearrange their input:
always true for well-behaved sorts, "rounded coordinates" for standard ones
(`c17_sorts_are_permutations`). -/
theorem c21_segments_cover {Q : PElem → Prop} (doc : DocStats) (lib : Lib PElem)
    (hx : PermOn Q lib.sortLeftX) (hy : PermOn Q lib.sortUpperY) (page : PageElems)
    (hQ : ∀ e ∈ page.words ++ page.figures ++ page.graphics ++ page.shapes, Q e) :
    ((processPage doc lib page).map (·.elements)).flatten.Perm
      (page.words ++ page.figures ++ page.graphics ++ page.shapes) ∧
    ∀ s ∈ processPage doc lib page, s.elements ≠ [] := by
  have h := c18_xyCut_partitions (params doc lib) hx hy (pageElements page) hQ
  have hm : (processPage doc lib page).map (·.elements) = (xyCut (params doc lib) (pageElements page)).1 := by
    simp [processPage, createPageSegment, Function.comp_def]
  refine ⟨by rw [hm]; exact h.perm, ?_⟩
  intro s hs
  apply h.nonempty
  rw [← hm]
  exact List.mem_map.mpr ⟨s, hs, rfl⟩

/-- C21 (exactly once, for distinguishable elements): if the elements of the page are pairwise distinct
objects, each lies in exactly one position of exactly one segment. -/
theorem c21_segments_nodup {Q : PElem → Prop} (doc : DocStats) (lib : Lib PElem)
    (hx : PermOn Q lib.sortLeftX) (hy : PermOn Q lib.sortUpperY) (page : PageElems)
    (hQ : ∀ e ∈ page.words ++ page.figures ++ page.graphics ++ page.shapes, Q e)
    (hd : (page.words ++ page.figures ++ page.graphics ++ page.shapes).Nodup) :
    ((processPage doc lib page).map (·.elements)).flatten.Nodup :=
  (c21_segments_cover doc lib hx hy page hQ).1.nodup_iff.mpr hd

/-- C21 (box): the box of a segment is the smallest box around its elements - for elements with
positive right and lower edges. -/
theorem c21_segment_box_partial (doc : DocStats) (lib : Lib PElem) (page : PageElems)
    (hp : ∀ s ∈ processPage doc lib page, ∀ e ∈ s.elements, PositiveBox e.pos) :
    ∀ s ∈ processPage doc lib page, s.elements ≠ [] → IsHull (s.elements.map (·.pos)) s.pos := by
  intro s hs hne
  have hps := hp s hs
  obtain ⟨g, _, rfl⟩ := List.mem_map.mp hs
  refine extendAll_isHull (by simpa using hne) rfl rfl rfl rfl ?_
  intro b hb
  obtain ⟨e, he, rfl⟩ := List.mem_map.mp hb
  exact hps e he

/-- C21 (box, refuted part, finding): the initial right edge of a box is the smallest positive double,
so the box of elements left of the origin is too large. -/
theorem c21_negative_coordinates_box :
    ∃ es : List PElem, es ≠ [] ∧ ¬ IsHull (es.map (·.pos)) (createPageSegment es).pos := by
  refine ⟨[(⟨Kind.word, 0,
    { pageNum := 1, leftX := -10, upperY := 0, rightX := -5, lowerY := 8 }, 0⟩ : PElem)], by simp, ?_⟩
  intro h
  obtain ⟨⟨e, he, hv⟩, _⟩ := h.right
  simp only [List.map_cons, List.map_nil, List.mem_singleton] at he
  subst he
  revert hv
  have hpos : (0 : ℚ) < (2 ^ 1022)⁻¹ := by positivity
  norm_num [createPageSegment, Box.extendAll, Box.extend, maximum, dblMin]
  exact ⟨by linarith, fun h => by linarith⟩

/-! ## C55: which vertical cuts are chosen -/

/-- The element with which the group left of a cut begins: helper of the proof of C55. -/
private def startElem (first : PElem) (p : Option (Cut PElem)) : PElem :=
  match p with | some p => p.elementAfter | none => first

/-- C55: a vertical cut candidate is chosen exactly when none of the four documented reasons against
it applies: (1) it crosses elements and there are fewer than 500 elements or a crossed element
lies near its top or bottom, (2) both the width and the height of the gap are small, (3) the word
before it is directly followed (in extraction order) by a word behind it on the same line, (4) the
group to its left (reaching back to the previously chosen cut) or the rest to its right is slim. -/
theorem c55_x_cut_chosen_iff (doc : DocStats) (cuts : List (Cut PElem)) (elements : List PElem)
    (first last : PElem) (hf : elements.head? = some first) (hl : elements.getLast? = some last)
    (i : ℕ) (cut : Cut PElem) (hi : cuts[i]? = some cut) :
    ∃ start : PElem,
      ((∀ j < i, chooseXCuts doc cuts elements j = false) → start = first) ∧
      (∀ j c, cuts[j]? = some c → j < i → chooseXCuts doc cuts elements j = true →
        (∀ k, j < k → k < i → chooseXCuts doc cuts elements k = false) → start = c.elementAfter) ∧
      (chooseXCuts doc cuts elements i = false ↔
        (cut.overlappingElements ≠ [] ∧ (elements.length < 500 ∨ ∃ e ∈ cut.overlappingElements,
          e.pos.upperY - cut.y1 < 5 * doc.avgCharHeight - tol ∨
          cut.y2 - e.pos.lowerY < 5 * doc.avgCharHeight - tol)) ∨
        (cut.gapWidth < 2 * doc.avgCharWidth - tol ∧ cut.gapHeight < 6 * doc.avgCharHeight - tol) ∨
        (cut.elementBefore.kind = .word ∧ ∃ r ∈ elements.drop cut.posInElements, r.kind = .word ∧
          r.rank = cut.elementBefore.rank + 1 ∧
          1 / 10 - tol ≤ computeMaxYOverlapRatio cut.elementBefore.pos r.pos) ∨
        (cut.elementBefore.pos.rightX - start.pos.leftX < 10 * doc.avgCharWidth - tol ∨
          last.pos.rightX - cut.elementAfter.pos.leftX < 10 * doc.avgCharWidth - tol)) := by
  have hne : elements.isEmpty = false := by
    cases elements with
    | nil => simp at hf
    | cons _ _ => rfl
  -- the decision for one cut, given the previously chosen one
  have hone : ∀ (prev : Option (Cut PElem)) (c : Cut PElem),
      (rejectOverlapping doc c elements || rejectSmallGap doc c ||
        rejectContiguousWords c elements || rejectSlimGroups doc prev c elements) = true ↔
      ((c.overlappingElements ≠ [] ∧ (elements.length < 500 ∨ ∃ e ∈ c.overlappingElements,
          e.pos.upperY - c.y1 < 5 * doc.avgCharHeight - tol ∨
          c.y2 - e.pos.lowerY < 5 * doc.avgCharHeight - tol)) ∨
        (c.gapWidth < 2 * doc.avgCharWidth - tol ∧ c.gapHeight < 6 * doc.avgCharHeight - tol) ∨
        (c.elementBefore.kind = .word ∧ ∃ r ∈ elements.drop c.posInElements, r.kind = .word ∧
          r.rank = c.elementBefore.rank + 1 ∧
          1 / 10 - tol ≤ computeMaxYOverlapRatio c.elementBefore.pos r.pos) ∨
        (c.elementBefore.pos.rightX - (startElem first prev).pos.leftX
            < 10 * doc.avgCharWidth - tol ∨
          last.pos.rightX - c.elementAfter.pos.leftX < 10 * doc.avgCharWidth - tol)) := by
    intro prev c
    simp only [Bool.or_eq_true, or_assoc]
    refine or_congr ?_ (or_congr ?_ (or_congr ?_ ?_))
    · unfold rejectOverlapping
      cases ho : c.overlappingElements with
      | nil => simp
      | cons o os =>
        simp only [List.isEmpty_cons, Bool.false_eq_true, if_false, overlappingMinNumElements]
        by_cases hlen : elements.length < 500
        · simp [hlen]
        · simp only [hlen, if_false, List.any_eq_true, Bool.or_eq_true, smaller_iff, false_or, ne_eq,
            reduceCtorEq, not_false_eq_true, true_and]
    · simp [rejectSmallGap, smaller_iff]
    · unfold rejectContiguousWords
      cases hk : c.elementBefore.kind <;>
        simp [smaller_false, and_assoc, eq_comm (b := c.elementBefore.rank + 1)]
    · unfold rejectSlimGroups
      rw [hf, hl]
      cases prev <;> simp only [Bool.or_eq_true, smaller_iff, startElem]
  -- the loop from the middle
  have hloop : ∀ (cs : List (Cut PElem)) (prev : Option (Cut PElem)) (k : ℕ) (c : Cut PElem),
      cs[k]? = some c → ∃ p : Option (Cut PElem),
        ((∀ j < k, (chooseXLoop doc elements prev cs).getD j false = false) → p = prev) ∧
        (∀ j d, cs[j]? = some d → j < k → (chooseXLoop doc elements prev cs).getD j false = true →
          (∀ l, j < l → l < k → (chooseXLoop doc elements prev cs).getD l false = false) →
          p = some d) ∧
        ((chooseXLoop doc elements prev cs).getD k false = false ↔
          (rejectOverlapping doc c elements || rejectSmallGap doc c ||
            rejectContiguousWords c elements || rejectSlimGroups doc p c elements) = true) := by
    intro cs
    induction cs with
    | nil => intro prev k c h; simp at h
    | cons d ds ih =>
      intro prev k c h
      have hstep : chooseXLoop doc elements prev (d :: ds) =
          (if (rejectOverlapping doc d elements || rejectSmallGap doc d ||
            rejectContiguousWords d elements || rejectSlimGroups doc prev d elements) = true then
              false :: chooseXLoop doc elements prev ds
            else true :: chooseXLoop doc elements (some d) ds) := rfl
      cases k with
      | zero =>
        simp only [List.getElem?_cons_zero, Option.some.injEq] at h
        subst h
        refine ⟨prev, fun _ => rfl, fun j _ _ hj => by omega, ?_⟩
        rw [hstep]
        split
        · next hr => simp [hr]
        · next hr => simp [hr]
      | succ k =>
        simp only [List.getElem?_cons_succ] at h
        rw [hstep]
        split
        · next hr =>
          obtain ⟨p, h1, h2, h3⟩ := ih prev k c h
          refine ⟨p, ?_, ?_, ?_⟩
          · intro hall
            apply h1
            intro j hj
            simpa using hall (j + 1) (by omega)
          · intro j e he hj hch hall
            cases j with
            | zero => simp at hch
            | succ j =>
              refine h2 j e (by simpa using he) (by omega) (by simpa using hch) ?_
              intro l hl1 hl2
              simpa using hall (l + 1) (by omega) (by omega)
          · simpa using h3
        · next hr =>
          obtain ⟨p, h1, h2, h3⟩ := ih (some d) k c h
          refine ⟨p, ?_, ?_, ?_⟩
          · intro hall
            have := hall 0 (by omega)
            simp at this
          · intro j e he hj hch hall
            cases j with
            | zero =>
              simp only [List.getElem?_cons_zero, Option.some.injEq] at he
              subst he
              apply h1
              intro l hl
              simpa using hall (l + 1) (by omega) (by omega)
            | succ j =>
              refine h2 j e (by simpa using he) (by omega) (by simpa using hch) ?_
              intro l hl1 hl2
              simpa using hall (l + 1) (by omega) (by omega)
          · simpa using h3
  obtain ⟨p, h1, h2, h3⟩ := hloop cuts none i cut hi
  have hch : ∀ j, chooseXCuts doc cuts elements j
      = (chooseXLoop doc elements none cuts).getD j false := by
    intro j; simp [chooseXCuts, hne]
  refine ⟨startElem first p, ?_, ?_, ?_⟩
  · intro hall
    have := h1 (fun j hj => by rw [← hch]; exact hall j hj)
    rw [this]; rfl
  · intro j c hc hj hcj hall
    have := h2 j c hc hj (by rw [← hch]; exact hcj) (fun l hl1 hl2 => by rw [← hch]; exact hall l hl1 hl2)
    rw [this]; rfl
  · rw [hch, h3, hone]

/-! ## C56: horizontal cuts delimit regions that can be divided vertically -/

theorem findPartner_spec (ok : ℕ → ℕ → Bool) (idx : ℕ) : ∀ (fuel other : ℕ) (cur : Option ℕ) (p : ℕ),
    findPartner ok idx fuel other cur = some p →
      cur = some p ∨ (other ≤ p ∧ p < other + fuel ∧ ∀ j, other ≤ j → j ≤ p → ok idx j = true) := by
  intro fuel
  induction fuel with
  | zero => intro other cur p h; left; exact h
  | succ fuel ih =>
    intro other cur p h
    rw [findPartner] at h
    split at h
    · next hok =>
      right
      rcases ih (other + 1) (some other) p h with h' | ⟨h1, h2, h3⟩
      · have : other = p := by simpa using h'
        subst this
        refine ⟨le_refl _, by omega, ?_⟩
        intro j hj1 hj2
        rw [show j = other by omega]; exact hok
      · refine ⟨by omega, by omega, ?_⟩
        intro j hj1 hj2
        rcases Nat.eq_or_lt_of_le hj1 with rfl | hlt
        · exact hok
        · exact h3 j hlt hj2
    · left; exact h

theorem chooseYLoop_spec (ok : ℕ → ℕ → Bool) (n : ℕ) : ∀ (fuel idx : ℕ), ∀ k ∈ chooseYLoop ok n fuel idx,
    ∃ a b, a < b ∧ b < n ∧ (k = a ∨ k = b) ∧ ok a b = true := by
  intro fuel
  induction fuel with
  | zero => intro idx k h; simp [chooseYLoop] at h
  | succ fuel ih =>
    intro idx k h
    rw [chooseYLoop] at h
    split at h
    · next hlt =>
      split at h
      · next partner hp =>
        rcases findPartner_spec ok idx _ _ none partner hp with h' | ⟨h1, h2, h3⟩
        · cases h'
        · rcases List.mem_cons.mp h with rfl | h
          · exact ⟨k, partner, by omega, by omega, .inl rfl, h3 partner h1 (le_refl _)⟩
          · rcases List.mem_cons.mp h with rfl | h
            · exact ⟨idx, k, by omega, by omega, .inr rfl, h3 k h1 (le_refl _)⟩
            · exact ih _ k h
      · exact ih _ k h
    · simp at h

/-- The position of the `k`-th boundary: the top of the elements, the candidates, the bottom. -/
def boundary (cuts : List (Cut PElem)) (elements : List PElem) (k : ℕ) : ℕ :=
  (0 :: cuts.map (·.posInElements) ++ [elements.length]).getD k 0

/-- C56: a horizontal cut is chosen only if it is the upper or the lower boundary of a region -
reaching to another candidate or to the top or bottom - whose elements can be divided by a
chosen vertical cut. -/
theorem c56_y_cut_justified (doc : DocStats) (lib : Lib PElem) (cuts : List (Cut PElem))
    (elements : List PElem) (i : ℕ) (h : chooseYCuts doc lib cuts elements i = true) :
    ∃ a b, a < b ∧ b ≤ cuts.length + 1 ∧ (i + 1 = a ∨ i + 1 = b) ∧
      (xCut PElem.pos lib (xCutMinGapWidth doc) 1 (chooseXCuts doc)
        ((elements.take (boundary cuts elements b)).drop (boundary cuts elements a))).ok = true := by
  unfold chooseYCuts at h
  split at h
  · cases h
  · simp only [List.contains_eq_mem, decide_eq_true_eq] at h
    obtain ⟨a, b, h1, h2, h3, h4⟩ := chooseYLoop_spec _ _ _ _ _ h
    refine ⟨a, b, h1, by simp at h2; omega, h3, ?_⟩
    rw [List.drop_take]
    exact h4

/-- The elements between the boundaries `a` and `b` can be divided by a chosen vertical cut. -/
def Divisible (doc : DocStats) (lib : Lib PElem) (cuts : List (Cut PElem)) (elements : List PElem) (a b : ℕ) : Bool :=
  (xCut PElem.pos lib (xCutMinGapWidth doc) 1 (chooseXCuts doc)
    ((elements.take (boundary cuts elements b)).drop (boundary cuts elements a))).ok

/-- `rs` are the regions of the boundaries `from`, ..., `n - 1` found from top to bottom: every region can be divided, also
each time it is cut off at an earlier boundary, it ends where one more strip would make it indivisible, the regions are
disjoint, and the strip below a boundary outside the regions cannot be divided. -/
structure TopDown (ok : ℕ → ℕ → Bool) (n start : ℕ) (rs : List (ℕ × ℕ)) : Prop where
  inside : ∀ r ∈ rs, start ≤ r.1 ∧ r.1 < r.2 ∧ r.2 < n
  divisible : ∀ r ∈ rs, ∀ j, r.1 < j → j ≤ r.2 → ok r.1 j = true
  maximal : ∀ r ∈ rs, r.2 + 1 < n → ok r.1 (r.2 + 1) = false
  disjoint : rs.Pairwise fun r r' => r.2 < r'.1
  outside : ∀ a, start ≤ a → a + 1 < n → (∀ r ∈ rs, ¬ (r.1 ≤ a ∧ a ≤ r.2)) → ok a (a + 1) = false

theorem findPartner_max (ok : ℕ → ℕ → Bool) (idx : ℕ) : ∀ (fuel other : ℕ) (cur : Option ℕ) (p : ℕ),
    findPartner ok idx fuel other cur = some p → (cur = some p → p + 1 = other) →
      p + 1 < other + fuel → ok idx (p + 1) = false := by
  intro fuel
  induction fuel with
  | zero =>
    intro other cur p h hc hlt
    have := hc h
    omega
  | succ fuel ih =>
    intro other cur p h hc hlt
    rw [findPartner] at h
    split at h
    · exact ih (other + 1) (some other) p h (fun hp => by injection hp with hp; omega) (by omega)
    · next hok => rw [hc h]; simpa using hok

theorem findPartner_none (ok : ℕ → ℕ → Bool) (idx fuel other : ℕ)
    (h : findPartner ok idx fuel other none = none) (hf : 0 < fuel) : ok idx other = false := by
  have hsome : ∀ (fuel other : ℕ) (c : ℕ), findPartner ok idx fuel other (some c) ≠ none := by
    intro fuel
    induction fuel with
    | zero => intro _ _; simp [findPartner]
    | succ fuel ih =>
      intro other c
      rw [findPartner]
      split
      · exact ih _ _
      · simp
  obtain ⟨f, rfl⟩ : ∃ f, fuel = f + 1 := ⟨fuel - 1, by omega⟩
  rw [findPartner] at h
  split at h
  · exact absurd h (hsome _ _ _)
  · next hok => simpa using hok

theorem chooseYLoop_topDown (ok : ℕ → ℕ → Bool) (n : ℕ) : ∀ (fuel idx : ℕ), n ≤ idx + fuel →
    ∃ rs, TopDown ok n idx rs ∧ chooseYLoop ok n fuel idx = rs.flatMap fun r => [r.1, r.2] := by
  intro fuel
  induction fuel with
  | zero =>
    intro idx h
    exact ⟨[], ⟨by simp, by simp, by simp, by simp, fun a h1 h2 => by omega⟩, by simp [chooseYLoop]⟩
  | succ fuel ih =>
    intro idx h
    rw [chooseYLoop]
    split
    · next hlt =>
      split
      · next partner hp =>
        rcases findPartner_spec ok idx _ _ none partner hp with h' | ⟨h1, h2, h3⟩
        · cases h'
        obtain ⟨rs, ht, he⟩ := ih (partner + 1) (by omega)
        refine ⟨(idx, partner) :: rs, ⟨?_, ?_, ?_, ?_, ?_⟩, by simp [he]⟩
        · intro r hr
          rcases List.mem_cons.mp hr with rfl | hr
          · exact ⟨le_refl _, by simp; omega, by simp; omega⟩
          · have := ht.inside r hr; omega
        · intro r hr j hj1 hj2
          rcases List.mem_cons.mp hr with rfl | hr
          · exact h3 j hj1 hj2
          · exact ht.divisible r hr j hj1 hj2
        · intro r hr hrn
          rcases List.mem_cons.mp hr with rfl | hr
          · exact findPartner_max ok idx _ _ none partner hp (by simp) (by simp at hrn; omega)
          · exact ht.maximal r hr hrn
        · refine List.pairwise_cons.mpr ⟨fun r hr => ?_, ht.disjoint⟩
          have := ht.inside r hr; simp; omega
        · intro a ha1 ha2 hout
          refine ht.outside a ?_ ha2 fun r hr => hout r (by simp [hr])
          by_contra hc
          exact hout (idx, partner) (by simp) ⟨ha1, by simp; omega⟩
      · next hp =>
        obtain ⟨rs, ht, he⟩ := ih (idx + 1) (by omega)
        refine ⟨rs, ⟨fun r hr => ?_, ht.divisible, ht.maximal, ht.disjoint, ?_⟩, he⟩
        · have := ht.inside r hr; omega
        · intro a ha1 ha2 hout
          rcases Nat.eq_or_lt_of_le ha1 with rfl | hlt'
          · exact findPartner_none ok idx _ _ hp (by omega)
          · exact ht.outside a hlt' ha2 hout
    · exact ⟨[], ⟨by simp, by simp, by simp, by simp, fun a h1 h2 => by omega⟩, by simp⟩

/-- C56: the horizontal cuts page segmentation takes are exactly the upper and lower boundaries of the regions found from top
to bottom, each as high as it can be divided vertically. -/
theorem c56_y_cuts_exactly (doc : DocStats) (lib : Lib PElem) (cuts : List (Cut PElem))
    (elements : List PElem) (hc : cuts ≠ []) (he : elements ≠ []) :
    ∃ rs, TopDown (Divisible doc lib cuts elements) (cuts.length + 2) 0 rs ∧
      ∀ i, chooseYCuts doc lib cuts elements i = true ↔ ∃ r ∈ rs, i + 1 = r.1 ∨ i + 1 = r.2 := by
  have hpos : (0 :: cuts.map (·.posInElements) ++ [elements.length]).length = cuts.length + 2 := by simp
  obtain ⟨rs, ht, hl⟩ := chooseYLoop_topDown (Divisible doc lib cuts elements) (cuts.length + 2)
    (cuts.length + 2) 0 (by omega)
  refine ⟨rs, ht, fun i => ?_⟩
  unfold chooseYCuts
  rw [if_neg (by simp [hc, he])]
  simp only [hpos, List.contains_eq_mem, decide_eq_true_eq]
  have hok : (fun a b => (xCut PElem.pos lib (xCutMinGapWidth doc) xCutMaxNumOverlappingElements (chooseXCuts doc)
      (List.take ((0 :: cuts.map (·.posInElements) ++ [elements.length]).getD b 0 -
        (0 :: cuts.map (·.posInElements) ++ [elements.length]).getD a 0)
        (List.drop ((0 :: cuts.map (·.posInElements) ++ [elements.length]).getD a 0) elements))).ok)
      = Divisible doc lib cuts elements := by
    funext a b
    unfold Divisible boundary
    rw [List.drop_take]
    rfl
  rw [hok, hl]
  simp [List.mem_flatMap]

/-- A page with two columns and a headline above them. -/
def samplePage : PageElems where
  words :=
    [ { kind := .word, uid := 0, rank := 0,
        pos := { pageNum := 1, leftX := 10, upperY := 10, rightX := 110, lowerY := 20 } },
      { kind := .word, uid := 1, rank := 5,
        pos := { pageNum := 1, leftX := 10, upperY := 30, rightX := 50, lowerY := 60 } },
      { kind := .word, uid := 2, rank := 9,
        pos := { pageNum := 1, leftX := 70, upperY := 30, rightX := 110, lowerY := 60 } } ]
  figures := []
  graphics := []
  shapes := []

/-- The segmentation of the sample page: three segments. -/
example : (processPage { avgCharWidth := 1, avgCharHeight := 1, mostFreqWordDistance := 2 }
    (refLib PElem.pos) samplePage).map (fun s => s.elements.map (·.uid)) = [[0], [1], [2]] := by
  decide +kernel

/-- The sample page meets the hypotheses of `c56_y_cuts_exactly`: one candidate, taken, as the two columns below it can be
divided. -/
example :
    let doc : DocStats := { avgCharWidth := 1, avgCharHeight := 1, mostFreqWordDistance := 2 }
    let lib := refLib PElem.pos
    let cuts := yCandidates PElem.pos lib 2 samplePage.words
    cuts.length = 1 ∧ chooseYCuts doc lib cuts samplePage.words 0 = true ∧
      Divisible doc lib cuts samplePage.words 0 1 = false ∧ Divisible doc lib cuts samplePage.words 1 2 = true := by
  decide +kernel

/-- Three groups, two chosen cuts. -/
example :
    let P : Params PElem :=
      { pos := PElem.pos, lib := refLib PElem.pos, minXGap := 2, minYGap := 2, maxOverlap := 1,
        chooseX := fun _ _ _ => true, chooseY := fun _ _ _ => true }
    (xyCut P samplePage.words).1.length = 3 ∧ ((xyCut P samplePage.words).2.filter (·.isChosen)).length = 2 := by
  decide +kernel

end Verif.Props
