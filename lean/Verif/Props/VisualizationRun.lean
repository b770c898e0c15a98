import Verif.Props.Visualization
import Verif.Props.WiringOutput

/-!
# C72: every processed document can be visualized; where the cuts are drawn
-/

namespace Verif.Props

open Verif.Visualization Verif.Elements Verif.Math Verif.Spec Verif.Spec.Visualization Verif.XYCut
open Verif.Pipeline (Document)
open Verif.PageSegmentation (PElem PageElems)
open Verif.ReadingOrder (Role RElem)
open Verif.Cli (Config)

/-- A cut as it is drawn: a straight line through all of the given elements, in the middle of the gap between two elements, on the page of the latter. -/
structure CutLine {α : Type} (pos : α → Box) (elements : List α) (c : Cut α) : Prop where
  after : c.elementAfter ∈ elements
  page : c.pageNum = (pos c.elementAfter).pageNum
  vertical : c.dir = .x → c.x1 = c.x2 ∧
    c.x1 = (pos c.elementBefore).rightX + computeHorizontalGap (pos c.elementBefore) (pos c.elementAfter) / 2 ∧
    ∀ e ∈ elements, c.y1 ≤ (pos e).upperY ∧ (pos e).lowerY ≤ c.y2
  horizontal : c.dir = .y → c.y1 = c.y2 ∧
    c.y1 = (pos c.elementBefore).lowerY + computeVerticalGap (pos c.elementBefore) (pos c.elementAfter) / 2 ∧
    ∀ e ∈ elements, c.x1 ≤ (pos e).leftX ∧ (pos e).rightX ≤ c.x2

theorem vi_extent {α : Type} (lo hi : α → ℚ) (s : List α) :
    ∀ (acc : ℚ × ℚ), let r := s.foldl (fun acc e => (minimum acc.1 (lo e), maximum acc.2 (hi e))) acc
      (r.1 ≤ acc.1 ∧ acc.2 ≤ r.2) ∧ ∀ e ∈ s, r.1 ≤ lo e ∧ hi e ≤ r.2 := by
  simp only [minimum_eq_min, maximum_eq_max]
  induction s with
  | nil => intro acc; simp
  | cons x xs ih =>
    intro acc
    obtain ⟨⟨h1, h2⟩, h3⟩ := ih (min acc.1 (lo x), max acc.2 (hi x))
    simp only [List.foldl_cons]
    have a1 := min_le_left acc.1 (lo x)
    have a2 := min_le_right acc.1 (lo x)
    have a3 := le_max_left acc.2 (hi x)
    have a4 := le_max_right acc.2 (hi x)
    refine ⟨⟨le_trans h1 a1, le_trans a3 h2⟩, ?_⟩
    intro e he
    rcases List.mem_cons.mp he with rfl | he
    · exact ⟨le_trans h1 a2, le_trans a4 h2⟩
    · exact h3 e he

theorem vi_xLoop {α : Type} (pos : α → Box) (lib : Lib α) (minGap : ℚ) (m : ℕ) (y1 y2 : ℚ) (all : List α)
    (hall : ∀ e ∈ all, y1 ≤ (pos e).upperY ∧ (pos e).lowerY ≤ y2) :
    ∀ (es : List α) (p : ℕ) (q : List α), (∀ e ∈ es, e ∈ all) → ∀ c ∈ xLoop pos lib minGap m y1 y2 p q es, CutLine pos all c ∧ c.dir = .x := by
  intro es
  induction es with
  | nil => intro p q _ c hc; simp [xLoop] at hc
  | cons e es ih =>
    intro p q hes c hc
    rw [xLoop] at hc
    have hrest := ih (p + 1) (updateQ pos lib.popTop (m + 1) q e) fun x hx => hes x (by simp [hx])
    simp only at hc
    cases hg : findGap pos minGap e (PQ.sort lib.sortRightXDesc q) [] with
    | none => rw [hg] at hc; exact hrest c hc
    | some r =>
      obtain ⟨prev, gap, ov⟩ := r
      rw [hg] at hc
      simp only [List.mem_cons] at hc
      rcases hc with rfl | hc
      · obtain ⟨_, _, _, _, h3, _⟩ := findGap_some hg
        exact ⟨⟨hes e (by simp), rfl, fun _ => ⟨rfl, by rw [← h3], hall⟩, fun h => by cases h⟩, rfl⟩
      · exact hrest c hc

theorem vi_yLoop {α : Type} (pos : α → Box) (minGap : ℚ) (x1 x2 : ℚ) (all : List α)
    (hall : ∀ e ∈ all, x1 ≤ (pos e).leftX ∧ (pos e).rightX ≤ x2) :
    ∀ (es : List α) (p : ℕ) (big : α), (∀ e ∈ es, e ∈ all) → ∀ c ∈ yLoop pos minGap x1 x2 p big es, CutLine pos all c ∧ c.dir = .y := by
  intro es
  induction es with
  | nil => intro p big _ c hc; simp [yLoop] at hc
  | cons e es ih =>
    intro p big hes c hc
    rw [yLoop] at hc
    have hrest := fun b => ih (p + 1) b fun x hx => hes x (by simp [hx])
    by_cases hg : equalOrLarger (computeVerticalGap (pos big) (pos e)) minGap tol = true
    · rw [if_pos hg] at hc
      rcases List.mem_cons.mp hc with rfl | hc
      · exact ⟨⟨hes e (by simp), rfl, fun h => (by cases h), fun _ => ⟨rfl, rfl, hall⟩⟩, rfl⟩
      · exact hrest _ c hc
    · rw [if_neg hg] at hc
      exact hrest _ c hc

/-- **C72 (lines of the cuts).** Each vertical cut is a vertical line in the middle of the gap between two elements, as high as all elements which it divides; each horizontal cut is a horizontal line, as wide as all of
them. -/
theorem c72_cut_lines {α : Type} (pos : α → Box) (lib : Lib α) (minGap : ℚ) (m : ℕ) (choose : Choose α) (elements : List α)
    (hx : (lib.sortLeftX elements).Perm elements) (hy : (lib.sortUpperY elements).Perm elements) :
    (∀ c ∈ (xCut pos lib minGap m choose elements).cuts, CutLine pos elements c ∧ c.dir = .x) ∧
    (∀ c ∈ (yCut pos lib minGap choose elements).cuts, CutLine pos elements c ∧ c.dir = .y) := by
  constructor
  · intro c hc
    unfold xCut at hc
    by_cases he : elements.isEmpty = true
    · rw [if_pos he] at hc; simp at hc
    · rw [if_neg he] at hc
      obtain ⟨c0, h0, b, rfl⟩ := applyChoice_mem hc
      have key : CutLine pos elements c0 ∧ c0.dir = .x := by
        unfold xCandidates at h0
        have hext := (vi_extent (fun e => (pos e).upperY) (fun e => (pos e).lowerY) (lib.sortLeftX elements) (dblMax, dblMin)).2
        cases hs : lib.sortLeftX elements with
        | nil => simp only [hs] at h0; simp at h0
        | cons e0 es =>
          simp only [hs] at h0
          rw [hs] at hext
          refine vi_xLoop pos lib minGap m _ _ elements (fun e he => hext e ?_) es _ _ (fun e he => hx.subset ?_) c0 h0
          · rw [← hs]; exact hx.symm.subset he
          · rw [hs]; simp [he]
      obtain ⟨⟨k1, k2, k3, k4⟩, k5⟩ := key
      exact ⟨⟨k1, k2, k3, k4⟩, k5⟩
  · intro c hc
    unfold yCut at hc
    by_cases he : elements.isEmpty = true
    · rw [if_pos he] at hc; simp at hc
    · rw [if_neg he] at hc
      obtain ⟨c0, h0, b, rfl⟩ := applyChoice_mem hc
      have key : CutLine pos elements c0 ∧ c0.dir = .y := by
        unfold yCandidates at h0
        have hext := (vi_extent (fun e => (pos e).leftX) (fun e => (pos e).rightX) (lib.sortUpperY elements) (dblMax, dblMin)).2
        cases hs : lib.sortUpperY elements with
        | nil => simp only [hs] at h0; simp at h0
        | cons e0 es =>
          simp only [hs] at h0
          rw [hs] at hext
          refine vi_yLoop pos minGap _ _ elements (fun e he => hext e ?_) es _ _ (fun e he => hy.subset ?_) c0 h0
          · rw [← hs]; exact hy.symm.subset he
          · rw [hs]; simp [he]
      obtain ⟨⟨k1, k2, k3, k4⟩, k5⟩ := key
      exact ⟨⟨k1, k2, k3, k4⟩, k5⟩

/-- Example: two boxes side by side. -/
example : (xCut id (refLib id) 1 0 (fun _ _ _ => true)
      [{ pageNum := 1, leftX := 0, upperY := 0, rightX := 10, lowerY := 10 }, { pageNum := 1, leftX := 20, upperY := 5, rightX := 30, lowerY := 30 }]).cuts.map
      (fun c => (c.x1, c.y1, c.x2, c.y2)) = [(15, 0, 15, 30)] := by
  decide +kernel

theorem vi_forGroups_cuts {α : Type} {f : List α → Option (Out α)} {R : Cut α → Prop} :
    ∀ gs out, (∀ x ∈ gs, ∀ out, f x = some out → ∀ c ∈ out.2, R c) → forGroups f gs = some out → ∀ c ∈ out.2, R c := by
  intro gs
  induction gs with
  | nil => intro out _ ho; simp [forGroups] at ho; subst ho; simp
  | cons x xs ih =>
    intro out h ho
    rw [forGroups] at ho
    cases hf : f x with
    | none => rw [hf] at ho; simp at ho
    | some a =>
      cases hr : forGroups f xs with
      | none => rw [hf, hr] at ho; simp at ho
      | some b =>
        rw [hf, hr] at ho
        simp only [Option.some.injEq] at ho
        subst ho
        intro g hg
        rcases List.mem_append.mp hg with hg | hg
        · exact h x (by simp) a hf g hg
        · exact ih b (fun y hy => h y (by simp [hy])) hr g hg

/-- Every cut of the recursive algorithm divides some of the elements. -/
theorem vi_xyCut_cuts {α : Type} (P : Params α) {Q : α → Prop}
    (hx : PermOn Q P.lib.sortLeftX) (hy : PermOn Q P.lib.sortUpperY) (elements : List α) (hQ : ∀ e ∈ elements, Q e) :
    ∀ c ∈ (xyCut P elements).2, ∃ es, (∀ e ∈ es, e ∈ elements) ∧ CutLine P.pos es c := by
  have key : ∀ fuel (es : List α) out, (∀ e ∈ es, Q e) → xyCutF P fuel es = some out →
      ∀ c ∈ out.2, ∃ gs, (∀ e ∈ gs, e ∈ es) ∧ CutLine P.pos gs c := by
    intro fuel
    induction fuel with
    | zero =>
      intro es out _ h
      rw [xyCutF] at h
      split at h
      · cases h; simp
      · cases h
    | succ fuel ih =>
      intro es out hes h
      have hdiv : ∀ g : List α, (∀ e ∈ g, Q e) → g ≠ [] → ∀ o, divideGroup P (xyCutF P fuel) g = some o →
          ∀ c ∈ o.2, ∃ gs, (∀ e ∈ gs, e ∈ g) ∧ CutLine P.pos gs c := by
        intro g hgQ hg o ho
        have hYp := c17_yCut_partition P.pos P.lib P.minYGap P.chooseY g (hy g hgQ) hg
        have hYc := (c72_cut_lines P.pos P.lib P.minYGap 0 P.chooseY g (hx g hgQ) (hy g hgQ)).2
        unfold divideGroup at ho
        simp only at ho
        split at ho
        · obtain ⟨o', ho', rfl⟩ := Option.map_eq_some_iff.mp ho
          intro c hc
          rcases List.mem_append.mp hc with hc | hc
          · exact ⟨g, fun _ h => h, (hYc c hc).1⟩
          · refine vi_forGroups_cuts (R := fun c => ∃ gs, (∀ e ∈ gs, e ∈ g) ∧ CutLine P.pos gs c) _ _ ?_ ho' c hc
            intro x hx' o h c hc
            have hsub : ∀ e ∈ x, e ∈ g := fun e he => hYp.perm.subset (List.mem_flatten.mpr ⟨x, hx', he⟩)
            obtain ⟨gs, k1, k2⟩ := ih x o (fun e he => hgQ e (hsub e he)) h c hc
            exact ⟨gs, fun e he => hsub e (k1 e he), k2⟩
        · simp only [Option.some.injEq] at ho
          subst ho
          intro c hc
          exact ⟨g, fun _ h => h, (hYc c hc).1⟩
      rw [xyCutF] at h
      by_cases hne : es.isEmpty = true
      · rw [if_pos hne] at h; cases h; simp
      · rw [if_neg hne] at h
        have hne' : es ≠ [] := by simpa using hne
        have hXp := c17_xCut_partition P.pos P.lib P.minXGap P.maxOverlap P.chooseX es (hx es hes) hne'
        have hXc := (c72_cut_lines P.pos P.lib P.minXGap P.maxOverlap P.chooseX es (hx es hes) (hy es hes)).1
        simp only at h
        split at h
        · obtain ⟨o', ho', rfl⟩ := Option.map_eq_some_iff.mp h
          intro c hc
          rcases List.mem_append.mp hc with hc | hc
          · exact ⟨es, fun _ h => h, (hXc c hc).1⟩
          · refine vi_forGroups_cuts (R := fun c => ∃ gs, (∀ e ∈ gs, e ∈ es) ∧ CutLine P.pos gs c) _ _ ?_ ho' c hc
            intro x hx' o h c hc
            have hsub : ∀ e ∈ x, e ∈ es := fun e he => hXp.perm.subset (List.mem_flatten.mpr ⟨x, hx', he⟩)
            obtain ⟨gs, k1, k2⟩ := hdiv x (fun e he => hes e (hsub e he)) (hXp.nonempty x hx') o h c hc
            exact ⟨gs, fun e he => hsub e (k1 e he), k2⟩
        · obtain ⟨o', ho', rfl⟩ := Option.map_eq_some_iff.mp h
          intro c hc
          rcases List.mem_append.mp hc with hc | hc
          · exact ⟨es, fun _ h => h, (hXc c hc).1⟩
          · exact hdiv es hes hne' o' ho' c hc
  have h1 := c18_xyCut_fuel_irrelevant P hx hy elements hQ elements.length (le_refl _)
  exact key _ _ _ hQ h1

/-- The same for the cuts of the reading order. -/
theorem vi_order_cuts (st : ReadingOrder.Stats) (lib : Lib RElem) {Q : RElem → Prop} (hx : PermOn Q lib.sortLeftX) (hy : PermOn Q lib.sortUpperY)
    (elements : List RElem) (hQ : ∀ e ∈ elements, Q e) :
    ∀ c ∈ readingOrderCuts st lib elements, ∃ es, (∀ e ∈ es, e ∈ elements) ∧ CutLine RElem.pos es c := by
  intro c hc
  unfold readingOrderCuts at hc
  simp only [List.mem_append, List.mem_flatMap] at hc
  by_cases hne : elements = []
  · subst hne
    simp [xCut] at hc
  generalize elements.foldl ReadingOrder.Extent.add {} = x at hc
  have hXc := (c72_cut_lines RElem.pos lib ReadingOrder.minXCutGapWidth 0 (ReadingOrder.choosePrimaryXCuts st x) elements (hx _ hQ) (hy _ hQ)).1
  have hXp := c17_xCut_partition RElem.pos lib ReadingOrder.minXCutGapWidth 0 (ReadingOrder.choosePrimaryXCuts st x) elements (hx _ hQ) hne
  rcases hc with hc | ⟨g, hg, hc⟩
  · exact ⟨elements, fun _ h => h, (hXc c hc).1⟩
  have hsub : ∀ e ∈ g, e ∈ elements := fun e he => hXp.perm.subset (List.mem_flatten.mpr ⟨g, hg, he⟩)
  have hgQ : ∀ e ∈ g, Q e := fun e he => hQ e (hsub e he)
  have hYc := (c72_cut_lines RElem.pos lib ReadingOrder.minYCutGapHeight 0 (ReadingOrder.choosePrimaryYCuts st x) g (hx _ hgQ) (hy _ hgQ)).2
  have hYp := c17_yCut_partition RElem.pos lib ReadingOrder.minYCutGapHeight (ReadingOrder.choosePrimaryYCuts st x) g (hy _ hgQ) (hXp.nonempty g hg)
  rcases hc with hc | ⟨g', hg', hc⟩
  · exact ⟨g, hsub, (hYc c hc).1⟩
  have hsub' : ∀ e ∈ g', e ∈ g := fun e he => hYp.perm.subset (List.mem_flatten.mpr ⟨g', hg', he⟩)
  obtain ⟨gs, k1, k2⟩ := vi_xyCut_cuts (ReadingOrder.params lib) hx hy g' (fun e he => hgQ e (hsub' e he)) c hc
  exact ⟨gs, fun e he => hsub e (hsub' e (k1 e he)), k2⟩

/-- The page numbers of figures, graphics and shapes. -/
def BoxesNumbered (d : Document) : Prop :=
  ∀ (k : ℕ) (p : Pipeline.Page), d.pages[k]? = some p → ∀ b ∈ p.figures ++ p.graphics ++ p.shapes, b.pageNum = k + 1

variable {lib : Pipeline.Lib} {n : ℕ} {cfg : Config} {d0 d' : Document}

/-- The elements that the reading order of a page divides. -/
def IsElement (p : Pipeline.Page) (e : RElem) : Prop := e.pos ∈ p.blocks.map (·.block.pos) ∨ e.pos ∈ p.figures ∨ e.pos ∈ p.shapes

/-- What is drawn of a page: everything detected on it, the cuts made in the segmentation of the page and the cuts made of its blocks, figures and shapes by the reading order. -/
structure DrawnFrom (lib : Pipeline.Lib) (d : Document) (p : Pipeline.Page) (q : DrawnPage) : Prop where
  drawn : ∃ prelim id1 id2 E es, q = drawnPage d prelim
    ((segmentationCuts ⟨d.stats.avgCharWidth, d.stats.avgCharHeight, d.stats.mostFreqWordDistance⟩ lib.seg E).map (drawnCut id1))
    ((readingOrderCuts ⟨d.stats.avgCharWidth, d.stats.avgCharHeight⟩ lib.order es).map (drawnCut id2)) p ∧
    (∀ e ∈ PageSegmentation.pageElements E, e.pos ∈ p.words.map (·.pos) ++ p.figures ++ p.graphics ++ p.shapes) ∧
    ∀ e ∈ es, IsElement p e

theorem vi_page (h : FullRun lib n cfg d0 d') (hN : PagesNumbered d0) (hB : BoxesNumbered d0) (k : ℕ) (p : Pipeline.Page)
    (hk : d'.pages[k]? = some p) (q : DrawnPage) (hq : DrawnFrom lib d' p q) : Spec.Visualization.OnPage (k + 1) q := by
  obtain ⟨n1, n2, n3, n4⟩ := c69_page_numbers h hN k p hk
  obtain ⟨prelim, id1, id2, E, es, rfl, hE, hes⟩ := hq.drawn
  obtain ⟨p0, hp0, hpi⟩ := pl_forall₂_right (wi_final h).pages p (List.mem_of_getElem? hk)
  obtain ⟨s1, s4, ps2, ps3, ps6, ls6, bst, bss, rs, hW⟩ := h.whole
  obtain ⟨p0', p2, p3, p6, bs, hf⟩ := wi_finished h.parsed hW k p hk
  have hbx : ∀ b ∈ p.figures ++ p.graphics ++ p.shapes, b.pageNum = k + 1 ∧ RoundedBox n b := by
    have e : p.figures ++ p.graphics ++ p.shapes = p0'.figures ++ p0'.graphics ++ p0'.shapes := by
      rw [show p.figures = p0'.figures by rw [hf.page, hf.only6, hf.only3, hf.only2], show p.graphics = p0'.graphics by rw [hf.page, hf.only6, hf.only3, hf.only2],
        show p.shapes = p0'.shapes by rw [hf.page, hf.only6, hf.only3, hf.only2]]
    rw [e]
    exact fun b hb => ⟨hB k p0' hf.at0 b hb, h.parsed.boxes p0' (List.mem_of_getElem? hf.at0) b hb⟩
  have hbf : ∀ b ∈ p.figures, b.pageNum = k + 1 ∧ RoundedBox n b := fun b hb => hbx b (by simp [hb])
  have hbg : ∀ b ∈ p.graphics, b.pageNum = k + 1 ∧ RoundedBox n b := fun b hb => hbx b (by simp [hb])
  have hbs : ∀ b ∈ p.shapes, b.pageNum = k + 1 ∧ RoundedBox n b := fun b hb => hbx b (by simp [hb])
  have hchars : ∀ c ∈ p.characters, c.pos.pageNum = k + 1 := by
    rw [show p.characters = p2.characters by rw [hf.page, hf.only6, hf.only3]]
    obtain ⟨out, o1, o2⟩ := pl_diacritics_keep (wi_keptByMarks (k + 1)) lib.compose p0'.characters (hN k p0' hf.at0).2
    rw [hf.marks] at o1
    cases o1
    exact o2
  have hsegs : ∀ s ∈ p.segments, s.pos.pageNum = k + 1 := by
    obtain ⟨F, f1, f2, f3, f4, f5⟩ := c69_segments h p (List.mem_of_getElem? hk)
    have hF : ∀ e ∈ PageSegmentation.pageElements F, e.pos.pageNum = k + 1 ∧ RoundedBox n e.pos := by
      intro e he
      unfold PageSegmentation.pageElements at he
      simp only [List.mem_append] at he
      rcases he with ((he | he) | he) | he <;> obtain ⟨i, hi⟩ := List.getElem?_of_mem he
      · rw [f1] at hi
        obtain ⟨w, hw, rfl⟩ := Option.map_eq_some_iff.mp hi
        exact ⟨n2 w (List.mem_of_getElem? hw), (hpi.good w (List.mem_of_getElem? hw)).1.rounded⟩
      · rw [f2] at hi
        obtain ⟨w, hw, rfl⟩ := Option.map_eq_some_iff.mp hi
        exact hbf _ (List.mem_of_getElem? hw)
      · rw [f3] at hi
        obtain ⟨w, hw, rfl⟩ := Option.map_eq_some_iff.mp hi
        exact hbg _ (List.mem_of_getElem? hw)
      · rw [f4] at hi
        obtain ⟨w, hw, rfl⟩ := Option.map_eq_some_iff.mp hi
        exact hbs _ (List.mem_of_getElem? hw)
    intro s hs
    have : (s.elements, s.pos) ∈ p.segments.map fun s => (s.elements, s.pos) := List.mem_map.mpr ⟨s, hs, rfl⟩
    rw [f5] at this
    obtain ⟨g, hg, hge⟩ := List.mem_map.mp this
    simp only [Prod.mk.injEq] at hge
    unfold PageSegmentation.processPage at hg
    obtain ⟨grp, hgrp, rfl⟩ := List.mem_map.mp hg
    obtain ⟨hx, hy⟩ := c17_sorts_are_permutations h.sorts.seg h.precision
    have hpart := c18_xyCut_partitions (PageSegmentation.params ⟨d'.stats.avgCharWidth, d'.stats.avgCharHeight, d'.stats.mostFreqWordDistance⟩ lib.seg)
      hx hy (PageSegmentation.pageElements F) fun e he => (hF e he).2
    obtain ⟨e, r, rfl⟩ := List.exists_cons_of_ne_nil (hpart.nonempty grp hgrp)
    have he : e ∈ PageSegmentation.pageElements F := hpart.perm.subset (List.mem_flatten.mpr ⟨_, hgrp, by simp⟩)
    rw [← hge.2]
    unfold PageSegmentation.createPageSegment
    simp only
    rw [(extendAll_rest _ _).1]
    exact (hF e he).1
  have hblocks : ∀ b ∈ p.blocks, RoundedBox n b.block.pos := by
    have := hpi.blocks
    unfold ranOf at this
    simp only [decide_eq_true (h.stages .blocks (by decide)), if_true] at this
    exact fun b hb => (this.2 b hb).1.rounded
  refine ⟨?_, fun b hb => (hbf b hb).1, fun b hb => (hbs b hb).1, fun b hb => (hbg b hb).1, ?_, ?_, ?_, ?_, ?_, ?_⟩
  · intro b hb
    obtain ⟨c, hc, rfl⟩ := List.mem_map.mp hb
    exact hchars c hc
  · intro b hb
    obtain ⟨w, hw, rfl⟩ := List.mem_map.mp hb
    exact n2 w hw
  · intro s hs
    obtain ⟨t, ht, rfl⟩ := List.mem_map.mp hs
    exact hsegs t ht
  · intro s hs b hb
    obtain ⟨t, ht, rfl⟩ := List.mem_map.mp hs
    obtain ⟨i, hi, hib⟩ := List.mem_filterMap.mp hb
    obtain ⟨l, hl, rfl⟩ := Option.map_eq_some_iff.mp hib
    obtain ⟨l', hl', hp'⟩ := n3 i (List.mem_flatMap.mpr ⟨t, ht, hi⟩)
    rw [hl] at hl'
    cases hl'
    exact hp'
  · intro b hb
    obtain ⟨w, hw, rfl⟩ := List.mem_map.mp hb
    exact n4 w hw
  · intro c hc
    obtain ⟨c', hc', rfl⟩ := List.mem_map.mp hc
    obtain ⟨hx, hy⟩ := c17_sorts_are_permutations h.sorts.seg h.precision
    have hEQ : ∀ e ∈ PageSegmentation.pageElements E, e.pos.pageNum = k + 1 ∧ RoundedBox n e.pos := by
      intro e he
      have := hE e he
      simp only [List.mem_append, List.mem_map] at this
      rcases this with ((⟨w, hw, hwe⟩ | hb) | hb) | hb
      · rw [← hwe]
        exact ⟨n2 w hw, (hpi.good w hw).1.rounded⟩
      · exact hbf _ hb
      · exact hbg _ hb
      · exact hbs _ hb
    obtain ⟨gs, g1, g2⟩ := vi_xyCut_cuts (PageSegmentation.params _ lib.seg) hx hy (PageSegmentation.pageElements E) (fun e he => (hEQ e he).2) c' hc'
    show c'.pageNum = _
    rw [g2.page]
    exact (hEQ _ (g1 _ g2.after)).1
  · intro c hc
    obtain ⟨c', hc', rfl⟩ := List.mem_map.mp hc
    obtain ⟨hx, hy⟩ := c17_sorts_are_permutations h.sorts.order h.precision
    have hEQ : ∀ e ∈ es, e.pos.pageNum = k + 1 ∧ RoundedBox n e.pos := by
      intro e he
      rcases hes e he with hb | hb | hb
      · obtain ⟨b, hb, hbe⟩ := List.mem_map.mp hb
        rw [← hbe]
        exact ⟨n4 b hb, hblocks b hb⟩
      · exact hbf _ hb
      · exact hbs _ hb
    obtain ⟨gs, g1, g2⟩ := vi_order_cuts _ lib.order hx hy es (fun e he => (hEQ e he).2) c' hc'
    show c'.pageNum = _
    rw [g2.page]
    exact (hEQ _ (g1 _ g2.after)).1

/-- **C72 (every processed document).** Every document processed by all stages can be visualized, with every combination of options, in a file which has its pages. -/
theorem c72_document (h : FullRun lib n cfg d0 d') (hN : PagesNumbered d0) (hB : BoxesNumbered d0) (pdf : Pdf) (hpdf : d'.pages.length ≤ pdf.numPages)
    (kinds : List String) (qs : List DrawnPage) (hq : List.Forall₂ (DrawnFrom lib d') d'.pages qs) : ∃ as, visualize pdf kinds qs = .ok as := by
  have := c72_no_failure pdf qs kinds (by
    intro q hq'
    obtain ⟨k, hk⟩ := List.getElem?_of_mem hq'
    have hlt := (List.getElem?_eq_some_iff.mp hk).1
    have hlt' : k < d'.pages.length := by rw [hq.length_eq]; exact hlt
    have hp := List.getElem?_eq_getElem hlt'
    refine ⟨(k : ℤ) + 1, ⟨by omega, by omega⟩, vi_page h hN hB k _ hp q ?_⟩
    have := (List.forall₂_iff_get.mp hq).2 k hlt' hlt
    rw [List.get_eq_getElem, List.get_eq_getElem] at this
    rw [List.getElem?_eq_getElem hlt] at hk
    simp only [Option.some.injEq] at hk
    rw [← hk]
    exact this)
  cases hv : visualize pdf kinds qs with
  | ok as => exact ⟨as, rfl⟩
  | throw m => rw [hv] at this; cases this
  | ub m => rw [hv] at this; cases this

/-- **C72 (segments).** For every segment its box is drawn in blue, followed by the boxes of its preliminary blocks in red, on the page of the segment. -/
theorem c72_segments (pdf : Pdf) (p : DrawnPage) (h : ∀ s ∈ p.segments, Pdf.Has pdf s.pos.pageNum) :
    ∃ parts, visualize pdf ["visualize-segments"] [p] = .ok parts.flatten ∧
      List.Forall₂ (fun (s : DrawnSegment) as => ∃ frame frames, as = frame :: frames ∧ FrameOf pdf (0, 0, 1) s.pos frame ∧
        List.Forall₂ (fun b a => FrameOf pdf (1, 0, 0) { b with pageNum := s.pos.pageNum } a) s.blocks frames) p.segments parts := by
  obtain ⟨parts, h1, h2⟩ := vi_drawAll (drawSegment pdf blue) (fun (s : DrawnSegment) as => ∃ frame frames, as = frame :: frames ∧ FrameOf pdf (0, 0, 1) s.pos frame ∧
        List.Forall₂ (fun b a => FrameOf pdf (1, 0, 0) { b with pageNum := s.pos.pageNum } a) s.blocks frames) p.segments (by
    intro s hs
    obtain ⟨frames, f1, f2⟩ := vi_boxes pdf red (s.blocks.map fun b => { b with pageNum := s.pos.pageNum }) (by
      intro b hb
      obtain ⟨x, _, rfl⟩ := List.mem_map.mp hb
      exact h s hs)
    refine ⟨⟨s.pos.pageNum, .square (boxRect (pdf.mediaHeight s.pos.pageNum) s.pos) blue.primary none⟩ :: frames, ?_, _, frames, rfl, ⟨rfl, _, rfl, vi_frames _ _⟩, List.forall₂_map_left_iff.mp f2⟩
    have e : drawAll (fun b => drawBoundingBox pdf red { b with pageNum := s.pos.pageNum }) s.blocks = .ok frames := by
      rw [← f1]
      generalize s.blocks = bs
      induction bs with
      | nil => rfl
      | cons b bs ih => rw [List.map_cons, drawAll, drawAll, ih]
    unfold drawSegment
    rw [vi_frame (h s hs), e]
    rfl)
  refine ⟨parts, ?_, h1⟩
  have e : drawKind pdf "visualize-segments" p = .ok parts.flatten := h2
  have e2 : drawAll (drawKind pdf "visualize-segments") [p] = .ok parts.flatten := by
    rw [drawAll, e]
    simp [Outcome.bind, drawAll]
  show drawAll (fun kind => drawAll (drawKind pdf kind) [p]) ["visualize-segments"] = _
  rw [drawAll, e2]
  simp [Outcome.bind, drawAll]

/-- Non-vacuity: the document `wiDoc` of two pages (see `wiDoc_run` and the example after it) has no figures, graphics and shapes. -/
example : BoxesNumbered wiDoc := by
  intro k p hk
  match k with
  | 0 =>
    simp only [wiDoc, plDoc, List.cons_append, List.nil_append, List.getElem?_cons_zero, Option.some.injEq] at hk
    subst hk
    simp
  | 1 =>
    simp only [wiDoc, plDoc, List.cons_append, List.nil_append, List.getElem?_cons_succ, List.getElem?_cons_zero, Option.some.injEq] at hk
    subst hk
    simp
  | k + 2 => simp [wiDoc, plDoc] at hk

example (d : Document) (p : Pipeline.Page) : DrawnFrom refPipeline d p (drawnPage d (fun _ => [])
    ((segmentationCuts ⟨d.stats.avgCharWidth, d.stats.avgCharHeight, d.stats.mostFreqWordDistance⟩ refPipeline.seg (Pipeline.pageElems p)).map (drawnCut fun _ => []))
    ((readingOrderCuts ⟨d.stats.avgCharWidth, d.stats.avgCharHeight⟩ refPipeline.order
      ((Pipeline.orderElems p).blocks ++ (Pipeline.orderElems p).figures ++ (Pipeline.orderElems p).shapes)).map (drawnCut fun _ => [])) p) := by
  refine ⟨fun _ => [], fun _ => [], fun _ => [], _, _, rfl, ?_, ?_⟩
  · intro e he
    unfold PageSegmentation.pageElements at he
    simp only [List.mem_append] at he
    rcases he with ((he | he) | he) | he <;> obtain ⟨i, hi, rfl⟩ := List.mem_mapIdx.mp he <;> simp
    exact Or.inl ⟨_, List.getElem_mem _, rfl⟩
  · intro e he
    simp only [List.mem_append] at he
    rcases he with (he | he) | he <;> obtain ⟨i, hi, rfl⟩ := List.mem_mapIdx.mp he
    · exact Or.inl (List.mem_map.mpr ⟨_, List.getElem_mem _, rfl⟩)
    · exact Or.inr (Or.inl (List.getElem_mem _))
    · exact Or.inr (Or.inr (List.getElem_mem _))

end Verif.Props
