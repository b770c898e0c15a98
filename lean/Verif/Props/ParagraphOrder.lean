import Verif.Props.ParagraphStats

/-!
# C99: the order of the blocks of a page set in fixed-width type
-/

namespace Verif.Props

open Verif.Math Verif.Elements Verif.Spec Verif.Pipeline Verif.ReadingOrder

/-- Elements that cannot be divided by a vertical line are read from top to bottom. -/
theorem pp_order_sorted {es out : List RElem} (h : PageReadingOrder es out) (hx : ∀ a ∈ es, ∀ b ∈ es, ¬ a.pos.rightX ≤ b.pos.leftX) (ht : ∀ a ∈ es, a.pos.upperY ≤ a.pos.lowerY) :
    out.Perm es ∧ out.Pairwise fun a b => a.pos.upperY ≤ b.pos.upperY := by
  induction h with
  | column h1 h2 _ => exact ⟨h1, h2⟩
  | @leftRight es xs ys ox oy h1 h2 h3 h4 _ _ _ _ =>
    exfalso
    obtain ⟨a, ha⟩ := List.exists_mem_of_ne_nil _ h2
    obtain ⟨b, hb⟩ := List.exists_mem_of_ne_nil _ h3
    exact hx a (h1.symm.subset (by simp [ha])) b (h1.symm.subset (by simp [hb])) (h4 a ha b hb)
  | @topBottom es xs ys ox oy h1 h2 h3 h4 _ _ i1 i2 =>
    have hxs : ∀ a ∈ xs, a ∈ es := fun a ha => h1.symm.subset (by simp [ha])
    have hys : ∀ a ∈ ys, a ∈ es := fun a ha => h1.symm.subset (by simp [ha])
    obtain ⟨j1, j2⟩ := i1 (fun a ha b hb => hx a (hxs a ha) b (hxs b hb)) fun a ha => ht a (hxs a ha)
    obtain ⟨k1, k2⟩ := i2 (fun a ha b hb => hx a (hys a ha) b (hys b hb)) fun a ha => ht a (hys a ha)
    refine ⟨(j1.append k1).trans h1.symm, List.pairwise_append.mpr ⟨j2, k2, fun a ha b hb => ?_⟩⟩
    have ha' := j1.subset ha
    have hb' := k1.subset hb
    exact (ht a (hxs a ha')).trans (h4 a ha' b hb')

/-- Blocks one below the other stay in order. -/
theorem pp_orderPage {lib : Pipeline.Lib} {n : ℕ} (hn : n ≤ 3) (hl : LibOk lib) (st : Statistics.Stats) (p : Pipeline.Page) (hf : p.figures = []) (hs : p.shapes = [])
    (hr : ∀ b ∈ p.blocks, RoundedBox n b.block.pos) (hb : ∀ b ∈ p.blocks, ∃ W a, PpBlockBox W a b.block.pos)
    (hsort : p.blocks.Pairwise fun a b => a.block.pos.upperY < b.block.pos.upperY) : (orderPage lib st p).blocks = p.blocks := by
  have hmem : ∀ e ∈ (orderElems p).blocks ++ (orderElems p).figures ++ (orderElems p).shapes, ∃ b ∈ p.blocks, e.pos = b.block.pos ∧ e.isBlock = true := by
    intro e he
    unfold orderElems at he
    simp only [hf, hs, List.mapIdx_nil, List.append_nil] at he
    obtain ⟨i, hi, rfl⟩ := List.mem_mapIdx.mp he
    exact ⟨_, List.getElem_mem hi, rfl, rfl⟩
  have hes : (orderElems p).blocks ++ (orderElems p).figures ++ (orderElems p).shapes = (orderElems p).blocks := by
    unfold orderElems
    simp only [hf, hs, List.mapIdx_nil, List.append_nil]
  have hpair : ((orderElems p).blocks ++ (orderElems p).figures ++ (orderElems p).shapes).Pairwise fun a b => a.pos.upperY < b.pos.upperY := by
    rw [hes]
    have : (orderElems p).blocks.map (fun e => e.pos.upperY) = p.blocks.map fun b => b.block.pos.upperY := by
      unfold orderElems
      refine List.ext_getElem (by simp) fun i h1 h2 => ?_
      simp only [List.getElem_mapIdx, List.getElem_map]
      rfl
    have h2 : (p.blocks.map fun b => b.block.pos.upperY).Pairwise (· < ·) := List.pairwise_map.mpr hsort
    rw [← this] at h2
    exact List.pairwise_map.mp h2
  have hgood : GoodElems RElem.pos n ((orderElems p).blocks ++ (orderElems p).figures ++ (orderElems p).shapes) := by
    constructor
    · intro e he
      obtain ⟨b, h1, h2, _⟩ := hmem e he
      obtain ⟨W, a, h3⟩ := hb b h1
      rw [h2]
      refine ⟨hr b h1, ?_, ?_, ?_⟩
      · unfold Upright
        rw [h3.upright]
        exact ⟨by decide, by decide⟩
      · rw [h3.left]; linarith [h3.right]
      · rw [h3.upper]; exact h3.lower
    · refine hpair.imp_of_mem fun {a b} ha hb' hab => ⟨fun _ => ?_, fun e => absurd e hab.ne⟩
      have hw : ∀ e ∈ (orderElems p).blocks ++ (orderElems p).figures ++ (orderElems p).shapes, e.pos.leftX < e.pos.rightX := by
        intro e he
        obtain ⟨b, h1, h2, _⟩ := hmem e he
        obtain ⟨W, a, h3⟩ := hb b h1
        rw [h2, h3.left]; linarith [h3.right]
      exact ⟨hw a ha, hw b hb'⟩
  obtain ⟨order, h1, h2⟩ := c57_reading_order ⟨st.avgCharWidth, st.avgCharHeight⟩ hl.order hn lib.sortTop hl.sortTop _ _ _ hgood
  obtain ⟨h3, h4⟩ := pp_order_sorted h1 (by
    intro a ha b hb'
    obtain ⟨x, x1, x2, _⟩ := hmem a ha
    obtain ⟨y, y1, y2, _⟩ := hmem b hb'
    obtain ⟨W, i, h3⟩ := hb x x1
    obtain ⟨W', i', h4⟩ := hb y y1
    rw [x2, y2, h4.left]
    linarith [h3.right]) (by
    intro a ha
    exact (hgood.parsed a ha).tall)
  have heq : order = (orderElems p).blocks ++ (orderElems p).figures ++ (orderElems p).shapes := by
    refine List.Perm.eq_of_pairwise (le := fun a b => a.pos.upperY ≤ b.pos.upperY) ?_ h4 (hpair.imp fun h => h.le) h3
    intro a b ha hb' hab hba
    have ha' := h3.subset ha
    by_contra hne
    obtain ⟨i, hi, rfl⟩ := List.getElem_of_mem ha'
    obtain ⟨j, hj, rfl⟩ := List.getElem_of_mem hb'
    rcases lt_trichotomy i j with h | h | h
    · have := List.pairwise_iff_getElem.mp hpair i j hi hj h
      linarith
    · subst h; exact hne rfl
    · have := List.pairwise_iff_getElem.mp hpair j i hj hi h
      linarith
  unfold orderPage
  simp only
  rw [h2, heq, hes, List.filter_eq_self.mpr]
  · exact pl_blockElems _
  · intro e he
    rw [hes] at hmem
    obtain ⟨_, _, _, h⟩ := hmem e he
    exact h

end Verif.Props
