import Verif.Props.Ownership
import Verif.Props.Pipeline

/-!
# C82: the order of the blocks that reading order detection writes back
-/

namespace Verif.Props

open Verif.XYCut Verif.Spec Verif.ReadingOrder Verif.Pipeline

/-- The number of a block in `page->blocks` before the stage. -/
def blockNumber : RElem → Option ℕ
  | .block i _ _ => some i
  | _ => none

/-- The numbers of the blocks in the order in which reading order detection writes them back. -/
def orderNumbers (lib : Pipeline.Lib) (st : Statistics.Stats) (p : Pipeline.Page) : List ℕ :=
  (ReadingOrder.pageOrder ⟨st.avgCharWidth, st.avgCharHeight⟩ lib.order lib.sortTop (orderElems p).blocks (orderElems p).figures
    (orderElems p).shapes).filterMap blockNumber

theorem ow_numbers (bs : List TextBlock) : (bs.mapIdx fun i b => RElem.block i b.role b.block.pos).filterMap blockNumber = List.range bs.length := by
  induction bs using List.reverseRecOn with
  | nil => rfl
  | append_singleton bs b ih => simp [List.mapIdx_append, ih, blockNumber, List.range_succ]

theorem ow_blockOf (bs : List TextBlock) (l : List RElem) : (l.filterMap blockNumber).filterMap (bs[·]?) = l.filterMap (blockOf bs) := by
  rw [List.filterMap_filterMap]
  congr 1
  funext e
  cases e <;> simp [blockNumber, blockOf]

/-- What reading order detection writes back are the blocks of the page at positions in which each block appears exactly once (so the hypothesis `KeepsBlocks` of
`c82_released` holds of the program, for all pages whose boxes were rounded by the parser). -/
theorem c82_order_permutes {lib : Pipeline.Lib} {n : ℕ} (hn : n ≤ 3) (hl : LibOk lib) (st : Statistics.Stats) (p : Pipeline.Page)
    (hb : ∀ b ∈ p.blocks, RoundedBox n b.block.pos) (hf : ∀ b ∈ p.figures ++ p.shapes, RoundedBox n b) :
    (orderNumbers lib st p).Perm (List.range p.blocks.length) ∧
      (orderPage lib st p).blocks = (orderNumbers lib st p).filterMap (p.blocks[·]?) := by
  refine ⟨?_, ?_⟩
  · obtain ⟨hx, hy⟩ := c17_sorts_are_permutations hl.order hn
    have h := c33_permutation ⟨st.avgCharWidth, st.avgCharHeight⟩ lib.order lib.sortTop hx hy hl.sortTop (orderElems p).blocks
      (orderElems p).figures (orderElems p).shapes (by
        intro e he
        obtain ⟨i, hi, rfl⟩ := List.mem_mapIdx.mp he
        rfl) (by
        intro e he
        rcases List.mem_append.mp he with he | he <;> obtain ⟨i, hi, rfl⟩ := List.mem_mapIdx.mp he <;> rfl) (by
        intro e he
        simp only [List.mem_append] at he
        rcases he with (he | he) | he <;> obtain ⟨i, hi, rfl⟩ := List.mem_mapIdx.mp he
        · exact hb _ (List.getElem_mem hi)
        all_goals exact hf _ (by simp [RElem.pos]))
    have h2 := h.filterMap blockNumber
    rw [show (orderElems p).blocks.filterMap blockNumber = List.range p.blocks.length from ow_numbers p.blocks] at h2
    exact h2
  · exact (ow_blockOf p.blocks _).symm

/-- A block for examples. -/
def owBlock (i : ℕ) (top : ℚ) : TextBlock :=
  ⟨⟨[], ⟨1, 10, top, 200, top + 20, 0, 0⟩, i, [], 10, [], 0, 0, 0, 0, none, none, false, false, 0⟩, .other⟩

/-- Two blocks, the second one above the first: they change places. -/
example : orderNumbers refPipeline {} { pageNum := 1, characters := [], blocks := [owBlock 0 500, owBlock 1 100] } = [1, 0] ∧
    (∀ b ∈ [owBlock 0 500, owBlock 1 100], RoundedBox 3 b.block.pos) ∧ LibOk refPipeline :=
  ⟨by decide +kernel, (by
    intro b hb
    simp only [List.mem_cons, List.not_mem_nil, or_false] at hb
    rcases hb with rfl | rfl
    · exact ⟨⟨10, by decide +kernel⟩, ⟨500, by decide +kernel⟩, ⟨200, by decide +kernel⟩, ⟨520, by decide +kernel⟩⟩
    · exact ⟨⟨10, by decide +kernel⟩, ⟨100, by decide +kernel⟩, ⟨200, by decide +kernel⟩, ⟨120, by decide +kernel⟩⟩), refPipeline_ok⟩

end Verif.Props
