import Verif.Props.MoveLines

/-!
# C81: moving the contents — the lines of a page
-/

namespace Verif.Props

open Verif.Math Verif.Elements Verif.Counter Verif.Spec Verif.Words Verif.TextLines Verif.Pipeline
open Verif.PageSegmentation (PElem)

theorem mv_segmentLines {n : ℕ} {dx dy : ℚ} {lib : LineLib} (hl : SteadyLines dx dy lib)
    (hs : LineSorts (PageWord n) (fun l => RoundedBox n l.pos) lib) (acw : ℚ) (page ws : List Word)
    (hp : ∀ w ∈ page, mv_WordOk n dx dy w) (hw : ∀ w ∈ ws, w ∈ page) (hlen : mv_weight (ws.flatMap (wordGroup page)) < 2 ^ 32) :
    segmentLines lib acw (page.map (moveWord dx dy)) (ws.map (moveWord dx dy)) =
      mapOk (List.map (List.map (moveLine dx dy))) (segmentLines lib acw page ws) ∧
    ∀ gs, segmentLines lib acw page ws = .ok gs → ∀ l ∈ gs.flatten, mv_LineOk n dx dy l := by
  unfold segmentLines
  rw [mv_cluster page ws fun w hx => (hp w (hw w hx)).upright, hl.clusters]
  obtain ⟨c1, c2⟩ := cluster_spec page ws
  have hi := lib.iterPerm _ (cluster page ws)
  have hmem : ∀ c ∈ cluster page ws, ∀ e ∈ c.2, ∀ w ∈ e.2, w ∈ ws.flatMap (wordGroup page) := by
    intro c hc e he w hx
    apply c1.subset
    exact List.mem_flatMap.mpr ⟨c, hc, List.mem_flatMap.mpr ⟨e, he, hx⟩⟩
  apply mv_rotationGroups hl hs
  · intro c hc; exact c2 c (hi.subset hc)
  · intro c hc e he w hx
    obtain ⟨v, hv, hx'⟩ := List.mem_flatMap.mp (hmem c (hi.subset hc) e he w hx)
    exact hp w (pl_wordGroup_mem (hw v hv) hx')
  · intro c hc
    refine lt_of_le_of_lt ?_ hlen
    rw [← mv_weight_perm c1]
    have hsub : (c.2.flatMap (·.2)).Sublist (clusterWords (cluster page ws)) := by
      unfold clusterWords
      rw [List.flatMap_def]
      exact List.sublist_flatten_of_mem (List.mem_map_of_mem (hi.subset hc))
    exact (hsub.flatMap (fun w => w.chars)).length_le

/-! ## The trim box -/

theorem mv_stdRound {x : ℚ} (k : ℤ) (h0 : 0 ≤ x) (h1 : 0 ≤ x + k) : stdRound (x + k) = stdRound x + k := by
  simp only [stdRound, h0, h1, if_true]
  rw [show x + k + 1 / 2 = x + 1 / 2 + k by ring, Int.floor_add_intCast]

theorem mv_round {x dx : ℚ} (hk : ∃ k : ℤ, dx = k) (h0 : 0 ≤ x) (h1 : 0 ≤ x + dx) : roundTo (x + dx) 0 = roundTo x 0 + dx := by
  obtain ⟨k, rfl⟩ := hk
  simp only [roundTo, if_true]
  rw [mv_stdRound k h0 h1]
  push_cast
  rfl

theorem mv_dblMin_pos : 0 < dblMin := by unfold dblMin; positivity

theorem mv_rotRight_pos {dx dy : ℚ} {b : Box} (hm : Movable dx dy b) (h : b.rotation ≠ 1 ∧ b.rotation ≠ 3) :
    0 ≤ b.getRotRightX ∧ 0 ≤ b.getRotRightX + dx := by
  have hp := mv_dblMin_pos
  rw [mv_movable_iff] at hm
  obtain ⟨⟨a1, -, a3, -⟩, ⟨b1, -, b3, -⟩, -⟩ := hm
  simp only [Box.getRotRightX, h.1, h.2, if_false]
  split
  · exact ⟨by linarith, by linarith⟩
  · exact ⟨by linarith, by linarith⟩

theorem mv_trimRightX {dx dy : ℚ} {h : HashOrder} (hk : ∃ k : ℤ, dx = k)
    (hc : ∀ es, h.order ℚ (es.map (moveEntry dx)) = (h.order ℚ es).map (moveEntry dx)) (r : ℚ) (bs : List Box)
    (hb : ∀ b ∈ bs, Movable dx dy b ∧ b.rotation ≠ 1 ∧ b.rotation ≠ 3) :
    trimRightX h (r + dx) (bs.map (moveBox dx dy)) = mapOk (· + dx) (trimRightX h r bs) := by
  have hmap : (bs.map (moveBox dx dy)).map (fun b => roundTo b.getRotRightX 0) = (bs.map fun b => roundTo b.getRotRightX 0).map (· + dx) := by
    rw [List.map_map, List.map_map]
    apply List.map_congr_left
    intro b hx
    obtain ⟨h1, h2⟩ := hb b hx
    simp only [Function.comp_apply, mv_rotRightX h2]
    exact mv_round hk (mv_rotRight_pos h1 h2).1 (mv_rotRight_pos h1 h2).2
  simp only [trimRightX, hmap, mv_countAll, hc, mv_sumCounts, mv_mostFreqAndCount, List.length_map]
  split
  · cases mostFreqAndCount 0 (h.order ℚ (countAll (bs.map fun b => roundTo b.getRotRightX 0))) with
    | ok p =>
      simp only [mapOk, Outcome.bind, moveEntry]
      generalize (if (bs.length : ℚ) > 0 then (p.2 : ℚ) / (bs.length : ℚ) else 0) = ratio
      split <;> rfl
    | throw m => rfl
    | ub m => rfl
  · rfl

theorem mv_trim_int {h : HashOrder} {r : ℚ} {bs : List Box} {t : ℚ} (ht : trimRightX h r bs = .ok t) : t = r ∨ ∃ k : ℤ, t = k := by
  simp only [trimRightX] at ht
  split at ht
  · rename_i hpos
    cases hm : mostFreqAndCount 0 (h.order ℚ (countAll (bs.map fun b => roundTo b.getRotRightX 0))) with
    | ok p =>
      rw [hm] at ht
      simp only [Outcome.bind, Outcome.ok.injEq] at ht
      generalize (if (bs.length : ℚ) > 0 then (p.2 : ℚ) / (bs.length : ℚ) else 0) = ratio at ht
      split at ht
      · right
        have hint : ∀ e ∈ h.order ℚ (countAll (bs.map fun b => roundTo b.getRotRightX 0)), ∃ k : ℤ, e.1 = k := by
          intro e he
          have he' := (h.perm ℚ _).subset he
          have key : ∀ (xs : List ℚ) (es : Entries ℚ), (∀ x ∈ xs, ∃ k : ℤ, x = k) → (∀ e ∈ es, ∃ k : ℤ, e.1 = k) →
              ∀ e ∈ xs.foldl increment es, ∃ k : ℤ, e.1 = k := by
            intro xs
            induction xs with
            | nil => intro es _ h e he; exact h e he
            | cons x xs ih =>
              intro es hx hes
              apply ih
              · intro y hy; exact hx y (by simp [hy])
              · clear ih
                induction es with
                | nil => intro e he; simp only [increment, List.mem_singleton] at he; subst he; exact hx x (by simp)
                | cons e0 es ih2 =>
                  intro e he
                  rw [increment] at he
                  split at he
                  · rcases List.mem_cons.mp he with rfl | he
                    · exact hes e0 (by simp)
                    · exact hes e (by simp [he])
                  · rcases List.mem_cons.mp he with rfl | he
                    · exact hes _ (by simp)
                    · exact ih2 (fun y hy => hes y (by simp [hy])) e he
          refine key _ [] ?_ (by simp) e he'
          intro x hx
          obtain ⟨b, _, rfl⟩ := List.mem_map.mp hx
          exact ⟨stdRound b.getRotRightX, by simp [roundTo]⟩
        rw [← ht]
        have hfold : ∀ (es : Entries ℚ) (b : ℚ × ℕ), (∀ e ∈ es, ∃ k : ℤ, e.1 = k) → (∃ k : ℤ, b.1 = k) →
            ∃ k : ℤ, (es.foldl mostFreqStep b).1 = k := by
          intro es
          induction es with
          | nil => intro b _ h; exact h
          | cons e es ih =>
            intro b h1 h2
            apply ih _ (fun x hx => h1 x (by simp [hx]))
            simp only [mostFreqStep]
            split
            · exact h1 e (by simp)
            · exact h2
        simp only [mostFreqAndCount] at hm
        split at hm
        · cases hm
        · simp only [Outcome.ok.injEq] at hm
          rw [← hm]
          exact hfold _ (0, 0) hint ⟨0, by simp⟩
      · left; exact ht.symm
    | throw m => rw [hm] at ht; cases ht
    | ub m => rw [hm] at ht; cases ht
  · simp only [Outcome.ok.injEq] at ht; left; exact ht.symm

theorem mv_dblMin_not_int (k : ℤ) : dblMin ≠ k := by
  intro h
  have h0 := mv_dblMin_pos
  have h1 : dblMin < 1 := by decide +kernel
  rw [h] at h0 h1
  have a : 0 < k := by exact_mod_cast h0
  have b : k < 1 := by exact_mod_cast h1
  omega

theorem mv_computeTrimBox {dx dy : ℚ} {h : HashOrder} (hk : ∃ k : ℤ, dx = k)
    (hc : ∀ es, h.order ℚ (es.map (moveEntry dx)) = (h.order ℚ es).map (moveEntry dx)) {s : Box} (hs : Movable dx dy s) (bs : List Box)
    (hb : ∀ b ∈ bs, Movable dx dy b ∧ b.rotation ≠ 1 ∧ b.rotation ≠ 3) :
    computeTrimBox h (moveBox dx dy s) (bs.map (moveBox dx dy)) = mapOk (moveTrim dx dy) (computeTrimBox h s bs) ∧
    ∀ t, computeTrimBox h s bs = .ok t → moveTrim dx dy t = (t.1 + dx, t.2.1 + dy, t.2.2.1 + dx, t.2.2.2 + dy) := by
  have key : ∀ t, trimRightX h s.rightX bs = .ok t →
      moveTrim dx dy (s.leftX, s.upperY, t, s.lowerY) = (s.leftX + dx, s.upperY + dy, t + dx, s.lowerY + dy) := by
    intro t ht
    unfold moveTrim
    split
    · rename_i he
      simp only [Prod.mk.injEq] at he
      obtain ⟨h1, h2, h3, h4⟩ := he
      rw [mv_movable_iff] at hs
      obtain ⟨⟨-, -, -, a4⟩, ⟨-, -, b3, -⟩, ⟨-, -, -, c4⟩, ⟨-, -, d3, -⟩⟩ := hs
      rw [h2] at c4
      rw [h4] at d3
      rw [h1] at a4
      have ey : dy = 0 := by linarith
      rcases mv_trim_int ht with rfl | ⟨k, rfl⟩
      · rw [h3] at b3
        have ex : dx = 0 := by linarith
        subst ex ey
        simp only [add_zero]
      · exact absurd h3.symm (mv_dblMin_not_int k)
    · rfl
  have e1 : (moveBox dx dy s).rightX = s.rightX + dx := rfl
  refine ⟨?_, ?_⟩
  · unfold computeTrimBox
    rw [e1, mv_trimRightX hk hc s.rightX bs hb]
    cases ht : trimRightX h s.rightX bs with
    | ok t => simp only [mapOk, Outcome.bind, key t ht]; rfl
    | throw m => rfl
    | ub m => rfl
  · intro t ht
    unfold computeTrimBox at ht
    cases hr : trimRightX h s.rightX bs with
    | ok r =>
      rw [hr] at ht
      simp only [Outcome.bind, Outcome.ok.injEq] at ht
      subst ht
      exact key r hr
    | throw m => rw [hr] at ht; cases ht
    | ub m => rw [hr] at ht; cases ht

/-! ## The hierarchy -/

theorem mv_hierarchyStep {dx dy : ℚ} {m : ℕ} {pos pos' : ℕ → Box} (hp : ∀ i, i < m → pos' i = moveBox dx dy (pos i)) (thr : ℚ)
    (st : HState) (i : ℕ) (hi : i < m) (hst : ∀ j ∈ st.stack, j < m) :
    hierarchyStep pos' thr st i = hierarchyStep pos thr st i ∧ ∀ j ∈ (hierarchyStep pos thr st i).stack, j < m := by
  have hl : ∀ j, j < m → (pos' j).leftX = (pos j).leftX + dx := fun j hj => by rw [hp j hj]; rfl
  have hlo : ∀ j, j < m → (pos' j).lowerY = (pos j).lowerY + dy := fun j hj => by rw [hp j hj]; rfl
  have hreset : resetsStack (if i = 0 then none else some (pos' (i - 1))) (pos' i) =
      resetsStack (if i = 0 then none else some (pos (i - 1))) (pos i) := by
    by_cases h : i = 0
    · simp only [h, if_true]; rfl
    · simp only [h, if_false, resetsStack]
      rw [hp (i - 1) (by omega), hp i hi, mv_vgap]
      rfl
  have hdrop : ∀ s : List ℕ, (∀ j ∈ s, j < m) → s.dropWhile (fun j => larger (pos' j).leftX (pos' i).leftX thr) =
      s.dropWhile (fun j => larger (pos j).leftX (pos i).leftX thr) := by
    intro s
    induction s with
    | nil => intro _; rfl
    | cons j s ih =>
      intro hs
      simp only [List.dropWhile_cons]
      rw [hl j (hs j (by simp)), hl i hi, mv_larger, ← hl i hi, ih fun x hx => hs x (by simp [hx])]
  have h0 : ∀ j ∈ (if resetsStack (if i = 0 then none else some (pos (i - 1))) (pos i) then [] else st.stack), j < m := by
    intro j hj
    by_cases hb : resetsStack (if i = 0 then none else some (pos (i - 1))) (pos i) = true
    · rw [if_pos hb] at hj; cases hj
    · rw [if_neg hb] at hj; exact hst j hj
  unfold hierarchyStep
  simp only [hreset]
  rw [hdrop _ h0]
  generalize hS : (if resetsStack (if i = 0 then none else some (pos (i - 1))) (pos i) then [] else st.stack) = s0 at h0
  have h1 : ∀ j ∈ s0.dropWhile (fun j => larger (pos j).leftX (pos i).leftX thr), j < m :=
    fun j hj => h0 j ((List.dropWhile_sublist _).subset hj)
  generalize s0.dropWhile (fun j => larger (pos j).leftX (pos i).leftX thr) = s1 at h1
  cases s1 with
  | nil => exact ⟨rfl, by simpa using hi⟩
  | cons top rest =>
    have ht := h1 top (by simp)
    simp only [hl top ht, hl i hi, hlo top ht, hlo i hi, mv_eol, mv_equal, mv_smaller]
    refine ⟨trivial, ?_⟩
    have hr : ∀ j ∈ rest, j < m := fun j hj => h1 j (by simp [hj])
    split
    · exact h1
    · split
      · intro j hj
        rcases List.mem_cons.mp hj with rfl | hj
        · exact hi
        · exact hr j hj
      · split
        · intro j hj
          rcases List.mem_cons.mp hj with rfl | hj
          · exact hi
          · exact h1 j hj
        · exact h1

theorem mv_hierarchy {dx dy : ℚ} {m : ℕ} {pos pos' : ℕ → Box} (hp : ∀ i, i < m → pos' i = moveBox dx dy (pos i)) (thr : ℚ) :
    computeTextLineHierarchy pos' thr m = computeTextLineHierarchy pos thr m := by
  have key : ∀ (l : List ℕ) (st : HState), (∀ i ∈ l, i < m) → (∀ j ∈ st.stack, j < m) →
      l.foldl (hierarchyStep pos' thr) st = l.foldl (hierarchyStep pos thr) st := by
    intro l
    induction l with
    | nil => intro st _ _; rfl
    | cons i l ih =>
      intro st hi hst
      obtain ⟨h1, h2⟩ := mv_hierarchyStep hp thr st i (hi i (by simp)) hst
      rw [List.foldl_cons, List.foldl_cons, h1]
      exact ih _ (fun x hx => hi x (by simp [hx])) h2
  unfold computeTextLineHierarchy
  rw [key _ {} (by simp) (by intro j hj; cases hj)]

end Verif.Props
