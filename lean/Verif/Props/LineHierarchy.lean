import Verif.Model.TextLines
import Verif.Props.Words

/-!
# Text line hierarchy and trim box: C28, C29
-/

namespace Verif.Props

open Verif.Math Verif.Elements Verif.Spec Verif.Counter Verif.TextLines

/-! ## C28 -/

/-- The invariant of the loop: what holds after the lines `0, …, i-1`. -/
structure HInv (pos : ℕ → Box) (thr : ℚ) (i : ℕ) (st : HState) : Prop where
  stackLt : ∀ s ∈ st.stack, s < i
  stackDec : st.stack.Pairwise (· > ·)
  stackNext : ∀ s ∈ st.stack, (st.links s).nextSibling = none
  fresh : ∀ j, i ≤ j → st.links j = {}
  parentLt : ∀ j k, (st.links j).parent = some k → k < j ∧ (pos k).lowerY < (pos j).lowerY
  sib : ∀ j k, (st.links j).nextSibling = some k ↔ (st.links k).prevSibling = some j
  sibLt : ∀ j k, (st.links k).prevSibling = some j → j < k ∧
    (st.links j).parent = (st.links k).parent ∧ |(pos j).leftX - (pos k).leftX| ≤ thr ∧
    (pos j).lowerY < (pos k).lowerY - 1 / 10
  par : ∀ j k, (st.links k).parent = some j → (st.links k).prevSibling = none →
    (pos j).leftX < (pos k).leftX - thr ∧ (pos j).lowerY < (pos k).lowerY - 1 / 10

theorem HInv.init (pos : ℕ → Box) (thr : ℚ) : HInv pos thr 0 {} where
  stackLt := by simp
  stackDec := by simp
  stackNext := by simp
  fresh := by simp
  parentLt := by simp
  sib := by simp
  sibLt := by simp
  par := by simp

theorem HInv.drop {pos : ℕ → Box} {thr : ℚ} {i : ℕ} {st : HState} (h : HInv pos thr i st)
    (stack : List ℕ) (hs : stack.Sublist st.stack) : HInv pos thr i { st with stack := stack } where
  stackLt s hm := h.stackLt s (hs.subset hm)
  stackDec := h.stackDec.sublist hs
  stackNext s hm := h.stackNext s (hs.subset hm)
  fresh := h.fresh
  parentLt := h.parentLt
  sib := h.sib
  sibLt := h.sibLt
  par := h.par

theorem HInv.skip {pos : ℕ → Box} {thr : ℚ} {i : ℕ} {st : HState} (h : HInv pos thr i st) :
    HInv pos thr (i + 1) st where
  stackLt s hm := by have := h.stackLt s hm; omega
  stackDec := h.stackDec
  stackNext := h.stackNext
  fresh j hj := h.fresh j (by omega)
  parentLt := h.parentLt
  sib := h.sib
  sibLt := h.sibLt
  par := h.par

theorem HInv.step {pos : ℕ → Box} {thr : ℚ} {i : ℕ} {st : HState} (h : HInv pos thr i st) :
    HInv pos thr (i + 1) (hierarchyStep pos thr st i) := by
  unfold hierarchyStep
  simp only
  generalize hs0 : (if resetsStack (if i = 0 then none else some (pos (i - 1))) (pos i) = true then []
    else st.stack) = stack0
  have hsub0 : stack0.Sublist st.stack := by
    rw [← hs0]; split_ifs <;> first | exact List.nil_sublist _ | exact List.Sublist.refl _
  have hsub : (stack0.dropWhile fun j => larger (pos j).leftX (pos i).leftX thr).Sublist st.stack :=
    (List.dropWhile_sublist _).trans hsub0
  have hd := h.drop _ hsub
  generalize (stack0.dropWhile fun j => larger (pos j).leftX (pos i).leftX thr) = stack at hd hsub ⊢
  have hfi := h.fresh i (le_refl _)
  cases stack with
  | nil =>
    simp only
    have hd1 := hd.skip
    exact {
      stackLt := by simp
      stackDec := by simp
      stackNext := by intro s hs; simp only [List.mem_singleton] at hs; subst hs; simp [hfi]
      fresh := hd1.fresh, parentLt := hd1.parentLt, sib := hd1.sib, sibLt := hd1.sibLt, par := hd1.par }
  | cons top rest =>
    simp only
    have htop : top < i := hd.stackLt top (by simp)
    have hrest : ∀ s ∈ rest, s < top := fun s hs => by
      have := hd.stackDec; simp only [List.pairwise_cons] at this; exact this.1 s hs
    have hpw : rest.Pairwise (· > ·) := by
      have := hd.stackDec; simp only [List.pairwise_cons] at this; exact this.2
    have hnext : ∀ s ∈ top :: rest, (st.links s).nextSibling = none := hd.stackNext
    have hlt : ∀ s ∈ top :: rest, s < i := hd.stackLt
    split
    · exact hd.skip
    · next hy =>
      rw [Bool.not_eq_true, eol_false] at hy
      split
      · next heq =>
        rw [equal_iff] at heq
        have hnone : (st.links top).nextSibling = none := hnext top (by simp)
        have hti : top ≠ i := by omega
        have hnoprev : ∀ k, (st.links k).prevSibling ≠ some i := by
          intro k hk
          have := (h.sib i k).mpr hk
          rw [hfi] at this; simp at this
        have hnoprev' : ∀ k, (st.links k).prevSibling ≠ some top := by
          intro k hk
          have := (h.sib top k).mpr hk
          rw [hnone] at this; simp at this
        have hnonext : ∀ j, (st.links j).nextSibling ≠ some i := by
          intro j hj
          have := (h.sib j i).mp hj
          rw [hfi] at this; simp at this
        have hl : ∀ j, (Function.update (Function.update st.links top
            { st.links top with nextSibling := some i }) i
            { (Function.update st.links top { st.links top with nextSibling := some i }) i with
              prevSibling := some top
              parent := ((Function.update st.links top { st.links top with nextSibling := some i }) top).parent })
            j = if j = i then { parent := (st.links top).parent, prevSibling := some top, nextSibling := none }
              else if j = top then { st.links top with nextSibling := some i } else st.links j := by
          intro j
          simp only [Function.update_apply, if_true]
          by_cases h1 : j = i
          · simp only [h1, if_true]; rw [if_neg (Ne.symm hti), hfi]
          · simp only [h1, if_false]
        generalize hL : (Function.update (Function.update st.links top
            { st.links top with nextSibling := some i }) i
            { (Function.update st.links top { st.links top with nextSibling := some i }) i with
              prevSibling := some top
              parent := ((Function.update st.links top { st.links top with nextSibling := some i }) top).parent })
            = L at hl ⊢
        have hpar : ∀ j, (L j).parent = if j = i then (st.links top).parent else (st.links j).parent := by
          intro j; rw [hl]; by_cases h1 : j = i
          · simp [h1]
          · by_cases h2 : j = top <;> simp [h1, h2, hti]
        have hprev : ∀ j, (L j).prevSibling = if j = i then some top else (st.links j).prevSibling := by
          intro j; rw [hl]; by_cases h1 : j = i
          · simp [h1]
          · by_cases h2 : j = top <;> simp [h1, h2, hti]
        have hnx : ∀ j, (L j).nextSibling = if j = i then none else if j = top then some i
            else (st.links j).nextSibling := by
          intro j; rw [hl]; by_cases h1 : j = i
          · simp [h1]
          · by_cases h2 : j = top <;> simp [h1, h2, hti]
        exact {
          stackLt := by
            intro s hs
            rcases List.mem_cons.mp hs with rfl | hs
            · omega
            · have := hlt s (by simp [hs]); omega
          stackDec := by
            simp only [List.pairwise_cons]
            exact ⟨fun s hs => hlt s (by simp [hs]), hpw⟩
          stackNext := by
            intro s hs
            simp only [hnx]
            rcases List.mem_cons.mp hs with rfl | hs
            · simp
            · have h1 := hlt s (by simp [hs])
              have h2 := hrest s hs
              rw [if_neg (by omega), if_neg (by omega)]
              exact hnext s (by simp [hs])
          fresh := by
            intro j hj
            simp only [hl]
            rw [if_neg (by omega), if_neg (by omega)]
            exact h.fresh j (by omega)
          parentLt := by
            intro j k hk
            simp only [hpar] at hk
            by_cases h1 : j = i
            · subst h1
              simp only [if_true] at hk
              obtain ⟨g1, g2⟩ := h.parentLt top k hk
              exact ⟨by omega, by linarith⟩
            · simp only [h1, if_false] at hk
              exact h.parentLt j k hk
          sib := by
            intro j k
            simp only [hnx, hprev]
            by_cases hk : k = i
            · subst hk
              simp only [if_true, Option.some.injEq]
              by_cases h1 : j = k
              · subst h1; simp [hti]
              · simp only [h1, if_false]
                by_cases h2 : j = top
                · subst h2; simp
                · simp only [h2, if_false]
                  exact ⟨fun hc => absurd hc (hnonext j), fun hc => absurd hc.symm h2⟩
            · simp only [hk, if_false]
              by_cases h1 : j = i
              · subst h1
                simp only [if_true]
                exact ⟨fun hc => by simp at hc, fun hc => absurd hc (hnoprev k)⟩
              · simp only [h1, if_false]
                by_cases h2 : j = top
                · subst h2
                  simp only [if_true, Option.some.injEq]
                  exact ⟨fun hc => absurd hc.symm hk, fun hc => absurd hc (hnoprev' k)⟩
                · simp only [h2, if_false]
                  exact h.sib j k
          sibLt := by
            intro j k hk
            simp only [hprev] at hk
            by_cases h1 : k = i
            · subst h1
              simp only [if_true, Option.some.injEq] at hk
              subst hk
              refine ⟨htop, ?_, heq, hy⟩
              simp only [hpar, if_true]
              rw [if_neg hti]
            · simp only [h1, if_false] at hk
              obtain ⟨g1, g2, g3, g4⟩ := h.sibLt j k hk
              have hji : j ≠ i := by
                intro hc; subst hc; exact hnoprev k hk
              refine ⟨g1, ?_, g3, g4⟩
              simp only [hpar, hji, h1, if_false]
              exact g2
          par := by
            intro j k hk hp
            simp only [hpar] at hk
            simp only [hprev] at hp
            by_cases h1 : k = i
            · subst h1; simp at hp
            · simp only [h1, if_false] at hk hp
              exact h.par j k hk hp }
      · split
        · next hneq hsm =>
          rw [smaller_iff] at hsm
          have hti : top ≠ i := by omega
          have hl : ∀ j, (Function.update st.links i { st.links i with parent := some top }) j =
              if j = i then { parent := some top } else st.links j := by
            intro j
            simp only [Function.update_apply, hfi]
          generalize (Function.update st.links i { st.links i with parent := some top }) = L at hl ⊢
          have hpar : ∀ j, (L j).parent = if j = i then some top else (st.links j).parent := by
            intro j; rw [hl]; split <;> rfl
          have hprev : ∀ j, (L j).prevSibling = (st.links j).prevSibling := by
            intro j; rw [hl]; split
            · next e => rw [e, hfi]
            · rfl
          have hnx : ∀ j, (L j).nextSibling = (st.links j).nextSibling := by
            intro j; rw [hl]; split
            · next e => rw [e, hfi]
            · rfl
          exact {
            stackLt := by
              intro s hs
              rcases List.mem_cons.mp hs with rfl | hs
              · omega
              · have := hlt s hs; omega
            stackDec := by
              rw [List.pairwise_cons]
              exact ⟨fun s hs => hlt s hs, hd.stackDec⟩
            stackNext := by
              intro s hs
              simp only [hnx]
              rcases List.mem_cons.mp hs with rfl | hs
              · rw [hfi]
              · exact hnext s hs
            fresh := by
              intro j hj
              simp only [hl]
              rw [if_neg (by omega)]
              exact h.fresh j (by omega)
            parentLt := by
              intro j k hk
              simp only [hpar] at hk
              by_cases h1 : j = i
              · subst h1
                simp only [if_true, Option.some.injEq] at hk
                subst hk
                exact ⟨htop, by linarith⟩
              · simp only [h1, if_false] at hk
                exact h.parentLt j k hk
            sib := by
              intro j k
              simp only [hnx, hprev]
              exact h.sib j k
            sibLt := by
              intro j k hk
              simp only [hprev] at hk
              obtain ⟨g1, g2, g3, g4⟩ := h.sibLt j k hk
              have hk' : k ≠ i := by
                intro hc; subst hc; rw [hfi] at hk; simp at hk
              have hj' : j ≠ i := by
                intro hc; subst hc
                have := (h.sib j k).mpr hk
                rw [hfi] at this; simp at this
              refine ⟨g1, ?_, g3, g4⟩
              simp only [hpar, hk', hj', if_false]
              exact g2
            par := by
              intro j k hk hp
              simp only [hpar] at hk
              simp only [hprev] at hp
              by_cases h1 : k = i
              · subst h1
                simp only [if_true, Option.some.injEq] at hk
                subst hk
                exact ⟨hsm, hy⟩
              · simp only [h1, if_false] at hk
                exact h.par j k hk hp }
        · exact hd.skip

/-- The state after `n` lines. -/
def hierarchyState (pos : ℕ → Box) (thr : ℚ) (n : ℕ) : HState :=
  (List.range n).foldl (hierarchyStep pos thr) {}

theorem hierarchyState_succ (pos : ℕ → Box) (thr : ℚ) (n : ℕ) :
    hierarchyState pos thr (n + 1) = hierarchyStep pos thr (hierarchyState pos thr n) n := by
  simp [hierarchyState, List.range_succ]

theorem hierarchy_inv (pos : ℕ → Box) (thr : ℚ) (n : ℕ) : HInv pos thr n (hierarchyState pos thr n) := by
  induction n with
  | zero => exact HInv.init pos thr
  | succ n ih => rw [hierarchyState_succ]; exact ih.step

/-- C28 (forest): the parent of a line is an earlier line of the page, which ends higher up; hence the
parent links contain no cycle, following them terminates. -/
theorem c28_forest (pos : ℕ → Box) (thr : ℚ) (n : ℕ) :
    (∀ j k, (computeTextLineHierarchy pos thr n j).parent = some k →
      j < n ∧ k < j ∧ (pos k).lowerY < (pos j).lowerY) ∧
    WellFounded fun k j => (computeTextLineHierarchy pos thr n j).parent = some k := by
  have h := hierarchy_inv pos thr n
  refine ⟨fun j k hk => ⟨?_, h.parentLt j k hk⟩, ?_⟩
  · by_contra hj
    have := h.fresh j (by omega)
    rw [computeTextLineHierarchy] at hk
    change ((hierarchyState pos thr n).links j).parent = some k at hk
    rw [this] at hk; simp at hk
  · exact Subrelation.wf (fun {k j} hk => (h.parentLt j k hk).1) Nat.lt_wfRel.wf

/-- C28 (siblings): previous and next sibling are inverse to each other; a previous sibling is an
earlier line, has the same parent, the same left edge up to the threshold, and ends higher up. -/
theorem c28_siblings (pos : ℕ → Box) (thr : ℚ) (n : ℕ) (j k : ℕ) :
    ((computeTextLineHierarchy pos thr n j).nextSibling = some k ↔
      (computeTextLineHierarchy pos thr n k).prevSibling = some j) ∧
    ((computeTextLineHierarchy pos thr n k).prevSibling = some j →
      j < k ∧ k < n ∧
      (computeTextLineHierarchy pos thr n j).parent = (computeTextLineHierarchy pos thr n k).parent ∧
      |(pos j).leftX - (pos k).leftX| ≤ thr ∧ (pos j).lowerY < (pos k).lowerY - 1 / 10) := by
  have h := hierarchy_inv pos thr n
  refine ⟨h.sib j k, fun hk => ?_⟩
  obtain ⟨h1, h2, h3, h4⟩ := h.sibLt j k hk
  refine ⟨h1, ?_, h2, h3, h4⟩
  by_contra hc
  have := h.fresh k (by omega)
  change ((hierarchyState pos thr n).links k).prevSibling = some j at hk
  rw [this] at hk; simp at hk

/-- C28 (less indented, partial): the parent of a line without a previous sibling is less indented by
more than the threshold. Missing: for later siblings this is false, see
`c28_parent_more_indented`. -/
theorem c28_parent_less_indented_partial (pos : ℕ → Box) (thr : ℚ) (n : ℕ) (j k : ℕ)
    (hk : (computeTextLineHierarchy pos thr n k).parent = some j)
    (hp : (computeTextLineHierarchy pos thr n k).prevSibling = none) :
    (pos j).leftX < (pos k).leftX - thr :=
  ((hierarchy_inv pos thr n).par j k hk hp).1

/-- C28 (less indented, for all siblings): the parent of a line lies left (by more than the threshold)
of the first line of its chain of siblings, which has the same parent. -/
theorem c28_parent_of_first_sibling (pos : ℕ → Box) (thr : ℚ) (n : ℕ) (k : ℕ) : ∀ j,
    (computeTextLineHierarchy pos thr n k).parent = some j →
    ∃ f, Relation.ReflTransGen (fun a b => (computeTextLineHierarchy pos thr n a).nextSibling = some b) f k ∧
      (computeTextLineHierarchy pos thr n f).prevSibling = none ∧
      (computeTextLineHierarchy pos thr n f).parent = some j ∧ (pos j).leftX < (pos f).leftX - thr := by
  induction k using Nat.strong_induction_on with
  | _ k ih =>
    intro j hj
    cases hp : (computeTextLineHierarchy pos thr n k).prevSibling with
    | none => exact ⟨k, .refl, hp, hj, c28_parent_less_indented_partial pos thr n j k hj hp⟩
    | some s =>
      obtain ⟨h1, h2⟩ := c28_siblings pos thr n s k
      obtain ⟨hlt, _, hpar, _⟩ := h2 hp
      obtain ⟨f, g1, g2, g3, g4⟩ := ih s hlt j (by rw [hpar]; exact hj)
      exact ⟨f, g1.tail (h1.mpr hp), g2, g3, g4⟩

/-- A line at a given position, for examples. -/
def lineAt (x y : ℚ) : Box := { pageNum := 1, leftX := x, upperY := y, rightX := x + 100, lowerY := y + 10 }

/-- C28 (refuted part, finding): siblings may drift to the left by the threshold each; after two such
lines the inherited parent is indented further than the line itself. -/
theorem c28_parent_more_indented : ∃ (pos : ℕ → Box) (thr : ℚ), 0 < thr ∧
    (computeTextLineHierarchy pos thr 4 3).parent = some 0 ∧ (pos 3).leftX < (pos 0).leftX := by
  refine ⟨fun i => if i = 0 then lineAt 100 0 else if i = 1 then lineAt 106 12
    else if i = 2 then lineAt 102 24 else lineAt 98 36, 5, by norm_num, ?_, by norm_num [lineAt]⟩
  decide +kernel

/-! ### When links are set -/

theorem step_stable (pos : ℕ → Box) (thr : ℚ) (st : HState) (i k : ℕ) (hk : k ≠ i) :
    ((hierarchyStep pos thr st i).links k).parent = (st.links k).parent ∧
    ((hierarchyStep pos thr st i).links k).prevSibling = (st.links k).prevSibling := by
  unfold hierarchyStep
  simp only
  split
  · exact ⟨rfl, rfl⟩
  · next top rest _ =>
    split
    · exact ⟨rfl, rfl⟩
    · split
      · simp only [Function.update_apply, hk, if_false]
        split
        · next e => subst e; exact ⟨rfl, rfl⟩
        · exact ⟨rfl, rfl⟩
      · split
        · simp only [Function.update_apply, hk, if_false]
          exact ⟨trivial, trivial⟩
        · exact ⟨rfl, rfl⟩

theorem links_final (pos : ℕ → Box) (thr : ℚ) (n k : ℕ) (hk : k < n) :
    (computeTextLineHierarchy pos thr n k).parent =
      ((hierarchyState pos thr (k + 1)).links k).parent ∧
    (computeTextLineHierarchy pos thr n k).prevSibling =
      ((hierarchyState pos thr (k + 1)).links k).prevSibling := by
  obtain ⟨d, rfl⟩ := Nat.exists_eq_add_of_le hk
  change ((hierarchyState pos thr (k + 1 + d)).links k).parent = _ ∧
    ((hierarchyState pos thr (k + 1 + d)).links k).prevSibling = _
  induction d with
  | zero => exact ⟨rfl, rfl⟩
  | succ d ih =>
    rw [show k + 1 + (d + 1) = k + 1 + d + 1 by omega, hierarchyState_succ]
    obtain ⟨h1, h2⟩ := step_stable pos thr (hierarchyState pos thr (k + 1 + d)) (k + 1 + d) k (by omega)
    rw [h1, h2]
    exact ih (by omega)

/-- C28 (large distance): a line further than 10 units (plus the tolerance) away from the previous line
of the same rotation and writing mode has neither a parent nor a previous sibling. -/
theorem c28_distance_resets (pos : ℕ → Box) (thr : ℚ) (n k : ℕ) (hk : k + 1 < n)
    (hr : (pos k).rotation = (pos (k + 1)).rotation) (hw : (pos k).wMode = (pos (k + 1)).wMode)
    (hd : 10 + 1 / 10 < |computeVerticalGap (pos k) (pos (k + 1))|) :
    (computeTextLineHierarchy pos thr n (k + 1)).parent = none ∧
    (computeTextLineHierarchy pos thr n (k + 1)).prevSibling = none := by
  obtain ⟨h1, h2⟩ := links_final pos thr n (k + 1) hk
  rw [h1, h2, hierarchyState_succ]
  have hfi := (hierarchy_inv pos thr (k + 1)).fresh (k + 1) (le_refl _)
  unfold hierarchyStep
  have hres : resetsStack (if k + 1 = 0 then none else some (pos (k + 1 - 1))) (pos (k + 1)) = true := by
    have : larger |computeVerticalGap (pos k) (pos (k + 1))| 10 (1 / 10) = true := by
      rw [larger_iff]; linarith
    rw [if_neg (by omega)]
    simp only [resetsStack, Nat.add_sub_cancel]
    rw [this]; simp [hr, hw]
  simp only [hres, if_true, List.dropWhile_nil]
  rw [hfi]; exact ⟨rfl, rfl⟩

/-- Lines that follow each other down the page. -/
def Downwards (pos : ℕ → Box) (n : ℕ) : Prop :=
  ∀ j k, j < k → k < n → (pos j).lowerY < (pos k).lowerY - 1 / 10

theorem top_of_downwards (pos : ℕ → Box) (thr : ℚ) (n k : ℕ) (hk : k < n)
    (hd : Downwards pos n) : ((hierarchyState pos thr (k + 1)).stack).head? = some k := by
  have h := hierarchy_inv pos thr k
  rw [hierarchyState_succ]
  unfold hierarchyStep
  simp only
  generalize hs0 : (if resetsStack (if k = 0 then none else some (pos (k - 1))) (pos k) = true then []
    else (hierarchyState pos thr k).stack) = stack0
  have hsub0 : stack0.Sublist (hierarchyState pos thr k).stack := by
    rw [← hs0]; split_ifs <;> first | exact List.nil_sublist _ | exact List.Sublist.refl _
  have hsub := (List.dropWhile_sublist (l := stack0)
    (fun j => larger (pos j).leftX (pos k).leftX thr)).trans hsub0
  have hhead : ∀ t r, (stack0.dropWhile fun j => larger (pos j).leftX (pos k).leftX thr) = t :: r →
      larger (pos t).leftX (pos k).leftX thr = false := by
    intro t r ht
    have := List.head_dropWhile_not (fun j => larger (pos j).leftX (pos k).leftX thr) (l := stack0)
      (by rw [ht]; simp)
    simpa [ht] using this
  generalize (stack0.dropWhile fun j => larger (pos j).leftX (pos k).leftX thr) = stack at hsub hhead ⊢
  cases stack with
  | nil => rfl
  | cons t r =>
    simp only
    have ht : t < k := h.stackLt t (hsub.subset (by simp))
    have hy := hd t k ht hk
    rw [if_neg (by rw [Bool.not_eq_true, eol_false]; exact hy)]
    have hl := hhead t r rfl
    rw [larger_false] at hl
    split
    · rfl
    · next hne =>
      rw [if_pos]
      · rfl
      · rw [smaller_iff]
        rw [equal_iff] at hne
        by_contra hc
        apply hne
        rw [abs_le]
        constructor <;> linarith

/-- C28 (links are set): among lines that follow each other down the page, a line at most 10 units
below its predecessor becomes the next sibling of the predecessor if both have the same left edge
(up to the threshold), and a child of the predecessor if it is indented by more. -/
theorem c28_consecutive_lines (pos : ℕ → Box) (thr : ℚ) (hthr : 0 ≤ thr) (n k : ℕ) (hk : k + 1 < n)
    (hd : Downwards pos n) (hgap : |computeVerticalGap (pos k) (pos (k + 1))| ≤ 10 + 1 / 10) :
    (|(pos k).leftX - (pos (k + 1)).leftX| ≤ thr →
      (computeTextLineHierarchy pos thr n (k + 1)).prevSibling = some k ∧
      (computeTextLineHierarchy pos thr n k).nextSibling = some (k + 1) ∧
      (computeTextLineHierarchy pos thr n (k + 1)).parent = (computeTextLineHierarchy pos thr n k).parent) ∧
    ((pos k).leftX < (pos (k + 1)).leftX - thr →
      (computeTextLineHierarchy pos thr n (k + 1)).parent = some k) := by
  have htop := top_of_downwards pos thr n k (by omega) hd
  obtain ⟨h1, h2⟩ := links_final pos thr n (k + 1) hk
  have hfi := (hierarchy_inv pos thr (k + 1)).fresh (k + 1) (le_refl _)
  have hres : resetsStack (if k + 1 = 0 then none else some (pos (k + 1 - 1))) (pos (k + 1)) = false := by
    have : larger |computeVerticalGap (pos k) (pos (k + 1))| 10 (1 / 10) = false := by
      rw [larger_false]; linarith
    rw [if_neg (by omega)]
    simp only [resetsStack, Nat.add_sub_cancel]
    rw [this]; simp
  have hy := hd k (k + 1) (by omega) hk
  cases hs : (hierarchyState pos thr (k + 1)).stack with
  | nil => rw [hs] at htop; simp at htop
  | cons t r =>
    rw [hs] at htop
    obtain rfl : t = k := by simpa using htop
    constructor
    · intro hx
      have hnl : larger (pos t).leftX (pos (t + 1)).leftX thr = false := by
        rw [larger_false]; have := (abs_le.mp hx).2; linarith
      have hprev : (computeTextLineHierarchy pos thr n (t + 1)).prevSibling = some t := by
        rw [h2, hierarchyState_succ]
        unfold hierarchyStep
        simp only [hres, hs, Bool.false_eq_true, if_false, List.dropWhile_cons, hnl]
        rw [if_neg (by rw [Bool.not_eq_true, eol_false]; exact hy), if_pos (by rw [equal_iff]; exact hx)]
        simp
      obtain ⟨g1, g2⟩ := c28_siblings pos thr n t (t + 1)
      exact ⟨hprev, g1.mpr hprev, (g2 hprev).2.2.1.symm⟩
    · intro hx
      have hnl : larger (pos t).leftX (pos (t + 1)).leftX thr = false := by
        rw [larger_false]; linarith
      rw [h1, hierarchyState_succ]
      unfold hierarchyStep
      simp only [hres, hs, Bool.false_eq_true, if_false, List.dropWhile_cons, hnl]
      rw [if_neg (by rw [Bool.not_eq_true, eol_false]; exact hy), if_neg, if_pos (by rw [smaller_iff]; exact hx)]
      · simp
      · rw [equal_iff, not_le]
        exact lt_of_lt_of_le (by linarith) (neg_le_abs _)

-- A paragraph whose first line is less indented than the two following ones.
example : let pos : ℕ → Box := fun i => if i = 0 then lineAt 100 0 else lineAt 120 (12 * i)
    (computeTextLineHierarchy pos 5 3 1) = { parent := some 0, prevSibling := none, nextSibling := some 2 } ∧
    (computeTextLineHierarchy pos 5 3 2) = { parent := some 0, prevSibling := some 1, nextSibling := none } := by
  decide +kernel

/-! ## C29 -/

/-- C29: the trim box agrees with the box of the segment except for the right edge, which is the most
frequent value among the rounded right ends of the lines if at least half of the lines (up to the
tolerance) end there, and the right edge of the segment otherwise. -/
theorem c29_trim_box (h : HashOrder) (seg : Box) (lines : List Box) (hlen : lines.length < 2 ^ 32) :
    ∃ r, computeTrimBox h seg lines = .ok (seg.leftX, seg.upperY, r, seg.lowerY) ∧
      (lines = [] → r = seg.rightX) ∧
      (lines ≠ [] → ∃ m, IsMostFrequent (lines.map fun b => roundTo b.getRotRightX 0) m ∧
        r = if 1 / 2 - tol ≤
            (occurrences (lines.map fun b => roundTo b.getRotRightX 0) m : ℚ) / lines.length
          then m else seg.rightX) := by
  unfold computeTrimBox trimRightX
  simp only
  set xs := lines.map fun b => roundTo b.getRotRightX 0 with hxs
  have hocc : ∀ y, occurrences xs y = xs.count y := by
    intro y; rw [occurrences, List.count_eq_length_filter]; rfl
  have hp := h.perm ℚ (countAll xs)
  obtain ⟨h1, h2⟩ := c07_most_frequent_element (0 : ℚ) xs _ hp
  rw [c07_sumCounts xs _ hp]
  have hxl : xs.length = lines.length := by simp [hxs]
  rw [hxl, Nat.mod_eq_of_lt hlen]
  by_cases hne : lines = []
  · subst hne
    exact ⟨seg.rightX, by simp [Outcome.bind], fun _ => rfl, fun hc => absurd rfl hc⟩
  · have hpos := List.length_pos_iff.mpr hne
    rw [if_pos hpos]
    have hxne : xs ≠ [] := by rw [← List.length_pos_iff, hxl]; exact hpos
    cases hm : mostFreqAndCount (0 : ℚ) (h.order ℚ (countAll xs)) with
    | throw m => exact absurd (h1.mp (by rw [hm]; rfl)) hxne
    | ub m =>
      unfold mostFreqAndCount at hm
      simp only at hm
      split at hm <;> cases hm
    | ok p =>
      obtain ⟨k, c⟩ := p
      obtain ⟨g1, g2, g3⟩ := h2 k c hm
      simp only [Outcome.bind]
      refine ⟨_, rfl, fun hc => absurd hc hne, fun _ => ⟨k, ⟨g1, by simpa [hocc] using g3⟩, ?_⟩⟩
      have hq : (0 : ℚ) < lines.length := by exact_mod_cast hpos
      rw [if_pos hq, hocc, ← g2]
      congr 1
      rw [eol_iff]

/-- C29 (finding): for text rotated by 90 degrees the right end of a line is a y-coordinate, so the
right edge of the trim box becomes a y-coordinate and can lie outside of the segment. -/
theorem c29_rotated_lines_trim_outside (h : HashOrder) : ∃ (seg : Box) (lines : List Box) (r : ℚ),
    lines ≠ [] ∧ (∀ b ∈ lines, seg.leftX ≤ b.leftX ∧ b.rightX ≤ seg.rightX ∧ b.rotation = 1) ∧
    computeTrimBox h seg lines = .ok (seg.leftX, seg.upperY, r, seg.lowerY) ∧ seg.rightX < r := by
  have hex := c29_trim_box h { leftX := 10, upperY := 300, rightX := 20, lowerY := 500 }
    [{ leftX := 10, upperY := 300, rightX := 20, lowerY := 500, rotation := 1 }] (by norm_num)
  obtain ⟨r, h1, _, h3⟩ := hex
  refine ⟨_, _, r, by simp, ?_, h1, ?_⟩
  · intro b hb
    rw [List.mem_singleton] at hb
    subst hb; norm_num
  · obtain ⟨m, ⟨hm, _⟩, hr⟩ := h3 (by simp)
    have hr1 : roundTo ({ leftX := 10, upperY := 300, rightX := 20, lowerY := 500, rotation := 1 : Box }).getRotRightX 0 = 500 := by
      decide +kernel
    simp only [List.map_cons, List.map_nil, List.mem_singleton] at hm hr
    rw [hr1] at hm hr
    subst hm
    have ht : tol = 1 / 10000 := rfl
    rw [if_pos] at hr
    · rw [hr]; norm_num
    · have : occurrences [(500 : ℚ)] 500 = 1 := by decide +kernel
      rw [this, ht]; norm_num

example : computeTrimBox idOrder { leftX := 10, upperY := 0, rightX := 300, lowerY := 100 }
    [lineAt 10 0, lineAt 10 12, { lineAt 10 24 with rightX := 50 }] = .ok (10, 0, 110, 100) := by
  decide +kernel

end Verif.Props
