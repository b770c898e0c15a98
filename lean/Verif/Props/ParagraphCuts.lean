import Verif.Props.ParagraphWords

/-!
# C99: a page set in fixed-width type is one segment
-/

namespace Verif.Props

open Verif.Math Verif.Elements Verif.Spec Verif.Words Verif.TextLines Verif.Pipeline Verif.Counter Verif.Statistics Verif.XYCut
open Verif.PageSegmentation (PElem DocStats PageElems processPage pageElements xCutMinGapWidth yCutMinGapHeight chooseXCuts chooseYCuts createPageSegment)

section

variable [Marks]

theorem pp_row_mem {y r x : ℕ} {row : List (List Char)} {w : Word} (h : w ∈ ppRow y r x row) :
    ∃ r' x' t, w = ppWord r' x' y t ∧ x ≤ x' ∧ t ∈ row ∧ x' + 5 * t.length ≤ rowEnd x row := by
  induction row generalizing r x with
  | nil => cases h
  | cons t row ih =>
    rw [ppRow] at h
    rcases List.mem_cons.mp h with rfl | h
    · refine ⟨_, _, _, rfl, le_rfl, by simp, ?_⟩
      clear ih h
      have : ∀ (row : List (List Char)) (x : ℕ), x ≤ rowEnd x row := by
        intro row
        induction row with
        | nil => intro x; exact le_rfl
        | cons t row ih =>
          intro x
          cases row with
          | nil => rw [rowEnd]; omega
          | cons t' row => rw [rowEnd]; have := ih (x + 5 * t.length + 5); omega; simp
      cases row with
      | nil => exact le_rfl
      | cons t' row => rw [rowEnd]; have := this (t' :: row) (x + 5 * t.length + 5); omega; simp
    · obtain ⟨r', x', t', h1, h2, h3, h4⟩ := ih h
      refine ⟨r', x', t', h1, by omega, by simp [h3], ?_⟩
      cases row with
      | nil => cases h3
      | cons t'' row => rw [rowEnd]; exact h4; simp

/-- At every place inside a row there is a word, or the gap right of a word. -/
theorem pp_cover (y : ℕ) (row : List (List Char)) : ∀ (r x X : ℕ), x < X → X ≤ rowEnd x row → row ≠ [] →
    ∃ r' x' t, ppWord r' x' y t ∈ ppRow y r x row ∧ x' < X ∧ X ≤ x' + 5 * t.length + 5 := by
  induction row with
  | nil => intro _ _ _ _ _ h; exact absurd rfl h
  | cons t row ih =>
    intro r x X h1 h2 _
    by_cases hX : X ≤ x + 5 * t.length + 5
    · exact ⟨r, x, t, by simp [ppRow], h1, hX⟩
    · cases row with
      | nil => rw [rowEnd] at h2; omega
      | cons t' row =>
        rw [rowEnd] at h2
        · obtain ⟨r', x', t'', h3, h4, h5⟩ := ih (r + 1) (x + 5 * t.length + 5) X (by omega) h2 (by simp)
          exact ⟨r', x', t'', by rw [ppRow]; exact List.mem_cons_of_mem _ h3, h4, h5⟩
        · simp

theorem pp_rows_mem {r y : ℕ} {rows : List (List (List Char))} {w : Word} (h : w ∈ ppRows r y rows) :
    ∃ i row r', rows[i]? = some row ∧ w ∈ ppRow (y + 11 * i) r' 10 row := by
  induction rows generalizing r y with
  | nil => cases h
  | cons row rows ih =>
    rw [ppRows] at h
    rcases List.mem_append.mp h with h | h
    · exact ⟨0, row, r, rfl, h⟩
    · obtain ⟨i, row', r', h1, h2⟩ := ih h
      exact ⟨i + 1, row', r', h1, by rw [show y + 11 * (i + 1) = y + 11 + 11 * i by ring]; exact h2⟩

theorem pp_rows_has {rows : List (List (List Char))} : ∀ {r y i : ℕ} {row : List (List Char)}, rows[i]? = some row →
    ∃ r' pre post, ppRows r y rows = pre ++ ppRow (y + 11 * i) r' 10 row ++ post := by
  induction rows with
  | nil => intro _ _ _ _ h; cases h
  | cons row rows ih =>
    intro r y i row' h
    cases i with
    | zero =>
      cases h
      exact ⟨r, [], ppRows (r + row.length) (y + 11) rows, by simp [ppRows]⟩
    | succ i =>
      obtain ⟨r', pre, post, h1⟩ := ih (r := r + row.length) (y := y + 11) (i := i) h
      refine ⟨r', ppRow y r 10 row ++ pre, post, ?_⟩
      rw [ppRows, h1, show y + 11 * (i + 1) = y + 11 + 11 * i by ring]
      simp only [List.append_assoc]

theorem pp_nat_rounded (x : ℕ) : ∃ z, (x : ℚ) = roundTo z 1 := by
  have := pl_int_rounded (x : ℤ)
  simpa using this

theorem pp_parsedBox (x y k : ℕ) : ParsedBox 1 (ppBox x y k) := by
  refine ⟨⟨pp_nat_rounded _, pp_nat_rounded _, pp_nat_rounded _, pp_nat_rounded _⟩, ⟨by show (0 : ℤ) ≠ 2; decide, by show (0 : ℤ) ≠ 3; decide⟩, ?_, ?_⟩
  · show (x : ℚ) ≤ ((x + 5 * k : ℕ) : ℚ)
    exact_mod_cast Nat.le_add_right _ _
  · show (y : ℚ) ≤ ((y + 10 : ℕ) : ℚ)
    exact_mod_cast Nat.le_add_right _ _

theorem pp_rowEnd_ge (row : List (List Char)) : ∀ x, x ≤ rowEnd x row := by
  induction row with
  | nil => intro x; exact le_rfl
  | cons t row ih =>
    intro x
    cases row with
    | nil => exact Nat.le_add_right _ _
    | cons t' row => exact le_trans (by omega) (ih (x + 5 * t.length + 5))

theorem pp_rowEnd_gt {row : List (List Char)} (h1 : row ≠ []) (h2 : ∀ w ∈ row, w ≠ []) : 15 ≤ rowEnd 10 row := by
  cases row with
  | nil => exact absurd rfl h1
  | cons t row =>
    have ht := List.length_pos_iff.mpr (h2 t (by simp))
    cases row with
    | nil => rw [rowEnd]; omega
    | cons t' row =>
      have := pp_rowEnd_ge (t' :: row) (10 + 5 * t.length + 5)
      rw [rowEnd]
      · omega
      · simp

/-- A page of rows, none of which is longer than the first one. -/
structure PpRows (rows : List (List (List Char))) : Prop where
  nonempty : rows ≠ []
  full : ∀ r ∈ rows, r ≠ []
  letters : ∀ r ∈ rows, ∀ w ∈ r, w ≠ []
  wide : ∃ W, (∀ r ∈ rows.head?, rowEnd 10 r = W) ∧ ∀ r ∈ rows, rowEnd 10 r ≤ W

/-- The elements of the page. -/
def ppElems (W : List Word) : List PElem := W.mapIdx fun i w => ⟨.word, i, w.pos, w.rank⟩

theorem pp_elems_mem {rows : List (List (List Char))} {e : PElem} (h : e ∈ ppElems (ppRows 0 10 rows)) :
    ∃ (i : ℕ) (row : List (List Char)) (x : ℕ) (t : List Char), rows[i]? = some row ∧ t ∈ row ∧ 10 ≤ x ∧ x + 5 * t.length ≤ rowEnd 10 row ∧ e.pos = ppBox x (10 + 11 * i) t.length := by
  unfold ppElems at h
  obtain ⟨k, hk, he⟩ := List.mem_mapIdx.mp h
  obtain ⟨i, row, r', h1, h2⟩ := pp_rows_mem (List.getElem_mem hk)
  obtain ⟨r'', x, t, h3, h4, h5, h6⟩ := pp_row_mem h2
  refine ⟨i, row, x, t, h1, h5, h4, h6, ?_⟩
  rw [← he]
  show ((ppRows 0 10 rows)[k]).pos = _
  rw [h3]
  rfl

theorem pp_elems_has {rows : List (List (List Char))} {i : ℕ} {row : List (List Char)} (h : rows[i]? = some row) {X : ℕ} (h1 : 10 < X) (h2 : X ≤ rowEnd 10 row) (h3 : row ≠ []) :
    ∃ e ∈ ppElems (ppRows 0 10 rows), ∃ x k, e.pos = ppBox x (10 + 11 * i) k ∧ x < X ∧ X ≤ x + 5 * k + 5 := by
  obtain ⟨r', pre, post, hs⟩ := pp_rows_has (r := 0) (y := 10) h
  obtain ⟨r'', x, t, h4, h5, h6⟩ := pp_cover (10 + 11 * i) row r' 10 X h1 h2 h3
  have hm : ppWord r'' x (10 + 11 * i) t ∈ ppRows 0 10 rows := by rw [hs]; simp [h4]
  obtain ⟨k, hk, he⟩ := List.getElem_of_mem hm
  refine ⟨⟨.word, k, (ppWord r'' x (10 + 11 * i) t).pos, (ppWord r'' x (10 + 11 * i) t).rank⟩, ?_, x, t.length, rfl, h5, h6⟩
  unfold ppElems
  refine List.mem_mapIdx.mpr ⟨k, hk, ?_⟩
  simp only [he]

theorem pp_elems_parsed {rows : List (List (List Char))} : ∀ e ∈ ppElems (ppRows 0 10 rows), ParsedBox 1 e.pos := by
  intro e he
  obtain ⟨i, row, x, t, _, _, _, _, h⟩ := pp_elems_mem he
  rw [h]
  exact pp_parsedBox _ _ _

theorem pp_xLoop_y1 {α : Type} (pos : α → Box) (lib : XYCut.Lib α) (minGap : ℚ) (m : ℕ) (a b : ℚ) (es : List α) : ∀ (p : ℕ) (q : List α), ∀ c ∈ xLoop pos lib minGap m a b p q es, c.y1 = a := by
  induction es with
  | nil => intro p q c hc; cases hc
  | cons e es ih =>
    intro p q c hc
    unfold xLoop at hc
    simp only at hc
    split at hc
    · rcases List.mem_cons.mp hc with rfl | hc
      · rfl
      · exact ih _ _ c hc
    · exact ih _ _ c hc

theorem pp_extent {α : Type} (lo hi : α → ℚ) (v : ℚ) (hv : v ≤ dblMax) (s : List α) (h : ∀ e ∈ s, v ≤ lo e) : v ≤ (extent lo hi s).1 := by
  have key : ∀ (s : List α) (acc : ℚ × ℚ), (∀ e ∈ s, v ≤ lo e) → (v ≤ acc.1 → v ≤ (s.foldl (fun acc e => (minimum acc.1 (lo e), maximum acc.2 (hi e))) acc).1) := by
    intro s
    induction s with
    | nil => intro acc _ ha; exact ha
    | cons e s ih =>
      intro acc hs ha
      rw [List.foldl_cons]
      refine ih _ (fun e' he' => hs e' (by simp [he'])) ?_
      show v ≤ minimum acc.1 (lo e)
      rw [minimum_eq_min]
      exact le_min ha (hs e (by simp))
  exact key s _ h hv

theorem pp_choose_none {doc : DocStats} {elements : List PElem} (cs : List (Cut PElem)) : ∀ prev, (∀ c ∈ cs, PageSegmentation.rejectOverlapping doc c elements = true) →
    PageSegmentation.chooseXLoop doc elements prev cs = List.replicate cs.length false := by
  induction cs with
  | nil => intro _ _; rfl
  | cons c cs ih =>
    intro prev h
    rw [PageSegmentation.chooseXLoop, if_pos (by rw [h c (by simp)]; rfl), ih prev fun c' hc' => h c' (by simp [hc']), List.length_cons, List.replicate_succ]

/-- No vertical cut is chosen. -/
theorem pp_xCut {lib : XYCut.Lib PElem} (hl : LibContract PElem.pos lib) {rows : List (List (List Char))} (hr : PpRows rows) {doc : DocStats} (hd : doc.mostFreqWordDistance = 5) (hh : doc.avgCharHeight = 10) :
    (xCut PElem.pos lib (xCutMinGapWidth doc) 1 (chooseXCuts doc) (ppElems (ppRows 0 10 rows))).ok = false := by
  have htol := pp_tol
  have hgap : xCutMinGapWidth doc = 10 := by unfold xCutMinGapWidth; rw [hd]; norm_num
  have hm : tol < xCutMinGapWidth doc := by rw [hgap, htol]; norm_num
  have hgeo := (xCandidates_geometry hl (by decide : 1 ≤ 3) hm 1 (elements := ppElems (ppRows 0 10 rows)) pp_elems_parsed).1
  obtain ⟨hperm, hsort⟩ := pairwise_leftX hl (by decide : 1 ≤ 3) (elements := ppElems (ppRows 0 10 rows)) pp_elems_parsed
  obtain ⟨W, hW⟩ := hr.wide
  have key : ∀ c ∈ xCandidates PElem.pos lib (xCutMinGapWidth doc) 1 (ppElems (ppRows 0 10 rows)), PageSegmentation.rejectOverlapping doc c (lib.sortLeftX (ppElems (ppRows 0 10 rows))) = true := by
    intro c hc
    have hg := hgeo c hc
    obtain ⟨others, o1, o2, o3⟩ := hg.separates
    have hafter : c.elementAfter ∈ lib.sortLeftX (ppElems (ppRows 0 10 rows)) := List.mem_of_getElem? hg.after_mem
    obtain ⟨i, row, x, t, e1, e2, e3, e4, e5⟩ := pp_elems_mem (hperm.subset hafter)
    have hdrop : c.elementAfter ∈ (lib.sortLeftX (ppElems (ppRows 0 10 rows))).drop c.posInElements := by
      rw [List.mem_iff_getElem?]
      exact ⟨0, by rw [List.getElem?_drop]; exact hg.after_mem⟩
    have hleft : ∀ b ∈ (lib.sortLeftX (ppElems (ppRows 0 10 rows))).drop c.posInElements, (x : ℚ) ≤ b.pos.leftX := by
      intro b hb
      have hx : c.elementAfter.pos.leftX = x := by rw [e5]; rfl
      rw [← hx]
      obtain ⟨j, hj⟩ := List.mem_iff_getElem?.mp hb
      rw [List.getElem?_drop] at hj
      rcases Nat.eq_zero_or_pos j with rfl | hj0
      · rw [Nat.add_zero, hg.after_mem] at hj; cases hj; exact le_rfl
      · have := List.pairwise_iff_getElem.mp hsort c.posInElements (c.posInElements + j) (List.getElem?_eq_some_iff.mp hg.after_mem).1 (List.getElem?_eq_some_iff.mp hj).1 (by omega)
        rw [(List.getElem?_eq_some_iff.mp hg.after_mem).2, (List.getElem?_eq_some_iff.mp hj).2] at this
        exact this
    -- the element before
    have hb := o3.apart _ o2 _ hdrop
    have hbm : c.elementBefore ∈ ppElems (ppRows 0 10 rows) :=
      hperm.subset (List.take_subset _ _ (o1.symm.subset (List.mem_append_right _ o2)))
    obtain ⟨bi, brow, bx, bt, b1, b2, b3, b4, b5⟩ := pp_elems_mem hbm
    have hX : 10 < x := by
      rw [hgap, b5, e5, htol] at hb
      have h1 : ((bx + 5 * bt.length : ℕ) : ℚ) + (10 - 1 / 10000) ≤ (x : ℚ) := hb
      have h2 : ((bx + 5 * bt.length : ℕ) : ℚ) + 9 ≤ (x : ℚ) := by linarith
      have h3 : bx + 5 * bt.length + 9 ≤ x := by exact_mod_cast h2
      omega
    -- the first row has an overlapping element
    have hover : ∃ o ∈ c.overlappingElements, o.pos.upperY = 10 := by
      obtain ⟨row', hj⟩ : ∃ row', rows[0]? = some row' := ⟨_, List.getElem?_eq_getElem (List.length_pos_iff.mpr hr.nonempty)⟩
      have hrow' : row' ∈ rows := List.mem_of_getElem? hj
      have hhead : row' ∈ rows.head? := by rw [List.head?_eq_getElem?, hj]; rfl
      obtain ⟨q, q1, qx, qk, q2, q3, q4⟩ := pp_elems_has hj hX (by rw [hW.1 row' hhead]; exact le_trans (by omega) (hW.2 row (List.mem_of_getElem? e1))) (hr.full row' hrow')
      refine ⟨q, ?_, by rw [q2]; show ((10 + 11 * 0 : ℕ) : ℚ) = 10; norm_num⟩
      have q5 : q ∈ (lib.sortLeftX (ppElems (ppRows 0 10 rows))).take c.posInElements := by
        have : q ∈ lib.sortLeftX (ppElems (ppRows 0 10 rows)) := hperm.symm.subset q1
        rw [← List.take_append_drop c.posInElements (lib.sortLeftX (ppElems (ppRows 0 10 rows)))] at this
        rcases List.mem_append.mp this with h | h
        · exact h
        · have := hleft q h
          rw [q2] at this
          have : (x : ℚ) ≤ (qx : ℚ) := this
          have : x ≤ qx := by exact_mod_cast this
          omega
      rcases List.mem_append.mp (o1.subset q5) with h | h
      · exact h
      · have := o3.apart _ h _ hdrop
        rw [hgap, q2, e5, htol] at this
        have h1 : ((qx + 5 * qk : ℕ) : ℚ) + (10 - 1 / 10000) ≤ (x : ℚ) := this
        have h2 : ((qx + 5 * qk : ℕ) : ℚ) + 9 ≤ (x : ℚ) := by linarith
        have h3 : qx + 5 * qk + 9 ≤ x := by exact_mod_cast h2
        omega
    have hupper : ∀ e ∈ ppElems (ppRows 0 10 rows), 10 ≤ e.pos.upperY := by
      intro e he
      obtain ⟨i, row, x, t, e1, _, _, _, e5⟩ := pp_elems_mem he
      rw [e5]
      show (10 : ℚ) ≤ ((10 + 11 * i : ℕ) : ℚ)
      exact_mod_cast Nat.le_add_right _ _
    have hy1 : 10 ≤ c.y1 := by
      unfold xCandidates at hc
      simp only at hc
      have hext := pp_extent (fun e : PElem => e.pos.upperY) (fun e => e.pos.lowerY) 10 (by decide +kernel) (lib.sortLeftX (ppElems (ppRows 0 10 rows)))
        (fun e he => hupper e (hperm.subset he))
      split at hc
      · cases hc
      · have := pp_xLoop_y1 _ _ _ _ _ _ _ _ _ c hc
        rw [this]; exact hext
    obtain ⟨o, ho, hoy⟩ := hover
    unfold PageSegmentation.rejectOverlapping
    simp only
    rw [if_neg (by simpa using List.ne_nil_of_mem ho)]
    split
    · rfl
    · rw [List.any_eq_true]
      refine ⟨o, ho, ?_⟩
      rw [Bool.or_eq_true, smaller_iff, hoy, hh, htol]
      left
      linarith
  unfold xCut
  split
  · rfl
  · simp only
    rw [List.any_eq_false]
    intro c hc
    unfold applyChoice at hc
    obtain ⟨k, hk, rfl⟩ := List.mem_mapIdx.mp hc
    show ¬ chooseXCuts doc _ _ k = true
    unfold chooseXCuts
    split
    · decide
    · rw [pp_choose_none _ _ key]
      rw [List.getD_eq_getElem?_getD, List.getElem?_replicate]
      split <;> simp

/-- There is no place for a horizontal cut. -/
theorem pp_yCandidates {lib : XYCut.Lib PElem} (hl : LibContract PElem.pos lib) {rows : List (List (List Char))} (hr : PpRows rows) :
    yCandidates PElem.pos lib yCutMinGapHeight (ppElems (ppRows 0 10 rows)) = [] := by
  have htol := pp_tol
  have hgap : yCutMinGapHeight = 2 := rfl
  have hm : tol < yCutMinGapHeight := by rw [hgap, htol]; norm_num
  have hgeo := (yCandidates_geometry hl (by decide : 1 ≤ 3) hm (elements := ppElems (ppRows 0 10 rows)) pp_elems_parsed).1
  obtain ⟨hperm, hsort⟩ := pairwise_upperY hl (by decide : 1 ≤ 3) (elements := ppElems (ppRows 0 10 rows)) pp_elems_parsed
  refine List.eq_nil_iff_forall_not_mem.mpr fun c hc => ?_
  have hg := hgeo c hc
  have hafter : c.elementAfter ∈ lib.sortUpperY (ppElems (ppRows 0 10 rows)) := List.mem_of_getElem? hg.after_mem
  have hdrop : c.elementAfter ∈ (lib.sortUpperY (ppElems (ppRows 0 10 rows))).drop c.posInElements := by
    rw [List.mem_iff_getElem?]
    exact ⟨0, by rw [List.getElem?_drop]; exact hg.after_mem⟩
  obtain ⟨j, row, x, t, e1, e2, e3, e4, e5⟩ := pp_elems_mem (hperm.subset hafter)
  obtain ⟨i, brow, bx, bt, b1, b2, b3, b4, b5⟩ := pp_elems_mem (hperm.subset (List.take_subset _ _ hg.before_mem))
  have sep : ∀ {a b : PElem} {ax ak ai bx bk bi : ℕ}, a ∈ (lib.sortUpperY (ppElems (ppRows 0 10 rows))).take c.posInElements → b ∈ (lib.sortUpperY (ppElems (ppRows 0 10 rows))).drop c.posInElements →
      a.pos = ppBox ax (10 + 11 * ai) ak → b.pos = ppBox bx (10 + 11 * bi) bk → 10 + 11 * ai + 11 ≤ 10 + 11 * bi - 0 ∧ 10 + 11 * ai + 11 ≠ 10 + 11 * bi := by
    intro a b ax ak ai bx bk bi ha hb ha' hb'
    have := hg.separates.apart a ha b hb
    rw [ha', hb', hgap, htol] at this
    have h1 : ((10 + 11 * ai + 10 : ℕ) : ℚ) + (2 - 1 / 10000) ≤ ((10 + 11 * bi : ℕ) : ℚ) := this
    have h2 : ((10 + 11 * ai + 10 : ℕ) : ℚ) + 1 < ((10 + 11 * bi : ℕ) : ℚ) := by linarith
    have h3 : 10 + 11 * ai + 10 + 1 < 10 + 11 * bi := by exact_mod_cast h2
    omega
  have hij := sep hg.before_mem hdrop b5 e5
  have hall : ∀ n, i + n ≤ j → ∃ z ∈ (lib.sortUpperY (ppElems (ppRows 0 10 rows))).take c.posInElements, ∃ zx zk, z.pos = ppBox zx (10 + 11 * (i + n)) zk := by
    intro n
    induction n with
    | zero => intro _; exact ⟨_, hg.before_mem, bx, bt.length, b5⟩
    | succ n ih =>
      intro hn
      obtain ⟨z, z1, zx, zk, z2⟩ := ih (by omega)
      have hlt : i + (n + 1) < rows.length := lt_of_le_of_lt hn (List.getElem?_eq_some_iff.mp e1).1
      have hrow : rows[i + (n + 1)] ∈ rows := List.getElem_mem hlt
      have hw : 10 < rowEnd 10 rows[i + (n + 1)] := by
        have := pp_rowEnd_gt (hr.full _ hrow) (hr.letters _ hrow)
        omega
      obtain ⟨q, q1, qx, qk, q2, q3, q4⟩ := pp_elems_has (List.getElem?_eq_getElem hlt) (X := 11) (by omega) hw (hr.full _ hrow)
      have : q ∈ lib.sortUpperY (ppElems (ppRows 0 10 rows)) := hperm.symm.subset q1
      rw [← List.take_append_drop c.posInElements (lib.sortUpperY (ppElems (ppRows 0 10 rows)))] at this
      rcases List.mem_append.mp this with h | h
      · exact ⟨q, h, qx, qk, q2⟩
      · have := sep z1 h z2 q2
        omega
  obtain ⟨z, z1, zx, zk, z2⟩ := hall (j - i) (by omega)
  have := sep z1 hdrop z2 e5
  omega

theorem pp_yCut {lib : XYCut.Lib PElem} (hl : LibContract PElem.pos lib) {rows : List (List (List Char))} (hr : PpRows rows) (choose : Choose PElem) :
    (yCut PElem.pos lib yCutMinGapHeight choose (ppElems (ppRows 0 10 rows))).ok = false := by
  unfold yCut
  split
  · rfl
  · simp only
    rw [pp_yCandidates hl hr]
    rfl

theorem pp_ppElems_ne {rows : List (List (List Char))} (hr : PpRows rows) : ppElems (ppRows 0 10 rows) ≠ [] := by
  cases rows with
  | nil => exact absurd rfl hr.nonempty
  | cons r rows =>
    cases r with
    | nil => exact absurd rfl (hr.full [] (by simp))
    | cons w r => simp [ppElems, ppRows, ppRow]

/-- One segment. -/
theorem pp_processPage {lib : XYCut.Lib PElem} (hl : LibContract PElem.pos lib) {rows : List (List (List Char))} (hr : PpRows rows) {doc : DocStats} (hd : doc.mostFreqWordDistance = 5) (hh : doc.avgCharHeight = 10) :
    processPage doc lib ⟨ppElems (ppRows 0 10 rows), [], [], []⟩ = [createPageSegment (ppElems (ppRows 0 10 rows))] := by
  unfold processPage
  rw [show pageElements ⟨ppElems (ppRows 0 10 rows), [], [], []⟩ = ppElems (ppRows 0 10 rows) by simp [pageElements]]
  have hx := pp_xCut hl hr hd hh
  have hy := pp_yCut hl hr (chooseYCuts doc lib)
  have hne := pp_ppElems_ne hr
  generalize ppElems (ppRows 0 10 rows) = es at hx hy hne
  cases es with
  | nil => exact absurd rfl hne
  | cons e es =>
    unfold xyCut
    rw [List.length_cons, xyCutF]
    rw [if_neg (by simp)]
    simp only
    rw [show (PageSegmentation.params doc lib).pos = PElem.pos from rfl, show (PageSegmentation.params doc lib).lib = lib from rfl,
      show (PageSegmentation.params doc lib).minXGap = xCutMinGapWidth doc from rfl, show (PageSegmentation.params doc lib).maxOverlap = 1 from rfl,
      show (PageSegmentation.params doc lib).chooseX = chooseXCuts doc from rfl, hx]
    rw [if_neg (by decide)]
    unfold divideGroup
    simp only
    rw [show (PageSegmentation.params doc lib).pos = PElem.pos from rfl, show (PageSegmentation.params doc lib).lib = lib from rfl,
      show (PageSegmentation.params doc lib).minYGap = yCutMinGapHeight from rfl, show (PageSegmentation.params doc lib).chooseY = chooseYCuts doc lib from rfl, hy]
    rw [if_neg (by decide)]
    rfl

end

end Verif.Props
