import Verif.Props.ParagraphBlocks

/-!
# C99: the statistics of a page set in fixed-width type
-/

namespace Verif.Props

open Verif.Math Verif.Elements Verif.Spec Verif.Words Verif.TextLines Verif.Pipeline Verif.Counter Verif.Statistics

section

variable [Marks]

/-! ## Characters -/

theorem pp_typedWord_bounds {y x : ℕ} {t : List Char} {g : Glyph} (h : g ∈ typedWord y x t) : ∃ x' c, g = typedGlyph x' y c ∧ x ≤ x' ∧ x' + 5 ≤ x + 5 * t.length := by
  induction t generalizing x with
  | nil => cases h
  | cons c t ih =>
    rw [typedWord] at h
    rcases List.mem_cons.mp h with rfl | h
    · exact ⟨x, c, rfl, le_rfl, by rw [List.length_cons]; omega⟩
    · obtain ⟨x', c', h1, h2, h3⟩ := ih h
      exact ⟨x', c', h1, by omega, by rw [List.length_cons]; omega⟩

theorem pp_typedRow_bounds {y x : ℕ} {row : List (List Char)} {g : Glyph} (h : g ∈ typedRow y x row) : ∃ x' c, g = typedGlyph x' y c ∧ x ≤ x' ∧ x' + 5 ≤ rowEnd x row := by
  induction row generalizing x with
  | nil => cases h
  | cons t row ih =>
    rw [typedRow] at h
    have hge := pp_rowEnd_ge row (x + 5 * t.length + 5)
    rcases List.mem_append.mp h with h | h
    · obtain ⟨x', c', h1, h2, h3⟩ := pp_typedWord_bounds h
      refine ⟨x', c', h1, h2, ?_⟩
      cases row with
      | nil => rw [rowEnd]; exact h3
      | cons t' row => rw [rowEnd]; omega; simp
    · obtain ⟨x', c', h1, h2, h3⟩ := ih h
      refine ⟨x', c', h1, by omega, ?_⟩
      cases row with
      | nil => cases h
      | cons t' row => rw [rowEnd]; exact h3; simp

theorem pp_typedRows_mem {y : ℕ} {rows : List (List (List Char))} {g : Glyph} (h : g ∈ typedRows y rows) : ∃ x' y' c, g = typedGlyph x' y' c := by
  induction rows generalizing y with
  | nil => cases h
  | cons row rows ih =>
    rw [typedRows] at h
    rcases List.mem_append.mp h with h | h
    · obtain ⟨x', c, h1, _⟩ := pp_typedRow_bounds h
      exact ⟨x', y, c, h1⟩
    · exact ih h

theorem pp_typedRows_row {y : ℕ} {rows : List (List (List Char))} {i : ℕ} {row : List (List Char)} (h : rows[i]? = some row) {g : Glyph} (hg : g ∈ typedRow (y + 11 * i) 10 row) :
    g ∈ typedRows y rows := by
  induction rows generalizing y i with
  | nil => cases h
  | cons q rows ih =>
    rw [typedRows]
    cases i with
    | zero =>
      cases h
      exact List.mem_append.mpr (.inl hg)
    | succ i =>
      refine List.mem_append.mpr (.inr (ih (i := i) (by simpa using h) ?_))
      rwa [show y + 11 + 11 * i = y + 11 * (i + 1) by ring]

/-- The last character of a row. -/
theorem pp_typedRow_last (y : ℕ) (row : List (List Char)) : ∀ x, row ≠ [] → (∀ w ∈ row, w ≠ []) → ∃ l z c, typedRow y x row = l ++ [typedGlyph z y c] ∧ z + 5 = rowEnd x row := by
  induction row with
  | nil => intro x h; exact absurd rfl h
  | cons t row ih =>
    intro x _ hl
    cases row with
    | nil =>
      obtain ⟨s, c, hs⟩ := List.eq_nil_or_concat t |>.resolve_left (hl t (by simp))
      refine ⟨typedWord y x s, x + 5 * s.length, c, ?_, ?_⟩
      · rw [typedRow, typedRow, List.append_nil, hs, List.concat_eq_append, pp_typedWord_append]
        rfl
      · rw [rowEnd, hs, List.length_concat]; omega
    | cons t' row =>
      obtain ⟨l, z, c, h1, h2⟩ := ih (x + 5 * t.length + 5) (by simp) (fun w hw => hl w (by simp [hw]))
      refine ⟨typedWord y x t ++ l, z, c, ?_, ?_⟩
      · rw [typedRow, h1, List.append_assoc]
      · rw [rowEnd]; exact h2; simp

theorem pp_typedRow_length (y : ℕ) (row : List (List Char)) : ∀ x, (typedRow y x row).length = rowLength row := by
  induction row with
  | nil => intro x; rfl
  | cons t row ih => intro x; rw [typedRow, List.length_append, ih, pp_typedWord_length]; simp [rowLength]

theorem pp_typedRows_length (rows : List (List (List Char))) : ∀ y, (typedRows y rows).length = (rows.map rowLength).sum := by
  induction rows with
  | nil => intro y; rfl
  | cons row rows ih => intro y; rw [typedRows, List.length_append, ih, pp_typedRow_length]; simp

theorem pp_ppRow_length (y : ℕ) (row : List (List Char)) : ∀ r x, (ppRow y r x row).length = row.length := by
  induction row with
  | nil => intro r x; rfl
  | cons t row ih => intro r x; rw [ppRow, List.length_cons, ih, List.length_cons]

theorem pp_row_le {row : List (List Char)} (h : ∀ w ∈ row, w ≠ []) : row.length ≤ rowLength row := by
  induction row with
  | nil => simp [rowLength]
  | cons t row ih =>
    have := ih fun w hw => h w (by simp [hw])
    have ht := List.length_pos_iff.mpr (h t (by simp))
    simp only [rowLength, List.map_cons, List.sum_cons, List.length_cons] at this ⊢
    omega

theorem pp_ppRows_length_le (rows : List (List (List Char))) : ∀ r y, (∀ row ∈ rows, ∀ w ∈ row, w ≠ []) → (ppRows r y rows).length ≤ (rows.map rowLength).sum := by
  induction rows with
  | nil => intro r y _; simp [ppRows]
  | cons row rows ih =>
    intro r y h
    rw [ppRows, List.length_append, pp_ppRow_length, List.map_cons, List.sum_cons]
    have h1 := ih (r + row.length) (y + 11) fun q hq => h q (by simp [hq])
    have h2 := pp_row_le (h row (by simp))
    omega

/-! ## Diacritical marks -/

/-- Two characters do not overlap horizontally. -/
def PpBeside (a b : Glyph) : Prop := ∃ x y c x' y' c', a = typedGlyph x y c ∧ b = typedGlyph x' y' c' ∧ (x + 5 ≤ x' ∨ x' + 5 ≤ x)

theorem pp_word_chain (y : ℕ) (t : List Char) : ∀ x, (typedWord y x t).Pairwise PpBeside := by
  induction t with
  | nil => intro x; exact List.Pairwise.nil
  | cons c t ih =>
    intro x
    rw [typedWord, List.pairwise_cons]
    refine ⟨?_, ih _⟩
    intro g hg
    obtain ⟨x', c', h1, h2, _⟩ := pp_typedWord_bounds hg
    exact ⟨x, y, c, x', y, c', rfl, h1, .inl h2⟩

theorem pp_row_chain (y : ℕ) (row : List (List Char)) : ∀ x, (typedRow y x row).Pairwise PpBeside := by
  induction row with
  | nil => intro x; exact List.Pairwise.nil
  | cons t row ih =>
    intro x
    rw [typedRow, List.pairwise_append]
    refine ⟨pp_word_chain y t x, ih _, ?_⟩
    intro a ha b hb
    obtain ⟨x1, c1, h1, h2, h3⟩ := pp_typedWord_bounds ha
    obtain ⟨x2, c2, h4, h5, h6⟩ := pp_typedRow_bounds hb
    exact ⟨x1, y, c1, x2, y, c2, h1, h4, .inl (by omega)⟩

theorem pp_typedRow_head (y x : ℕ) {row : List (List Char)} (hl : ∀ w ∈ row, w ≠ []) {g : Glyph} (h : g ∈ (typedRow y x row).head?) : ∃ c, g = typedGlyph x y c := by
  cases row with
  | nil => cases h
  | cons t row =>
    cases t with
    | nil => exact absurd rfl (hl [] (by simp))
    | cons c t =>
      rw [typedRow, typedWord, List.cons_append, List.head?_cons] at h
      cases h
      exact ⟨c, rfl⟩

theorem pp_rows_chain (rows : List (List (List Char))) : ∀ y, (∀ row ∈ rows, row ≠ []) → (∀ row ∈ rows, ∀ w ∈ row, w ≠ []) → (∀ row ∈ rows.dropLast, 20 ≤ rowEnd 10 row) →
    (typedRows y rows).IsChain PpBeside := by
  induction rows with
  | nil => intro y _ _ _; exact List.IsChain.nil
  | cons row rows ih =>
    intro y h1 h2 h3
    rw [typedRows, List.isChain_append]
    refine ⟨(pp_row_chain y row 10).isChain, ih _ (fun q hq => h1 q (by simp [hq])) (fun q hq => h2 q (by simp [hq])) (fun q hq => h3 q (by cases rows with | nil => cases hq | cons r rows => rw [List.dropLast_cons₂]; exact List.mem_cons_of_mem _ hq)), ?_⟩
    intro a ha b hb
    obtain ⟨l, z, c, e1, e2⟩ := pp_typedRow_last y row 10 (h1 row (by simp)) (h2 row (by simp))
    rw [e1, List.getLast?_append, List.getLast?_singleton] at ha
    simp only [Option.some_or] at ha
    cases ha
    have hb' : ∃ c', b = typedGlyph 10 (y + 11) c' := by
      cases rows with
      | nil => cases hb
      | cons q rows =>
        rw [typedRows, List.head?_append] at hb
        cases hq : (typedRow (y + 11) 10 q).head? with
        | none =>
          exfalso
          have hq0 : q ≠ [] := h1 q (by simp)
          rw [List.head?_eq_none_iff] at hq
          obtain ⟨l, z, c, e1, _⟩ := pp_typedRow_last (y + 11) q 10 hq0 (h2 q (by simp))
          rw [hq] at e1
          simp at e1
        | some g =>
          rw [hq] at hb
          simp only [Option.some_or] at hb
          cases hb
          exact pp_typedRow_head (y + 11) 10 (h2 q (by simp)) hq
    obtain ⟨c', rfl⟩ := hb'
    have := h3 row (by cases rows with | nil => cases hb | cons r rows => rw [List.dropLast_cons₂]; exact List.mem_cons_self)
    exact ⟨z, y, c, 10, y + 11, c', rfl, rfl, .inr (by omega)⟩

theorem pp_beside {a b : Glyph} (h : PpBeside a b) : computeMaxXOverlapRatio a.pos b.pos = 0 := by
  obtain ⟨x, y, c, x', y', c', rfl, rfl, h⟩ := h
  unfold computeMaxXOverlapRatio computeXOverlapRatios
  simp only
  have e : computeOverlapRatios (x : ℚ) (x + 5) x' (x' + 5) = (0, 0) := by
    rcases h with h | h
    · have h' : (x : ℚ) + 5 ≤ x' := by exact_mod_cast h
      exact pp_overlap_none (by linarith) h' (by linarith)
    · have h' : (x' : ℚ) + 5 ≤ x := by exact_mod_cast h
      exact pp_overlap_none' (by linarith) h' (by linarith)
  show maximum (computeOverlapRatios (x : ℚ) (x + 5) x' (x' + 5)).1 (computeOverlapRatios (x : ℚ) (x + 5) x' (x' + 5)).2 = 0
  rw [e, maximum_eq_max, max_self]

theorem pp_marks (compose : List ℕ → Text.Str) {cs : List Glyph} (h : cs.IsChain PpBeside) : Diacritics.processPage compose cs = .ok cs := by
  have hstep : ∀ i, Diacritics.step compose cs i = .ok cs := by
    intro i
    unfold Diacritics.step
    cases hc : cs[i]? with
    | none => rfl
    | some cur =>
      simp only
      cases Diacritics.markUnicode cur with
      | none => rfl
      | some u =>
        simp only
        have h1 : Diacritics.prevRatio (if i > 0 then cs[i - 1]? else none) cur = 0 := by
          by_cases hi : i > 0
          · rw [if_pos hi]
            obtain ⟨k, rfl⟩ : ∃ k, i = k + 1 := ⟨i - 1, by omega⟩
            rw [Nat.add_sub_cancel]
            obtain ⟨hlt, hcur⟩ := List.getElem?_eq_some_iff.mp hc
            have hR := List.isChain_iff_getElem.mp h k hlt
            rw [List.getElem?_eq_getElem (by omega)]
            rw [hcur] at hR
            exact pp_beside hR
          · rw [if_neg hi]; rfl
        have h2 : Diacritics.nextRatio cur cs[i + 1]? = 0 := by
          cases hn : cs[i + 1]? with
          | none => rfl
          | some nx =>
            obtain ⟨hlt, hcur⟩ := List.getElem?_eq_some_iff.mp hc
            obtain ⟨hlt', hnx⟩ := List.getElem?_eq_some_iff.mp hn
            have hR := List.isChain_iff_getElem.mp h i hlt'
            rw [hcur, hnx] at hR
            exact pp_beside hR
        rw [h1, h2, if_pos (by decide +kernel)]
  have hrun : ∀ n, Diacritics.run compose cs n = .ok cs := by
    intro n
    induction n with
    | zero => rfl
    | succ n ih => rw [Diacritics.run, ih]; exact hstep n
  exact hrun _

/-! ## Words -/

theorem pp_word_mem {r y : ℕ} {rows : List (List (List Char))} {w : Word} (h : w ∈ ppRows r y rows) : ∃ r' x' y' t, w = ppWord r' x' y' t := by
  induction rows generalizing r y with
  | nil => cases h
  | cons row rows ih =>
    rw [ppRows] at h
    rcases List.mem_append.mp h with h | h
    · obtain ⟨r', x', t, h1, _⟩ := pp_row_mem h
      exact ⟨r', x', y, t, h1⟩
    · exact ih h

theorem pp_stacked (r y : ℕ) (rows : List (List (List Char))) : mergeStackedMathSymbols (ppRows r y rows) = ppRows r y rows := by
  have hat : ∀ w ∈ ppRows r y rows, ∀ j, attachableAt (ppRows r y rows) w j = false := by
    intro w hw j
    unfold attachableAt
    cases hj : (ppRows r y rows)[j]? with
    | none => rfl
    | some o =>
      obtain ⟨_, _, _, _, rfl⟩ := pp_word_mem hw
      obtain ⟨_, _, _, _, rfl⟩ := pp_word_mem (List.mem_of_getElem? hj)
      simp only
      unfold attachable
      rw [Bool.and_eq_false_iff]
      right
      show smaller (10 : ℚ) 10 1 = false
      rw [smaller_false]; norm_num
  have hstep : ∀ i, mergeStep (ppRows r y rows) i = ppRows r y rows := by
    intro i
    unfold mergeStep
    cases hi : (ppRows r y rows)[i]? with
    | none => rfl
    | some w =>
      simp only
      by_cases hb : isBase w = true
      · rw [if_pos hb]
        have hp : partsOf (ppRows r y rows) i w = [] := by
          unfold partsOf
          have : ∀ l : List ℕ, l.takeWhile (attachableAt (ppRows r y rows) w) = [] := by
            intro l
            cases l with
            | nil => rfl
            | cons j l => rw [List.takeWhile_cons_of_neg (by rw [hat w (List.mem_of_getElem? hi)]; decide)]
          rw [this, this]; rfl
        rw [hp]
        refine List.ext_getElem (by simp) fun j h1 h2 => ?_
        simp
      · rw [if_neg hb]
  unfold mergeStackedMathSymbols
  generalize List.range (ppRows r y rows).length = l
  induction l with
  | nil => rfl
  | cons i l ih => rw [List.foldl_cons, hstep, ih]

/-- Two words one after the other. -/
def PpAfter (a b : Word) : Prop :=
  (∃ r x y t t', a = ppWord r x y t ∧ b = ppWord (r + 1) (x + 5 * t.length + 5) y t' ∧ t ≠ []) ∨ ∃ r x y t r' x' t', a = ppWord r x y t ∧ b = ppWord r' x' (y + 11) t'

theorem pp_after_row (y : ℕ) (row : List (List Char)) : ∀ r x, (∀ w ∈ row, w ≠ []) → (ppRow y r x row).IsChain PpAfter := by
  induction row with
  | nil => intro r x _; exact List.IsChain.nil
  | cons t row ih =>
    intro r x h
    cases row with
    | nil => exact List.IsChain.singleton _
    | cons t' row =>
      have := ih (r + 1) (x + 5 * t.length + 5) fun w hw => h w (by simp [hw])
      rw [ppRow] at this ⊢
      rw [ppRow]
      exact List.IsChain.cons_cons (.inl ⟨r, x, y, t, t', rfl, rfl, h t (by simp)⟩) this

theorem pp_after_rows (rows : List (List (List Char))) : ∀ r y, (∀ row ∈ rows, row ≠ []) → (∀ row ∈ rows, ∀ w ∈ row, w ≠ []) → (ppRows r y rows).IsChain PpAfter := by
  induction rows with
  | nil => intro r y _ _; exact List.IsChain.nil
  | cons row rows ih =>
    intro r y h1 h2
    rw [ppRows, List.isChain_append]
    refine ⟨pp_after_row y row r 10 (h2 row (by simp)), ih _ _ (fun q hq => h1 q (by simp [hq])) (fun q hq => h2 q (by simp [hq])), ?_⟩
    intro a ha b hb
    obtain ⟨r1, x1, t1, rfl, _⟩ := pp_row_mem (List.mem_of_getLast? ha)
    cases rows with
    | nil => cases hb
    | cons q rows =>
      cases q with
      | nil => exact absurd rfl (h1 [] (by simp))
      | cons t q =>
        rw [ppRows, ppRow, List.cons_append, List.head?_cons] at hb
        cases hb
        exact .inr ⟨_, _, _, _, _, _, _, rfl, rfl⟩

theorem pp_consecutive {α : Type} {R : α → α → Prop} {l : List α} (h : l.IsChain R) : ∀ p ∈ consecutive l, R p.1 p.2 := by
  intro p hp
  unfold consecutive at hp
  obtain ⟨i, hi, rfl⟩ := List.getElem_of_mem hp
  simp only [List.length_zip, List.length_tail] at hi
  have := List.isChain_iff_getElem.mp h i (by omega)
  simpa using this

theorem pp_consecutive_mem {α : Type} (u v : List α) (a b : α) : (a, b) ∈ consecutive (u ++ a :: b :: v) := by
  unfold consecutive
  have : (u ++ a :: b :: v).tail = (u ++ [a]).tail ++ b :: v := by cases u <;> simp
  apply List.mem_of_getElem? (i := u.length)
  rw [List.getElem?_zip_eq_some]
  refine ⟨by simp, ?_⟩
  rw [List.getElem?_tail]
  simp

theorem pp_pair {rows : List (List (List Char))} (h : ∃ row ∈ rows, 2 ≤ row.length) (r y : ℕ) :
    ∃ u v r' x y' t t', ppRows r y rows = u ++ ppWord r' x y' t :: ppWord (r' + 1) (x + 5 * t.length + 5) y' t' :: v ∧ t ∈ rows.flatten := by
  induction rows generalizing r y with
  | nil => obtain ⟨_, h, _⟩ := h; cases h
  | cons row rows ih =>
    obtain ⟨q, hq, hl⟩ := h
    rcases List.mem_cons.mp hq with rfl | hq
    · match q, hl with
      | t :: t' :: q, _ =>
        rw [ppRows, ppRow, ppRow]
        exact ⟨[], _, _, _, _, t, t', rfl, by simp⟩
    · obtain ⟨u, v, r', x, y', t, t', h1, h2⟩ := ih ⟨q, hq, hl⟩ (r + row.length) (y + 11)
      rw [ppRows, h1]
      exact ⟨ppRow y r 10 row ++ u, v, r', x, y', t, t', by rw [List.append_assoc], by rw [List.flatten_cons]; exact List.mem_append.mpr (.inr h2)⟩

theorem pp_wordGap {r x y : ℕ} {t t' : List Char} (ht : t ≠ []) : computeHorizontalGap (ppWord r x y t).pos (ppWord (r + 1) (x + 5 * t.length + 5) y t').pos = 5 := by
  have htol := pp_tol
  rw [pp_gap_right rfl]
  · show ((x + 5 * t.length + 5 : ℕ) : ℚ) - ((x + 5 * t.length : ℕ) : ℚ) = 5
    push_cast; ring
  · show (x : ℚ) + tol < ((x + 5 * t.length + 5 : ℕ) : ℚ)
    have : (0 : ℚ) ≤ t.length := by positivity
    push_cast; linarith

theorem pp_share_same (r x r' x' y : ℕ) (t t' : List Char) : yShare (ppWord r x y t, ppWord r' x' y t') = 1 := by
  unfold yShare computeYOverlapRatios
  show max (computeOverlapRatios (y : ℚ) ((y + 10 : ℕ) : ℚ) y ((y + 10 : ℕ) : ℚ)).1 (computeOverlapRatios (y : ℚ) ((y + 10 : ℕ) : ℚ) y ((y + 10 : ℕ) : ℚ)).2 = 1
  rw [pp_overlap_same (by push_cast; linarith), max_self]

theorem pp_share_next (r x r' x' y : ℕ) (t t' : List Char) : yShare (ppWord r x y t, ppWord r' x' (y + 11) t') = 0 := by
  unfold yShare computeYOverlapRatios
  show max (computeOverlapRatios (y : ℚ) ((y + 10 : ℕ) : ℚ) ((y + 11 : ℕ) : ℚ) ((y + 11 + 10 : ℕ) : ℚ)).1 (computeOverlapRatios (y : ℚ) ((y + 10 : ℕ) : ℚ) ((y + 11 : ℕ) : ℚ) ((y + 11 + 10 : ℕ) : ℚ)).2 = 0
  rw [pp_overlap_none (by push_cast; linarith) (by push_cast; linarith) (by push_cast; linarith), max_self]

theorem pp_hGaps {W : ℕ} {rows : List (List (List Char))} (h : Column W rows) (r y : ℕ) :
    pageHGaps 10 (ppRows r y rows) ≠ [] ∧ ∀ g ∈ pageHGaps 10 (ppRows r y rows), g = 5 := by
  have htol := pp_tol
  constructor
  · obtain ⟨u, v, r', x, y', t, t', h1, h2⟩ := pp_pair h.spaced r y
    have ht : t ≠ [] := by
      obtain ⟨row, hr, ht⟩ := List.mem_flatten.mp h2
      exact h.letters row hr t ht
    apply List.ne_nil_of_mem (a := computeHorizontalGap (ppWord r' x y' t).pos (ppWord (r' + 1) (x + 5 * t.length + 5) y' t').pos)
    unfold pageHGaps
    refine List.mem_map.mpr ⟨(ppWord r' x y' t, ppWord (r' + 1) (x + 5 * t.length + 5) y' t'), ?_, rfl⟩
    rw [List.mem_filter, List.mem_filter]
    refine ⟨⟨by rw [h1]; exact pp_consecutive_mem u v _ _, ?_⟩, ?_⟩
    · unfold comparableWords bigWord
      show (decide ((10 : ℚ) - 1 ≤ 10) && decide ((0 : ℤ) = 0) && decide ((0 : ℤ) = 0) && decide (|(10 : ℚ) - 10| ≤ 1)) = true
      norm_num
    · unfold sameLine
      rw [pp_share_same, htol]
      norm_num
  · intro g hg
    unfold pageHGaps at hg
    obtain ⟨p, hp, rfl⟩ := List.mem_map.mp hg
    obtain ⟨hp, hs⟩ := List.mem_filter.mp hp
    obtain ⟨hp, _⟩ := List.mem_filter.mp hp
    obtain ⟨a, b⟩ := p
    rcases pp_consecutive (pp_after_rows rows r y h.full h.letters) _ hp with ⟨r, x, y, t, t', rfl, rfl, ht⟩ | ⟨r, x, y, t, r', x', t', rfl, rfl⟩
    · exact pp_wordGap ht
    · exfalso
      unfold sameLine at hs
      rw [pp_share_next, htol] at hs
      norm_num at hs

theorem pp_heights {rows : List (List (List Char))} (r y : ℕ) : ∀ g ∈ pageHeights 10 (ppRows r y rows), g = 10 := by
  intro g hg
  unfold pageHeights at hg
  obtain ⟨w, hw, rfl⟩ := List.mem_map.mp hg
  obtain ⟨r', x', y', t, rfl⟩ := pp_word_mem (List.mem_filter.mp hw).1
  show ((y' + 10 : ℕ) : ℚ) - y' = 10
  push_cast; ring

/-! ## Superscripts -/

theorem pp_scriptChars (base : ℚ) (cs : List Glyph) : ∀ box, (∀ c ∈ cs, c.fontSize = 10) → (Scripts.scriptChars 10 base box cs).1 = cs := by
  induction cs with
  | nil => intro box _; rfl
  | cons c cs ih =>
    intro box h
    have hc : smaller c.fontSize 10 Scripts.fsTol = false := by rw [h c (by simp), smaller_false]; norm_num [Scripts.fsTol]
    unfold Scripts.scriptChars
    simp only
    have : Scripts.scriptStep 10 base box c = (c, box.extend c.pos) := by
      unfold Scripts.scriptStep
      rw [hc]
      rfl
    rw [this]
    simp only
    rw [ih _ fun x hx => h x (by simp [hx])]

theorem pp_scriptWords (base : ℚ) (ws : List Word) : ∀ box, (∀ w ∈ ws, ∀ c ∈ w.chars, c.fontSize = 10) → (Scripts.scriptWords 10 base box ws).1 = ws := by
  induction ws with
  | nil => intro box _; rfl
  | cons w ws ih =>
    intro box h
    unfold Scripts.scriptWords
    simp only
    rw [pp_scriptChars base w.chars box (h w (by simp)), ih _ fun x hx => h x (by simp [hx])]

theorem pp_script {y r : ℕ} {row : List (List Char)} : (Scripts.scriptLine 10 (ppLine y r row)).1 = ppLine y r row := by
  unfold Scripts.scriptLine
  simp only
  rw [pp_scriptWords]
  intro w hw c hc
  exact (pp_row_words w hw c hc).2.1

end

end Verif.Props
