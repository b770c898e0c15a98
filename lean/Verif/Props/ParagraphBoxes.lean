import Verif.Props.Paragraph
import Verif.Props.Nested

/-!
# C99: the places of the words, lines and blocks of a column
-/

namespace Verif.Props

open Verif.Math Verif.Elements Verif.Spec Verif.Words Verif.TextLines Verif.Pipeline
open Verif.Cli (Config)

section

variable [Marks]

theorem pp_wordBoxes (y : ℕ) (row : List (List Char)) : ∀ r x, List.Forall₂ HasCorners ((ppRow y r x row).map (·.pos)) (wordBoxes y x row) := by
  induction row with
  | nil => intro r x; exact .nil
  | cons w ws ih =>
    intro r x
    exact .cons ⟨rfl, rfl, rfl, rfl, rfl⟩ (ih _ _)

theorem pp_rowsWordBoxes (rows : List (List (List Char))) : ∀ r y, List.Forall₂ HasCorners ((ppRows r y rows).map (·.pos)) (rowsWordBoxes y rows) := by
  induction rows with
  | nil => intro r y; exact .nil
  | cons row rows ih =>
    intro r y
    rw [ppRows, List.map_append, rowsWordBoxes]
    exact List.rel_append (pp_wordBoxes y row r 10) (ih _ _)

theorem pp_rowBoxes_get (rows : List (List (List Char))) : ∀ (y i : ℕ) (row : List (List Char)), rows[i]? = some row → (rowBoxes y rows)[i]? = some (10, y + 11 * i, rowEnd 10 row, y + 11 * i + 10) := by
  induction rows with
  | nil => intro y i row h; cases h
  | cons q rows ih =>
    intro y i row h
    cases i with
    | zero =>
      simp only [List.getElem?_cons_zero, Option.some.injEq] at h
      subst h
      rfl
    | succ i =>
      rw [List.getElem?_cons_succ] at h
      rw [rowBoxes, List.getElem?_cons_succ, ih (y + 11) i row h]
      simp only [Option.some.injEq, Prod.mk.injEq, true_and]
      omega

theorem pp_rowBoxes_length (rows : List (List (List Char))) : ∀ y, (rowBoxes y rows).length = rows.length := by
  induction rows with
  | nil => intro y; rfl
  | cons q rows ih => intro y; rw [rowBoxes, List.length_cons, ih, List.length_cons]

theorem pp_widest_le {rows : List (List (List Char))} {row : List (List Char)} (h : row ∈ rows) : rowEnd 10 row ≤ widest rows := by
  unfold widest
  induction rows with
  | nil => cases h
  | cons q rows ih =>
    rw [List.map_cons, List.foldr_cons]
    rcases List.mem_cons.mp h with rfl | h
    · exact le_max_left _ _
    · exact le_trans (ih h) (le_max_right _ _)

theorem pp_widest_mem {rows : List (List (List Char))} (h : rows ≠ []) : ∃ row ∈ rows, widest rows = rowEnd 10 row := by
  unfold widest
  induction rows with
  | nil => exact absurd rfl h
  | cons q rows ih =>
    rw [List.map_cons, List.foldr_cons]
    by_cases hr : rows = []
    · subst hr
      exact ⟨q, by simp, by simp⟩
    · obtain ⟨row, h1, h2⟩ := ih hr
      rcases le_total (rowEnd 10 q) ((rows.map (rowEnd 10)).foldr max 0) with h3 | h3
      · exact ⟨row, by simp [h1], by rw [max_eq_right h3, h2]⟩
      · exact ⟨q, by simp, max_eq_left h3⟩

theorem pp_paragraphBoxes (W : ℕ) (rest : List (List (List Char))) : ∀ (a : ℕ) (cur : List (List (List Char))),
    paragraphBoxes (10 + 11 * a) ((ppGroups W a cur rest).map (·.2)) =
      (ppGroups W a cur rest).map fun x => (10, 10 + 11 * x.1, widest x.2, 10 + 11 * x.1 + 11 * x.2.length - 1) := by
  induction rest with
  | nil => intro a cur; rfl
  | cons q rest ih =>
    intro a cur
    rw [ppGroups]
    split
    · rw [List.map_cons, paragraphBoxes, List.map_cons, show 10 + 11 * a + 11 * cur.length = 10 + 11 * (a + cur.length) by ring, ih]
    · exact ih a (cur ++ [q])

theorem pp_groups_nonempty {W : ℕ} (rest : List (List (List Char))) : ∀ (a : ℕ) (cur : List (List (List Char))), cur ≠ [] → ∀ x ∈ ppGroups W a cur rest, x.2 ≠ [] := by
  induction rest with
  | nil =>
    intro a cur hc x hx
    rw [ppGroups, List.mem_singleton] at hx
    subst hx
    exact hc
  | cons q rest ih =>
    intro a cur hc x hx
    rw [ppGroups] at hx
    split at hx
    · rcases List.mem_cons.mp hx with rfl | hx
      · exact hc
      · exact ih _ _ (by simp) x hx
    · exact ih _ _ (by simp) x hx

/-- The smallest box around rows. -/
theorem pp_hull_corners {d : Document} {rows : List (List (List Char))} {pre g post : List (List (List Char))} {b : Box} (hrows : rows = pre ++ g ++ post) (hg : g ≠ [])
    (hl : ∀ i row, rows[i]? = some row → lineBox d i = ppSpan (10 + 11 * i) (rowEnd 10 row)) (hb : IsHull ((List.range' pre.length g.length).map (lineBox d)) b) (hr : b.rotation = 0) :
    HasCorners b (10, 10 + 11 * pre.length, widest g, 10 + 11 * pre.length + 11 * g.length - 1) := by
  have hn : 0 < g.length := List.length_pos_iff.mpr hg
  have hat : ∀ j (hj : j < g.length), lineBox d (pre.length + j) = ppSpan (10 + 11 * (pre.length + j)) (rowEnd 10 g[j]) := by
    intro j hj
    refine hl _ _ ?_
    rw [hrows, List.append_assoc, List.getElem?_append_right (by omega), List.getElem?_append_left (by omega), Nat.add_sub_cancel_left]
    exact List.getElem?_eq_getElem hj
  have hmem : ∀ e ∈ (List.range' pre.length g.length).map (lineBox d), ∃ j, ∃ hj : j < g.length, e = ppSpan (10 + 11 * (pre.length + j)) (rowEnd 10 g[j]) := by
    intro e he
    obtain ⟨i, hi, rfl⟩ := List.mem_map.mp he
    rw [List.mem_range'_1] at hi
    have := hat (i - pre.length) (by omega)
    rw [show pre.length + (i - pre.length) = i by omega] at this
    exact ⟨i - pre.length, by omega, by rw [this, show pre.length + (i - pre.length) = i by omega]⟩
  have hin : ∀ j (hj : j < g.length), ppSpan (10 + 11 * (pre.length + j)) (rowEnd 10 g[j]) ∈ (List.range' pre.length g.length).map (lineBox d) := by
    intro j hj
    rw [← hat j hj]
    exact List.mem_map.mpr ⟨_, by rw [List.mem_range'_1]; omega, rfl⟩
  refine ⟨?_, ?_, ?_, ?_, hr⟩
  · obtain ⟨⟨e, he, h1⟩, _⟩ := hb.left
    obtain ⟨j, hj, rfl⟩ := hmem e he
    rw [← h1]; rfl
  · obtain ⟨⟨e, he, h1⟩, h2⟩ := hb.upper
    obtain ⟨j, hj, rfl⟩ := hmem e he
    refine le_antisymm ?_ ?_
    · have := h2 _ (hin 0 hn)
      simpa [ppSpan] using this
    · rw [← h1]
      show ((10 + 11 * pre.length : ℕ) : ℚ) ≤ ((10 + 11 * (pre.length + j) : ℕ) : ℚ)
      exact_mod_cast (by omega : 10 + 11 * pre.length ≤ 10 + 11 * (pre.length + j))
  · obtain ⟨⟨e, he, h1⟩, h2⟩ := hb.right
    obtain ⟨j, hj, rfl⟩ := hmem e he
    refine le_antisymm ?_ ?_
    · rw [← h1]
      show ((rowEnd 10 g[j] : ℕ) : ℚ) ≤ (widest g : ℕ)
      exact_mod_cast pp_widest_le (List.getElem_mem hj)
    · obtain ⟨row, hrow, hw⟩ := pp_widest_mem hg
      obtain ⟨k, hk, rfl⟩ := List.getElem_of_mem hrow
      show ((widest g : ℕ) : ℚ) ≤ _
      rw [hw]
      exact h2 _ (hin k hk)
  · obtain ⟨⟨e, he, h1⟩, h2⟩ := hb.lower
    obtain ⟨j, hj, rfl⟩ := hmem e he
    refine le_antisymm ?_ ?_
    · rw [← h1]
      show ((10 + 11 * (pre.length + j) + 10 : ℕ) : ℚ) ≤ ((10 + 11 * pre.length + 11 * g.length - 1 : ℕ) : ℚ)
      exact_mod_cast (by omega : 10 + 11 * (pre.length + j) + 10 ≤ 10 + 11 * pre.length + 11 * g.length - 1)
    · have := h2 _ (hin (g.length - 1) (by omega))
      refine le_trans (le_of_eq ?_) this
      show ((10 + 11 * pre.length + 11 * g.length - 1 : ℕ) : ℚ) = ((10 + 11 * (pre.length + (g.length - 1)) + 10 : ℕ) : ℚ)
      congr 1
      omega

variable {lib : Pipeline.Lib} {n W : ℕ} {cfg : Config} {d0 d' : Document} {rows : List (List (List Char))} {p : Page}

/-- **C99 (places).** The words, lines and blocks of a column are where its words, rows and paragraphs are. -/
theorem c99_places (h : FullRun lib n cfg d0 d') (hp : d0.pages = [p]) (ht : TypedPage rows p) (hc : Column W rows) (hr : RunningText rows)
    (hitalic : ∀ i, d0.fontInfos ['F'] = some i → i.isItalic = false) (hsmall : ∀ row ∈ rows, ∃ w ∈ row, ∃ c ∈ w, 'a' ≤ c ∧ c ≤ 'z') (hlen : p.characters.length < 2 ^ 32) :
    ∃ q, d'.pages = [q] ∧
      List.Forall₂ HasCorners (q.words.map (·.pos)) (rowsWordBoxes 10 rows) ∧
      List.Forall₂ HasCorners (d'.lines.map (·.line.pos)) (rowBoxes 10 rows) ∧
      List.Forall₂ HasCorners (q.blocks.map (·.block.pos)) (paragraphBoxes 10 (paragraphs W rows)) := by
  obtain ⟨row0, rest, hrows⟩ : ∃ row0 rest, rows = row0 :: rest := by
    cases hc' : rows with
    | nil => exact absurd hc' (pp_rows_ne hc)
    | cons a b => exact ⟨a, b, rfl⟩
  obtain ⟨q, h1, h2, h3, h4, h5⟩ := pp_whole h hp ht hc hr (fun _ row _ h1 _ _ => ⟨hitalic, hsmall row (List.mem_of_getElem? h1)⟩) hlen hrows
  refine ⟨q, h1, by rw [h2]; exact pp_rowsWordBoxes rows 0 10, ?_, ?_⟩
  · rw [List.forall₂_iff_get]
    refine ⟨by rw [List.length_map, h3, pp_rowBoxes_length], fun i g1 g2 => ?_⟩
    rw [List.length_map] at g1
    obtain ⟨row, e1, e2⟩ := h4 i _ (List.getElem?_eq_getElem g1)
    have e3 := pp_rowBoxes_get rows 10 i row e1
    rw [List.getElem?_eq_getElem g2, Option.some.injEq] at e3
    simp only [List.get_eq_getElem, List.getElem_map]
    rw [e3, e2]
    exact ⟨rfl, rfl, rfl, rfl, rfl⟩
  · have h5' : List.Forall₂ (fun x (b : TextBlock) => PpBlock W x b.block) (ppGroups W 0 [row0] rest) q.blocks := by
      rw [List.forall₂_map_right_iff] at h5
      exact h5
    have hl : ∀ i row, rows[i]? = some row → lineBox d' i = ppSpan (10 + 11 * i) (rowEnd 10 row) := by
      intro i row hi
      have hlt : i < d'.lines.length := by rw [h3]; exact (List.getElem?_eq_some_iff.mp hi).1
      have e := List.getElem?_eq_getElem hlt
      obtain ⟨row', e1, e2⟩ := h4 i _ e
      rw [hi] at e1
      cases e1
      unfold lineBox
      rw [e, Option.map_some, Option.getD_some, e2]
      rfl
    have hnest := c91_boxes h q (by rw [h1]; simp)
    have hpb := pp_paragraphBoxes W rest 0 [row0]
    rw [pp_groups_paragraphs, ← hrows, Nat.mul_zero, Nat.add_zero] at hpb
    rw [hpb, List.forall₂_map_left_iff, List.forall₂_map_right_iff]
    have hall : ∀ b ∈ q.blocks, IsHull (b.block.lines.map (lineBox d')) b.block.pos := fun b hb => (hnest.blocks b hb).2.2
    have hgs : ∀ x ∈ ppGroups W 0 [row0] rest, x.2 ≠ [] ∧ ∃ pre post, rows = pre ++ x.2 ++ post ∧ x.1 = pre.length := fun x hx =>
      ⟨pp_groups_nonempty rest 0 [row0] (by simp) x hx, pp_groups_part (rows := rows) rest [] [row0] (by rw [hrows]; rfl) x hx⟩
    generalize ppGroups W 0 [row0] rest = xs at h5' hgs
    generalize q.blocks = bs at h5' hall
    induction h5' with
    | nil => exact .nil
    | @cons x b xs bs hxb _ ih =>
      refine .cons ?_ (ih (fun y hy => hgs y (by simp [hy])) fun y hy => hall y (by simp [hy]))
      obtain ⟨hne, pre, post, e1, e2⟩ := hgs x (by simp)
      have hh := hall b (by simp)
      rw [hxb.lines, e2] at hh
      rw [e2]
      exact pp_hull_corners e1 hne hl hh hxb.box.upright

end

/-- The places on the page with two paragraphs. -/
example : ∃ d' q, FullRun refPipeline 1 plConfig (ppPageDoc ppTwo) d' ∧ d'.pages = [q] ∧
    List.Forall₂ HasCorners (q.blocks.map (·.block.pos)) [(10, 10, 60, 31), (10, 32, 60, 53)] := by
  obtain ⟨d', h, ht, hc, hr, hw, hi, hs, hlen, _⟩ := c99_premises_paragraphs
  obtain ⟨q, h1, _, _, h4⟩ := c99_places h rfl ht hc hr hi hs hlen
  exact ⟨d', q, h, h1, h4⟩

end Verif.Props
